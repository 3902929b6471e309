import Verif.DjHost.Malloc
/-!
# Lemmas for the disjoint pool's own memory: allocation, continued
-/
namespace Verif.DjHost

theorem hasLim_back {s : St} {l : Addr} (h : s.hasLim l = true) : ∃ c, s.lims l = some c := by
  unfold St.hasLim at h
  exact Option.isSome_iff_exists.1 h

/-- The pool of a bucket, and its limits. -/
theorem Inv.bucket {s : St} {A : World} {e : Addr → Nat} (h : Inv s A e) {b : Addr} {c : Bucket} (hb : s.bucks b = some c) :
    ∃ P I, s.pools c.pool = some P ∧ A.pools c.pool = some I ∧ 0 < c.size ∧ ∃ l, s.lims c.limits = some l := by
  have hK := frame_some hb
  obtain ⟨I, hI⟩ := h.shape.buck b _ hK
  obtain ⟨P, L, hP, hok⟩ := h.shape.pool _ _ hI
  obtain ⟨c', e1, _, e3, e2⟩ := hok.buck b (hok.onto b _ hK rfl)
  rw [hK] at e1
  cases e1
  refine ⟨P, I, hP, hI, e2, hasLim_back ?_⟩
  rw [show c.limits = _ from e3]
  by_cases hs : P.shared ≠ 0
  · rw [if_pos hs]
    rcases hok.limit with h1 | h1
    · exact absurd h1 hs
    · exact h.shape.lims _ h1
  · rw [if_neg hs]
    exact hok.dflt

/-- Writing the limits, and the counter of a bucket. -/
theorem Inv.counter {s : St} {A : World} {e e' : Addr → Nat} (h : Inv s A e) {b l : Addr} {c : Bucket} {v w : Limits} {k : Nat}
    (hb : s.bucks b = some c) (hl : s.lims l = some v) (he : ∀ b', b' ≠ b → e' b' = e b')
    (hk : k + e' b = c.inPool + e b) :
    Inv { s with lims := upd s.lims l (some w), bucks := upd s.bucks b (some { c with inPool := k }) } A e' := by
  have e1 : St.frame { s with lims := upd s.lims l (some w), bucks := upd s.bucks b (some { c with inPool := k }) } = s.frame :=
    frame_upd hb rfl
  have e2 : St.hasLim { s with lims := upd s.lims l (some w), bucks := upd s.bucks b (some { c with inPool := k }) } = s.hasLim :=
    isSome_upd hl
  refine ⟨?_, ?_, ?_⟩
  · rw [e1, e2]
    exact h.shape
  · rw [e1]
    exact h.data
  · obtain ⟨la, lu, g⟩ := h.lists b c hb
    refine lists_local (la := la) (lu := lu) h.lists he ⟨g.av, g.un, g.num, g.avs, g.uns, g.all, ?_⟩
      (fun _ _ h _ => h) (fun _ _ h _ => h)
    rw [← g.pooled]
    exact hk

theorem bucketGetAvail_ok {s : St} {A : World} {b : Addr} {c : Bucket} (h : Inv0 s A) (hb : s.bucks b = some c) :
    ∃ x s', bucketGetAvail b s = some (x, s') ∧
      ((x = 0 ∧ SameBlocks s s' ∧ ¬Enough s) ∨
       ∃ c' d, x ≠ 0 ∧ s'.bucks b = some c' ∧ c'.avail = x ∧ c'.pool = c.pool ∧ s'.slabs x = some d ∧
        Inv s' A (upd (fun _ => 0) b (if d.alloc = 0 then 1 else 0))) := by
  unfold bucketGetAvail
  rw [bind_app, getB_app hb]
  dsimp only
  by_cases hav : c.avail = 0
  · rw [if_pos hav, bind_app]
    obtain ⟨s', e1, ⟨e2, e3, e4⟩ | ⟨x, d, e2, e3, e4, e5, e6⟩⟩ := bucketCreateSlab_ok h hb hav
    · rw [e1]
      dsimp only
      rw [bind_app, getB_app e3]
      exact ⟨_, _, rfl, Or.inl ⟨hav, e2, e4⟩⟩
    · rw [e1]
      dsimp only
      rw [bind_app, getB_app e3]
      refine ⟨_, _, rfl, Or.inr ⟨_, d, e2, e3, rfl, rfl, e4, ?_⟩⟩
      rw [if_pos e5]
      exact e6
  · rw [if_neg hav]
    obtain ⟨P, I, hP, hI, _, v, hv⟩ := h.bucket hb
    obtain ⟨la, lu, g⟩ := h.lists b c hb
    cases la with
    | nil => exact absurd g.av.head hav
    | cons x la =>
    have hx : c.avail = x := g.av.head
    obtain ⟨d, d1, d2, d3⟩ := g.avs x (by simp)
    rw [bind_app, getS_app (c := d) (by rw [hx]; exact d1)]
    dsimp only
    by_cases hd : d.alloc = 0
    · have hin : c.inPool ≠ 0 := by
        have := g.pooled
        rw [List.countP_cons, d1] at this
        simp [hd] at this
        omega
      rw [if_pos hd, if_neg hin, bind_app, setB_app hb]
      dsimp only
      rw [bind_app, getP_app (c := P) (by exact hP)]
      dsimp only
      rw [bind_app, getL_app (c := v) (by exact hv)]
      dsimp only
      rw [bind_app, setL_app (c := v) (by exact hv)]
      dsimp only
      rw [bind_app, getB_app (c := { c with inPool := c.inPool - 1 }) (by exact upd_same _ _ _)]
      refine ⟨_, _, rfl, Or.inr ⟨_, d, hav, upd_same _ _ _, rfl, rfl, by rw [hx]; exact d1, ?_⟩⟩
      refine h.counter hb hv (fun b' hb' => upd_ne _ _ hb') ?_
      rw [upd_same, if_pos hd]
      omega
    · rw [if_neg hd, bind_app, getB_app hb]
      refine ⟨_, _, rfl, Or.inr ⟨c, d, hav, hb, rfl, rfl, by rw [hx]; exact d1, ?_⟩⟩
      rw [if_neg hd]
      have : upd (fun _ : Addr => 0) b 0 = fun _ => 0 := by funext z; unfold upd; split <;> rfl
      rw [this]
      exact h

theorem bucketGetChunk_ok {s : St} {A : World} {b : Addr} {c : Bucket} {I : Info} (h : Inv0 s A) (hb : s.bucks b = some c)
    (hI : A.pools c.pool = some I) :
    ∃ x s', bucketGetChunk b s = some (x, s') ∧
      ((x = 0 ∧ SameBlocks s s' ∧ ¬Enough s) ∨
       (x ≠ 0 ∧ Inv0 s' { A with pools := upd A.pools c.pool (some { I with live := x :: I.live }) })) := by
  unfold bucketGetChunk
  obtain ⟨x, s1, e1, ⟨e2, e3, e4⟩ | ⟨c', d, e2, e3, e4, e5, e6, e7⟩⟩ := bucketGetAvail_ok h hb
  · rw [bind_app, e1]
    dsimp only
    rw [if_pos e2]
    exact ⟨_, _, rfl, Or.inl ⟨rfl, e3, e4⟩⟩
  · rw [bind_app, e1]
    dsimp only
    rw [if_neg e2, bind_app, getS_app e6]
    dsimp only
    obtain ⟨g1, s2, g2, g3⟩ := chunk_taken (I := I) e7 e3 e6 e4 e2 (by rw [e5]; exact hI)
    rw [if_pos g1]
    refine ⟨x, s2, g2, Or.inr ⟨e2, ?_⟩⟩
    rw [e5] at g3
    exact g3

theorem getArr_app {s : St} {a b i : Nat} {l : List (Option Addr)} (h : s.arrs a = some l) (hi : l[i]? = some (some b)) :
    getArr a i s = some (b, s) := by
  simp only [getArr, h, hi]

theorem malloc_ok {s : St} {A : World} {p i : Nat} {I : Info} (h : Inv0 s A) (hI : A.pools p = some I) (hi : i < I.classes) :
    ∃ out s', malloc p i s = some (out, s') ∧
      ((out = (.oom, 0) ∧ SameBlocks s s' ∧ ¬Enough s) ∨
       (out.1 = .success ∧ out.2 ≠ 0 ∧
        Inv0 s' { A with pools := upd A.pools p (some { I with live := out.2 :: I.live }) })) := by
  obtain ⟨P, L, hP, hok⟩ := h.shape.pool p I hI
  have hlen : i < L.length := by rw [hok.len, hok.classes]; exact hi
  obtain ⟨cf, k1, k2, _⟩ := hok.buck L[i] (List.getElem_mem hlen)
  obtain ⟨c, hc, rfl⟩ := frame_back k1
  have k2 : c.pool = p := k2
  unfold malloc
  rw [bind_app, getP_app hP]
  dsimp only
  rw [bind_app, getArr_app (b := L[i]) hok.arr (by simp [hlen])]
  dsimp only
  obtain ⟨x, s', e1, ⟨e2, e3, e4⟩ | ⟨e2, e3⟩⟩ := bucketGetChunk_ok (I := I) h hc (by rw [k2]; exact hI)
  · rw [bind_app, e1]
    dsimp only
    rw [if_pos e2]
    exact ⟨_, _, rfl, Or.inl ⟨rfl, e3, e4⟩⟩
  · rw [bind_app, e1]
    dsimp only
    rw [if_neg e2]
    rw [k2] at e3
    exact ⟨_, _, rfl, Or.inr ⟨rfl, e2, e3⟩⟩

end Verif.DjHost
