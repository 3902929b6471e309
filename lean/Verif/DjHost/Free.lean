import Verif.DjHost.Malloc2
/-!
# Lemmas for the disjoint pool's own memory: a chunk is given back
-/
namespace Verif.DjHost

/-- Slabs of the bucket `b` are relinked, after one of them was changed. -/
theorem lists_relink {m m' : Addr → Option Slab} {bs : Addr → Option Bucket} {e e' : Addr → Nat} {b x : Addr} {c' : Bucket}
    {la lu S : List Addr} {d d' : Slab} (h : Lists m bs e) (he : ∀ b', b' ≠ b → e' b' = e b') (hx : m x = some d)
    (hd : d.bucket = b) (hd' : d'.bucket = b) (r : Relinked (upd m x (some d')) m' S)
    (hS : ∀ z ∈ S, ∃ d, m z = some d ∧ d.bucket = b) (hb : BInv m' b c' la lu (e' b)) :
    Lists m' (upd bs b (some c')) e' := by
  refine lists_local h he hb ?_ ?_
  · intro z f hz hzb
    have hzx : z ≠ x := by
      rintro rfl
      rw [hx] at hz
      cases hz
      exact hzb hd
    rw [r.out z, upd_ne _ _ hzx]
    · exact hz
    · intro hm
      obtain ⟨f', f1, f2⟩ := hS z hm
      rw [hz] at f1
      cases f1
      exact hzb f2
  · intro z f hz hzb
    have hzx : z ≠ x := by
      rintro rfl
      obtain ⟨f', f1, f2⟩ := r.back hz
      rw [upd_same] at f1
      cases f1
      exact hzb ((data_fields f2).2.2.2.2.trans hd')
    by_cases hm : z ∈ S
    · obtain ⟨f', f1, f2⟩ := r.back hz
      rw [upd_ne _ _ hzx] at f1
      obtain ⟨f'', f3, f4⟩ := hS z hm
      rw [f1] at f3
      cases f3
      exact absurd ((data_fields f2).2.2.2.2.trans f4) hzb
    · rw [r.out z hm, upd_ne _ _ hzx] at hz
      exact hz

/-- The first part: the counter, and the lists if the slab was full. -/
theorem chunk_given {α : Type} {s : St} {A : World} {b x : Addr} {c : Bucket} {d : Slab} {I : Info}
    (h : Inv0 s A) (hb : s.bucks b = some c) (hx : s.slabs x = some d) (hdb : d.bucket = b)
    (hI : A.pools c.pool = some I) (hlive : x ∈ I.live) (k : M α) :
    d.alloc ≠ 0 ∧ ∃ s' c' d', (do
        setS x { d with alloc := d.alloc - 1 }
        if d.total - (d.alloc - 1) = 1 then do
          let c ← getB b
          let h ← dlDelete c.unavail x
          setB b { c with unavail := h }
          let c ← getB b
          let h ← dlPrepend c.avail x
          setB b { c with avail := h, availNum := c.availNum + 1 }
          k
        else k : M α) s = k s' ∧ s'.bucks b = some c' ∧ c'.pool = c.pool ∧ s'.slabs x = some d' ∧ d'.bucket = b ∧
      d'.alloc = d.alloc - 1 ∧ s'.pools = s.pools ∧
      Inv s' { A with pools := upd A.pools c.pool (some { I with live := I.live.erase x }) }
        (upd (fun _ => 0) b (if d.alloc - 1 = 0 then 1 else 0)) := by
  obtain ⟨la, lu, hl⟩ := h.lists b c hb
  have hD : s.data x = some d.data := data_some hx
  have hK : s.frame d.data.bucket = some c.frame := by
    rw [show d.data.bucket = b from hdb]
    exact frame_some hb
  have hcount : I.live.count x = d.alloc := h.data.live x d.data c.frame I hD hK hI
  have hpos : 0 < d.alloc := by rw [← hcount]; exact List.count_pos_iff.2 hlive
  have htot : d.alloc ≤ d.total := (h.data.total x d.data hD).2
  refine ⟨by omega, ?_⟩
  have hx0 : x ≠ 0 := by
    rintro rfl
    rw [h.data.nz] at hD
    cases hD
  have data' := h.data.count (k := d.alloc - 1) (L := I.live.erase x) hD hK hI (by show d.alloc - 1 ≤ d.total; omega)
    (by rw [List.count_erase_self, hcount]) (fun z hz => by rw [List.count_erase_of_ne hz])
  rw [show c.frame.pool = c.pool from rfl] at data'
  have shape' := h.shape.live (L := I.live.erase x) hI
  let d1 : Slab := { d with alloc := d.alloc - 1 }
  let m := upd s.slabs x (some d1)
  have mx : m x = some d1 := upd_same _ _ _
  have mne : ∀ z, z ≠ x → m z = s.slabs z := fun z hz => upd_ne _ _ hz
  have mD : (fun a => (m a).map Slab.data) = upd s.data x (some { d.data with alloc := d.alloc - 1 }) := by
    rw [map_upd]; rfl
  have mall : ∀ z f, m z = some f → f.bucket = b → z ∈ la ∨ z ∈ lu := by
    intro z f hz hzb
    by_cases e : z = x
    · rw [e]
      exact hl.all x d hx hdb
    · rw [mne z e] at hz
      exact hl.all z f hz hzb
  have hS : ∀ z, z ∈ la ∨ z ∈ lu → ∃ f, s.slabs z = some f ∧ f.bucket = b := by
    rintro z (hz | hz)
    · obtain ⟨f, f1, f2, _⟩ := hl.avs z hz
      exact ⟨f, f1, f2⟩
    · obtain ⟨f, f1, f2, _⟩ := hl.uns z hz
      exact ⟨f, f1, f2⟩
  by_cases hfull : d.total - (d.alloc - 1) = 1
  · -- it was full
    have hxu : x ∈ lu := by
      rcases hl.all x d hx hdb with h1 | h1
      · obtain ⟨f, f1, f2, f3⟩ := hl.avs x h1
        rw [hx] at f1
        cases f1
        omega
      · exact h1
    have hxa : x ∉ la := fun hm => hl.disj hm hxu
    obtain ⟨l1, l2, hlu⟩ := List.append_of_mem hxu
    subst hlu
    have hnd := hl.un.nodup
    rw [List.nodup_append] at hnd
    have hx1 : x ∉ l1 := fun hm => hnd.2.2 x hm x (by simp) rfl
    have hx2 : x ∉ l2 := (List.nodup_cons.1 hnd.2.1).1
    have hx12 : x ∉ l1 ++ l2 := by simp [hx1, hx2]
    have sub : ∀ z ∈ l1 ++ l2, z ∈ l1 ++ x :: l2 := fun z hz => by
      rcases List.mem_append.1 hz with h1 | h1 <;> simp [h1]
    obtain ⟨h', m1, p1, p2, p3, p4⟩ := dlDelete_app (s := { s with slabs := m }) (head := c.unavail) (x := x) (l := l1) (k := l2)
      (hl.un.links hx)
    have p3 : Relinked m m1 (l1 ++ x :: l2) := p3
    have av1 : Dl m1 c.avail la := (hl.av.links (k := d.alloc - 1) hx).congr fun z hz => p3.out z fun hm => hl.disj hz hm
    obtain ⟨m2, q1, q2, q3⟩ := dlPrepend_app (s := { s with slabs := m1, bucks := upd s.bucks b (some { c with unavail := h' }) })
      (head := c.avail) (x := x) (c := d1) av1 (by dsimp only; rw [p4]; exact mx) hxa hx0
    have q3 : Relinked m1 m2 (x :: la) := q3
    have un2 : Dl m2 h' (l1 ++ l2) := p2.congr fun z hz => q3.out z (by
      intro hm
      rcases List.mem_cons.1 hm with rfl | hm
      · exact hx12 hz
      · exact hl.disj hm (sub z hz))
    have r : Relinked m m2 ((l1 ++ x :: l2) ++ (x :: la)) := p3.trans q3
    obtain ⟨d2, f1, f2⟩ := r.fwd mx
    obtain ⟨_, _, _, f6, f7⟩ := data_fields f2
    refine ⟨{ s with slabs := m2, bucks := upd s.bucks b (some { c with unavail := h', avail := x, availNum := c.availNum + 1 }) },
      _, d2, ?_, upd_same _ _ _, rfl, f1, f7.trans hdb, f6, rfl, ?_, ?_, ?_⟩
    · rw [bind_app, setS_app hx]
      dsimp only
      rw [if_pos hfull, bind_app, getB_app (c := c) (by exact hb)]
      dsimp only
      rw [bind_app, p1]
      dsimp only
      rw [bind_app, setB_app (c := c) (by exact hb)]
      dsimp only
      rw [bind_app, getB_app (c := { c with unavail := h' }) (by exact upd_same _ _ _)]
      dsimp only
      rw [bind_app, q1]
      dsimp only
      rw [bind_app, setB_app (c := { c with unavail := h' }) (by exact upd_same _ _ _)]
      dsimp only
      rw [upd_upd]
    · have : St.frame { s with slabs := m2, bucks := upd s.bucks b (some { c with unavail := h', avail := x, availNum := c.availNum + 1 }) }
          = s.frame := frame_upd hb rfl
      rw [this]
      exact shape'
    · have : St.frame { s with slabs := m2, bucks := upd s.bucks b (some { c with unavail := h', avail := x, availNum := c.availNum + 1 }) }
          = s.frame := frame_upd hb rfl
      rw [this]
      show Data (fun a => (m2 a).map Slab.data) _ _ _ _ _
      rw [show (fun a => (m2 a).map Slab.data) = fun a => (m a).map Slab.data from funext r.data, mD]
      exact data'
    · refine lists_relink (d' := d1) (la := x :: la) (lu := l1 ++ l2) h.lists (fun b' hb' => by rw [upd_ne _ _ hb']) hx hdb hdb r ?_ ?_
      · intro z hz
        apply hS
        rcases List.mem_append.1 hz with h1 | h1
        · exact Or.inr h1
        · rcases List.mem_cons.1 h1 with rfl | h1
          · exact Or.inr hxu
          · exact Or.inl h1
      · rw [upd_same]
        refine BInv.build r q2 un2 ?_ ?_ ?_ ?_ ?_
        · show c.availNum + 1 = la.length + 1
          rw [hl.num]
        · intro z hz
          rcases List.mem_cons.1 hz with rfl | hz'
          · exact ⟨_, mx, hdb, by show d.alloc - 1 < d.total; omega⟩
          · rw [mne z (by rintro rfl; exact hxa hz')]
            exact hl.avs z hz'
        · intro z hz
          rw [mne z (by rintro rfl; exact hx12 hz)]
          exact hl.uns z (sub z hz)
        · intro z f hz hzb
          rcases mall z f hz hzb with h1 | h1
          · left; simp [h1]
          · rcases List.mem_append.1 h1 with h1 | h1
            · right; simp [h1]
            · rcases List.mem_cons.1 h1 with rfl | h1
              · left; simp
              · right; simp [h1]
        · rw [List.countP_cons, mx, countP_alloc hxa, ← hl.pooled]
          simp [d1]
  · -- it was not full
    have hxa : x ∈ la := by
      rcases hl.all x d hx hdb with h1 | h1
      · exact h1
      · obtain ⟨f, f1, f2, f3, _⟩ := hl.uns x h1
        rw [hx] at f1
        cases f1
        omega
    have hxu : x ∉ lu := fun hm => hl.disj hxa hm
    refine ⟨{ s with slabs := m }, c, d1, ?_, hb, rfl, mx, hdb, rfl, rfl, shape', ?_, ?_⟩
    · rw [bind_app, setS_app hx]
      dsimp only
      rw [if_neg hfull]
    · show Data (fun a => (m a).map Slab.data) _ _ _ _ _
      rw [mD]
      exact data'
    · have := lists_relink (m' := m) (S := []) (c' := c) (d' := d1) (la := la) (lu := lu)
        (e' := upd (fun _ => 0) b (if d.alloc - 1 = 0 then 1 else 0)) h.lists (fun b' hb' => by rw [upd_ne _ _ hb']) hx hdb hdb
        (Relinked.refl m []) (by simp) ?_
      · rw [← hb, upd_self] at this
        exact this
      · rw [upd_same]
        refine BInv.build (Relinked.refl m []) (hl.av.links hx) (hl.un.links hx) hl.num ?_ ?_ mall ?_
        · intro z hz
          by_cases e : z = x
          · rw [e]
            exact ⟨_, mx, hdb, by show d.alloc - 1 < d.total; omega⟩
          · rw [mne z e]
            exact hl.avs z hz
        · intro z hz
          rw [mne z (by rintro rfl; exact hxu hz)]
          exact hl.uns z hz
        · obtain ⟨l1, l2, hla⟩ := List.append_of_mem hxa
          subst hla
          have hnd := hl.av.nodup
          rw [List.nodup_append] at hnd
          have hx1 : x ∉ l1 := fun hm => hnd.2.2 x hm x (by simp) rfl
          have hx2 : x ∉ l2 := (List.nodup_cons.1 hnd.2.1).1
          have := hl.pooled
          rw [List.countP_append, List.countP_cons, hx] at this
          rw [List.countP_append, List.countP_cons, countP_alloc hx1, countP_alloc hx2, mx]
          have h0 : d.alloc ≠ 0 := by omega
          simp [h0] at this
          simp only [Option.any_some, decide_eq_true_eq, d1]
          omega

end Verif.DjHost
