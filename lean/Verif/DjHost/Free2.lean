import Verif.DjHost.Free
/-!
# Lemmas for the disjoint pool's own memory: a chunk is given back, continued
-/
namespace Verif.DjHost

theorem upd_zero {b : Addr} : upd (fun _ : Addr => (0 : Nat)) b 0 = fun _ => 0 := by
  funext z; unfold upd; split <;> rfl

theorem destroySlab_app {s : St} {x : Addr} {d : Slab} {c : Bucket} {P : Pool} (hx : s.slabs x = some d)
    (hb : s.bucks d.bucket = some c) (hP : s.pools c.pool = some P) (hp : s.prov d.mem = some d.size) :
    destroySlab x s = some ((), { s with prov := upd s.prov d.mem none, slabs := upd s.slabs x none }) := by
  unfold destroySlab
  rw [bind_app, getS_app hx]
  dsimp only
  rw [bind_app, getB_app hb]
  dsimp only
  rw [bind_app, getP_app hP]
  dsimp only
  rw [bind_app, provFree_app hp]
  dsimp only
  rw [freeSlab_app (c := d) (by exact hx)]

/-- An unused slab is pooled or destroyed. -/
theorem unused_ok {s : St} {A : World} {b x : Addr} {c : Bucket} {d : Slab}
    (h : Inv s A (upd (fun _ => 0) b 1)) (hb : s.bucks b = some c) (hx : s.slabs x = some d) (hdb : d.bucket = b)
    (ha : d.alloc = 0) :
    ∃ s', (do
      let toPool ← bucketCanPool b
      if toPool = false then do
        let c ← getB b
        let p ← getP c.pool
        let s ← getS x
        critRemove p.known s.mem
        let h ← dlDelete c.avail x
        if c.availNum = 0 then fail
        else do
          setB b { c with avail := h, availNum := c.availNum - 1 }
          destroySlab x
      else pure () : M Unit) s = some ((), s') ∧ s'.pools = s.pools ∧ Inv0 s' A := by
  obtain ⟨P, I, hP, hI, _, v, hv⟩ := h.bucket hb
  have keep : bucketCanPool b s = some (false, s) ∨ ∃ s', bucketCanPool b s = some (true, s') ∧ s'.pools = s.pools ∧ Inv0 s' A := by
    unfold bucketCanPool
    rw [bind_app, getB_app hb]
    dsimp only
    rw [bind_app, getP_app hP]
    dsimp only
    by_cases hc : (if c.size ≤ P.slabMin / 2 then 1 else P.capacity) ≥ c.inPool + 1
    · rw [if_pos hc, bind_app, getL_app hv]
      dsimp only
      by_cases hl : v.totalSize + BitVec.ofNat 64 (max c.size P.slabMin) ≤ v.maxSize
      · rw [if_pos hl, bind_app, setL_app hv]
        dsimp only
        rw [bind_app, setB_app (c := c) (by exact hb)]
        right
        refine ⟨_, rfl, rfl, h.counter hb hv (fun b' hb' => by rw [upd_ne _ _ hb']) ?_⟩
        rw [upd_same]
      · rw [if_neg hl]
        exact Or.inl rfl
    · rw [if_neg hc]
      exact Or.inl rfl
  rcases keep with e1 | ⟨s', e1, e2, e3⟩
  · rw [bind_app, e1]
    dsimp only
    rw [if_pos rfl, bind_app, getB_app hb]
    dsimp only
    rw [bind_app, getP_app hP]
    dsimp only
    rw [bind_app, getS_app hx]
    dsimp only
    obtain ⟨l, hl1, hl2⟩ := h.data.crit _ _ hP
    have hcr : critRemove P.known d.mem s = some ((), { s with crits := upd s.crits P.known (some (l.filter fun e => e.1 ≠ d.mem)) }) := by
      simp only [critRemove, hl1]
    rw [bind_app, hcr]
    dsimp only
    obtain ⟨la, lu, hl⟩ := h.lists b c hb
    rw [upd_same] at hl
    have htot : 0 < d.total := (h.data.total x d.data (data_some hx)).1
    have hxa : x ∈ la := by
      rcases hl.all x d hx hdb with h1 | h1
      · exact h1
      · obtain ⟨f, f1, f2, f3, _⟩ := hl.uns x h1
        rw [hx] at f1
        cases f1
        omega
    have hxu : x ∉ lu := fun hm => hl.disj hxa hm
    obtain ⟨l1, l2, hla⟩ := List.append_of_mem hxa
    subst hla
    have hnd := hl.av.nodup
    rw [List.nodup_append] at hnd
    have hx1 : x ∉ l1 := fun hm => hnd.2.2 x hm x (by simp) rfl
    have hx2 : x ∉ l2 := (List.nodup_cons.1 hnd.2.1).1
    have hx12 : x ∉ l1 ++ l2 := by simp [hx1, hx2]
    have sub : ∀ z ∈ l1 ++ l2, z ∈ l1 ++ x :: l2 := fun z hz => by
      rcases List.mem_append.1 hz with h1 | h1 <;> simp [h1]
    obtain ⟨h', m1, p1, p2, p3, p4⟩ := dlDelete_app (s := { s with crits := upd s.crits P.known (some (l.filter fun e => e.1 ≠ d.mem)) })
      (head := c.avail) (x := x) (l := l1) (k := l2) hl.av
    have p3 : Relinked s.slabs m1 (l1 ++ x :: l2) := p3
    have hnum : c.availNum ≠ 0 := by rw [hl.num]; simp
    rw [bind_app, p1]
    dsimp only
    rw [if_neg hnum, bind_app, setB_app (c := c) (by exact hb)]
    dsimp only
    have hmem := (h.data.mem x d.data (data_some hx)).1
    rw [destroySlab_app (s := { s with crits := upd s.crits P.known (some (l.filter fun e => e.1 ≠ d.mem)), slabs := m1, bucks := upd s.bucks b (some { c with avail := h', availNum := c.availNum - 1 }) }) (d := d) (c := { c with avail := h', availNum := c.availNum - 1 }) (P := P)
      (by dsimp only; rw [p4]; exact hx) (by rw [hdb]; exact upd_same _ _ _) hP hmem]
    refine ⟨_, rfl, rfl, ?_, ?_, ?_⟩
    · have e1 : St.frame { s with crits := upd s.crits P.known (some (l.filter fun e => e.1 ≠ d.mem)), slabs := upd m1 x none, bucks := upd s.bucks b (some { c with avail := h', availNum := c.availNum - 1 }), prov := upd s.prov d.mem none } = s.frame := frame_upd hb rfl
      have e2 : St.hasCrit { s with crits := upd s.crits P.known (some (l.filter fun e => e.1 ≠ d.mem)), slabs := upd m1 x none, bucks := upd s.bucks b (some { c with avail := h', availNum := c.availNum - 1 }), prov := upd s.prov d.mem none } = s.hasCrit := isSome_upd hl1
      rw [e1, e2]
      exact h.shape
    · have e1 : St.frame { s with crits := upd s.crits P.known (some (l.filter fun e => e.1 ≠ d.mem)), slabs := upd m1 x none, bucks := upd s.bucks b (some { c with avail := h', availNum := c.availNum - 1 }), prov := upd s.prov d.mem none } = s.frame := frame_upd hb rfl
      rw [e1]
      show Data (fun a => (upd m1 x none a).map Slab.data) _ _ _ _ _
      rw [map_upd, show (fun a => (m1 a).map Slab.data) = s.data from funext p3.data]
      exact h.data.del (d := d.data) (c := c.frame) h.shape.knownInj h.shape.known (data_some hx) ha
        (by rw [show d.data.bucket = b from hdb]; exact frame_some hb) hP hl1
    · have hb' : BInv (upd m1 x none) b { c with avail := h', availNum := c.availNum - 1 } (l1 ++ l2) lu 0 := by
        have avs : ∀ z ∈ l1 ++ l2, ∃ d, upd s.slabs x none z = some d ∧ d.bucket = b ∧ d.alloc < d.total := fun z hz => by
          rw [upd_ne _ _ (by rintro rfl; exact hx12 hz)]
          exact hl.avs z (sub z hz)
        have r : Relinked (upd s.slabs x none) (upd m1 x none) (l1 ++ x :: l2) := by
          refine ⟨fun z => ?_, fun z hz => ?_⟩
          · by_cases e : z = x
            · rw [e, upd_same, upd_same]
            · rw [upd_ne _ _ e, upd_ne _ _ e]
              exact p3.data z
          · have e : z ≠ x := by rintro rfl; exact hz (by simp)
            rw [upd_ne _ _ e, upd_ne _ _ e]
            exact p3.out z hz
        refine BInv.build r ?_ ?_ ?_ avs ?_ ?_ ?_
        · exact p2.congr fun z hz => upd_ne _ _ (by rintro rfl; exact hx12 hz)
        · refine hl.un.congr fun z hz => ?_
          rw [upd_ne _ _ (by rintro rfl; exact hxu hz)]
          exact p3.out z fun hm => hl.disj hm hz
        · show c.availNum - 1 = (l1 ++ l2).length
          rw [hl.num]
          simp
        · intro z hz
          rw [upd_ne _ _ (by rintro rfl; exact hxu hz)]
          exact hl.uns z hz
        · intro z f hz hzb
          have e : z ≠ x := by
            rintro rfl
            rw [upd_same] at hz
            cases hz
          rw [upd_ne _ _ e] at hz
          rcases hl.all z f hz hzb with h1 | h1
          · left
            rcases List.mem_append.1 h1 with h1 | h1
            · simp [h1]
            · rcases List.mem_cons.1 h1 with h1 | h1
              · exact absurd h1 e
              · simp [h1]
          · exact Or.inr h1
        · have := hl.pooled
          rw [List.countP_append, List.countP_cons, hx] at this
          rw [List.countP_append, countP_alloc hx1, countP_alloc hx2]
          simp [ha] at this
          show c.inPool + 0 = _
          omega
      refine lists_local (e' := fun _ => 0) (b := b) h.lists (fun b' hb' => by rw [upd_ne _ _ hb']) hb' ?_ ?_
      · intro z f hz hzb
        dsimp only
        have e : z ≠ x := by
          rintro rfl
          rw [hx] at hz
          cases hz
          exact hzb hdb
        rw [upd_ne _ _ e, p3.out z]
        · exact hz
        · intro hm
          obtain ⟨f', f1, f2, _⟩ := hl.avs z hm
          rw [hz] at f1
          cases f1
          exact hzb f2
      · intro z f hz hzb
        dsimp only at hz
        have e : z ≠ x := by
          rintro rfl
          rw [upd_same] at hz
          cases hz
        rw [upd_ne _ _ e] at hz
        by_cases hm : z ∈ l1 ++ x :: l2
        · obtain ⟨f', f1, f2⟩ := p3.back hz
          obtain ⟨f'', f3, f4, _⟩ := hl.avs z hm
          rw [f1] at f3
          cases f3
          exact absurd ((data_fields f2).2.2.2.2.trans f4) hzb
        · rw [p3.out z hm] at hz
          exact hz
  · rw [bind_app, e1]
    exact ⟨s', rfl, e2, e3⟩

theorem bucketFreeChunk_ok {s : St} {A : World} {x : Addr} {c : Bucket} {d : Slab} {I : Info} (h : Inv0 s A)
    (hx : s.slabs x = some d) (hb : s.bucks d.bucket = some c) (hI : A.pools c.pool = some I) (hlive : x ∈ I.live) :
    ∃ s', bucketFreeChunk d.bucket x s = some ((), s') ∧ s'.pools = s.pools ∧
      Inv0 s' { A with pools := upd A.pools c.pool (some { I with live := I.live.erase x }) } := by
  unfold bucketFreeChunk
  rw [bind_app, getS_app hx]
  dsimp only
  obtain ⟨h0, s', c', d', e1, e2, e3, e4, e5, e6, e8, e7⟩ := chunk_given h hb hx rfl hI hlive
    (if d.alloc - 1 = 0 then do
      let toPool ← bucketCanPool d.bucket
      if toPool = false then do
        let c ← getB d.bucket
        let p ← getP c.pool
        let s ← getS x
        critRemove p.known s.mem
        let h ← dlDelete c.avail x
        if c.availNum = 0 then fail
        else do
          setB d.bucket { c with avail := h, availNum := c.availNum - 1 }
          destroySlab x
      else pure ()
    else pure () : M Unit)
  rw [if_neg h0, e1]
  by_cases ha : d.alloc - 1 = 0
  · rw [if_pos ha]
    rw [if_pos ha] at e7
    obtain ⟨s2, g1, g2, g3⟩ := unused_ok e7 e2 e4 e5 (by rw [e6, ha])
    exact ⟨s2, g1, g2.trans e8, g3⟩
  · rw [if_neg ha]
    rw [if_neg ha, upd_zero] at e7
    exact ⟨s', rfl, e8, e7⟩

theorem free_ok {s : St} {A : World} {p x : Addr} {I : Info} (h : Inv0 s A) (hI : A.pools p = some I) (hx : x ∈ I.live) :
    ∃ s', free p x s = some ((.success, 0), s') ∧
      Inv0 s' { A with pools := upd A.pools p (some { I with live := I.live.erase x }) } := by
  obtain ⟨P, L, hP, hok⟩ := h.shape.pool p I hI
  obtain ⟨df, cf, k1, k2, k3⟩ := h.data.liveMem p I x hI hx
  obtain ⟨d, hd, rfl⟩ := data_back k1
  obtain ⟨c, hc, rfl⟩ := frame_back k2
  have hc : s.bucks d.bucket = some c := hc
  have k3 : c.pool = p := k3
  obtain ⟨s', e1, e3, e2⟩ := bucketFreeChunk_ok (I := I) h hd hc (by rw [k3]; exact hI) hx
  rw [k3] at e2
  unfold free
  rw [bind_app, getP_app hP]
  dsimp only
  rw [bind_app, getS_app hd]
  dsimp only
  rw [bind_app, e1]
  dsimp only
  refine ⟨s', ?_, e2⟩
  by_cases ht : P.trace > 2
  · rw [if_pos ht]
    have : ∃ v, s'.lims (if P.shared ≠ 0 then P.shared else P.default) = some v := by
      obtain ⟨P', L', hP', hok'⟩ := e2.shape.pool p _ (upd_same _ _ _)
      rw [e3, hP] at hP'
      cases hP'
      refine hasLim_back ?_
      by_cases hs : P.shared ≠ 0
      · rw [if_pos hs]
        rcases hok'.limit with h1 | h1
        · exact absurd h1 hs
        · exact e2.shape.lims _ h1
      · rw [if_neg hs]
        exact hok'.dflt
    obtain ⟨v, hv⟩ := this
    rw [bind_app, getL_app hv]
    rfl
  · rw [if_neg ht]
    rfl

end Verif.DjHost
