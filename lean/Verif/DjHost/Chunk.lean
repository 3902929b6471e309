import Verif.DjHost.Data
/-!
# Lemmas for the disjoint pool's own memory: a chunk is taken from a bucket
-/
namespace Verif.DjHost

theorem data_fields {c d : Slab} (h : c.data = d.data) : c.mem = d.mem ∧ c.size = d.size ∧ c.total = d.total ∧
    c.alloc = d.alloc ∧ c.bucket = d.bucket := by
  cases c; cases d
  simp only [Slab.data, Slab.mk.injEq, and_true] at h
  exact h

theorem frame_fields {c d : Bucket} (h : c.frame = d.frame) : c.size = d.size ∧ c.pool = d.pool ∧ c.limits = d.limits := by
  cases c; cases d
  simp only [Bucket.frame, Bucket.mk.injEq, and_true, true_and] at h
  exact ⟨h.1, h.2.1, h.2.2⟩

/-- The facts about the counters do not depend on the links. -/
theorem BInv.build {m m' : Addr → Option Slab} {S : List Addr} {b : Addr} {c : Bucket} {la lu : List Addr} {e : Nat}
    (r : Relinked m m' S) (av : Dl m' c.avail la) (un : Dl m' c.unavail lu) (num : c.availNum = la.length)
    (avs : ∀ x ∈ la, ∃ d, m x = some d ∧ d.bucket = b ∧ d.alloc < d.total)
    (uns : ∀ x ∈ lu, ∃ d, m x = some d ∧ d.bucket = b ∧ d.alloc = d.total ∧ 0 < d.total)
    (all : ∀ x d, m x = some d → d.bucket = b → x ∈ la ∨ x ∈ lu)
    (pooled : c.inPool + e = la.countP fun x => (m x).any fun d => d.alloc = 0) : BInv m' b c la lu e := by
  refine ⟨av, un, num, ?_, ?_, ?_, ?_⟩
  · intro x hx
    obtain ⟨d, h1, h2, h3⟩ := avs x hx
    obtain ⟨d', g1, g2⟩ := r.fwd h1
    obtain ⟨e1, e2, e3, e4, e5⟩ := data_fields g2
    exact ⟨d', g1, by rw [e5]; exact h2, by rw [e3, e4]; exact h3⟩
  · intro x hx
    obtain ⟨d, h1, h2, h3⟩ := uns x hx
    obtain ⟨d', g1, g2⟩ := r.fwd h1
    obtain ⟨e1, e2, e3, e4, e5⟩ := data_fields g2
    exact ⟨d', g1, by rw [e5]; exact h2, by rw [e3, e4]; exact h3⟩
  · intro x d hd hb
    obtain ⟨d', g1, g2⟩ := r.back hd
    obtain ⟨e1, e2, e3, e4, e5⟩ := data_fields g2
    exact all x d' g1 (by rw [← e5]; exact hb)
  · rw [pooled]
    refine List.countP_congr fun x _ => ?_
    have := r.data x
    cases hm : m x with
    | none =>
      rw [hm] at this
      cases hm' : m' x with
      | none => rfl
      | some d' => rw [hm'] at this; cases this
    | some d =>
      obtain ⟨d', g1, g2⟩ := r.fwd hm
      rw [g1]
      obtain ⟨e1, e2, e3, e4, e5⟩ := data_fields g2
      simp only [Option.any_some, e4]

theorem BInv.disj {m : Addr → Option Slab} {b : Addr} {c : Bucket} {la lu : List Addr} {e : Nat}
    (h : BInv m b c la lu e) {x : Addr} (h1 : x ∈ la) (h2 : x ∈ lu) : False := by
  obtain ⟨d, d1, _, d2⟩ := h.avs x h1
  obtain ⟨d', d3, _, d4, _⟩ := h.uns x h2
  rw [d1] at d3
  cases d3
  omega

theorem seg_links {m m' : Addr → Option Slab} : ∀ {l : List Addr} {p n : Addr},
    (∀ x ∈ l, ∀ c, m x = some c → ∃ c', m' x = some c' ∧ c'.prev = c.prev ∧ c'.next = c.next) → Seg m p l n → Seg m' p l n := by
  intro l
  induction l with
  | nil => intro p n _ _; trivial
  | cons x l ih =>
    rintro p n hm ⟨⟨c, h1, h2, h3⟩, h4⟩
    obtain ⟨c', g1, g2, g3⟩ := hm x (by simp) c h1
    exact ⟨⟨c', g1, by rw [g2, h2], by rw [g3, h3]⟩, ih (fun y hy => hm y (by simp [hy])) h4⟩

theorem Dl.links {m : Addr → Option Slab} {head x : Addr} {l : List Addr} {d : Slab} {k : Nat} (h : Dl m head l)
    (hx : m x = some d) : Dl (upd m x (some { d with alloc := k })) head l := by
  refine ⟨h.head, seg_links (fun y hy c hc => ?_) h.seg, h.nodup, h.zero⟩
  by_cases e : y = x
  · subst e
    rw [hx] at hc
    cases hc
    exact ⟨_, upd_same _ _ _, rfl, rfl⟩
  · exact ⟨c, by rw [upd_ne _ _ e]; exact hc, rfl, rfl⟩

theorem countP_alloc {m : Addr → Option Slab} {x : Addr} {v : Option Slab} {l : List Addr} (hx : x ∉ l) :
    (l.countP fun y => (upd m x v y).any fun d => d.alloc = 0) = l.countP fun y => (m y).any fun d => d.alloc = 0 := by
  refine List.countP_congr fun y hy => ?_
  rw [upd_ne]
  rintro rfl
  exact hx hy

/-- The shape of the state is left alone: the memory of the pool and everything but the bucket `b` and its slabs. -/
structure Same (s s' : St) : Prop where
  pools : s'.pools = s.pools
  arrs : s'.arrs = s.arrs
  frame : s'.frame = s.frame
  lims : s'.hasLim = s.hasLim
  crits : s'.hasCrit = s.hasCrit

theorem getB_app {s : St} {a : Addr} {c : Bucket} (hc : s.bucks a = some c) : getB a s = some (c, s) := by
  simp only [getB, hc]
theorem getP_app {s : St} {a : Addr} {c : Pool} (hc : s.pools a = some c) : getP a s = some (c, s) := by
  simp only [getP, hc]
theorem getL_app {s : St} {a : Addr} {c : Limits} (hc : s.lims a = some c) : getL a s = some (c, s) := by
  simp only [getL, hc]
theorem setB_app {s : St} {a : Addr} {c c' : Bucket} (hc : s.bucks a = some c) :
    setB a c' s = some ((), { s with bucks := upd s.bucks a (some c') }) := by
  simp only [setB, hc]
theorem setS_app {s : St} {a : Addr} {c c' : Slab} (hc : s.slabs a = some c) :
    setS a c' s = some ((), { s with slabs := upd s.slabs a (some c') }) := by
  simp only [setS, hc]
theorem setL_app {s : St} {a : Addr} {c c' : Limits} (hc : s.lims a = some c) :
    setL a c' s = some ((), { s with lims := upd s.lims a (some c') }) := by
  simp only [setL, hc]
theorem freeSlab_app {s : St} {a : Addr} {c : Slab} (hc : s.slabs a = some c) :
    freeSlab a s = some ((), { s with slabs := upd s.slabs a none }) := by
  simp only [freeSlab, hc]
theorem provFree_app {s : St} {a n : Addr} (hc : s.prov a = some n) :
    provFree a n s = some ((), { s with prov := upd s.prov a none }) := by
  simp only [provFree, hc, if_true]

theorem mem3 {z y : Addr} {la lu : List Addr} (h : z ∈ ((y :: la) ++ [y]) ++ (y :: lu)) : z = y ∨ z ∈ la ∨ z ∈ lu := by
  rcases List.mem_append.1 h with h | h
  · rcases List.mem_append.1 h with h | h
    · rcases List.mem_cons.1 h with h | h
      · exact Or.inl h
      · exact Or.inr (Or.inl h)
    · exact Or.inl (by simpa using h)
  · rcases List.mem_cons.1 h with h | h
    · exact Or.inl h
    · exact Or.inr (Or.inr h)

/-- After a chunk is taken from the slab `x` at the front of the available ones. -/
theorem chunk_taken {s : St} {A : World} {b x : Addr} {c : Bucket} {d : Slab} {I : Info}
    (h : Inv s A (upd (fun _ => 0) b (if d.alloc = 0 then 1 else 0))) (hb : s.bucks b = some c) (hx : s.slabs x = some d)
    (hav : c.avail = x) (hx0 : x ≠ 0) (hI : A.pools c.pool = some I) :
    d.alloc < d.total ∧ ∃ s', (do
        setS x { d with alloc := d.alloc + 1 }
        if d.alloc + 1 < d.total then pure x
        else do
          let c ← getB b
          let h ← dlDelete c.avail x
          setB b { c with avail := h, availNum := c.availNum - 1 }
          setPrev x 0
          let c ← getB b
          let h ← dlPrepend c.unavail x
          setB b { c with unavail := h }
          pure x : M Addr) s = some (x, s') ∧
      Inv0 s' { A with pools := upd A.pools c.pool (some { I with live := x :: I.live }) } := by
  obtain ⟨la, lu, hl⟩ := h.lists b c hb
  rw [upd_same] at hl
  cases la with
  | nil =>
    have := hl.av.head
    rw [hav] at this
    exact absurd this hx0
  | cons y la =>
  have hy : y = x := by have := hl.av.head; rw [hav] at this; exact this.symm
  subst hy
  obtain ⟨d', g1, g2, g3⟩ := hl.avs y (by simp)
  rw [hx] at g1
  cases g1
  refine ⟨g3, ?_⟩
  have hyl : y ∉ la := (List.nodup_cons.1 hl.av.nodup).1
  have hyu : y ∉ lu := fun hm => hl.disj (by simp) hm
  -- the data
  have hD : s.data y = some d.data := data_some hx
  have hK : s.frame d.data.bucket = some c.frame := by
    rw [show d.data.bucket = b from g2]
    exact frame_some hb
  have hcount : I.live.count y = d.alloc := h.data.live y d.data c.frame I hD hK hI
  have data' := h.data.count (k := d.alloc + 1) (L := y :: I.live) hD hK hI (by exact g3)
    (by rw [List.count_cons_self, hcount]) (fun z hz => by rw [List.count_cons_of_ne (Ne.symm hz)])
  have hpool : c.frame.pool = c.pool := rfl
  rw [hpool] at data'
  have shape' := h.shape.live (L := y :: I.live) hI
  -- the slabs after the first write
  let m := upd s.slabs y (some { d with alloc := d.alloc + 1 })
  have mD : (fun a => (m a).map Slab.data) = upd s.data y (some { d.data with alloc := d.alloc + 1 }) := by
    rw [map_upd]; rfl
  have hpooled : la.countP (fun z => (m z).any fun d => d.alloc = 0) = c.inPool := by
    have := hl.pooled
    rw [List.countP_cons, hx] at this
    rw [countP_alloc hyl]
    simp only [Option.any_some, decide_eq_true_eq] at this
    split at this <;> omega
  have mavs : ∀ z ∈ la, ∃ d, m z = some d ∧ d.bucket = b ∧ d.alloc < d.total := by
    intro z hz
    have : z ≠ y := by rintro rfl; exact hyl hz
    obtain ⟨d', h1⟩ := hl.avs z (by simp [hz])
    exact ⟨d', by show upd _ _ _ _ = _; rw [upd_ne _ _ this]; exact h1.1, h1.2⟩
  have muns : ∀ z ∈ lu, ∃ d, m z = some d ∧ d.bucket = b ∧ d.alloc = d.total ∧ 0 < d.total := by
    intro z hz
    have : z ≠ y := by rintro rfl; exact hyu hz
    obtain ⟨d', h1⟩ := hl.uns z hz
    exact ⟨d', by show upd _ _ _ _ = _; rw [upd_ne _ _ this]; exact h1.1, h1.2⟩
  have mall : ∀ z d', m z = some d' → d'.bucket = b → z ∈ y :: la ∨ z ∈ lu := by
    intro z d' hz hzb
    by_cases e : z = y
    · left; simp [e]
    · rw [show m z = s.slabs z from upd_ne _ _ e] at hz
      exact hl.all z d' hz hzb
  have other1 : ∀ z d', s.slabs z = some d' → d'.bucket ≠ b → m z = some d' := by
    intro z d' hz hzb
    rw [show m z = s.slabs z from upd_ne _ _ (by rintro rfl; rw [hx] at hz; cases hz; exact hzb g2)]
    exact hz
  have other2 : ∀ z d', m z = some d' → d'.bucket ≠ b → s.slabs z = some d' := by
    intro z d' hz hzb
    by_cases e : z = y
    · rw [e, show m y = _ from upd_same _ _ _] at hz
      cases hz
      exact absurd g2 hzb
    · rw [show m z = s.slabs z from upd_ne _ _ e] at hz
      exact hz
  by_cases hlt : d.alloc + 1 < d.total
  · refine ⟨{ s with slabs := m }, ?_, shape', ?_, ?_⟩
    · rw [bind_app, setS_app hx]
      dsimp only
      rw [if_pos hlt]
      rfl
    · show Data (fun a => (m a).map Slab.data) _ _ _ _ _
      rw [mD]
      exact data'
    · have hb' : BInv m b c (y :: la) lu 0 := by
        refine BInv.build (Relinked.refl m []) (hl.av.links hx) (hl.un.links hx) hl.num ?_ muns mall ?_
        · intro z hz
          rcases List.mem_cons.1 hz with rfl | hz
          · exact ⟨_, upd_same _ _ _, g2, hlt⟩
          · exact mavs z hz
        · rw [List.countP_cons, hpooled, show m y = _ from upd_same _ _ _]
          simp
      have := lists_local (e' := fun _ => 0) (b := b) (c' := c) h.lists (fun b' hb' => by rw [upd_ne _ _ hb']) hb' other1 other2
      rw [← hb, upd_self] at this
      exact this
  · -- the slab is full now
    obtain ⟨h', m1, p1, p2, p3, p4⟩ := dlDelete_app (s := { s with slabs := m }) (head := c.avail) (x := y) (l := []) (k := la)
      (hl.av.links hx)
    have p5 : m1 y = some { d with alloc := d.alloc + 1 } := by rw [p4]; exact upd_same _ _ _
    let m2 := upd m1 y (some { d with alloc := d.alloc + 1, prev := 0 })
    have r2 : Relinked m1 m2 [y] := Relinked.one p5 rfl (by simp)
    have un2 : Dl m2 c.unavail lu := by
      refine (hl.un.links (k := d.alloc + 1) hx).congr fun z hz => ?_
      rw [show m2 z = m1 z from upd_ne _ _ (by rintro rfl; exact hyu hz)]
      refine p3.out z fun hm => ?_
      exact hl.disj (by simpa using hm) hz
    have av2 : Dl m2 h' la := p2.congr fun z hz => upd_ne _ _ (by rintro rfl; exact hyl hz)
    obtain ⟨m3, q1, q2, q3⟩ := dlPrepend_app (s := { s with slabs := m2, bucks := upd s.bucks b (some { c with avail := h', availNum := c.availNum - 1 }) })
      (head := c.unavail) (x := y) un2 (upd_same _ _ _) hyu hx0
    have av3 : Dl m3 h' la := av2.congr fun z hz => q3.out z (by
      intro hm
      rcases List.mem_cons.1 hm with rfl | hm
      · exact hyl hz
      · exact hl.disj (by simp [hz]) hm)
    have r : Relinked m m3 (((y :: la) ++ [y]) ++ (y :: lu)) := (Relinked.trans p3 r2).trans q3
    refine ⟨{ s with slabs := m3, bucks := upd s.bucks b (some { c with avail := h', availNum := c.availNum - 1, unavail := y }) },
      ?_, ?_, ?_, ?_⟩
    · rw [bind_app, setS_app hx]
      dsimp only
      rw [if_neg hlt, bind_app, getB_app (c := c) (by exact hb)]
      dsimp only
      rw [bind_app, p1]
      dsimp only
      rw [bind_app, setB_app (c := c) (by exact hb)]
      dsimp only
      rw [bind_app, setPrev_app (c := { d with alloc := d.alloc + 1 }) (by exact p5)]
      dsimp only
      rw [bind_app, getB_app (c := { c with avail := h', availNum := c.availNum - 1 }) (by exact upd_same _ _ _)]
      dsimp only
      rw [bind_app, q1]
      dsimp only
      rw [bind_app, setB_app (c := { c with avail := h', availNum := c.availNum - 1 }) (by exact upd_same _ _ _)]
      dsimp only
      rw [upd_upd]
      rfl
    · have : St.frame { s with slabs := m3, bucks := upd s.bucks b (some { c with avail := h', availNum := c.availNum - 1, unavail := y }) }
          = s.frame := frame_upd hb rfl
      rw [this]
      exact shape'
    · have : St.frame { s with slabs := m3, bucks := upd s.bucks b (some { c with avail := h', availNum := c.availNum - 1, unavail := y }) }
          = s.frame := frame_upd hb rfl
      rw [this]
      show Data (fun a => (m3 a).map Slab.data) _ _ _ _ _
      rw [show (fun a => (m3 a).map Slab.data) = fun a => (m a).map Slab.data from funext r.data, mD]
      exact data'
    · have hb' : BInv m3 b { c with avail := h', availNum := c.availNum - 1, unavail := y } la (y :: lu) 0 := by
        refine BInv.build r av3 q2 ?_ mavs ?_ ?_ ?_
        · have := hl.num
          simp only [List.length_cons] at this
          show c.availNum - 1 = la.length
          omega
        · intro z hz
          rcases List.mem_cons.1 hz with rfl | hz
          · exact ⟨_, upd_same _ _ _, g2, by show d.alloc + 1 = d.total; omega, by show 0 < d.total; omega⟩
          · exact muns z hz
        · intro z d' hz hzb
          rcases mall z d' hz hzb with h1 | h1
          · rcases List.mem_cons.1 h1 with rfl | h1
            · right; simp
            · left; exact h1
          · right; simp [h1]
        · rw [hpooled]
          rfl
      refine lists_local (e' := fun _ => 0) (b := b) h.lists (fun b' hb' => by rw [upd_ne _ _ hb']) hb' ?_ ?_
      · intro z d' hz hzb
        dsimp only
        rw [r.out z]
        · exact other1 z d' hz hzb
        · intro hm
          have : z ∈ y :: la ∨ z ∈ lu := by rcases mem3 hm with h1 | h1 | h1 <;> simp [h1]
          rcases this with h1 | h1
          · obtain ⟨d2, e1, e2, _⟩ := hl.avs z h1
            rw [hz] at e1
            cases e1
            exact hzb e2
          · obtain ⟨d2, e1, e2, _⟩ := hl.uns z h1
            rw [hz] at e1
            cases e1
            exact hzb e2
      · intro z d' hz hzb
        dsimp only at hz
        by_cases hm : z ∈ ((y :: la) ++ [y]) ++ (y :: lu)
        · exfalso
          have : z ∈ la ∨ z ∈ y :: lu := by rcases mem3 hm with h1 | h1 | h1 <;> simp [h1]
          rcases this with h1 | h1
          · obtain ⟨d2, e1, e2, _⟩ := hb'.avs z h1
            rw [hz] at e1
            cases e1
            exact hzb e2
          · obtain ⟨d2, e1, e2, _⟩ := hb'.uns z h1
            rw [hz] at e1
            cases e1
            exact hzb e2
        · rw [r.out z hm] at hz
          exact other2 z d' hz hzb

end Verif.DjHost
