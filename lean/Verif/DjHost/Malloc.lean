import Verif.DjHost.Chunk
/-!
# Lemmas for the disjoint pool's own memory: allocation
-/
namespace Verif.DjHost

/-- The base allocator, the provider and the radix tree have memory for one slab. -/
def Enough (s : St) : Prop :=
  (s.host.headD 0 ≠ 0 ∧ fresh s (s.host.headD 0) = true) ∧ (s.give.headD 0 ≠ 0 ∧ s.prov (s.give.headD 0) = none) ∧
  s.room.headD true = true

theorem fresh_iff {s : St} {a : Addr} : fresh s a = true ↔ s.pools a = none ∧ s.crits a = none ∧ s.lims a = none ∧
    s.arrs a = none ∧ s.bucks a = none ∧ s.slabs a = none := by
  simp [fresh, and_assoc]

theorem hostAlloc_app (s : St) :
    (hostAlloc s = some (0, { s with host := s.host.tail }) ∧ ¬(s.host.headD 0 ≠ 0 ∧ fresh s (s.host.headD 0) = true)) ∨
    ∃ a, a ≠ 0 ∧ fresh s a = true ∧ hostAlloc s = some (a, { s with host := s.host.tail }) := by
  unfold hostAlloc
  dsimp only
  by_cases h : s.host.headD 0 ≠ 0 ∧ fresh s (s.host.headD 0) = true
  · rw [if_pos h]
    exact Or.inr ⟨_, h.1, h.2, rfl⟩
  · rw [if_neg h]
    exact Or.inl ⟨rfl, h⟩

theorem provAlloc_app (n : Nat) (s : St) :
    (provAlloc n s = some (0, { s with give := s.give.tail }) ∧ ¬(s.give.headD 0 ≠ 0 ∧ s.prov (s.give.headD 0) = none)) ∨
    ∃ a, a ≠ 0 ∧ s.prov a = none ∧
      provAlloc n s = some (a, { s with prov := upd s.prov a (some n), give := s.give.tail }) := by
  unfold provAlloc
  dsimp only
  by_cases h : s.give.headD 0 ≠ 0 ∧ s.prov (s.give.headD 0) = none
  · rw [if_pos h]
    exact Or.inr ⟨_, h.1, h.2, rfl⟩
  · rw [if_neg h]
    exact Or.inl ⟨rfl, h⟩

/-- The answers do not matter for the invariant. -/
theorem Inv.ans {s : St} {A : World} {e : Addr → Nat} (h : Inv s A e) (host give : List Addr) (room : List Bool) :
    Inv { s with host := host, give := give, room := room } A e := ⟨h.shape, h.data, h.lists⟩

theorem upd_undo {α : Type} {f : Addr → Option α} {x : Addr} {v : Option α} (h : f x = none) : upd (upd f x v) x none = f := by
  rw [upd_upd, ← h, upd_self]

theorem slab_sizes {size slabMin : Nat} (h : 0 < size) : 0 < max (slabMin / size) 1 ∧
    max (slabMin / size) 1 * size ≤ max size slabMin := by
  refine ⟨by omega, ?_⟩
  by_cases h1 : slabMin / size ≤ 1
  · rw [Nat.max_eq_right h1]
    omega
  · rw [Nat.max_eq_left (by omega)]
    have := Nat.div_mul_le_self slabMin size
    omega

/-- The states differ in the answers only. -/
def SameBlocks (s s' : St) : Prop := ∃ host give room, s' = { s with host := host, give := give, room := room }

theorem SameBlocks.inv {s s' : St} {A : World} (h : SameBlocks s s') (hi : Inv0 s A) : Inv0 s' A := by
  obtain ⟨a, b, c, rfl⟩ := h
  exact hi.ans a b c

theorem SameBlocks.of {s s' : St} (h1 : s'.pools = s.pools) (h2 : s'.crits = s.crits) (h3 : s'.lims = s.lims) (h4 : s'.arrs = s.arrs)
    (h5 : s'.bucks = s.bucks) (h6 : s'.slabs = s.slabs) (h7 : s'.prov = s.prov) : SameBlocks s s' := by
  refine ⟨s'.host, s'.give, s'.room, ?_⟩
  cases s; cases s'
  simp_all

/-- `bucket_create_slab` for a bucket without available slabs. -/
theorem bucketCreateSlab_ok {s : St} {A : World} {b : Addr} {c : Bucket} (h : Inv0 s A) (hb : s.bucks b = some c)
    (hav : c.avail = 0) :
    ∃ s', bucketCreateSlab b s = some ((), s') ∧
      ((SameBlocks s s' ∧ s'.bucks b = some c ∧ ¬Enough s) ∨
       ∃ x d, x ≠ 0 ∧ s'.bucks b = some { c with avail := x, availNum := c.availNum + 1 } ∧ s'.slabs x = some d ∧
        d.alloc = 0 ∧ Inv s' A (upd (fun _ => 0) b 1)) := by
  have hK := frame_some hb
  obtain ⟨I, hI⟩ := h.shape.buck b _ hK
  obtain ⟨P, L, hP, hok⟩ := h.shape.pool _ _ hI
  replace hP : s.pools c.pool = some P := hP
  have hsize : 0 < c.size := by
    obtain ⟨c', e1, _, _, e2⟩ := hok.buck b (hok.onto b _ hK rfl)
    rw [hK] at e1
    cases e1
    exact e2
  obtain ⟨la, lu, hl⟩ := h.lists b c hb
  have hla : la = [] := by
    cases la with
    | nil => rfl
    | cons x l =>
      have h1 := hl.av.head
      rw [hav] at h1
      exact absurd (by rw [h1]; simp) hl.av.zero
  subst hla
  unfold bucketCreateSlab createSlab
  simp only [bind_app]
  rw [getB_app hb]
  dsimp only
  rw [getP_app hP]
  dsimp only
  rw [if_neg (by omega)]
  rcases hostAlloc_app s with ⟨e1, e2⟩ | ⟨x, hx0, hxf, e1⟩
  · simp only [bind_app]
    rw [e1]
    dsimp only
    rw [if_pos rfl]
    exact ⟨_, rfl, Or.inl ⟨⟨_, _, _, rfl⟩, hb, fun he => e2 he.1⟩⟩
  · rw [fresh_iff] at hxf
    simp only [bind_app]
    rw [e1]
    dsimp only
    rw [if_neg hx0]
    simp only [bind_app, newSlab]
    let n := max c.size P.slabMin
    let t := max (P.slabMin / c.size) 1
    rcases provAlloc_app n { s with host := s.host.tail, slabs := upd s.slabs x (some ⟨0, n, t, 0, b, 0, 0⟩) } with ⟨e3, e4⟩ | ⟨a, ha0, hap, e3⟩
    · rw [e3]
      dsimp only
      rw [if_pos rfl]
      simp only [bind_app]
      rw [freeSlab_app (c := ⟨0, n, t, 0, b, 0, 0⟩) (upd_same _ _ _)]
      dsimp only [pure_app]
      rw [if_pos rfl, upd_undo hxf.2.2.2.2.2]
      exact ⟨_, rfl, Or.inl ⟨⟨_, _, _, rfl⟩, hb, fun he => e4 he.2.1⟩⟩
    · rw [e3]
      dsimp only at hap ⊢
      rw [if_neg ha0]
      simp only [bind_app]
      rw [getS_app (c := ⟨0, n, t, 0, b, 0, 0⟩) (upd_same _ _ _)]
      dsimp only
      rw [setS_app (c := ⟨0, n, t, 0, b, 0, 0⟩) (upd_same _ _ _)]
      dsimp only [pure_app]
      rw [if_neg hx0, upd_upd]
      simp only [bind_app]
      rw [getB_app (c := c) (by exact hb)]
      dsimp only
      rw [getP_app (c := P) (by exact hP)]
      dsimp only
      rw [getS_app (c := ⟨a, n, t, 0, b, 0, 0⟩) (by exact upd_same _ _ _)]
      dsimp only
      obtain ⟨l, hl1, hl2⟩ := h.data.crit _ _ hP
      have hnot : l.any (fun e => e.1 = a) = false := by
        rw [List.any_eq_false]
        rintro ⟨k, y⟩ hk e
        have e : k = a := by simpa using e
        subst e
        obtain ⟨d, _, g1, g2, _⟩ := (hl2 k y).1 hk
        have := (h.data.mem y d g1).1
        rw [g2, hap] at this
        cases this
      simp only [critInsert, hl1, hnot, Bool.false_eq_true, if_false]
      by_cases hroom : s.room.headD true = true
      · -- the slab is there
        rw [if_pos hroom]
        dsimp only
        rw [if_neg (by simp)]
        have hxl : x ∉ lu := by
          intro hm
          obtain ⟨d, g1, _⟩ := hl.uns x hm
          rw [hxf.2.2.2.2.2] at g1
          cases g1
        let m := upd s.slabs x (some ⟨a, n, t, 0, b, 0, 0⟩)
        have mx : m x = some ⟨a, n, t, 0, b, 0, 0⟩ := upd_same _ _ _
        have mne : ∀ z, z ≠ x → m z = s.slabs z := fun z hz => upd_ne _ _ hz
        have av : Dl m c.avail [] := ⟨hav, trivial, by simp, by simp⟩
        have un : Dl m c.unavail lu := hl.un.congr fun z hz => upd_ne _ _ (by rintro rfl; exact hxl hz)
        obtain ⟨m', q1, q2, q3⟩ := dlPrepend_app (s := { s with host := s.host.tail, slabs := m, prov := upd s.prov a (some n), give := s.give.tail, crits := upd s.crits P.known (some ((a, x) :: l)), room := s.room.tail })
          (head := c.avail) (x := x) (l := []) (c := ⟨a, n, t, 0, b, 0, 0⟩) av (upd_same _ _ _) (by simp) hx0
        simp only [bind_app]
        rw [q1]
        dsimp only
        rw [setB_app (c := c) (by exact hb)]
        dsimp only at q3
        obtain ⟨d', g1, g2⟩ := q3.fwd (x := x) (c := ⟨a, n, t, 0, b, 0, 0⟩) (upd_same _ _ _)
        obtain ⟨f1, f2, f3, f4, f5⟩ := data_fields g2
        refine ⟨_, rfl, Or.inr ⟨x, d', hx0, upd_same _ _ _, g1, f4, ?_, ?_, ?_⟩⟩
        · have e1 : St.frame { s with host := s.host.tail, slabs := m', prov := upd s.prov a (some n), give := s.give.tail, crits := upd s.crits P.known (some ((a, x) :: l)), room := s.room.tail, bucks := upd s.bucks b (some { c with avail := x, availNum := c.availNum + 1 }) } = s.frame := frame_upd hb rfl
          have e2 : St.hasCrit { s with host := s.host.tail, slabs := m', prov := upd s.prov a (some n), give := s.give.tail, crits := upd s.crits P.known (some ((a, x) :: l)), room := s.room.tail, bucks := upd s.bucks b (some { c with avail := x, availNum := c.availNum + 1 }) } = s.hasCrit := isSome_upd hl1
          rw [e1, e2]
          exact h.shape
        · have e1 : St.frame { s with host := s.host.tail, slabs := m', prov := upd s.prov a (some n), give := s.give.tail, crits := upd s.crits P.known (some ((a, x) :: l)), room := s.room.tail, bucks := upd s.bucks b (some { c with avail := x, availNum := c.availNum + 1 }) } = s.frame := frame_upd hb rfl
          rw [e1]
          show Data (fun z => (m' z).map Slab.data) _ _ _ _ _
          rw [show (fun z => (m' z).map Slab.data) = fun z => (m z).map Slab.data from funext q3.data, map_upd]
          have hsz := slab_sizes (slabMin := P.slabMin) hsize
          exact h.data.new (d := (⟨a, n, t, 0, b, 0, 0⟩ : Slab).data) (c := c.frame) h.shape.knownInj
            (by simp [St.data, hxf.2.2.2.2.2]) hx0 rfl hsz.1 hK hsz.2 hap ha0 hP hl1
        · have hb' : BInv m' b { c with avail := x, availNum := c.availNum + 1 } [x] lu 1 := by
            refine BInv.build q3 q2 ?_ ?_ ?_ ?_ ?_ ?_
            · refine un.congr fun z hz => q3.out z ?_
              intro hm
              have : z = x := by simpa using hm
              subst this
              exact hxl hz
            · have := hl.num
              simp only [List.length_nil] at this
              simp [this]
            · intro z hz
              have : z = x := by simpa using hz
              subst this
              exact ⟨_, upd_same _ _ _, rfl, (slab_sizes (slabMin := P.slabMin) hsize).1⟩
            · intro z hz
              have : z ≠ x := by rintro rfl; exact hxl hz
              obtain ⟨d, g⟩ := hl.uns z hz
              exact ⟨d, by rw [mne z this]; exact g.1, g.2⟩
            · intro z d hz hzb
              by_cases e : z = x
              · left; simp [e]
              · rw [mne z e] at hz
                rcases hl.all z d hz hzb with h1 | h1
                · cases h1
                · exact Or.inr h1
            · have := hl.pooled
              simp only [List.countP_nil] at this
              rw [List.countP_cons, mx]
              simp
              omega
          refine lists_local (e' := upd (fun _ => 0) b 1) (b := b) h.lists (fun b' hb' => by rw [upd_ne _ _ hb']) (by rw [upd_same]; exact hb') ?_ ?_
          · intro z d hz hzb
            dsimp only
            have : z ≠ x := by rintro rfl; rw [hxf.2.2.2.2.2] at hz; cases hz
            rw [q3.out z (by simpa using this), mne z this]
            exact hz
          · intro z d hz hzb
            dsimp only at hz
            by_cases e : z = x
            · subst e
              rw [g1] at hz
              cases hz
              exact absurd f5 hzb
            · rw [q3.out z (by simpa using e), mne z e] at hz
              exact hz
      · -- the radix tree has no room
        rw [if_neg hroom]
        dsimp only
        rw [if_pos rfl]
        unfold destroySlab
        simp only [bind_app]
        rw [getS_app (c := ⟨a, n, t, 0, b, 0, 0⟩) (by exact upd_same _ _ _)]
        dsimp only
        rw [getB_app (c := c) (by exact hb)]
        dsimp only
        rw [getP_app (c := P) (by exact hP)]
        dsimp only
        rw [provFree_app (by exact upd_same _ _ _)]
        dsimp only
        rw [freeSlab_app (c := ⟨a, n, t, 0, b, 0, 0⟩) (by exact upd_same _ _ _)]
        dsimp only
        rw [upd_undo hxf.2.2.2.2.2, upd_undo hap]
        exact ⟨_, rfl, Or.inl ⟨⟨_, _, _, rfl⟩, hb, fun he => hroom he.2.2⟩⟩

end Verif.DjHost
