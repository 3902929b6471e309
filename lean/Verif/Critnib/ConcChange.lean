import Verif.Critnib.ConcInv
/-! # The visible stores of writers: link a leaf, link a branch, change a value, unlink a leaf,
unlink a node -/
namespace Verif.Critnib.Conc
open Verif.Critnib

variable {V : Type}

/-! ## A store to a slot -/

section slot
variable (m : Mem V) (s : Slot) (q : Ptr)

theorem slot_path (n : Nat) : ((m.store (.slot s q)).nodes n).path = (m.nodes n).path := by
  cases s with
  | root => rfl
  | child a i =>
    by_cases h : n = a
    · subst h; simp [Mem.store]
    · simp [Mem.store, Function.update_of_ne h]

theorem slot_shift (n : Nat) : ((m.store (.slot s q)).nodes n).shift = (m.nodes n).shift := by
  cases s with
  | root => rfl
  | child a i =>
    by_cases h : n = a
    · subst h; simp [Mem.store]
    · simp [Mem.store, Function.update_of_ne h]

theorem slot_child (n : Nat) (j : Fin 16) : ((m.store (.slot s q)).nodes n).child j =
    if s = .child n j then q else (m.nodes n).child j := by
  cases s with
  | root => simp [Mem.store]
  | child a i =>
    by_cases h : n = a
    · subst h
      by_cases hi : j = i
      · subst hi; simp [Mem.store]
      · have : ¬ (Slot.child n i = Slot.child n j) := fun e => hi (by injection e with _ e; exact e.symm)
        simp [Mem.store, Function.update_of_ne hi, this]
    · have : ¬ (Slot.child a i = Slot.child n j) := fun e => h (by injection e with e _; exact e.symm)
      simp [Mem.store, Function.update_of_ne h, this]

theorem slot_other {n : Nat} (h : ∀ i, s ≠ .child n i) :
    (m.store (.slot s q)).nodes n = m.nodes n := by
  cases s with
  | root => rfl
  | child a i =>
    have : n ≠ a := fun e => h i (by rw [e])
    simp [Mem.store, Function.update_of_ne this]

theorem slot_root : (m.store (.slot s q)).root = if s = .root then q else m.root := by
  cases s <;> simp [Mem.store]

theorem slot_leaves : (m.store (.slot s q)).leaves = m.leaves := by cases s <;> rfl

theorem slot_count : (m.store (.slot s q)).count = m.count := by cases s <;> rfl

theorem slot_fits (K : W) (p : Ptr) : Fits (m.store (.slot s q)) K p ↔ Fits m K p := by
  cases p with
  | null => exact Iff.rfl
  | leaf l => simp only [Fits, slot_leaves]
  | node n => simp only [Fits, slot_path, slot_shift]

theorem slot_slotPre (n : Nat) (i : Fin 16) :
    slotPre (m.store (.slot s q)) n i = slotPre m n i := by
  simp only [slotPre, slot_path, slot_shift]

theorem slot_under (n : Nat) (i : Fin 16) (p : Ptr) :
    Under (m.store (.slot s q)) n i p ↔ Under m n i p := by
  cases p with
  | null => exact Iff.rfl
  | leaf l => simp only [Under, slot_leaves, slot_slotPre, slot_shift]
  | node c => simp only [Under, slot_slotPre, slot_shift, slot_path]

end slot

/-! ## Following a search across a change -/

theorem on_change {m m' : Mem V} (K : W) (Lost : Ptr → Prop)
    (h0 : On m' K m.root ∨ Lost m.root)
    (hs : ∀ n, On m K (.node n) → On m' K (.node n) →
      On m' K (follow m K (.node n)) ∨ Lost (follow m K (.node n)))
    (hL : ∀ p, On m K p → Lost p → On m' K (follow m K p) ∨ Lost (follow m K p)) :
    ∀ p, On m K p → On m' K p ∨ Lost p := by
  rintro p ⟨j, rfl⟩
  induction j with
  | zero => exact h0
  | succ j ih =>
    show On m' K (follow m K (pos m K j)) ∨ Lost (follow m K (pos m K j))
    rcases ih with h | h
    · cases hp : pos m K j with
      | null => rw [hp] at h; exact .inl h
      | leaf l => rw [hp] at h; exact .inl h
      | node n => rw [hp] at h; exact hs n ⟨j, hp⟩ h
    · exact hL _ ⟨j, rfl⟩ h

/-- Across a store to a slot, searches are followed if this is so at the slot. -/
theorem on_slot {m : Mem V} {s : Slot} {q : Ptr} (K : W) (Lost : Ptr → Prop)
    (h0 : s = .root → On (m.store (.slot s q)) K m.root ∨ Lost m.root)
    (hs : ∀ n, s = .child n (idx K (m.nodes n).shift) → On m K (.node n) →
      On (m.store (.slot s q)) K (.node n) →
      On (m.store (.slot s q)) K (follow m K (.node n)) ∨ Lost (follow m K (.node n)))
    (hL : ∀ p, On m K p → Lost p →
      On (m.store (.slot s q)) K (follow m K p) ∨ Lost (follow m K p)) :
    ∀ p, On m K p → On (m.store (.slot s q)) K p ∨ Lost p := by
  refine on_change K Lost ?_ ?_ hL
  · by_cases h : s = .root
    · exact h0 h
    · left
      have := on_root (m.store (.slot s q)) K
      rw [slot_root, if_neg h] at this
      exact this
  · intro n h1 h2
    by_cases h : s = .child n (idx K (m.nodes n).shift)
    · exact hs n h h1 h2
    · left
      have := on_follow h2
      rw [slot_child, slot_shift, if_neg h] at this
      exact this

/-! ## Parents -/

theorem pos_decr {g : G V} (h : GI g) {K : W} {j a : Nat} (ha : pos g.mem K j = .node a) (k : Nat) :
    ∀ b, pos g.mem K (j + 1 + k) = .node b → (g.mem.nodes b).shift < (g.mem.nodes a).shift := by
  induction k with
  | zero =>
    intro b hb
    have hl := pos_live h K j
    rw [ha] at hl
    have hb' : (g.mem.nodes a).child (idx K (g.mem.nodes a).shift) = .node b := by
      have : follow g.mem K (pos g.mem K j) = .node b := hb
      rw [ha] at this; exact this
    have hu := (h.kid a hl (idx K (g.mem.nodes a).shift)).2
    rw [hb'] at hu
    have := hu.1
    omega
  | succ k ih =>
    intro b hb
    have hb1 : follow g.mem K (pos g.mem K (j + 1 + k)) = .node b := hb
    cases hp : pos g.mem K (j + 1 + k) with
    | null => rw [hp] at hb1; cases hb1
    | leaf l => rw [hp] at hb1; cases hb1
    | node c =>
      have h1 := ih c hp
      rw [hp] at hb1
      have hl := pos_live h K (j + 1 + k)
      rw [hp] at hl
      have hu := (h.kid c hl (idx K (g.mem.nodes c).shift)).2
      have hb2 : (g.mem.nodes c).child (idx K (g.mem.nodes c).shift) = .node b := hb1
      rw [hb2] at hu
      have := hu.1
      omega

/-- A pointer on a search path is reached from one node only. -/
theorem parent_unique {g : G V} (h : GI g) {K : W} {a b : Nat} (ha : On g.mem K (.node a))
    (hb : On g.mem K (.node b)) {p : Ptr} (hp : p ≠ .null)
    (hfa : follow g.mem K (.node a) = p) (hfb : follow g.mem K (.node b) = p) : a = b := by
  obtain ⟨j, hj⟩ := ha
  obtain ⟨j', hj'⟩ := hb
  have key : ∀ j j' a b, pos g.mem K j = .node a → pos g.mem K j' = .node b →
      follow g.mem K (.node a) = p → follow g.mem K (.node b) = p → ¬ j < j' := by
    intro j j' a b hj hj' hfa hfb hlt
    have h1 : pos g.mem K (j + 1) = p := by
      show follow _ _ _ = _; rw [hj]; exact hfa
    have h2 : pos g.mem K (j' + 1) = p := by
      show follow _ _ _ = _; rw [hj']; exact hfb
    cases p with
    | null => exact hp rfl
    | leaf l =>
      have h3 := pos_leaf h1 (j' - (j + 1))
      rw [show j + 1 + (j' - (j + 1)) = j' by omega, hj'] at h3
      cases h3
    | node c =>
      have h3 := pos_decr h h1 (j' + 1 - (j + 1 + 1)) c
        (by rw [show j + 1 + 1 + (j' + 1 - (j + 1 + 1)) = j' + 1 by omega]; exact h2)
      omega
  have h1 := key j j' a b hj hj' hfa hfb
  have h2 := key j' j b a hj' hj hfb hfa
  have : j = j' := by omega
  subst this
  rw [hj] at hj'
  exact Ptr.node.inj hj'

/-- The root is not a child of a node. -/
theorem root_no_parent {g : G V} (h : GI g) {K : W} {a : Nat} (ha : On g.mem K (.node a)) {p : Ptr}
    (hp : p ≠ .null) (hr : g.mem.root = p) (hf : follow g.mem K (.node a) = p) : False := by
  obtain ⟨j, hj⟩ := ha
  have h1 : pos g.mem K (j + 1) = p := by
    show follow _ _ _ = _; rw [hj]; exact hf
  have h0 : pos g.mem K 0 = p := hr
  cases p with
  | null => exact hp rfl
  | leaf l =>
    have h3 := pos_leaf h0 j
    rw [Nat.zero_add, hj] at h3
    cases h3
  | node c =>
    have h3 := pos_decr h h0 j c (by rw [Nat.zero_add, Nat.add_comm]; exact h1)
    omega

/-- A key that fits `p`: its own. -/
def keyOf (m : Mem V) : Ptr → W
  | .null => 0#64
  | .leaf l => (m.leaves l).key
  | .node n => (m.nodes n).path

theorem keyOf_fits (m : Mem V) {p : Ptr} (hp : p ≠ .null) : Fits m (keyOf m p) p := by
  cases p with
  | null => exact absurd rfl hp
  | leaf l => rfl
  | node n => show _ = _; rfl

/-- The slot a live pointer is in is unique. -/
theorem slot_unique {g : G V} (h : GI g) {s s' : Slot} (hs : ∀ n i, s = .child n i → g.ln n = .live)
    (hs' : ∀ n i, s' = .child n i → g.ln n = .live) {p : Ptr} (hp : p ≠ .null)
    (h1 : g.mem.load s = p) (h2 : g.mem.load s' = p) : s = s' := by
  have hf := keyOf_fits g.mem hp
  have par : ∀ n i, g.ln n = .live → (g.mem.nodes n).child i = p →
      On g.mem (keyOf g.mem p) (.node n) ∧ idx (keyOf g.mem p) (g.mem.nodes n).shift = i := by
    intro n i hn hc
    have hu := (h.kid n hn i).2
    rw [hc] at hu
    obtain ⟨h3, h4⟩ := fits_child hu hf
    exact ⟨h.onN n hn _ h3, h4⟩
  cases s with
  | root =>
    cases s' with
    | root => rfl
    | child n i =>
      obtain ⟨h3, h4⟩ := par n i (hs' n i rfl) h2
      refine (root_no_parent h h3 hp h1 ?_).elim
      show (g.mem.nodes n).child _ = p
      rw [h4]; exact h2
  | child n i =>
    obtain ⟨h3, h4⟩ := par n i (hs n i rfl) h1
    have hfa : follow g.mem (keyOf g.mem p) (.node n) = p := by
      show (g.mem.nodes n).child _ = p
      rw [h4]; exact h1
    cases s' with
    | root => exact (root_no_parent h h3 hp h2 hfa).elim
    | child n' i' =>
      obtain ⟨h5, h6⟩ := par n' i' (hs' n' i' rfl) h2
      have hfb : follow g.mem (keyOf g.mem p) (.node n') = p := by
        show (g.mem.nodes n').child _ = p
        rw [h6]; exact h2
      have := parent_unique h h3 h5 hp hfa hfb
      subst this
      rw [h4] at h6
      rw [h6]

/-! ## The slot a search for `key` reaches -/

/-- `s` is in the tree and the search for `key` goes through it, rightly. -/
def Through (g : G V) (key : W) : Slot → Prop
  | .root => True
  | .child n i => g.ln n = .live ∧ key.toNat / 2 ^ (g.mem.nodes n).shift = slotPre g.mem n i

theorem Through.live {g : G V} {key : W} {s : Slot} (h : Through g key s) :
    ∀ n i, s = .child n i → g.ln n = .live := by
  rintro n i rfl; exact h.1

theorem Through.on {g : G V} (hg : GI g) {key : W} {s : Slot} (h : Through g key s) :
    On g.mem key (g.mem.load s) := by
  cases s with
  | root => exact on_root _ _
  | child n i =>
    obtain ⟨h1, h2⟩ := slot_idx h.2
    have := on_follow (hg.onN n h.1 key h1)
    rw [h2] at this
    exact this

theorem Through.congr {g : G V} {key key' : W} {n : Nat} {i : Fin 16}
    (h : Through g key (.child n i)) (he : key'.toNat / 2 ^ (g.mem.nodes n).shift =
      key.toNat / 2 ^ (g.mem.nodes n).shift) : Through g key' (.child n i) :=
  ⟨h.1, he.trans h.2⟩

/-! ## Linking a leaf into an empty slot -/

/-- After the leaf `k` was linked into slot `s`. -/
def G.link (g : G V) (s : Slot) (k : Nat) : G V :=
  ⟨g.mem.store (.slot s (.leaf k)), g.ln, Function.update g.ll k .live⟩

section link
variable {g : G V} {s : Slot} {k : Nat} {v : V}

theorem link_on (hnull : g.mem.load s = .null) (K : W) :
    ∀ p, On g.mem K p → On (g.link s k).mem K p ∨ p = .null := by
  refine on_slot K (· = .null) ?_ ?_ ?_
  · rintro rfl; exact .inr hnull
  · rintro n rfl _ _; exact .inr hnull
  · rintro p _ rfl; exact .inr rfl

theorem link_plive {p : Ptr} (h : PLive g p) : PLive (g.link s k) p := by
  cases p with
  | null => exact trivial
  | node n => exact h
  | leaf l =>
    show Function.update g.ll k .live l = .live
    by_cases hl : l = k
    · subst hl; simp
    · rw [Function.update_of_ne hl]; exact h

theorem link_new_live : PLive (g.link s k) (.leaf k) := by
  show Function.update g.ll k .live k = .live
  simp

theorem link_on_new (hg : GI g) (ht : Through g (g.mem.leaves k).key s)
    (hnull : g.mem.load s = .null) : On (g.link s k).mem (g.mem.leaves k).key (.leaf k) := by
  cases s with
  | root =>
    have := on_root (g.link .root k).mem (g.mem.leaves k).key
    exact this
  | child n i =>
    obtain ⟨h1, h2⟩ := slot_idx ht.2
    rcases link_on (k := k) hnull _ _ (hg.onN n ht.1 _ h1) with h | h
    · have := on_follow h
      unfold G.link at this
      rw [slot_child, slot_shift, h2, if_pos rfl] at this
      exact this
    · cases h

theorem link_gi (hg : GI g) (ht : Through g (g.mem.leaves k).key s)
    (hnull : g.mem.load s = .null) (hv : (g.mem.leaves k).val = .user v) : GI (g.link s k) where
  root := by
    show PLive _ (g.mem.store (.slot s (.leaf k))).root
    rw [slot_root]
    split
    · exact link_new_live
    · exact link_plive hg.root
  kid := by
    intro n hn i
    show PLive _ ((g.mem.store (.slot s (.leaf k))).nodes n |>.child i) ∧
      Under (g.mem.store (.slot s (.leaf k))) n i ((g.mem.store (.slot s (.leaf k))).nodes n |>.child i)
    rw [slot_child, slot_under]
    split
    · rename_i h
      subst h
      exact ⟨link_new_live, ht.2⟩
    · exact ⟨link_plive (hg.kid n hn i).1, (hg.kid n hn i).2⟩
  shp := by
    intro n hn
    show ((g.mem.store (.slot s (.leaf k))).nodes n).shift ≤ 60 ∧
      ((g.mem.store (.slot s (.leaf k))).nodes n).shift % 4 = 0 ∧
      ((g.mem.store (.slot s (.leaf k))).nodes n).path.toNat % 2 ^ (((g.mem.store (.slot s (.leaf k))).nodes n).shift + 4) = 0
    rw [slot_shift, slot_path]
    exact hg.shp n hn
  onN := by
    intro n hn K hf
    rcases link_on (k := k) hnull K _ (hg.onN n hn K ((slot_fits _ _ _ _ _).1 hf)) with h | h
    · exact h
    · cases h
  onL := by
    intro l hl
    show On _ ((g.mem.store (.slot s (.leaf k))).leaves l).key _ ∧
      ∃ v, ((g.mem.store (.slot s (.leaf k))).leaves l).val = _
    rw [slot_leaves]
    by_cases hk : l = k
    · subst hk
      exact ⟨link_on_new hg ht hnull, v, hv⟩
    · have hl' : g.ll l = .live := by
        have : Function.update g.ll k .live l = .live := hl
        rwa [Function.update_of_ne hk] at this
      refine ⟨?_, (hg.onL l hl').2⟩
      rcases link_on (k := k) hnull _ _ (hg.onL l hl').1 with h | h
      · exact h
      · cases h
  ne := by
    intro n hn
    obtain ⟨i, hi⟩ := hg.ne n hn
    refine ⟨i, ?_⟩
    show ((g.mem.store (.slot s (.leaf k))).nodes n).child i ≠ _
    rw [slot_child]
    split
    · simp
    · exact hi

theorem link_tr (hoff : g.ll k = .off) (hnull : g.mem.load s = .null)
    (hs : ∀ n i, s = .child n i → g.ln n = .live) : Tr g (g.link s k) where
  cnt := by show _ ≤ (g.mem.store _).count; rw [slot_count]; exact Nat.le_refl _
  deadN := by
    intro n c hn _
    exact ⟨hn, slot_other _ _ _ fun i hi => by rw [hs n i hi] at hn; cases hn⟩
  deadL := by
    intro l c hl _
    have : l ≠ k := fun e => by rw [e, hoff] at hl; cases hl
    refine ⟨?_, congrFun (slot_leaves _ _ _) l⟩
    show Function.update g.ll k .live l = _
    rw [Function.update_of_ne this]; exact hl
  liveN := fun n hn => .inl ⟨hn, slot_path _ _ _ n, slot_shift _ _ _ n⟩
  liveL := by
    intro l hl
    left
    exact ⟨link_plive (p := .leaf l) hl, congrArg Leaf.key (congrFun (slot_leaves _ _ _) l)⟩
  on := by
    intro K p ho
    rcases link_on (k := k) hnull K p ho with h | h
    · exact .inl h
    · exact .inr (.inl h)

theorem link_has (hoff : g.ll k = .off) (hv : (g.mem.leaves k).val = .user v) (K : W) (x : V) :
    Has (g.link s k) K x ↔ ((g.mem.leaves k).key = K ∧ x = v) ∨ Has g K x := by
  have hlv : (g.link s k).mem.leaves = g.mem.leaves := slot_leaves _ _ _
  constructor
  · rintro ⟨l, h1, h2, h3⟩
    rw [hlv] at h2 h3
    by_cases hk : l = k
    · subst hk
      rw [hv] at h3
      exact .inl ⟨h2, (Val.user.inj h3).symm⟩
    · have : Function.update g.ll k .live l = .live := h1
      rw [Function.update_of_ne hk] at this
      exact .inr ⟨l, this, h2, h3⟩
  · rintro (⟨h1, rfl⟩ | ⟨l, h1, h2, h3⟩)
    · exact ⟨k, link_new_live, by rw [hlv]; exact h1, by rw [hlv]; exact hv⟩
    · exact ⟨l, link_plive (p := .leaf l) h1, by rw [hlv]; exact h2, by rw [hlv]; exact h3⟩

end link

end Verif.Critnib.Conc
