import Verif.Critnib.ConcModel
import Verif.Critnib.Bits
/-! # The shape of the shared tree, and the changes writers make to it -/
namespace Verif.Critnib.Conc
open Verif.Critnib

variable {V : Type}

/-- What a node or leaf is: unreachable for readers (free, never used, or being filled), in the
tree, or unlinked by removal number `c` and not yet reused. -/
inductive Lab where
  | off
  | live
  | dead (c : Nat)
deriving DecidableEq

/-- Memory with labels. -/
structure G (V : Type) where
  mem : Mem V
  ln : Nat → Lab
  ll : Nat → Lab

/-- In the tree. -/
def PLive (g : G V) : Ptr → Prop
  | .null => True
  | .leaf l => g.ll l = .live
  | .node n => g.ln n = .live

/-- One step of a search for `K`. -/
def follow (m : Mem V) (K : W) : Ptr → Ptr
  | .node n => (m.nodes n).child (idx K (m.nodes n).shift)
  | p => p

/-- The search for `K` after `j` steps, from the root. -/
def pos (m : Mem V) (K : W) : Nat → Ptr
  | 0 => m.root
  | j + 1 => follow m K (pos m K j)

/-- `p` is on the search path of `K`. -/
def On (m : Mem V) (K : W) (p : Ptr) : Prop := ∃ j, pos m K j = p

/-- `K` may be below `p`. -/
def Fits (m : Mem V) (K : W) : Ptr → Prop
  | .null => False
  | .leaf l => (m.leaves l).key = K
  | .node n => K.toNat / 2 ^ ((m.nodes n).shift + 4) =
      (m.nodes n).path.toNat / 2 ^ ((m.nodes n).shift + 4)

/-- The prefix of slot `i` of node `n`. -/
def slotPre (m : Mem V) (n : Nat) (i : Fin 16) : Nat :=
  (m.nodes n).path.toNat / 2 ^ ((m.nodes n).shift + 4) * 16 + i.val

/-- `p` may be in slot `i` of node `n`. -/
def Under (m : Mem V) (n : Nat) (i : Fin 16) : Ptr → Prop
  | .null => True
  | .leaf l => (m.leaves l).key.toNat / 2 ^ (m.nodes n).shift = slotPre m n i
  | .node c => (m.nodes c).shift + 4 ≤ (m.nodes n).shift ∧
      (m.nodes c).path.toNat / 2 ^ (m.nodes n).shift = slotPre m n i

/-- The tree is well shaped. -/
structure GI (g : G V) : Prop where
  root : PLive g g.mem.root
  kid : ∀ n, g.ln n = .live → ∀ i, PLive g ((g.mem.nodes n).child i) ∧
    Under g.mem n i ((g.mem.nodes n).child i)
  shp : ∀ n, g.ln n = .live → (g.mem.nodes n).shift ≤ 60 ∧ (g.mem.nodes n).shift % 4 = 0 ∧
    (g.mem.nodes n).path.toNat % 2 ^ ((g.mem.nodes n).shift + 4) = 0
  onN : ∀ n, g.ln n = .live → ∀ K, Fits g.mem K (.node n) → On g.mem K (.node n)
  onL : ∀ l, g.ll l = .live → On g.mem (g.mem.leaves l).key (.leaf l) ∧
    ∃ v, (g.mem.leaves l).val = .user v
  ne : ∀ n, g.ln n = .live → ∃ i, (g.mem.nodes n).child i ≠ .null

/-- A live leaf holds `v` for `K`. -/
def Has (g : G V) (K : W) (v : V) : Prop :=
  ∃ l, g.ll l = .live ∧ (g.mem.leaves l).key = K ∧ (g.mem.leaves l).val = .user v

/-- The search for `K` ends at a leaf that holds `v` for `K`. -/
def Holds (m : Mem V) (K : W) (v : V) : Prop :=
  ∃ l, On m K (.leaf l) ∧ (m.leaves l).key = K ∧ (m.leaves l).val = .user v

open Classical in
/-- The map the memory stands for. -/
noncomputable def absMap (m : Mem V) : Spec.Map V :=
  fun K => if h : ∃ v, Holds m K v then some h.choose else none

/-! ## Prefixes -/

theorem under_pre {m : Mem V} {n : Nat} {i : Fin 16} {p : Ptr} {K : W} (hu : Under m n i p)
    (hf : Fits m K p) : K.toNat / 2 ^ (m.nodes n).shift = slotPre m n i := by
  cases p with
  | null => cases hf
  | leaf l => simp only [Fits] at hf; subst hf; exact hu
  | node c =>
    simp only [Fits] at hf
    rw [← hu.2]
    exact prefix_mono hf hu.1

theorem slot_idx {m : Mem V} {n : Nat} {i : Fin 16} {K : W}
    (h : K.toNat / 2 ^ (m.nodes n).shift = slotPre m n i) :
    Fits m K (.node n) ∧ idx K (m.nodes n).shift = i := by
  have h1 := prefix_split K.toNat (m.nodes n).shift
  have h2 := i.isLt
  unfold slotPre at h
  refine ⟨?_, Fin.ext ?_⟩
  · show _ = _
    have h3 : K.toNat / 2 ^ (m.nodes n).shift % 16 < 16 := Nat.mod_lt _ (by omega)
    omega
  · rw [idx_val]; omega

theorem idx_slot {m : Mem V} {n : Nat} {K : W} (h : Fits m K (.node n)) :
    K.toNat / 2 ^ (m.nodes n).shift = slotPre m n (idx K (m.nodes n).shift) := by
  unfold slotPre
  rw [idx_val, ← show _ = _ from h]
  exact prefix_split _ _

/-- What fits a child fits the node and belongs in that slot. -/
theorem fits_child {m : Mem V} {n : Nat} {i : Fin 16} {p : Ptr} {K : W} (hu : Under m n i p)
    (hf : Fits m K p) : Fits m K (.node n) ∧ idx K (m.nodes n).shift = i :=
  slot_idx (under_pre hu hf)

/-! ## Search paths -/

theorem pos_live {g : G V} (h : GI g) (K : W) (j : Nat) : PLive g (pos g.mem K j) := by
  induction j with
  | zero => exact h.root
  | succ j ih =>
    show PLive g (follow _ _ _)
    cases hp : pos g.mem K j with
    | null => exact trivial
    | leaf l => rw [hp] at ih; exact ih
    | node n => rw [hp] at ih; exact (h.kid n ih _).1

theorem on_live {g : G V} (h : GI g) {K : W} {p : Ptr} (ho : On g.mem K p) : PLive g p := by
  obtain ⟨j, rfl⟩ := ho; exact pos_live h K j

theorem on_root (m : Mem V) (K : W) : On m K m.root := ⟨0, rfl⟩

theorem on_follow {m : Mem V} {K : W} {n : Nat} (h : On m K (.node n)) :
    On m K ((m.nodes n).child (idx K (m.nodes n).shift)) := by
  obtain ⟨j, hj⟩ := h
  exact ⟨j + 1, by show follow _ _ _ = _; rw [hj]; rfl⟩

theorem pos_leaf {m : Mem V} {K : W} {l : Nat} {j : Nat} (h : pos m K j = .leaf l) (k : Nat) :
    pos m K (j + k) = .leaf l := by
  induction k with
  | zero => exact h
  | succ k ih => show follow _ _ (pos m K (j + k)) = _; rw [ih]; rfl

theorem pos_null {m : Mem V} {K : W} {j : Nat} (h : pos m K j = .null) (k : Nat) :
    pos m K (j + k) = .null := by
  induction k with
  | zero => exact h
  | succ k ih => show follow _ _ (pos m K (j + k)) = _; rw [ih]; rfl

theorem on_leaf_unique {m : Mem V} {K : W} {l l' : Nat} (h : On m K (.leaf l))
    (h' : On m K (.leaf l')) : l = l' := by
  obtain ⟨j, hj⟩ := h
  obtain ⟨j', hj'⟩ := h'
  have h1 := pos_leaf hj j'
  have h2 := pos_leaf hj' j
  rw [Nat.add_comm, h1] at h2
  exact Ptr.leaf.inj h2

theorem not_fits_child {g : G V} (h : GI g) {n : Nat} (hl : g.ln n = .live) {K : W} (i : Fin 16)
    (hf : ¬ Fits g.mem K (.node n)) : ¬ Fits g.mem K ((g.mem.nodes n).child i) :=
  fun hc => hf (fits_child (h.kid n hl i).2 hc).1

/-- Once the search for `K` is at a pointer where `K` cannot be, it does not find `K`. -/
theorem miss_forward {g : G V} (h : GI g) {K : W} {j : Nat} (hf : ¬ Fits g.mem K (pos g.mem K j))
    (k : Nat) : ¬ Fits g.mem K (pos g.mem K (j + k)) := by
  induction k with
  | zero => exact hf
  | succ k ih =>
    show ¬ Fits g.mem K (follow g.mem K (pos g.mem K (j + k)))
    have hl := pos_live h K (j + k)
    cases hp : pos g.mem K (j + k) with
    | null => rw [hp] at ih; exact ih
    | leaf l => rw [hp] at ih; exact ih
    | node n =>
      rw [hp] at ih hl
      exact not_fits_child h hl _ ih

/-- No entry for `K` if its search path has a pointer where `K` cannot be. -/
theorem no_holds {g : G V} (h : GI g) {K : W} {p : Ptr} (ho : On g.mem K p)
    (hf : ¬ Fits g.mem K p) (v : V) : ¬ Holds g.mem K v := by
  rintro ⟨l, ⟨j', hj'⟩, hk, _⟩
  obtain ⟨j, rfl⟩ := ho
  have h1 := miss_forward h hf j'
  have h2 := pos_leaf hj' j
  rw [Nat.add_comm j j', h2] at h1
  exact h1 hk

theorem holds_unique {m : Mem V} {K : W} {v v' : V} (h : Holds m K v) (h' : Holds m K v') :
    v = v' := by
  obtain ⟨l, h1, _, h3⟩ := h
  obtain ⟨l', h1', _, h3'⟩ := h'
  have := on_leaf_unique h1 h1'
  subst this
  rw [h3] at h3'
  exact Val.user.inj h3'

theorem absMap_some {m : Mem V} {K : W} {v : V} : absMap m K = some v ↔ Holds m K v := by
  unfold absMap
  constructor
  · intro h
    split at h
    · rename_i h1
      have := h1.choose_spec
      rw [Option.some.inj h] at this
      exact this
    · cases h
  · intro h
    have h1 : ∃ v, Holds m K v := ⟨v, h⟩
    rw [dif_pos h1]
    exact congrArg some (holds_unique h1.choose_spec h)

theorem absMap_none {m : Mem V} {K : W} : absMap m K = none ↔ ∀ v, ¬ Holds m K v := by
  constructor
  · intro h v hv
    rw [absMap_some.2 hv] at h; cases h
  · intro h
    cases hm : absMap m K with
    | none => rfl
    | some v => exact absurd (absMap_some.1 hm) (h v)

theorem holds_iff {g : G V} (h : GI g) {K : W} {v : V} : Holds g.mem K v ↔ Has g K v := by
  constructor
  · rintro ⟨l, h1, h2, h3⟩
    exact ⟨l, on_live h h1, h2, h3⟩
  · rintro ⟨l, h1, h2, h3⟩
    exact ⟨l, h2 ▸ (h.onL l h1).1, h2, h3⟩

theorem abs_some {g : G V} (h : GI g) {K : W} {v : V} : absMap g.mem K = some v ↔ Has g K v :=
  absMap_some.trans (holds_iff h)

theorem abs_none {g : G V} (h : GI g) {K : W} : absMap g.mem K = none ↔ ∀ v, ¬ Has g K v := by
  rw [absMap_none]
  exact forall_congr' fun v => not_congr (holds_iff h)

/-- The maps of two memories with the same entries are the same. -/
theorem abs_ext {g g' : G V} (h : GI g) (h' : GI g') (he : ∀ K v, Has g' K v ↔ Has g K v) :
    absMap g'.mem = absMap g.mem := by
  funext K
  cases hm : absMap g.mem K with
  | none => exact (abs_none h').2 fun v hv => (abs_none h).1 hm v ((he K v).1 hv)
  | some v => exact (abs_some h').2 ((he K v).2 ((abs_some h).1 hm))

/-- A live leaf is the entry of its key. -/
theorem abs_leaf {g : G V} (h : GI g) {l : Nat} (hl : g.ll l = .live) :
    ∃ v, (g.mem.leaves l).val = .user v ∧ absMap g.mem (g.mem.leaves l).key = some v := by
  obtain ⟨v, hv⟩ := (h.onL l hl).2
  exact ⟨v, hv, (abs_some h).2 ⟨l, hl, rfl, hv⟩⟩

/-- No two live leaves have the same key. -/
theorem live_leaf_unique {g : G V} (h : GI g) {l l' : Nat} (hl : g.ll l = .live)
    (hl' : g.ll l' = .live) (hk : (g.mem.leaves l).key = (g.mem.leaves l').key) : l = l' :=
  on_leaf_unique (h.onL l hl).1 (hk ▸ (h.onL l' hl').1)

theorem abs_miss {g : G V} (h : GI g) {K : W} {p : Ptr} (ho : On g.mem K p)
    (hf : ¬ Fits g.mem K p) : absMap g.mem K = none :=
  absMap_none.2 (no_holds h ho hf)

/-- Below a live node there is an entry. -/
theorem node_entry {g : G V} (h : GI g) : ∀ (s n : Nat), (g.mem.nodes n).shift ≤ s → g.ln n = .live →
    ∀ i, (g.mem.nodes n).child i ≠ .null →
    ∃ K v, absMap g.mem K = some v ∧ K.toNat / 2 ^ (g.mem.nodes n).shift = slotPre g.mem n i := by
  intro s
  induction s with
  | zero =>
    intro n hs hl i hi
    obtain ⟨h1, h2⟩ := h.kid n hl i
    cases hp : (g.mem.nodes n).child i with
    | null => exact absurd hp hi
    | leaf l =>
      rw [hp] at h1 h2
      obtain ⟨v, _, hv⟩ := abs_leaf h h1
      exact ⟨_, v, hv, h2⟩
    | node c =>
      rw [hp] at h2
      have := h2.1
      omega
  | succ s ih =>
    intro n hs hl i hi
    obtain ⟨h1, h2⟩ := h.kid n hl i
    cases hp : (g.mem.nodes n).child i with
    | null => exact absurd hp hi
    | leaf l =>
      rw [hp] at h1 h2
      obtain ⟨v, _, hv⟩ := abs_leaf h h1
      exact ⟨_, v, hv, h2⟩
    | node c =>
      rw [hp] at h1 h2
      obtain ⟨i', hi'⟩ := h.ne c h1
      obtain ⟨K, v, hv, hK⟩ := ih c (by have := h2.1; omega) h1 i' hi'
      exact ⟨K, v, hv, under_pre h2 (slot_idx hK).1⟩

/-! ## Changes -/

/-- What every store of a writer leaves intact. -/
structure Tr (g g' : G V) : Prop where
  cnt : g.mem.count ≤ g'.mem.count
  deadN : ∀ n c, g.ln n = .dead c → g'.mem.count < c + 16 →
    g'.ln n = .dead c ∧ g'.mem.nodes n = g.mem.nodes n
  deadL : ∀ l c, g.ll l = .dead c → g'.mem.count < c + 16 →
    g'.ll l = .dead c ∧ g'.mem.leaves l = g.mem.leaves l
  liveN : ∀ n, g.ln n = .live →
    (g'.ln n = .live ∧ (g'.mem.nodes n).path = (g.mem.nodes n).path ∧
      (g'.mem.nodes n).shift = (g.mem.nodes n).shift) ∨
    (g'.ln n = .dead g'.mem.count ∧ g'.mem.nodes n = g.mem.nodes n ∧
      (∀ i, PLive g' ((g.mem.nodes n).child i)) ∧
      ∀ K, On g.mem K (.node n) →
        On g'.mem K ((g.mem.nodes n).child (idx K (g.mem.nodes n).shift)) ∨
        (g.mem.nodes n).child (idx K (g.mem.nodes n).shift) = .null)
  liveL : ∀ l, g.ll l = .live →
    (g'.ll l = .live ∧ (g'.mem.leaves l).key = (g.mem.leaves l).key) ∨
    (g'.ll l = .dead g'.mem.count ∧ g'.mem.leaves l = g.mem.leaves l)
  on : ∀ K p, On g.mem K p → On g'.mem K p ∨ p = .null ∨ ¬ Fits g.mem K p ∨
    (∃ n, p = .node n ∧ g'.ln n = .dead g'.mem.count) ∨
    (∃ l, p = .leaf l ∧ g'.ll l = .dead g'.mem.count)

/-- Nothing a reader relies on changes. -/
structure Quiet (g g' : G V) : Prop where
  root : g'.mem.root = g.mem.root
  cnt : g.mem.count ≤ g'.mem.count
  liveN : ∀ n, g.ln n = .live → g'.ln n = .live ∧ g'.mem.nodes n = g.mem.nodes n
  liveL : ∀ l, g.ll l = .live → g'.ll l = .live ∧ g'.mem.leaves l = g.mem.leaves l
  newN : ∀ n, g'.ln n = .live → g.ln n = .live
  newL : ∀ l, g'.ll l = .live → g.ll l = .live
  deadN : ∀ n c, g.ln n = .dead c → g'.mem.count < c + 16 →
    g'.ln n = .dead c ∧ g'.mem.nodes n = g.mem.nodes n
  deadL : ∀ l c, g.ll l = .dead c → g'.mem.count < c + 16 →
    g'.ll l = .dead c ∧ g'.mem.leaves l = g.mem.leaves l

theorem Quiet.pos {g g' : G V} (q : Quiet g g') (h : GI g) (K : W) (j : Nat) :
    pos g'.mem K j = pos g.mem K j := by
  induction j with
  | zero => exact q.root
  | succ j ih =>
    show follow _ _ _ = follow _ _ _
    rw [ih]
    have hl := pos_live h K j
    cases hp : Conc.pos g.mem K j with
    | null => rfl
    | leaf l => rfl
    | node n =>
      rw [hp] at hl
      show (g'.mem.nodes n).child _ = (g.mem.nodes n).child _
      rw [(q.liveN n hl).2]

theorem Quiet.on {g g' : G V} (q : Quiet g g') (h : GI g) {K : W} {p : Ptr} :
    On g'.mem K p ↔ On g.mem K p := by
  constructor
  · rintro ⟨j, hj⟩; exact ⟨j, (q.pos h K j).symm.trans hj⟩
  · rintro ⟨j, hj⟩; exact ⟨j, (q.pos h K j).trans hj⟩

theorem Quiet.plive {g g' : G V} (q : Quiet g g') {p : Ptr} (h : PLive g p) : PLive g' p := by
  cases p with
  | null => exact trivial
  | leaf l => exact (q.liveL l h).1
  | node n => exact (q.liveN n h).1

theorem Quiet.under {g g' : G V} (q : Quiet g g') {n : Nat} (hn : g.ln n = .live) {i : Fin 16}
    {p : Ptr} (hp : PLive g p) (h : Under g.mem n i p) : Under g'.mem n i p := by
  have hs : slotPre g'.mem n i = slotPre g.mem n i := by unfold slotPre; rw [(q.liveN n hn).2]
  cases p with
  | null => exact trivial
  | leaf l =>
    show _ = _
    rw [hs, (q.liveN n hn).2, (q.liveL l hp).2]; exact h
  | node c =>
    show _ ∧ _ = _
    rw [hs, (q.liveN n hn).2, (q.liveN c hp).2]; exact h

theorem Quiet.gi {g g' : G V} (q : Quiet g g') (h : GI g) : GI g' where
  root := by rw [q.root]; exact q.plive h.root
  kid := by
    intro n hn i
    have hn' := q.newN n hn
    rw [(q.liveN n hn').2]
    exact ⟨q.plive (h.kid n hn' i).1, q.under hn' (h.kid n hn' i).1 (h.kid n hn' i).2⟩
  shp := by
    intro n hn
    have hn' := q.newN n hn
    rw [(q.liveN n hn').2]; exact h.shp n hn'
  onN := by
    intro n hn K hf
    have hn' := q.newN n hn
    rw [q.on h]
    apply h.onN n hn'
    simp only [Fits] at hf ⊢
    rw [(q.liveN n hn').2] at hf; exact hf
  onL := by
    intro l hl
    have hl' := q.newL l hl
    rw [q.on h, (q.liveL l hl').2]
    exact h.onL l hl'
  ne := by
    intro n hn
    have hn' := q.newN n hn
    rw [(q.liveN n hn').2]; exact h.ne n hn'

theorem Quiet.tr {g g' : G V} (q : Quiet g g') (h : GI g) : Tr g g' where
  cnt := q.cnt
  deadN := q.deadN
  deadL := q.deadL
  liveN := fun n hn => .inl ⟨(q.liveN n hn).1, by rw [(q.liveN n hn).2], by rw [(q.liveN n hn).2]⟩
  liveL := fun l hl => .inl ⟨(q.liveL l hl).1, by rw [(q.liveL l hl).2]⟩
  on := fun K p ho => .inl ((q.on h).2 ho)

theorem Quiet.has {g g' : G V} (q : Quiet g g') (K : W) (v : V) : Has g' K v ↔ Has g K v := by
  constructor
  · rintro ⟨l, h1, h2, h3⟩
    have h1' := q.newL l h1
    rw [(q.liveL l h1').2] at h2 h3
    exact ⟨l, h1', h2, h3⟩
  · rintro ⟨l, h1, h2, h3⟩
    exact ⟨l, (q.liveL l h1).1, by rw [(q.liveL l h1).2]; exact h2,
      by rw [(q.liveL l h1).2]; exact h3⟩

theorem Quiet.abs {g g' : G V} (q : Quiet g g') (h : GI g) : absMap g'.mem = absMap g.mem :=
  abs_ext h (q.gi h) q.has

end Verif.Critnib.Conc
