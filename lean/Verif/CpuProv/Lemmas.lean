import Verif.CpuProv.Spec
import Mathlib.Data.List.Basic
import Mathlib.Tactic.SplitIfs
import Mathlib.Tactic.Tauto
/-!
# Lemmas for the life cycle of the CPU providers
-/
namespace Verif.CpuProv
open Verif.Policy

/-- One event of a provider on its own objects. -/
def run1 (S : Slot → Bool) : Ev → Option (Slot → Bool)
  | .mk _ s => if S s then none else some fun x => if x = s then true else S x
  | .rm _ s => if S s then some fun x => if x = s then false else S x else none
  | .crash => none

def run (S : Slot → Bool) : List Ev → Option (Slot → Bool)
  | [] => some S
  | e :: es => (run1 S e).bind fun S => run S es

def Ev.of (n : Nat) : Ev → Prop
  | .mk m _ | .rm m _ => m = n
  | .crash => True

theorem put_put (st : State) (n : Nat) (S T : Slot → Bool) : put (put st n S) n T = put st n T := by
  funext m x; unfold put; split_ifs <;> rfl

theorem put_self (st : State) (n : Nat) : put st n (st n) = st := by
  funext m x; unfold put; split_ifs with h
  · rw [h]
  · rfl

theorem apply1_put (st : State) (n : Nat) (S : Slot → Bool) (e : Ev) (h : e.of n) :
    apply1 (put st n S) e = (run1 S e).map (put st n) := by
  cases e with
  | mk m s =>
    have : m = n := h
    subst this
    have e1 : put st m S m s = S s := by simp [put]
    simp only [apply1, run1, e1]
    by_cases hs : S s
    · simp [hs]
    · simp only [hs]
      simp only [Option.map_some, Bool.false_eq_true, if_false]
      congr 1
      funext k x
      unfold put
      by_cases hk : k = m <;> simp [hk]
  | rm m s =>
    have : m = n := h
    subst this
    have e1 : put st m S m s = S s := by simp [put]
    simp only [apply1, run1, e1]
    by_cases hs : S s
    · simp only [hs]
      simp only [Option.map_some, if_true]
      congr 1
      funext k x
      unfold put
      by_cases hk : k = m <;> simp [hk]
    · simp [hs]
  | crash => rfl

theorem apply_put (st : State) (n : Nat) (es : List Ev) (h : ∀ e ∈ es, e.of n) (S : Slot → Bool) :
    apply (put st n S) es = (run S es).map (put st n) := by
  induction es generalizing S with
  | nil => rfl
  | cons e es ih =>
    simp only [apply, run]
    rw [apply1_put st n S e (h e (by simp))]
    cases he : run1 S e with
    | none => rfl
    | some T =>
      simp only [Option.map_some, Option.bind_some]
      exact ih (fun e he => h e (by simp [he])) T

theorem run_append (S : Slot → Bool) (a b : List Ev) : run S (a ++ b) = (run S a).bind fun T => run T b := by
  induction a generalizing S with
  | nil => rfl
  | cons e es ih =>
    simp only [List.cons_append, run]
    cases run1 S e with
    | none => rfl
    | some T => simp only [Option.bind_some]; exact ih T

theorem run_mks (S : Slot → Bool) (n : Nat) (L : List Slot) (nd : L.Nodup) (h : ∀ s ∈ L, S s = false) :
    run S (L.map (Ev.mk n)) = some fun x => if x ∈ L then true else S x := by
  induction L generalizing S with
  | nil => simp [run]
  | cons s L ih =>
    simp only [List.map_cons, run, run1, h s (by simp), Bool.false_eq_true, if_false, Option.bind_some]
    rw [List.nodup_cons] at nd
    rw [ih _ nd.2]
    · congr 1; funext x; by_cases hx : x = s <;> by_cases hl : x ∈ L <;> simp [hx, hl]
    · intro t ht
      have : t ≠ s := by rintro rfl; exact nd.1 ht
      simp [this, h t (by simp [ht])]

theorem run_rms (S : Slot → Bool) (n : Nat) (L : List Slot) (nd : L.Nodup) (h : ∀ s ∈ L, S s = true) :
    run S (L.map (Ev.rm n)) = some fun x => if x ∈ L then false else S x := by
  induction L generalizing S with
  | nil => simp [run]
  | cons s L ih =>
    simp only [List.map_cons, run, run1, h s (by simp), if_true, Option.bind_some]
    rw [List.nodup_cons] at nd
    rw [ih _ nd.2]
    · congr 1; funext x; by_cases hx : x = s <;> by_cases hl : x ∈ L <;> simp [hx, hl]
    · intro t ht
      have : t ≠ s := by rintro rfl; exact nd.1 ht
      simp [this, h t (by simp [ht])]

/-- The list of objects that the release of one block consists of. -/
def blockSlots (c : CoarseSt) : List Slot :=
  c.blocks.flatMap fun b => (if b ∈ c.elems then [Slot.elem b] else []) ++ [Slot.block b]

theorem mem_blockSlots (c : CoarseSt) (hc : ∀ e ∈ c.elems, e ∈ c.blocks) (x : Slot) :
    x ∈ blockSlots c ↔ (∃ b ∈ c.blocks, x = .block b) ∨ ∃ e ∈ c.elems, x = .elem e := by
  simp only [blockSlots, List.mem_flatMap, List.mem_append, List.mem_singleton]
  constructor
  · rintro ⟨b, hb, h | h⟩
    · split_ifs at h with he
      · exact Or.inr ⟨b, he, by simpa using h⟩
      · simp at h
    · exact Or.inl ⟨b, hb, h⟩
  · rintro (⟨b, hb, h⟩ | ⟨e, he, h⟩)
    · exact ⟨b, hb, Or.inr h⟩
    · exact ⟨e, hc e he, Or.inl (by simp [he, h])⟩

theorem nodup_blockSlots (c : CoarseSt) (nd : c.blocks.Nodup) : (blockSlots c).Nodup := by
  unfold blockSlots
  generalize c.blocks = L at *
  induction L with
  | nil => simp
  | cons b L ih =>
    rw [List.nodup_cons] at nd
    rw [List.flatMap_cons, List.nodup_append]
    refine ⟨?_, ih nd.2, ?_⟩
    · split_ifs <;> simp
    · intro x hx y hy hxy
      subst hxy
      rw [List.mem_flatMap] at hy
      obtain ⟨b', hb', hy⟩ := hy
      have hne : b' ≠ b := by rintro rfl; exact nd.1 hb'
      split_ifs at hx hy <;> simp at hx hy
      all_goals
        rcases hx with hx | hx <;> rcases hy with hy | hy <;> simp_all

/-- Everything that `coarse_delete` releases. -/
def coarseSlots (c : CoarseSt) : List Slot :=
  .coarseLock :: blockSlots c ++ c.heads.map Slot.head ++ [.allTree, .freeTree, .coarse]

theorem coarseDelete_eq (n : Nat) (c : CoarseSt) : coarseDelete n c = (coarseSlots c).map (Ev.rm n) := by
  simp only [coarseDelete, coarseSlots, blockSlots, List.map_cons, List.map_append, List.map_flatMap, List.map_map,
    List.map_nil, Function.comp_def]
  congr 4
  funext b
  split_ifs <;> rfl

theorem mem_coarseSlots (c : CoarseSt) (hc : c.Ok) (x : Slot) : x ∈ coarseSlots c ↔ coarseOwns c x = true := by
  have hb := mem_blockSlots c hc.2.2.2 x
  simp only [coarseSlots, List.cons_append, List.mem_cons, List.mem_append, List.mem_map, hb]
  cases x <;> simp [coarseOwns]

theorem nodup_coarseSlots (c : CoarseSt) (hc : c.Ok) : (coarseSlots c).Nodup := by
  have hb := nodup_blockSlots c hc.1
  have hm := mem_blockSlots c hc.2.2.2
  have hh : (c.heads.map Slot.head).Nodup := List.Pairwise.map Slot.head (fun a b h => by simpa using h) hc.2.2.1
  simp only [coarseSlots, List.cons_append, List.nodup_cons, List.nodup_append, List.mem_append, List.mem_map, hm]
  refine ⟨by simp, ⟨hb, hh, ?_⟩, by simp, ?_⟩
  · rintro a (⟨b, _, rfl⟩ | ⟨b, _, rfl⟩) y ⟨z, _, rfl⟩ <;> simp
  · rintro a ((⟨b, _, rfl⟩ | ⟨b, _, rfl⟩) | ⟨z, _, rfl⟩) y hy <;> simp at hy <;> rcases hy with rfl | rfl | rfl <;> simp

/-- `coarse_delete` releases what `coarse_t` owns. -/
theorem run_coarseDelete (S : Slot → Bool) (n : Nat) (c : CoarseSt) (hc : c.Ok)
    (h : ∀ x, coarseOwns c x = true → S x = true) :
    run S (coarseDelete n c) = some fun x => if coarseOwns c x then false else S x := by
  rw [coarseDelete_eq, run_rms S n _ (nodup_coarseSlots c hc) fun s hs => h s ((mem_coarseSlots c hc s).1 hs)]
  congr 1; funext x
  by_cases hx : x ∈ coarseSlots c
  · simp [hx, (mem_coarseSlots c hc x).1 hx]
  · have : ¬ coarseOwns c x = true := fun h' => hx ((mem_coarseSlots c hc x).2 h')
    simp [hx, this]

/-- The list of the bitmaps. -/
theorem mkBitmaps_eq (n m : Nat) : mkBitmaps n m = ((List.range m).map Slot.bitmap).map (Ev.mk n) := by
  simp [mkBitmaps, Function.comp_def]

theorem rmBitmaps_eq (n m : Nat) : rmBitmaps n m = ((List.range m).map Slot.bitmap).map (Ev.rm n) := by
  simp [rmBitmaps, Function.comp_def]

theorem nodup_bitmaps (m : Nat) : ((List.range m).map Slot.bitmap).Nodup :=
  List.Pairwise.map Slot.bitmap (fun a b h => by simpa using h) List.nodup_range

theorem mem_bitmaps (m : Nat) (x : Slot) : x ∈ (List.range m).map Slot.bitmap ↔ ∃ i < m, x = .bitmap i := by
  simp only [List.mem_map, List.mem_range]
  constructor
  · rintro ⟨i, h, rfl⟩; exact ⟨i, h, rfl⟩
  · rintro ⟨i, h, rfl⟩; exact ⟨i, h, rfl⟩

/-- The bitmaps below `m`. -/
def isBitmap (m : Nat) : Slot → Bool
  | .bitmap i => decide (i < m)
  | _ => false

theorem mem_isBitmap (m : Nat) (x : Slot) : x ∈ (List.range m).map Slot.bitmap ↔ isBitmap m x = true := by
  rw [mem_bitmaps]; cases x <;> simp [isBitmap]

theorem run_mkBitmaps (S : Slot → Bool) (n m : Nat) (h : ∀ i, S (.bitmap i) = false) :
    run S (mkBitmaps n m) = some fun x => isBitmap m x || S x := by
  rw [mkBitmaps_eq, run_mks S n _ (nodup_bitmaps m)]
  · congr 1; funext x
    by_cases hx : x ∈ (List.range m).map Slot.bitmap
    · rw [if_pos hx, (mem_isBitmap m x).1 hx]; rfl
    · rw [if_neg hx]
      have : isBitmap m x = false := by
        rcases hb : isBitmap m x with _ | _
        · rfl
        · exact absurd ((mem_isBitmap m x).2 hb) hx
      rw [this]; rfl
  · intro s hs
    obtain ⟨i, _, rfl⟩ := (mem_bitmaps m s).1 hs
    exact h i

theorem run_rmBitmaps (S : Slot → Bool) (n m : Nat) (h : ∀ i < m, S (.bitmap i) = true) :
    run S (rmBitmaps n m) = some fun x => !isBitmap m x && S x := by
  rw [rmBitmaps_eq, run_rms S n _ (nodup_bitmaps m)]
  · congr 1; funext x
    by_cases hx : x ∈ (List.range m).map Slot.bitmap
    · rw [if_pos hx, (mem_isBitmap m x).1 hx]; rfl
    · rw [if_neg hx]
      have : isBitmap m x = false := by
        rcases hb : isBitmap m x with _ | _
        · rfl
        · exact absurd ((mem_isBitmap m x).2 hb) hx
      rw [this]; rfl
  · intro s hs
    obtain ⟨i, hi, rfl⟩ := (mem_bitmaps m s).1 hs
    exact h i hi

theorem firstFail_none (ok : Nat → Bool) (m : Nat) (h : ∀ i, ok i = true) : firstFail ok m = none := by
  simp [firstFail, h]

end Verif.CpuProv
