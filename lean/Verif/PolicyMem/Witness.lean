import Verif.PolicyMem.Props
/-! # Where a policy does not keep what was set (C87) -/
namespace Verif.PolicyMem
open Verif.Os (Part)
open Verif.Policy (Policy)

theorem pick {α : Type} {o : Option α} (h : o.isSome = true) (d : α) : o = some (o.getD d) := by
  cases o with
  | none => cases h
  | some p => rfl

theorem run1 {es : List Ev} {w : World} (e : Ev) (h : Run es w) (hf : e.Fair w) (hs : (step w e).isSome = true) :
    Run (es ++ [e]) ((step w e).getD (w, .ok ())).1 := .snoc h hf (pick hs _)

/-- Two partitions, in the array at 100, of the policy 10. -/
def parts : List Part := [⟨3, 0⟩, ⟨1, 2⟩]

def before (l : List Part) : List Ev := [.write 100 l, .create 3 true (some 10)]

theorem before_run (l : List Part) : ∃ w, Run (before l) w ∧ w.arr 100 = some l := by
  have r1 := run1 (.write 100 l) .nil trivial rfl
  have r2 := run1 (.create 3 true (some 10)) r1 ⟨by decide, rfl⟩ rfl
  exact ⟨_, r2, rfl⟩

theorem before_lives (l : List Part) : Lives (before l) 10 3 := ⟨[.write 100 l], [], rfl, by simp⟩

/-- The setting, and another policy. -/
def after (l : List Part) (len : Nat) : List Ev := before l ++ [.setParts 10 100 len] ++ [.create 0 true (some 20), .setPartSize 20 4096]

theorem after_run (l : List Part) (len : Nat) : ∃ w, Run (after l len) w ∧ w.arr 100 = some l := by
  have r1 := run1 (.write 100 l) .nil trivial rfl
  have r2 := run1 (.create 3 true (some 10)) r1 ⟨by decide, rfl⟩ rfl
  have r3 := run1 (.setParts 10 100 len) r2 trivial rfl
  have r4 := run1 (.create 0 true (some 20)) r3 ⟨by decide, rfl⟩ rfl
  have r5 := run1 (.setPartSize 20 4096) r4 trivial rfl
  exact ⟨_, r5, rfl⟩

/-! Concrete cases of the theorems. -/

example : ∃ w, Run (after parts 2) w ∧ read w 10 = some (.ok (some (.split parts))) := by
  obtain ⟨w0, h0, ha⟩ := before_run parts
  obtain ⟨w, hr, _⟩ := after_run parts 2
  exact ⟨w, hr, C87_parts_partial h0 ha (by decide) (by decide) (by decide) hr (before_lives parts) (by simp [Ev.Sets])
    (by simp [Ev.Changes])⟩

example : ∃ w, Run (after parts 2) w ∧ read w 20 = some (.ok (some (.interleave 4096))) := by
  obtain ⟨w, hr, _⟩ := after_run parts 2
  refine ⟨w, hr, ?_⟩
  refine C87_partSize (es := before parts ++ [.setParts 10 100 2] ++ [.create 0 true (some 20)]) (es' := []) (by simpa [after] using hr)
    ⟨before parts ++ [.setParts 10 100 2], [], rfl, by simp⟩ (by simp)

example : ∃ w, Run (before parts) w ∧ read w 10 = some (.ok (some (.split []))) := by
  obtain ⟨w, hr, _⟩ := before_run parts
  exact ⟨w, hr, C87_fresh (es1 := [.write 100 parts]) (es2 := []) (t := 3) hr (by simp)⟩

/-! ## The array is the caller's -/

/-- A program sets partitions, and then uses its array for something else: a provider made from the policy gets the new contents. -/
theorem C87_array_violated : ∃ w, Run (after parts 2 ++ [.write 100 [⟨7, 5⟩, ⟨7, 6⟩]]) w ∧
    read w 10 = some (.ok (some (.split [⟨7, 5⟩, ⟨7, 6⟩]))) := by
  have r1 := run1 (.write 100 parts) .nil trivial rfl
  have r2 := run1 (.create 3 true (some 10)) r1 ⟨by decide, rfl⟩ rfl
  have r3 := run1 (.setParts 10 100 2) r2 trivial rfl
  have r4 := run1 (.create 0 true (some 20)) r3 ⟨by decide, rfl⟩ rfl
  have r5 := run1 (.setPartSize 20 4096) r4 trivial rfl
  have r6 := run1 (.write 100 [⟨7, 5⟩, ⟨7, 6⟩]) r5 trivial rfl
  exact ⟨_, r6, rfl⟩

/-- Or it frees its array, such as a local variable of a function that returns: making a provider reads freed memory. -/
theorem C87_freed_violated : ∃ w, Run (after parts 2 ++ [.free 100]) w ∧ read w 10 = none := by
  have r1 := run1 (.write 100 parts) .nil trivial rfl
  have r2 := run1 (.create 3 true (some 10)) r1 ⟨by decide, rfl⟩ rfl
  have r3 := run1 (.setParts 10 100 2) r2 trivial rfl
  have r4 := run1 (.create 0 true (some 20)) r3 ⟨by decide, rfl⟩ rfl
  have r5 := run1 (.setPartSize 20 4096) r4 trivial rfl
  have r6 := run1 (.free 100) r5 trivial rfl
  exact ⟨_, r6, rfl⟩

/-- Of 2^32 + 1 partitions only the first is used, and of 2^32 none, without an error. -/
theorem C87_count_violated (l : List Part) (hl : l.length = 2 ^ 32 + 1) :
    (∃ w, Run (after l (2 ^ 32 + 1)) w ∧ read w 10 = some (.ok (some (.split (l.take 1))))) ∧
    ∃ w, Run (after l (2 ^ 32)) w ∧ read w 10 = some (.ok (some (.split []))) := by
  have key : ∀ len, ∃ w, Run (after l len) w ∧ w.arr 100 = some l ∧ w.pol 10 = some ⟨3, some 100, some len⟩ := by
    intro len
    obtain ⟨w, hr, ha⟩ := after_run l len
    exact ⟨w, hr, ha, (parts_pol (es := before l) hr (before_lives l) (by simp [Ev.Sets])).2⟩
  constructor
  · obtain ⟨w, hr, ha, hp⟩ := key (2 ^ 32 + 1)
    refine ⟨w, hr, ?_⟩
    have h1 : copyParts w (some 100) ((2 ^ 32 + 1) % 2 ^ 32) = some (.ok (l.take 1)) := by
      rw [show (2 ^ 32 + 1) % 2 ^ 32 = 1 from by decide]
      unfold copyParts
      rw [if_neg (by decide)]
      dsimp only
      rw [if_neg (by decide), ha]
      dsimp only
      rw [if_pos (by omega)]
    unfold read
    rw [if_neg (by decide), hp]
    dsimp only
    rw [h1]
    rfl
  · obtain ⟨w, hr, ha, hp⟩ := key (2 ^ 32)
    refine ⟨w, hr, ?_⟩
    have h1 : copyParts w (some 100) (2 ^ 32 % 2 ^ 32) = some (.ok []) := by
      rw [show 2 ^ 32 % 2 ^ 32 = 0 from by decide]
      rfl
    unfold read
    rw [if_neg (by decide), hp]
    dsimp only
    rw [h1]
    rfl

example : ∃ l : List Part, l.length = 2 ^ 32 + 1 := ⟨List.replicate _ ⟨1, 0⟩, List.length_replicate⟩

end Verif.PolicyMem
