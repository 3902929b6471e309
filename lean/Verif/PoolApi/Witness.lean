import Verif.PoolApi.Props
/-! # A concrete case of C86, and where the table of a pool is not checked -/
namespace Verif.PoolApi

/-- A complete table; functions are numbers. -/
def full (k : Nat) : Ops Nat := ⟨some (k + 1), some (k + 2), some (k + 3), some (k + 4), some (k + 5), some (k + 6), some (k + 7), some (k + 8),
  some (k + 9), none⟩

def tabs : Nat → Ops Nat := fun t => full (100 * t)

/-- Memory that is given. -/
def given (h w : Nat) : Ans := ⟨some h, .ok w, true⟩

/-- A tracked pool whose `initialize` creates another pool on top of its provider, without tracking, from the table 2; then the
table 1 is overwritten, and a third pool is refused. -/
def demo : List (Ev Nat) := [.createBegin 1 7 9 true true true (given 10 11), .createBegin 2 11 0 false false true (given 20 21),
  .createEnd 20 (.ok 22), .write 1 (full 900), .createEnd 10 (.ok 12), .createBegin 1 7 9 true false true (given 30 31),
  .createEnd 30 (.error (.other 5)), .call 20 (.malloc 64) 0x1000]

theorem pick {α : Type} {o : Option α} (h : o.isSome = true) (d : α) : o = some (o.getD d) := by
  cases o with
  | none => cases h
  | some p => rfl

theorem run1 {es : List (Ev Nat)} {w : World Nat} {e : Ev Nat} (h : Run tabs es w) (hf : e.Fair w) (hs : (step w e).isSome = true) :
    Run tabs (es ++ [e]) ((step w e).getD (w, [], .done)).1 := .snoc h hf (pick hs _)

theorem fair_given {w : World Nat} {t p ps h x : Nat} {tr own out : Bool} (h0 : h ≠ 0) (h1 : (w.pools h).isNone = true)
    (h2 : (w.wrap x).isNone = true) (h3 : x ≠ p) : (Ev.createBegin t p ps tr own out (given h x) : Ev Nat).Fair w := by
  refine ⟨?_, ?_⟩
  · intro k hk
    cases hk
    exact ⟨h0, by simpa using h1⟩
  · intro k hk
    cases hk
    exact ⟨by simpa using h2, h3⟩

theorem demo_run : ∃ w, Run tabs demo w := by
  have r0 : Run tabs [] (World.init tabs) := .nil
  have r1 := run1 (e := .createBegin 1 7 9 true true true (given 10 11)) r0
    (fair_given (by decide) (by decide +kernel) (by decide +kernel) (by decide)) (by decide +kernel)
  have r2 := run1 (e := .createBegin 2 11 0 false false true (given 20 21)) r1
    (fair_given (by decide) (by decide +kernel) (by decide +kernel) (by decide)) (by decide +kernel)
  have r3 := run1 (e := .createEnd 20 (.ok 22)) r2 trivial (by decide +kernel)
  have r4 := run1 (e := .write 1 (full 900)) r3 trivial (by decide +kernel)
  have r5 := run1 (e := .createEnd 10 (.ok 12)) r4 trivial (by decide +kernel)
  have r6 := run1 (e := .createBegin 1 7 9 true false true (given 30 31)) r5
    (fair_given (by decide) (by decide +kernel) (by decide +kernel) (by decide)) (by decide +kernel)
  have r7 := run1 (e := .createEnd 30 (.error (.other 5))) r6 trivial (by decide +kernel)
  have r8 := run1 (e := .call 20 (.malloc 64) 0x1000) r7 trivial (by decide +kernel)
  exact ⟨_, r8⟩

theorem demo_created : Created tabs demo 10 ⟨full 100, 12, 7, true, true⟩ :=
  ⟨[], [.createBegin 2 11 0 false false true (given 20 21), .createEnd 20 (.ok 22), .write 1 (full 900)],
    [.createBegin 1 7 9 true false true (given 30 31), .createEnd 30 (.error (.other 5)), .call 20 (.malloc 64) 0x1000], 1, 9, given 10 11,
    rfl, by decide, by decide, rfl, rfl, fun _ => ⟨11, rfl⟩, rfl, by simp [Ev.Ends], by simp [Ev.Ends]⟩

/-- The pool still calls function 103, not 903, which is in the table now. -/
example : ∃ w, Run tabs demo w ∧ step w (.call 10 (.malloc 32) 0x2000) = some (w, [.call 103 [12, 32]], .val 0x2000) := by
  obtain ⟨w, h⟩ := demo_run
  exact ⟨w, h, (C86_calls h demo_created 0x2000 32 0 0 0).1 103 rfl⟩

example : ∃ w, Run tabs demo w ∧ ∃ w' x, step w (.destroy 10) =
    some (w', [.call 102 [12], .destroy x, .destroy 7], .done) := by
  obtain ⟨w, h⟩ := demo_run
  obtain ⟨w', x, h1, _⟩ := C86_destroy h demo_created (f := 102) rfl
  exact ⟨w, h, w', x, h1⟩

/-! ## Tables that are not complete -/

/-- Tables without `malloc` and `finalize`, and (table 2) without `initialize`. -/
def holes : Nat → Ops Nat := fun t =>
  if t = 2 then { full 0 with init := none } else { full 0 with malloc := none, finalize := none }

theorem holes_run {es : List (Ev Nat)} {w : World Nat} {e : Ev Nat} (h : Run holes es w) (hf : e.Fair w)
    (hs : (step w e).isSome = true) : Run holes (es ++ [e]) ((step w e).getD (w, [], .done)).1 := .snoc h hf (pick hs _)

/-- A pool is created with a table without `malloc` and without `finalize`. The first allocation, and the destruction, call a null
pointer. (A provider with such a table is refused, C32.) -/
theorem C86_missing_violated : ∃ es w d, Run holes es w ∧ Created holes es 10 d ∧ d.ops.malloc = none ∧
    step w (.call 10 (.malloc 8) 0) = none ∧ step w (.destroy 10) = none := by
  have r1 := holes_run (e := .createBegin 1 7 9 true true true (given 10 11)) (.nil)
    (fair_given (by decide) (by decide +kernel) (by decide +kernel) (by decide)) (by decide +kernel)
  have r2 := holes_run (e := .createEnd 10 (.ok 12)) r1 trivial (by decide +kernel)
  refine ⟨_, _, ⟨holes 1, 12, 7, true, true⟩, r2, ⟨[], [], [], 1, 9, given 10 11, rfl, by decide, by decide, rfl, rfl,
    fun _ => ⟨11, rfl⟩, rfl, by simp, by simp⟩, rfl, ?_, ?_⟩
  · exact Option.isNone_iff_eq_none.1 (by decide +kernel)
  · exact Option.isNone_iff_eq_none.1 (by decide +kernel)

/-- Without `initialize` the creation itself does. -/
theorem C86_noInit_violated : step (World.init holes) (.createBegin 2 7 9 true true true (given 10 11)) = none :=
  Option.isNone_iff_eq_none.1 (by decide +kernel)

/-- Destroying a null handle, or asking it for its provider, follows a null pointer, after any history; all other calls refuse it. -/
theorem C86_nullDestroy_violated {F : Type} {tab : Nat → Ops F} {es : List (Ev F)} {w : World F} (h : Run tab es w) :
    step w (.destroy 0) = none ∧ step w (.getProvider 0 true) = none := by
  simp [step, destroy, getProvider, h.inv.nonzero]

/-- While `initialize` runs, the pool is known to the tracker (its allocations belong to it, C14), but its private data is not
written yet: a call on it, such as `umfFree` of memory that `initialize` allocated, uses what was in the memory before. -/
theorem C86_early_violated : ∃ es w, Run tabs es w ∧ (w.pools 10).isSome = true ∧ step w (.call 10 (.free 0x1000) 0) = none := by
  have r1 := run1 (e := .createBegin 1 7 9 true true true (given 10 11)) (.nil)
    (fair_given (by decide) (by decide +kernel) (by decide +kernel) (by decide)) (by decide +kernel)
  exact ⟨_, _, r1, by decide +kernel, Option.isNone_iff_eq_none.1 (by decide +kernel)⟩

end Verif.PoolApi
