import Verif.Tag.Model

/-!
# Tags that are exchanged at one instant (specification for C66)

Only the calls and their answers are used.
-/
namespace Verif.Tag.Spec
open Function (update)
open Verif.Tag (Tid Pool Op Out Ev)

/-- The calls, one at a time. -/
def apply (v : Pool → Nat) : Op → (Pool → Nat) × Out
  | .set (some p) tag place => (update v p tag, ⟨true, if place then some (v p) else none⟩)
  | .get (some p) true => (v, ⟨true, some (v p)⟩)
  | _ => (v, ⟨false, none⟩)

/-- A thread: not in a call, in a call that had no effect yet, in a call that had its effect. -/
inductive Status where
  | idle
  | called (op : Op)
  | done (o : Out)

/-- What callers may see if every call has its effect at one instant between its call and its return. -/
inductive Lin : List Ev → (Pool → Nat) → (Tid → Status) → Prop where
  | nil : Lin [] (fun _ => 0) (fun _ => .idle)
  | call {l v st t op} : Lin l v st → st t = .idle → Lin (l ++ [.call t op]) v (update st t (.called op))
  | effect {l v st t op} : Lin l v st → st t = .called op →
      Lin l (apply v op).1 (update st t (.done (apply v op).2))
  | ret {l v st t o} : Lin l v st → st t = .done o → Lin (l ++ [.ret t o]) v (update st t .idle)


end Verif.Tag.Spec
