import Verif.PolicyMem.Model
/-! # What a history says about a policy (C87) -/
namespace Verif.PolicyMem
open Verif.Os (Part)
open Verif.Policy (Policy)

/-- Memory for a policy is not NULL and not in use. -/
def Ev.Fair (w : World) : Ev → Prop
  | .create _ _ (some h) => h ≠ 0 ∧ w.pol h = none
  | _ => True

/-- After the events `es`, from the start, the memory is `w`. -/
inductive Run : List Ev → World → Prop
  | nil : Run [] ⟨fun _ => none, fun _ => none⟩
  | snoc {es w e r} : Run es w → e.Fair w → step w e = some r → Run (es ++ [e]) r.1

/-- The policy `h` of this type was created and not destroyed since. -/
def Lives (es : List Ev) (h type : Nat) : Prop :=
  ∃ es1 es2, es = es1 ++ [.create type true (some h)] ++ es2 ∧ ∀ e ∈ es2, e ≠ .destroy h

/-- The event sets something of the policy `h` or destroys it. -/
def Ev.Sets (h : Nat) : Ev → Prop
  | .destroy h' => h' = h
  | .setPartSize h' _ => h' = h
  | .setParts h' _ _ => h' = h
  | _ => False

/-- The event changes or frees the array at `p`. -/
def Ev.Changes (p : Nat) : Ev → Prop
  | .write p' _ => p' = p
  | .free p' => p' = p
  | _ => False

end Verif.PolicyMem
