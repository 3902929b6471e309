import Verif.Memspace.Spec
/-!
# Specification for predefined memspaces (C37, C50)
-/
namespace Verif.Memspace

/-- `y` is a target of highest score for the initiator `x`. -/
def Highest (vals : List Target) (score : Target → Target → Option Nat) (x y : Target) : Prop :=
  y ∈ vals ∧ ∃ s, score x y = some s ∧ ∀ z ∈ vals, ∃ u, score x z = some u ∧ u ≤ s

/-- `y` is a target of lowest score for the initiator `x`. -/
def Lowest (vals : List Target) (score : Target → Target → Option Nat) (x y : Target) : Prop :=
  y ∈ vals ∧ ∃ s, score x y = some s ∧ ∀ z ∈ vals, ∃ u, score x z = some u ∧ s ≤ u

/-- The function on handles is the function on the targets they stand for. -/
def Reads (st : St) (nodes : List Nat) (f : Nat → Nat → Option Nat) (score : Target → Target → Option Nat) : Prop :=
  ∀ i ∈ nodes, ∀ n ∈ nodes, ∀ x y, st.live i = some x → st.live n = some y → f i n = score x y

/-- One call on a predefined memspace. -/
inductive SingleOp where
  /-- asked for; the answer of creating the memspace, should that be tried -/
  | get (made : Option Nat)
  /-- the library is shut down -/
  | tearDown

end Verif.Memspace
