import Verif.Policy.Model
import Verif.Os.BindSpec
/-!
# Specification of memory policies (C51)
-/
namespace Verif.Policy
open Verif.Os

/-- What the kernel is told about a range of memory: nothing; take pages from these nodes only; take pages from these nodes
if they have some; take pages from these nodes in turn. -/
inductive Rule where
  | none
  | only (nodes : List Nat)
  | prefer (nodes : List Nat)
  | inTurn (nodes : List Nat)

/-- The meaning of one call of hwloc with the policy and the strictness of the provider. -/
def ruleOf (pr : Prov) (nodes : List Nat) : Rule :=
  match pr.policy, pr.strict with
  | .default, _ => .none
  | .bind, true => .only nodes
  | .bind, false => .prefer nodes
  | .interleave, _ => .inTurn nodes

/-- A provider made from the memspace with the targets `ids` and the policy gives a memory allocation of `n` pages of size
`P` these rules: `(address, size, rule)`. -/
def Rules (sp : Space) (ids : List Nat) (policy : Option Policy) (all : List Nat) (P sum n fuel : Nat)
    (rules : List (Bind Rule)) : Prop :=
  ∃ p pr bs, params sp ids policy = some p ∧ translate P all p = some pr ∧ binds pr P sum n fuel = some bs ∧
    rules = bs.map fun b => ⟨b.addr, b.size, ruleOf pr b.node⟩

/-- The creation of the provider is refused. -/
def Refused (sp : Space) (ids : List Nat) (policy : Option Policy) (all : List Nat) (P : Nat) : Prop :=
  ∀ p, params sp ids policy = some p → translate P all p = none

end Verif.Policy
