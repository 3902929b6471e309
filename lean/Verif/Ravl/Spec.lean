import Verif.Ravl.Model
/-! # What an ordered set with unique keys does (specification for C08)

The specification state is a plain list of elements used as a set; no tree, no ranks. -/
namespace Verif.Ravl.Spec
variable {α : Type}

/-- Requests: insert an element (`hostOk = false`: the host allocation fails), remove by key. -/
inductive Op (α : Type) where
  | insert (x : α) (hostOk : Bool)
  | remove (q : Nat)
deriving Repr

/-- Answers: whether the insertion succeeded, the element removed. -/
inductive Out (α : Type) where
  | inserted (ok : Bool)
  | removed (x : Option α)
deriving Repr, DecidableEq

/-- One request against the set. -/
def step (key : α → Nat) (s : List α) : Op α → List α × Out α
  | .insert x ok =>
    if ok && s.all (fun y => key y != key x) then (x :: s, .inserted true)
    else (s, .inserted false)
  | .remove q => (s.filter (fun y => key y != q), .removed (s.find? (fun y => key y == q)))

/-- A history of requests: final set and the answers in order. -/
def run (key : α → Nat) (s : List α) : List (Op α) → List α × List (Out α)
  | [] => (s, [])
  | op :: ops => ((run key (step key s op).1 ops).1,
      (step key s op).2 :: (run key (step key s op).1 ops).2)

/-- Element `y` satisfies the lookup predicate for key `q`. -/
def Holds (key : α → Nat) (q : Nat) (fl : Pred) (y : α) : Prop :=
  (fl.equal = true ∧ key y = q) ∨ (fl.greater = true ∧ q < key y) ∨ (fl.less = true ∧ key y < q)

/-- `r` is a right answer to a lookup: nothing if no element of the set qualifies; otherwise
a qualifying element of the set none of the others comes closer to `q` than. -/
def Answers (key : α → Nat) (s : List α) (q : Nat) (fl : Pred) (r : Option α) : Prop :=
  match r with
  | none => ∀ y ∈ s, ¬ Holds key q fl y
  | some x => x ∈ s ∧ Holds key q fl x ∧ ∀ y ∈ s, Holds key q fl y →
      (fl.greater = true → key x ≤ key y) ∧ (fl.less = true → key y ≤ key x)

end Verif.Ravl.Spec
