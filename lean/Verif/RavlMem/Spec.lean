import Verif.Ravl.Spec
/-!
# Specification for C74: an ordered set whose elements are in numbered nodes

The client knows nodes by number (their address, 0 is `NULL`). The set is the list of the nodes with their elements, in increasing order of the
keys. Nothing here refers to the tree.
-/
namespace Verif.RavlMem.Spec
open Verif.Ravl (Pred)

/-- The requests. `insert x a`: the allocator hands out the block `a` for the new node. -/
inductive Op (α : Type) where
  | insert (x : α) (a : Nat)
  | remove (n : Nat)
  | find (q : Nat) (fl : Pred)
  | first
  | last
  | next (n : Nat)
  | prev (n : Nat)
  | foreach
  | clear

/-- The answers. -/
inductive Out (α : Type) where
  | ok (b : Bool)
  | node (a : Nat)
  | elems (l : List α)
  | done
deriving Repr, DecidableEq

/-- The number of the node of an element, 0 for none. -/
def nodeOf {α : Type} : Option (Nat × α) → Nat
  | none => 0
  | some e => e.1

/-- The kinds of lookup: `=`, `>`, `<`, `≥`, `≤`. -/
def kinds : List Pred := [⟨true, false, false⟩, ⟨false, true, false⟩, ⟨false, false, true⟩, ⟨true, true, false⟩, ⟨true, false, true⟩]

/-- The request names a node only if the node is in the set. -/
def Legal {α : Type} (alive : Nat → Prop) : Op α → Prop
  | .remove n => alive n
  | .next n => alive n
  | .prev n => alive n
  | .find _ fl => fl ∈ kinds
  | _ => True

/-- One request: the set before, the request, the answer, the set after. -/
inductive Step {α : Type} (key : α → Nat) : List (Nat × α) → Op α → Out α → List (Nat × α) → Prop where
  /-- No memory for the node: nothing changes. -/
  | refused {L x a} : (a = 0 ∨ a ∈ L.map (·.1)) → Step key L (.insert x a) (.ok false) L
  /-- There is an element with this key: nothing changes. -/
  | duplicate {L x a} : (∃ e ∈ L, key e.2 = key x) → Step key L (.insert x a) (.ok false) L
  /-- The element is in the new node, between the smaller and the larger elements. -/
  | inserted {A B x a} : a ≠ 0 → a ∉ (A ++ B).map (·.1) → (∀ e ∈ A, key e.2 < key x) → (∀ e ∈ B, key x < key e.2) →
      Step key (A ++ B) (.insert x a) (.ok true) (A ++ (a, x) :: B)
  /-- The element and its node are gone. -/
  | removed {A B n x} : Step key (A ++ (n, x) :: B) (.remove n) .done (A ++ B)
  /-- The element is gone, its node holds the next element, whose node is gone. -/
  | moved {A B n x m y} : Step key (A ++ (n, x) :: (m, y) :: B) (.remove n) .done (A ++ (n, y) :: B)
  | found {L q fl r} : Ravl.Spec.Answers (fun e : Nat × α => key e.2) L q fl r → Step key L (.find q fl) (.node (nodeOf r)) L
  | first {L} : Step key L .first (.node (nodeOf L.head?)) L
  | last {L} : Step key L .last (.node (nodeOf L.getLast?)) L
  | next {A B n x} : Step key (A ++ (n, x) :: B) (.next n) (.node (nodeOf B.head?)) (A ++ (n, x) :: B)
  | prev {A B n x} : Step key (A ++ (n, x) :: B) (.prev n) (.node (nodeOf A.getLast?)) (A ++ (n, x) :: B)
  | foreach {L} : Step key L .foreach (.elems (L.map (·.2))) L
  | clear {L} : Step key L .clear .done []

/-- A history of requests and answers, latest last, and the set it leads to. -/
inductive Hist {α : Type} (key : α → Nat) : List (Op α × Out α) → List (Nat × α) → Prop where
  | nil : Hist key [] []
  | step {h L op out L'} : Hist key h L → Step key L op out L' → Hist key (h ++ [(op, out)]) L'

/-- The computation ends with this result: with every large enough number of rounds the result is this. -/
def Ends {β : Type} (f : Nat → Option β) (r : β) : Prop := ∃ N, ∀ m, N ≤ m → f m = some r

end Verif.RavlMem.Spec
