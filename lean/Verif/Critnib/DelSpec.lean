import Verif.Critnib.DelModel
/-! # What it means that the radix tree uses its own memory correctly (specification for C78) -/
namespace Verif.Critnib.Conc.Spec
open Verif.Critnib
open Verif.Critnib.Spec (Map)

variable {V : Type}

/-- What the base allocator has handed out: `nextN` nodes and `nextL` leaves. -/
def obtained (m : Mem V) : Heap := ⟨fun n => decide (n < m.nextN), fun l => decide (l < m.nextL)⟩

/-- Nothing is left. -/
def Empty (h : Heap) : Prop := (∀ n, h.n n = false) ∧ ∀ l, h.l l = false

/-- Memory that was handed out (nothing is given back before the end). -/
def Obtained (m : Mem V) : Ptr → Prop
  | .null => True
  | .leaf l => l < m.nextL
  | .node n => n < m.nextN

/-- The nodes and leaves a reader has pointers to: all it can read from are among them. -/
def held : Pc V → List Ptr
  | .idle | .start | .root _ | .check _ _ => []
  | .walk _ p => [p]
  | .shift _ n _ => [.node n]
  | .value _ l _ => [.leaf l]
  | .found _ l => [.leaf l]
  | .call _ st p => p :: st.map fun x => .node x.1
  | .path _ st n _ => .node n :: st.map fun x => .node x.1
  | .follow _ st n _ => .node n :: st.map fun x => .node x.1
  | .none _ st => st.map fun x => .node x.1
  | .pred _ st n _ => .node n :: st.map fun x => .node x.1
  | .pred2 _ st n _ => .node n :: st.map fun x => .node x.1

/-- The store goes to memory that was handed out (or to the structure `critnib`). -/
def Within (m : Mem V) : Store V → Prop
  | .slot (.child n _) _ => n < m.nextN
  | .path n _ => n < m.nextN
  | .shift n _ => n < m.nextN
  | .key l _ => l < m.nextL
  | .val l _ => l < m.nextL
  | _ => True

/-- The same in the places that can be reached from these pointers, and in the structure `critnib`. -/
structure SameAt (ps : List Ptr) (m m' : Mem V) : Prop where
  root : m'.root = m.root
  count : m'.count = m.count
  nodes : ∀ n, .node n ∈ ps → m'.nodes n = m.nodes n
  leaves : ∀ l, .leaf l ∈ ps → m'.leaves l = m.leaves l

/-- At most `N` keys are in the map. -/
def AtMost (M : Map V) (N : Nat) : Prop := ∀ ks : List W, ks.Nodup → (∀ k ∈ ks, M k ≠ none) → ks.length ≤ N

end Verif.Critnib.Conc.Spec
