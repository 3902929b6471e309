import Verif.Critnib.ConcModel
/-!
# Model of `critnib_delete`, `src/critnib/critnib.c:187-235`

The memory is the one of `ConcModel.lean`. Here the base allocator's view is added: which nodes and leaves it has handed out and not got
back. Reading a node or leaf that it does not count, freeing one twice, or following a pointer that is none is undefined (`none`).

Simplifications: the structure `critnib` itself, freed last, and its mutex are not part of the memory; nobody else uses the tree.
-/
namespace Verif.Critnib.Conc
open Verif.Critnib

variable {V : Type}

/-- What the base allocator counts as handed out (`umf_ba_global_alloc` in `critnib.c:258`, `289`). -/
structure Heap where
  n : Nat → Bool
  l : Nat → Bool

/-- `umf_ba_global_free` of a node, `critnib.c:200`, `216`, `227`. -/
def freeN (n : Nat) (h : Heap) : Option Heap := if h.n n = true then some { h with n := Function.update h.n n false } else none
/-- `umf_ba_global_free` of a leaf, `critnib.c:192`, `222`, `228`. -/
def freeL (l : Nat) (h : Heap) : Option Heap := if h.l l = true then some { h with l := Function.update h.l l false } else none

/-- `delete_node`, `critnib.c:190-202`. The number bounds the depth of the recursion. -/
def deleteNode (m : Mem V) : Nat → Ptr → Heap → Option Heap
  | 0, _, _ => none
  | _ + 1, .null, _ => none
  | _ + 1, .leaf l, h => freeL l h
  | f + 1, .node n, h => do
    let h ← (List.finRange 16).foldlM (fun h i =>
      if h.n n = true then
        if (m.nodes n).child i = .null then some h else deleteNode m f ((m.nodes n).child i) h
      else none) h
    freeN n h

/-- The loop over `deleted_node`, `critnib.c:214-218`. -/
def freeNodes (m : Mem V) : Nat → Ptr → Heap → Option Heap
  | _, .null, h => some h
  | f + 1, .node n, h => if h.n n = true then (freeN n h).bind (freeNodes m f ((m.nodes n).child 0)) else none
  | _, _, _ => none

/-- The loop over `deleted_leaf`, `critnib.c:220-224`. -/
def freeLeaves (m : Mem V) : Nat → Option Nat → Heap → Option Heap
  | _, none, h => some h
  | f + 1, some k, h =>
    if h.l k = true then
      match (m.leaves k).val with
      | .link o => (freeL k h).bind (freeLeaves m f o)
      | .user _ => none
    else none
  | 0, some _, _ => none

/-- `umf_ba_global_free(c->pending_del_nodes[i])`, `critnib.c:227`: NULL is ignored (`base_alloc_global.c:206-208`). -/
def freeN? : Option Nat → Heap → Option Heap
  | none, h => some h
  | some n, h => freeN n h
/-- `umf_ba_global_free(c->pending_del_leaves[i])`, `critnib.c:228`. -/
def freeL? : Option Nat → Heap → Option Heap
  | none, h => some h
  | some l, h => freeL l h

/-- The loop over the pending items, `critnib.c:226-229`. -/
def freePending (m : Mem V) (h : Heap) : Option Heap :=
  (List.finRange 16).foldlM (fun h i => (freeN? (m.pendN i) h).bind (freeL? (m.pendL i))) h

/-- `if (c->root) delete_node(c->root)`, `critnib.c:208-210`. -/
def deleteRoot (m : Mem V) (fuel : Nat) (h : Heap) : Option Heap := if m.root = .null then some h else deleteNode m fuel m.root h

/-- `critnib_delete`, `critnib.c:207-232`. -/
def delete (m : Mem V) (fuel : Nat) (h : Heap) : Option Heap := do
  let h ← deleteRoot m fuel h
  let h ← freeNodes m fuel m.delNode h
  let h ← freeLeaves m fuel m.delLeaf h
  freePending m h

end Verif.Critnib.Conc
