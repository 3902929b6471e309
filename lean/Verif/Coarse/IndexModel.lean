import Verif.Coarse.Model
import Verif.Ravl.Model
import Mathlib.Logic.Function.Basic
/-!
# The index of free blocks of `src/coarse/coarse.c`

`Verif.Coarse.Model` keeps the free blocks as one list of `(size, address)` pairs. Here is the
structure of the code: a `ravl` tree (the model of `Verif.Ravl`) from sizes to list heads, and for
each head a doubly linked list of elements on the host heap. Pointers are numbers, 0 is null; what
is not allocated is `none`. Reading or writing through a pointer that is null or not allocated makes
the whole operation `none`. What the host allocator answers is an argument.
-/
namespace Verif.Coarse.Index
open Function (update)

/-- `ravl_free_blocks_elem_t`, `coarse.c:95-99`; `blk` is the address of the block's data, which
identifies the block. -/
structure Elem where
  blk : Nat
  next : Nat
  prev : Nat
deriving DecidableEq, Repr

/-- `coarse->free_blocks` with what hangs on it: the tree (size, pointer to
`ravl_free_blocks_head_t`), the heads (`coarse.c:90-92`), the elements, and the field
`free_list_ptr` of the block at each address (`coarse.c:74`). -/
structure Idx where
  tree : Ravl.Tree (Nat × Nat)
  heads : Nat → Option Nat
  elems : Nat → Option Elem
  fl : Nat → Nat

/-- `ravl_new_sized` in `coarse_new`, `coarse.c:907`. -/
def empty : Idx := ⟨.nil, fun _ => none, fun _ => none, fun _ => 0⟩

/-- `if (p) { p->prev = v; }`. -/
def setPrev (m : Nat → Option Elem) (p v : Nat) : Option (Nat → Option Elem) :=
  if p = 0 then some m
  else match m p with
    | none => none
    | some n => some (update m p (some { n with prev := v }))

/-- `if (p) { p->next = v; }`. -/
def setNext (m : Nat → Option Elem) (p v : Nat) : Option (Nat → Option Elem) :=
  if p = 0 then some m
  else match m p with
    | none => none
    | some n => some (update m p (some { n with next := v }))

/-- `node_list_add`, `coarse.c:220-240`: the new element or null. -/
def nodeListAdd (x : Idx) (h d : Nat) (mem : Option Nat) : Option (Idx × Nat) :=
  match mem with
  | none => some (x, 0)
  | some e =>
    match x.heads h with
    | none => none
    | some hd =>
      match setPrev x.elems hd e with
      | none => none
      | some m =>
        some ({ x with elems := update m e (some ⟨d, hd, 0⟩), heads := update x.heads h (some e) }, e)

/-- `node_list_rm`, `coarse.c:243-269`. -/
def nodeListRm (x : Idx) (h e : Nat) : Option (Idx × Nat) :=
  match x.heads h, x.elems e with
  | some hd, some n =>
    match setPrev x.elems n.next n.prev with
    | none => none
    | some m1 =>
      match setNext m1 n.prev n.next with
      | none => none
      | some m2 =>
        some ({ x with
          heads := if e = hd then update x.heads h (some n.next) else x.heads
          elems := update m2 e none
          fl := update x.fl n.blk 0 }, n.blk)
  | _, _ => none

/-- `node_list_rm_first`, `coarse.c:272-294`. The first element is read without a check for null
(there is an assertion, which release builds do not have). -/
def nodeListRmFirst (x : Idx) (h a : Nat) : Option (Idx × Option Nat) :=
  match x.heads h with
  | none => none
  | some hd =>
    match (if hd = 0 then none else x.elems hd) with
    | none => none
    | some n =>
      if aligned n.blk a then
        match setPrev x.elems n.next 0 with
        | none => none
        | some m => some ({ x with
            elems := update m hd none
            heads := update x.heads h (some n.next)
            fl := update x.fl n.blk 0 }, some n.blk)
      else some (x, none)

/-- The loop of `node_list_rm_with_alignment`, `coarse.c:305-309`; `fuel` bounds the number of
elements looked at. The answer is the element found, 0 if there is none. -/
def walk (m : Nat → Option Elem) (a : Nat) : Nat → Nat → Option Nat
  | 0, _ => none
  | fuel + 1, p =>
    if p = 0 then some 0
    else match m p with
      | none => none
      | some n => if aligned n.blk a then some p else walk m a fuel n.next

/-- `node_list_rm_with_alignment`, `coarse.c:297-312`. -/
def nodeListRmAligned (x : Idx) (h a fuel : Nat) : Option (Idx × Option Nat) :=
  match x.heads h with
  | none => none
  | some hd =>
    match walk x.elems a fuel hd with
    | none => none
    | some e =>
      if e = 0 then some (x, none)
      else match nodeListRm x h e with
        | none => none
        | some (x', b) => some (x', some b)

/-- The common tail of `free_blocks_rm_ge` (`coarse.c:387-390`) and `free_blocks_rm_node`
(`coarse.c:417-420`): an empty list is removed with its head. -/
def dropEmpty (x : Idx) (k h : Nat) : Option Idx :=
  match x.heads h with
  | none => none
  | some hd =>
    if hd = 0 then
      some { x with
        heads := update x.heads h none
        tree := match Ravl.remove Prod.fst k x.tree with
          | none => x.tree
          | some p => p.2 }
    else some x

/-- The end of `free_blocks_add`, `coarse.c:347-354`: `true` is the return value 0. -/
def addTo (x : Idx) (h d : Nat) (elemMem : Option Nat) : Option (Idx × Bool) :=
  match nodeListAdd x h d elemMem with
  | none => none
  | some (x', e) => some ({ x' with fl := update x'.fl d e }, decide (e ≠ 0))

/-- `free_blocks_add`, `coarse.c:319-355`, for the block at `d` with the given size. `headMem`,
`elemMem`: the answers of the host allocator for head and element; `treeOk`: for the tree node. -/
def add (x : Idx) (size d : Nat) (headMem : Option Nat) (treeOk : Bool) (elemMem : Option Nat) :
    Option (Idx × Bool) :=
  match Ravl.find Prod.fst x.tree size ⟨true, false, false⟩ with
  | some kh => addTo x kh.2 d elemMem
  | none =>
    match headMem with
    | none => some (x, false)
    | some h =>
      match Ravl.emplace Prod.fst treeOk x.tree (size, h) with
      | none => some (x, false)
      | some t => addTo { x with tree := t, heads := update x.heads h (some 0) } h d elemMem

/-- `free_blocks_rm_ge`, `coarse.c:360-393`: the block taken out, if any. -/
def rmGe (x : Idx) (size a : Nat) (check : Check) (fuel : Nat) : Option (Idx × Option Nat) :=
  match Ravl.find Prod.fst x.tree size ⟨true, true, false⟩ with
  | none => some (x, none)
  | some kh =>
    match (match check with
      | .first => nodeListRmFirst x kh.2 a
      | .allOfSize => nodeListRmAligned x kh.2 a fuel) with
    | none => none
    | some (x1, b) =>
      match dropEmpty x1 kh.1 kh.2 with
      | none => none
      | some x2 => some (x2, b)

/-- `free_blocks_rm_node`, `coarse.c:398-423`, for the block at `d` with the given size: it is called
with `free_list_ptr` of the block. -/
def rmNode (x : Idx) (size d : Nat) : Option (Idx × Nat) :=
  match Ravl.find Prod.fst x.tree size ⟨true, false, false⟩ with
  | none => none
  | some kh =>
    match nodeListRm x kh.2 (x.fl d) with
    | none => none
    | some (x1, b) =>
      match dropEmpty x1 kh.1 kh.2 with
      | none => none
      | some x2 => some (x2, b)

end Verif.Coarse.Index
