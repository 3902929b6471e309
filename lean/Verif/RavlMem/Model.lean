import Verif.Ravl.Model
/-!
# The ordered tree in memory: `src/ravl/ravl.c` with its nodes and pointers

`Ravl/Model.lean` describes the same code by trees and paths. Here the nodes are blocks of memory that point to each other, and every
access goes through a pointer. `none` is undefined behaviour or a failed assertion: a `NULL` pointer, a node that was never
allocated or is freed, a rank that would become negative. Loops and recursion take a number of rounds (`fuel`); the theorems say that
every call ends and has the same result for every larger number.

Simplifications. The data of a node is a value; `compare` is the comparison of its key (`coarse_ravl_comp`). A rank is an `Int`
(`int32_t` in the code: an overflow needs 2^31 promotions). `errno` and the flag `pointer_based` (which is set by the constructor and only used by `ravl_data`)
are left out.
-/
namespace Verif.RavlMem
open Verif.Ravl (Slot Pred)

abbrev Addr := Nat

/-- `struct ravl_node`, 37-43. -/
structure Node (α : Type) where
  parent : Addr
  left : Addr
  right : Addr
  rank : Int
  data : α
deriving Repr, DecidableEq

/-- `struct ravl`, 45-49, and the nodes that are allocated. -/
structure St (α : Type) where
  root : Addr
  h : Addr → Option (Node α)

variable {α : Type}

/-- `n->slots[t]`, as read all over `ravl.c` (for example 226-236). -/
def Node.slot (c : Node α) : Slot → Addr
  | .left => c.left
  | .right => c.right

/-- `n->slots[t] = x`, for example 232, 235. -/
def Node.put (c : Node α) (t : Slot) (x : Addr) : Node α :=
  match t with
  | .left => { c with left := x }
  | .right => { c with right := x }

/-- `n->parent = x`, for example 228, 229, 378, 516. -/
def Node.withParent (c : Node α) (x : Addr) : Node α := { c with parent := x }
/-- `n->rank = k`, 161, 292, 299. -/
def Node.withRank (c : Node α) (k : Int) : Node α := { c with rank := k }
/-- The `memcpy` of the data, 508. -/
def Node.withData (c : Node α) (d : α) : Node α := { c with data := d }

/-- One node of the memory changes (auxiliary). -/
def upd {β : Type} (f : Nat → β) (a : Nat) (x : β) : Nat → β := fun b => if b = a then x else f b

/-- `*n`: a read of a node. -/
def get (s : St α) (n : Addr) : Option (Node α) := if n = 0 then none else s.h n

/-- A write to a field of `*n`. -/
def change (s : St α) (n : Addr) (f : Node α → Node α) : Option (St α) :=
  match get s n with
  | none => none
  | some c => some { s with h := upd s.h n (some (f c)) }

/-- `umf_ba_global_free(n)`, 91, 387, 520. -/
def free (s : St α) (n : Addr) : Option (St α) :=
  match get s n with
  | none => none
  | some _ => some { s with h := upd s.h n none }

/-- `ravl_node_slot_type`, 182-188; the outer `none` is undefined, the inner one `RAVL_ROOT`. -/
def slotType (s : St α) (n : Addr) : Option (Option Slot) :=
  match get s n with
  | none => none
  | some c =>
    if c.parent = 0 then some none
    else match get s c.parent with
      | none => none
      | some p => some (some (if p.left = n then .left else .right))

/-- `ravl_node_sibling`, 194-201. -/
def sibling (s : St α) (n : Addr) : Option Addr :=
  match slotType s n with
  | none => none
  | some none => some 0
  | some (some t) =>
    match get s n with
    | none => none
    | some c =>
      match get s c.parent with
      | none => none
      | some p => some (p.slot t.opposite)

/-- The memory location in which a node resides, 207-212: `&ravl->root` or `&a->slots[t]`. -/
inductive Ref where
  | root
  | slot (a : Addr) (t : Slot)
deriving Repr, DecidableEq

/-- `ravl_node_ref`, 207-212. -/
def nodeRef (s : St α) (n : Addr) : Option Ref :=
  match slotType s n with
  | none => none
  | some none => some .root
  | some (some t) =>
    match get s n with
    | none => none
    | some c => some (.slot c.parent t)

/-- `*ref = x`, 230, 379, 519. -/
def write (s : St α) (r : Ref) (x : Addr) : Option (St α) :=
  match r with
  | .root => some { s with root := x }
  | .slot a t => change s a (·.put t x)

/-- `*ref`, 369. -/
def read (s : St α) (r : Ref) : Option Addr :=
  match r with
  | .root => some s.root
  | .slot a t => (get s a).map (·.slot t)

/-- `ravl_rotate`, 220-236. -/
def rotate (s : St α) (n : Addr) : Option (St α) := do
  let c ← get s n
  let p := c.parent
  let ref ← nodeRef s p
  let t ← slotType s n
  match t with
  | none => none
  | some t => do
    let cp ← get s p
    let s ← change s n (·.withParent cp.parent)
    let s ← change s p (·.withParent n)
    let s ← write s ref n
    let c ← get s n
    let x := c.slot t.opposite
    let s ← change s p (·.put t x)
    let s ← if x = 0 then some s else change s x (·.withParent p)
    change s n (·.put t.opposite p)

/-- `ravl_node_rank`, 243-245. -/
def rankOf (s : St α) (n : Addr) : Option Int := if n = 0 then some (-1) else (get s n).map (·.rank)

/-- `ravl_node_rank_difference_parent`, 255-262, with its assertion. -/
def diff (s : St α) (p n : Addr) : Option Int := do
  let a ← rankOf s p
  let b ← rankOf s n
  if a - b ≤ a + 1 then some (a - b) else none

/-- `ravl_node_is(n, 0, 1)`, 276-287. -/
def is01 (s : St α) (n : Addr) : Option Bool := do
  let c ← get s n
  let a ← diff s n c.left
  let b ← diff s n c.right
  some ((a == 0 && b == 1) || (a == 1 && b == 0))

/-- `ravl_node_promote`, 292. -/
def promote (s : St α) (n : Addr) : Option (St α) := change s n fun c => c.withRank (c.rank + 1)

/-- `ravl_node_demote`, 297-300, with its assertion. -/
def demote (s : St α) (n : Addr) : Option (St α) := do
  let c ← get s n
  if c.rank > 0 then change s n (fun c => c.withRank (c.rank - 1)) else none

/-- The loop of `ravl_balance`, 309-313. -/
def promoteLoop : Nat → St α → Addr → Option (St α × Addr)
  | 0, _, _ => none
  | fuel + 1, s, n => do
    let c ← get s n
    if c.parent = 0 then some (s, n)
    else do
      let b ← is01 s c.parent
      if b = true then do
        let s ← promote s c.parent
        promoteLoop fuel s c.parent
      else some (s, n)

/-- The rest of `ravl_balance`, 315-341. -/
def fixup (s : St α) (n : Addr) : Option (St α) := do
  let c ← get s n
  let x ← sibling s n
  let a ← diff s c.parent n
  let b ← diff s c.parent x
  if a = 0 ∧ b > 1 then do
    let y := c.parent
    let t ← slotType s n
    match t with
    | none => none
    | some t => do
      let z := c.slot t.opposite
      if z = 0 then do
        let s ← rotate s n
        demote s y
      else do
        let e ← diff s n z
        if e = 2 then do
          let s ← rotate s n
          demote s y
        else if e = 1 then do
          let s ← rotate s z
          let s ← rotate s z
          let s ← promote s z
          let s ← demote s n
          demote s y
        else some s
  else some s

/-- `ravl_balance`, 308-341. -/
def balance (fuel : Nat) (s : St α) (n : Addr) : Option (St α) := do
  let (s, n) ← promoteLoop fuel s n
  fixup s n

/-- The descent of `ravl_emplace`, 366-377: `none` for a duplicate, or the place and the node it belongs to. -/
def descend (key : α → Nat) (x : α) : Nat → St α → Ref → Addr → Option (Option (Ref × Addr))
  | 0, _, _, _ => none
  | fuel + 1, s, ref, dst => do
    let m ← read s ref
    if m = 0 then some (some (ref, dst))
    else do
      let c ← get s m
      if key x = key c.data then some none
      else descend key x fuel s (.slot m (if key x > key c.data then .right else .left)) m

/-- `ravl_new_node`, 151-166: the allocator hands out the block `a`; 0, or a block in use, stands for failure. -/
def newNode (s : St α) (a : Addr) (x : α) : Option (St α) :=
  if a = 0 ∨ s.h a ≠ none then none else some { s with h := upd s.h a (some ⟨0, 0, 0, 0, x⟩) }

/-- `ravl_emplace`, 360-389. The result is `true` for 0 and `false` for -1. -/
def emplace (key : α → Nat) (x : α) (a : Addr) (fuel : Nat) (s : St α) : Option (St α × Bool) :=
  match newNode s a x with
  | none => some (s, false)
  | some s => do
    let r ← descend key x fuel s .root 0
    match r with
    | none => do
      let s ← free s a
      some (s, false)
    | some (ref, dst) => do
      let s ← change s a (·.withParent dst)
      let s ← write s ref a
      let s ← balance fuel s a
      some (s, true)

/-- `ravl_node_type_most`, 395-402. -/
def typeMost (t : Slot) : Nat → St α → Addr → Option Addr
  | 0, _, _ => none
  | fuel + 1, s, n => do
    let c ← get s n
    if c.slot t = 0 then some n else typeMost t fuel s (c.slot t)

/-- The loop of `ravl_node_cessor`, 419-423. -/
def climb (t : Slot) : Nat → St α → Addr → Option Addr
  | 0, _, _ => none
  | fuel + 1, s, n => do
    let c ← get s n
    if c.parent = 0 then some 0
    else do
      let p ← get s c.parent
      if n = p.slot t then climb t fuel s c.parent else some c.parent

/-- `ravl_node_cessor`, 408-424; `ravl_node_successor`, 431-433, and `ravl_node_predecessor`, 440-442, call it with right and left. -/
def cessor (t : Slot) (fuel : Nat) (s : St α) (n : Addr) : Option Addr := do
  let c ← get s n
  if c.slot t ≠ 0 then typeMost t.opposite fuel s (c.slot t) else climb t fuel s n

/-- `ravl_find` and `ravl_predicate_holds`, 451-499; `r` is the candidate so far. -/
def findLoop (key : α → Nat) (q : Nat) (fl : Pred) : Nat → St α → Addr → Addr → Option Addr
  | 0, _, _, _ => none
  | fuel + 1, s, n, r =>
    if n = 0 then some r
    else do
      let c ← get s n
      let k := key c.data
      if fl.equal = true ∧ q = k then some n
      else if fl.greater = true ∧ q < k then findLoop key q fl fuel s c.left n
      else if fl.greater = true ∧ q = k then cessor .right fuel s n
      else if fl.less = true ∧ q > k then findLoop key q fl fuel s c.right n
      else if fl.less = true ∧ q = k then cessor .left fuel s n
      else findLoop key q fl fuel s (if q > k then c.right else c.left) r

/-- `ravl_find`, 485-499. -/
def find (key : α → Nat) (q : Nat) (fl : Pred) (fuel : Nat) (s : St α) : Option Addr := findLoop key q fl fuel s s.root 0

/-- `ravl_first` and `ravl_last`, 540-560. -/
def most (t : Slot) (fuel : Nat) (s : St α) : Option Addr := if s.root = 0 then some 0 else typeMost t fuel s s.root

/-- `ravl_remove`, 504-522. -/
def remove : Nat → St α → Addr → Option (St α)
  | 0, _, _ => none
  | fuel + 1, s, n => do
    let c ← get s n
    if c.left ≠ 0 ∧ c.right ≠ 0 then do
      let m ← cessor .right fuel s n
      let d ← get s m
      let s ← change s n (·.withData d.data)
      remove fuel s m
    else do
      let r := if c.left ≠ 0 then c.left else c.right
      let s ← if r = 0 then some s else change s r (·.withParent c.parent)
      let ref ← nodeRef s n
      let s ← write s ref r
      free s n

/-- `ravl_foreach_node`, 78-93: the data passed to the callback, in this order. -/
def foreachNode (freeNode : Bool) : Nat → St α → Addr → Option (St α × List α)
  | 0, _, _ => none
  | fuel + 1, s, n =>
    if n = 0 then some (s, [])
    else do
      let c ← get s n
      let (s, l) ← foreachNode freeNode fuel s c.left
      let c ← get s n
      let (s, r) ← foreachNode freeNode fuel s c.right
      if freeNode = true then do
        let s ← free s n
        some (s, l ++ c.data :: r)
      else some (s, l ++ c.data :: r)

/-- `ravl_foreach`, 119-121. -/
def foreach (fuel : Nat) (s : St α) : Option (St α × List α) := foreachNode false fuel s s.root

/-- `ravl_clear`, 98-101. -/
def clear (fuel : Nat) (s : St α) : Option (St α) := do
  let (s, _) ← foreachNode true fuel s s.root
  some { s with root := 0 }

/-- `ravl_delete_cb`, 106-109, without the free of `struct ravl`: what the callback gets. -/
def deleteCb (fuel : Nat) (s : St α) : Option (St α × List α) := foreachNode true fuel s s.root

/-- `ravl_new_sized`, 54-65: no node. -/
def init : St α := ⟨0, fun _ => none⟩

end Verif.RavlMem
