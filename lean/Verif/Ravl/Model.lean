/-!
# Model of `src/ravl/ravl.c` (rank-balanced ordered tree)

A C node with its parent pointer is modelled by a *location*: the subtree rooted at the
node together with the path of frames leading up to the root (a zipper); following
`n->parent` is popping a frame. Comparison callbacks are modelled by a key function
`key : α → Nat`: `compare(a, b)` has the sign of `key a - key b` (this is what
`coarse_ravl_comp` in `src/coarse/coarse.c` does). Ranks are `Int` (the code uses `int32_t`;
overflow would need 2^31 promotions). Node allocation failure is a separate argument.
-/
namespace Verif.Ravl

/-- `struct ravl_node`, `ravl.c:37-43`: two slots, data, rank. -/
inductive Tree (α : Type) where
  | nil
  | node (left : Tree α) (data : α) (rank : Int) (right : Tree α)
deriving Repr, DecidableEq

/-- `enum ravl_slot_type`, `ravl.c:28-35` (without the root marker). -/
inductive Slot where
  | left
  | right
deriving Repr, DecidableEq

/-- `ravl_slot_opposite`, `ravl.c:172-176`. -/
def Slot.opposite : Slot → Slot
  | .left => .right
  | .right => .left

/-- One step of the parent chain: the parent's data and rank, which slot the child is in
(`ravl_node_slot_type`, `ravl.c:182-188`) and the sibling (`ravl_node_sibling`, `ravl.c:194-201`). -/
structure Frame (α : Type) where
  slot : Slot
  data : α
  rank : Int
  sibling : Tree α
deriving Repr

/-- The chain of parents, innermost first. Empty: the node is the root. -/
abbrev Path (α : Type) := List (Frame α)

variable {α : Type}

/-- `n->slots[t]`; the null node has no slots (the C code never asks). -/
def Tree.child : Tree α → Slot → Tree α
  | .nil, _ => .nil
  | .node l _ _ _, .left => l
  | .node _ _ _ r, .right => r

/-- `ravl_node_rank`, `ravl.c:243-245`: null has rank -1. -/
def Tree.rank : Tree α → Int
  | .nil => -1
  | .node _ _ k _ => k

/-- Put a subtree back under its parent. -/
def Frame.plug (f : Frame α) (t : Tree α) : Tree α :=
  match f.slot with
  | .left => .node t f.data f.rank f.sibling
  | .right => .node f.sibling f.data f.rank t

/-- The whole tree seen from a location: follow parents to the root. -/
def zip (t : Tree α) : Path α → Tree α
  | [] => t
  | f :: p => zip (f.plug t) p

/-- `ravl_rotate`, `ravl.c:220-236`: `n` takes its parent's place, the parent becomes
`n`'s child on the opposite side and adopts `n`'s old child from that side. Ranks unchanged.
Result: the subtree now standing where the parent stood. -/
def rotate (n : Tree α) (f : Frame α) : Tree α :=
  match n with
  | .nil => f.plug .nil
  | .node l d k r =>
    match f.slot with
    | .left => .node l d k (.node r f.data f.rank f.sibling)
    | .right => .node (.node f.sibling f.data f.rank l) d k r

/-- `ravl_node_promote`/`ravl_node_demote`, `ravl.c:292-300`, as adding `i` to the rank. -/
def Tree.addRank (t : Tree α) (i : Int) : Tree α :=
  match t with
  | .nil => .nil
  | .node l d k r => .node l d (k + i) r

/-- Apply a function to the child in slot `s`. -/
def Tree.mapChild (t : Tree α) (s : Slot) (g : Tree α → Tree α) : Tree α :=
  match t, s with
  | .nil, _ => .nil
  | .node l d k r, .left => .node (g l) d k r
  | .node l d k r, .right => .node l d k (g r)

/-- `ravl_node_is(n->parent, 0, 1)`, `ravl.c:277-287`: one child of the parent has rank
difference 0 and the other 1. -/
def parentIs01 (n : Tree α) (f : Frame α) : Bool :=
  (f.rank - n.rank == 0 && f.rank - f.sibling.rank == 1) ||
  (f.rank - n.rank == 1 && f.rank - f.sibling.rank == 0)

/-- The promotion loop of `ravl_balance`, `ravl.c:309-313`. -/
def promoteLoop (n : Tree α) : Path α → Tree α × Path α
  | [] => (n, [])
  | f :: p =>
    if parentIs01 n f then promoteLoop ((f.plug n).addRank 1) p else (n, f :: p)

/-- `n == NULL`. -/
def Tree.isNil : Tree α → Bool
  | .nil => true
  | .node .. => false

/-- The final part of `ravl_balance`, `ravl.c:315-340`. With no parent the rank difference is
`-1 - rank ≠ 0`, so nothing happens. `n` is never null there (the new node or a promoted
one); for completeness the null case changes nothing. -/
def fixup (n : Tree α) (path : Path α) : Tree α :=
  match path, n with
  | [], n => n
  | f :: p, .nil => zip .nil (f :: p)
  | f :: p, .node l d k r =>
    let n : Tree α := .node l d k r
    if f.rank - n.rank = 0 ∧ f.rank - f.sibling.rank > 1 then
      -- `t` is the slot of `n` opposite to the slot `n` occupies, `z` the child there
      let t := f.slot.opposite
      let z := n.child t
      if z.isNil ∨ n.rank - z.rank = 2 then
        -- `ravl_rotate(n)`, demote `y` (now `n`'s child in slot `t`)
        zip ((rotate n f).mapChild t (·.addRank (-1))) p
      else if n.rank - z.rank = 1 then
        -- `ravl_rotate(z)` twice: above `n`, then above `y`; promote `z`, demote `n` and `y`,
        -- which are now `z`'s two children
        let nFrame : Frame α := ⟨t, d, k, n.child f.slot⟩
        let z2 := rotate (rotate z nFrame) f
        zip (((z2.addRank 1).mapChild .left (·.addRank (-1))).mapChild .right (·.addRank (-1))) p
      else zip n (f :: p)
    else zip n (f :: p)

/-- `ravl_balance`, `ravl.c:308-341`. -/
def balance (n : Tree α) (p : Path α) : Tree α :=
  let (n', p') := promoteLoop n p
  fixup n' p'

/-- The descent of `ravl_emplace`, `ravl.c:366-377`: the path to the missing slot, or `none`
on a duplicate (`cmp_result == 0`). -/
def descend (key : α → Nat) (x : α) : Tree α → Path α → Option (Path α)
  | .nil, p => some p
  | .node l d k r, p =>
    if key x = key d then none
    else if key x > key d then descend key x r (⟨.right, d, k, l⟩ :: p)
    else descend key x l (⟨.left, d, k, r⟩ :: p)

/-- `ravl_emplace`, `ravl.c:360-389`. `hostOk = false`: the node allocation failed. `none`:
return value -1, tree unchanged. A new node has rank 0 (`ravl_new_node`, `ravl.c:151-166`). -/
def emplace (key : α → Nat) (hostOk : Bool) (t : Tree α) (x : α) : Option (Tree α) :=
  if hostOk then
    match descend key x t [] with
    | none => none
    | some p => some (balance (.node .nil x 0 .nil) p)
  else none

/-- `ravl_node_type_most`, `ravl.c:395-402`, from a given node: the data of the extreme node. -/
def typeMost (s : Slot) : Tree α → Option α
  | .nil => none
  | .node l d _ r =>
    match s with
    | .left => match typeMost .left l with | none => some d | some x => some x
    | .right => match typeMost .right r with | none => some d | some x => some x

/-- `ravl_first`/`ravl_last`, `ravl.c:540-560`: left-most/right-most node or null. -/
def first (t : Tree α) : Option α := typeMost .left t
def last (t : Tree α) : Option α := typeMost .right t

/-- The parent walk of `ravl_node_cessor`, `ravl.c:418-423`: climb while the node is its
parent's `t` child; answer that parent. -/
def climb (t : Slot) : Path α → Option α
  | [] => none
  | f :: p => if f.slot = t then climb t p else some f.data

/-- `ravl_node_cessor`, `ravl.c:408-424`. -/
def cessor (t : Slot) (n : Tree α) (p : Path α) : Option α :=
  match n.child t with
  | .nil => climb t p
  | c => typeMost t.opposite c

/-- `enum ravl_predicate` bit set, `ravl.h`. -/
structure Pred where
  equal : Bool
  greater : Bool
  less : Bool
deriving Repr, DecidableEq

/-- The search loop `ravl_find`/`ravl_predicate_holds`, `ravl.c:451-499`. `r` is the
candidate so far; the result is the data of the node returned. -/
def findLoop (key : α → Nat) (q : Nat) (fl : Pred) : Tree α → Path α → Option α → Option α
  | .nil, _, r => r
  | .node left d k right, p, r =>
    let n : Tree α := .node left d k right
    if fl.equal ∧ q = key d then some d
    else if fl.greater ∧ q < key d then
      -- candidate, keep searching (result < 0: left slot)
      findLoop key q fl left (⟨.left, d, k, right⟩ :: p) (some d)
    else if fl.greater ∧ q = key d then cessor .right n p
    else if fl.less ∧ q > key d then
      findLoop key q fl right (⟨.right, d, k, left⟩ :: p) (some d)
    else if fl.less ∧ q = key d then cessor .left n p
    else if q > key d then findLoop key q fl right (⟨.right, d, k, left⟩ :: p) r
    else findLoop key q fl left (⟨.left, d, k, right⟩ :: p) r

/-- `ravl_find`, `ravl.c:485-499`. -/
def find (key : α → Nat) (t : Tree α) (q : Nat) (fl : Pred) : Option α :=
  findLoop key q fl t [] none

/-- Find the left-most node of a non-null subtree and unlink it: its data and the remaining
subtree (the node has no left child, so it is replaced by its right child;
`ravl.c:511-521`). -/
def unlinkLeftmost : Tree α → Option (α × Tree α)
  | .nil => none
  | .node .nil d _ r => some (d, r)
  | .node (.node ll ld lk lr) d k r =>
    match unlinkLeftmost (.node ll ld lk lr) with
    | none => none
    | some (x, l') => some (x, .node l' d k r)

/-- `ravl_remove` at a node, `ravl.c:504-522`. Two children: copy the successor's data into
the node and remove the successor; otherwise replace the node by its only child. No
rebalancing. -/
def removeRoot : Tree α → Tree α
  | .nil => .nil
  | .node .nil _ _ r => r
  | .node l _ _ .nil => l
  | .node l d k r =>
    match unlinkLeftmost r with
    | none => .node l d k r
    | some (x, r') => .node l x k r'

/-- `ravl_find(…, EQUAL)` followed by `ravl_remove` on the node found (how every caller
uses it); a missing key leaves the tree unchanged and answers `none`. -/
def remove (key : α → Nat) (q : Nat) : Tree α → Option (α × Tree α)
  | .nil => none
  | .node l d k r =>
    if q = key d then some (d, removeRoot (.node l d k r))
    else if q > key d then
      match remove key q r with
      | none => none
      | some (x, r') => some (x, .node l d k r')
    else
      match remove key q l with
      | none => none
      | some (x, l') => some (x, .node l' d k r)

/-- `ravl_foreach`, `ravl.c:78-93,119-121`: the data in callback order. -/
def foreachOrder : Tree α → List α
  | .nil => []
  | .node l d _ r => foreachOrder l ++ d :: foreachOrder r

/-- Height in nodes on the longest root-to-leaf path. -/
def height : Tree α → Nat
  | .nil => 0
  | .node l _ _ r => max (height l) (height r) + 1

end Verif.Ravl
