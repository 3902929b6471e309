/-!
# Model of `src/critnib/critnib.c` (radix tree from addresses to values), one thread

Words are 64-bit (`word` is `uintptr_t`). A `struct critnib_node *` is a value of `T`: null,
a tagged leaf, or an inner node. Stored values are of an arbitrary type `V` (a stored NULL,
which the C interface cannot tell from "absent", is not treated specially). The deferred
reuse of removed nodes matters only to concurrent readers and is in
`Verif.Critnib.ConcModel`. Host allocation outcomes are arguments.
-/
namespace Verif.Critnib

/-- `word`, `critnib.c:91`. -/
abbrev W := BitVec 64

/-- `struct critnib_node *`, `critnib.c:94-118`: null, tagged leaf, node. -/
inductive T (V : Type) where
  | nil
  | leaf (key : W) (val : V)
  | node (shift : Nat) (path : W) (child : Fin 16 → T V)

variable {V : Type}

/-- `path_mask`, `critnib.c:152`: `~NIB << shift`. -/
def pathMask (sh : Nat) : W := (~~~15#64) <<< sh

/-- `slice_index`, `critnib.c:157-159`: `(key >> shift) & NIB`. -/
def idx (key : W) (sh : Nat) : Fin 16 := Fin.ofNat 16 ((key >>> sh) &&& 15#64).toNat

/-- `utils_msb64`, `utils_math.h`: index of the highest set bit (argument not 0). -/
def msb64 (x : W) : Nat := Nat.log2 x.toNat

/-- Writing one child slot. -/
def setChild (ch : Fin 16 → T V) (i : Fin 16) (t : T V) : Fin 16 → T V :=
  fun j => if j = i then t else ch j

/-- Return values of `critnib_insert`. -/
inductive InsRes where
  | ok
  | exist
  | nomem
deriving DecidableEq, Repr

/-- The new inner node of `critnib_insert`, `critnib.c:369-389`, above `n` whose path (or leaf
key) is `p`. The second assignment wins if both slots coincide. -/
def branch (key : W) (val : V) (p : W) (n : T V) : T V :=
  let sh := msb64 (p ^^^ key) / 4 * 4
  .node sh (key &&& pathMask sh)
    (setChild (setChild (fun _ => .nil) (idx key sh) (.leaf key val)) (idx p sh) n)

/-- `critnib_insert` below the allocation of the leaf, `critnib.c:326-396`. `nodeOk`: the
allocation of an inner node, when needed, succeeds. -/
def insertAt (key : W) (val : V) (update nodeOk : Bool) : T V → T V × InsRes
  | .nil => (.leaf key val, .ok)
  | .leaf k v =>
    if k ^^^ key = 0#64 then (if update then (.leaf k val, .ok) else (.leaf k v, .exist))
    else if nodeOk then (branch key val k (.leaf k v), .ok) else (.leaf k v, .nomem)
  | .node sh path ch =>
    if key &&& pathMask sh = path then
      let r := insertAt key val update nodeOk (ch (idx key sh))
      (.node sh path (setChild ch (idx key sh) r.1), r.2)
    else if nodeOk then (branch key val path (.node sh path ch), .ok)
    else (.node sh path ch, .nomem)

/-- `critnib_insert`, `critnib.c:310-396`. `leafOk`: the allocation of the leaf succeeds. -/
def insert (key : W) (val : V) (update leafOk nodeOk : Bool) (t : T V) : T V × InsRes :=
  if leafOk then insertAt key val update nodeOk t else (t, .nomem)

def T.isNil : T V → Bool
  | .nil => true
  | _ => false

def T.isLeaf : T V → Bool
  | .leaf _ _ => true
  | _ => false

/-- The children that are not null, in order (the loop of `critnib_remove`, 456-464). -/
def children (ch : Fin 16 → T V) : List (Fin 16) := (List.finRange 16).filter fun i => !(ch i).isNil

/-- Result of `critnib_remove`: the value and the new tree, or nothing found. `ub`: no child
remained and the code stores `child[-1]` (`ASSERTne(ochild, -1)`). -/
inductive RemRes (V : Type) where
  | notFound
  | removed (val : V) (t : T V)
  | ub

/-- `critnib_remove`, `critnib.c:401-479`: descend to the leaf, clear its slot, and replace its
parent by the only remaining child, if only one remains. -/
def remove (key : W) : T V → RemRes V
  | .nil => .notFound
  | .leaf k v => if k = key then .removed v .nil else .notFound
  | .node sh path ch =>
    match remove key (ch (idx key sh)) with
    | .notFound => .notFound
    | .ub => .ub
    | .removed v c =>
      if (ch (idx key sh)).isLeaf then
        let ch' := setChild ch (idx key sh) .nil
        match children ch' with
        | [] => .ub
        | [o] => .removed v (ch' o)
        | _ => .removed v (.node sh path ch')
      else .removed v (.node sh path (setChild ch (idx key sh) c))

/-- `critnib_get`, `critnib.c:491-518`. -/
def get (key : W) : T V → Option V
  | .nil => none
  | .leaf k v => if k = key then some v else none
  | .node sh _ ch => get key (ch (idx key sh))

/-- `find_predecessor`, `critnib.c:523-549`, extended to leaves and null. -/
def rightmost : T V → Option (W × V)
  | .nil => none
  | .leaf k v => some (k, v)
  | .node _ _ ch =>
    match (List.finRange 16).reverse.find? (fun i => !(ch i).isNil) with
    | none => none
    | some i => rightmost (ch i)

/-- `find_successor`, `critnib.c:644-671`. -/
def leftmost : T V → Option (W × V)
  | .nil => none
  | .leaf k v => some (k, v)
  | .node _ _ ch =>
    match (List.finRange 16).find? (fun i => !(ch i).isNil) with
    | none => none
    | some i => leftmost (ch i)

/-- `(key ^ n->path) >> (n->shift) & ~NIB`, `critnib.c:574,690`. -/
def outside (key path : W) (sh : Nat) : Bool := ((key ^^^ path) >>> sh) &&& ~~~15#64 != 0#64

/-- `find_le`, `critnib.c:554-618`. -/
def findLe (key : W) : T V → Option (W × V)
  | .nil => none
  | .leaf k v => if k ≤ key then some (k, v) else none
  | .node sh path ch =>
    if outside key path sh then
      if path < key then rightmost (.node sh path ch) else none
    else
      match findLe key (ch (idx key sh)) with
      | some r => some r
      | none =>
        -- the slots to the left, nearest first
        match ((List.finRange 16).filter (· < idx key sh)).reverse.find? (fun i => !(ch i).isNil) with
        | none => none
        | some i => rightmost (ch i)

/-- `find_ge`, `critnib.c:676-717`. -/
def findGe (key : W) : T V → Option (W × V)
  | .nil => none
  | .leaf k v => if k ≥ key then some (k, v) else none
  | .node sh path ch =>
    if outside key path sh then
      if path > key then leftmost (.node sh path ch) else none
    else
      match findGe key (ch (idx key sh)) with
      | some r => some r
      | none =>
        match ((List.finRange 16).filter (idx key sh < ·)).find? (fun i => !(ch i).isNil) with
        | none => none
        | some i => leftmost (ch i)

/-- `enum find_dir_t`, `critnib.h`. -/
inductive Dir where
  | l | le | eq | ge | g
deriving DecidableEq, Repr

/-- The exact search inside `critnib_find`, `critnib.c:752-760`. -/
def findEq (key : W) : T V → Option (W × V)
  | .nil => none
  | .leaf k v => if k = key then some (k, v) else none
  | .node sh _ ch => findEq key (ch (idx key sh))

/-- `critnib_find`, `critnib.c:722-779`. -/
def find (key : W) (dir : Dir) (t : T V) : Option (W × V) :=
  match dir with
  | .l => if key = 0#64 then none else findLe (key - 1#64) t
  | .le => findLe key t
  | .eq => findEq key t
  | .ge => findGe key t
  | .g => if key = BitVec.allOnes 64 then none else findGe (key + 1#64) t

/-- `critnib_find_le`, `critnib.c:625-639`. -/
def findLeValue (key : W) (t : T V) : Option V := (findLe key t).map (·.2)

/-- Running one part of an iteration after another: an abort stops it. -/
def andThen (a b : List (W × V) × Bool) : List (W × V) × Bool :=
  if a.2 then a else (a.1 ++ b.1, b.2)

/-- `iter`, `critnib.c:786-812`: the calls made to `func`, in order, and whether the walk was
aborted. `stop k v`: `func` returns non-zero. -/
def iter (min max : W) (stop : W → V → Bool) : T V → List (W × V) × Bool
  | .nil => ([], false)
  | .leaf k v => if k ≥ min ∧ k ≤ max then ([(k, v)], stop k v) else ([], false)
  | .node sh path ch =>
    if path > max then ([], true)
    else if (path ||| pathMask sh) < min then ([], false)
    else (List.finRange 16).foldr (fun i acc => andThen (iter min max stop (ch i)) acc) ([], false)

/-- `critnib_iter`, `critnib.c:814-822`: the calls made. -/
def iterCalls (min max : W) (stop : W → V → Bool) (t : T V) : List (W × V) :=
  (iter min max stop t).1

end Verif.Critnib
