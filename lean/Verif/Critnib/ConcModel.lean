import Verif.Critnib.Spec
import Mathlib.Logic.Function.Basic
/-!
# Model of `src/critnib/critnib.c` with concurrent readers

Here the tree is memory: nodes and leaves have identities, and every store to shared memory is a
step of its own. Writers hold `c->mutex`, so their own loads see only their own stores: the list
of stores of an insertion or removal is computed when the mutex is taken, and then they are made
one at a time. A reader makes one load (of the shared tree) per step. Steps of any number of
readers and of the writer interleave arbitrarily, on sequentially consistent memory.

Simplifications: memory is sequentially consistent (the code uses acquire loads and release
stores, but the last check of `remove_count` needs loads not to be reordered, which acquire does
not give on every processor); `remove_count` does not wrap; `n->path`, `n->shift` are loaded once
per visit of a node; host memory is never returned before `critnib_delete`, which is
modelled in `DelModel.lean`; of `critnib_find` only `FIND_LE` is modelled. A call of a writer begins when it has the
mutex.
-/
namespace Verif.Critnib.Conc
open Verif.Critnib

variable {V : Type}

/-- `struct critnib_node *`: null, a tagged pointer to a leaf, a pointer to a node
(`critnib.c:95-145`). -/
inductive Ptr where
  | null
  | leaf (l : Nat)
  | node (n : Nat)
deriving DecidableEq, Repr

/-- `struct critnib_node`, `critnib.c:95-114`. -/
structure Node where
  child : Fin 16 → Ptr
  path : W
  shift : Nat

/-- `void *value` of a leaf: what the user stored, or the link of the list of free leaves
(`critnib.c:280`). -/
inductive Val (V : Type) where
  | user (v : V)
  | link (next : Option Nat)

/-- `struct critnib_leaf`, `critnib.c:116-119`. -/
structure Leaf (V : Type) where
  key : W
  val : Val V

/-- `struct critnib`, `critnib.c:121-135`, and the memory it uses. `nextN`, `nextL`: how many
nodes and leaves the host has handed out. -/
structure Mem (V : Type) where
  root : Ptr
  nodes : Nat → Node
  leaves : Nat → Leaf V
  delNode : Ptr
  delLeaf : Option Nat
  pendN : Fin 16 → Option Nat
  pendL : Fin 16 → Option Nat
  count : Nat
  nextN : Nat
  nextL : Nat

/-- A place that holds a pointer of the tree: `&c->root` or `&n->child[i]`. -/
inductive Slot where
  | root
  | child (n : Nat) (i : Fin 16)
deriving DecidableEq, Repr

/-- One store to shared memory (the last two: the host hands out a node or a leaf). -/
inductive Store (V : Type) where
  | slot (s : Slot) (p : Ptr)
  | path (n : Nat) (w : W)
  | shift (n : Nat) (sh : Nat)
  | key (l : Nat) (w : W)
  | val (l : Nat) (v : Val V)
  | delNode (p : Ptr)
  | delLeaf (o : Option Nat)
  | pendN (i : Fin 16) (o : Option Nat)
  | pendL (i : Fin 16) (o : Option Nat)
  | incCount
  | hostNode
  | hostLeaf

/-- The effect of a store. -/
def Mem.store (m : Mem V) : Store V → Mem V
  | .slot .root p => { m with root := p }
  | .slot (.child n i) p =>
    { m with
      nodes := Function.update m.nodes n
        ({ m.nodes n with child := Function.update (m.nodes n).child i p }) }
  | .path n w => { m with nodes := Function.update m.nodes n ({ m.nodes n with path := w }) }
  | .shift n sh => { m with nodes := Function.update m.nodes n ({ m.nodes n with shift := sh }) }
  | .key l w => { m with leaves := Function.update m.leaves l ({ m.leaves l with key := w }) }
  | .val l v => { m with leaves := Function.update m.leaves l ({ m.leaves l with val := v }) }
  | .delNode p => { m with delNode := p }
  | .delLeaf o => { m with delLeaf := o }
  | .pendN i o => { m with pendN := Function.update m.pendN i o }
  | .pendL i o => { m with pendL := Function.update m.pendL i o }
  | .incCount => { m with count := m.count + 1 }
  | .hostNode => { m with nextN := m.nextN + 1 }
  | .hostLeaf => { m with nextL := m.nextL + 1 }

/-- Several stores in order. -/
def Mem.stores (m : Mem V) (ss : List (Store V)) : Mem V := ss.foldl Mem.store m

/-- The pointer in a slot. -/
def Mem.load (m : Mem V) : Slot → Ptr
  | .root => m.root
  | .child n i => (m.nodes n).child i

/-- `critnib_new`, `critnib.c:165-185`. The contents of memory not yet handed out are
arbitrary. -/
def Mem.new (nodes : Nat → Node) (leaves : Nat → Leaf V) : Mem V where
  root := .null
  nodes := nodes
  leaves := leaves
  delNode := .null
  delLeaf := none
  pendN := fun _ => none
  pendL := fun _ => none
  count := 0
  nextN := 0
  nextL := 0

/-- `free_node`, `critnib.c:242-251`. -/
def freeNode (m : Mem V) : Option Nat → List (Store V)
  | none => []
  | some n => [.slot (.child n 0) m.delNode, .delNode (.node n)]

/-- `free_leaf`, `critnib.c:274-282`. -/
def freeLeaf (m : Mem V) : Option Nat → List (Store V)
  | none => []
  | some k => [.val k (.link m.delLeaf), .delLeaf (some k)]

/-- Outcome of an allocation: refused, an item with the stores made, or a wild access (the list
of free items is corrupt). -/
inductive Got (V : Type) where
  | refused
  | got (n : Nat) (ss : List (Store V))
  | wild

/-- `alloc_node`, `critnib.c:256-267`. -/
def allocNode (m : Mem V) (hostOk : Bool) : Got V :=
  match m.delNode with
  | .null => if hostOk then .got m.nextN [.hostNode] else .refused
  | .node n => .got n [.delNode ((m.nodes n).child 0)]
  | .leaf _ => .wild

/-- `alloc_leaf`, `critnib.c:287-298`. -/
def allocLeaf (m : Mem V) (hostOk : Bool) : Got V :=
  match m.delLeaf with
  | none => if hostOk then .got m.nextL [.hostLeaf] else .refused
  | some k =>
    match (m.leaves k).val with
    | .link o => .got k [.delLeaf o]
    | .user _ => .wild

/-- The loop of `critnib_insert`, `critnib.c:334-341`: the slot reached and the pointer in it.
`none`: the loop did not end within the given number of steps. -/
def descend (m : Mem V) (key : W) : Nat → Slot → Ptr → Option (Slot × Ptr)
  | 0, _, _ => none
  | f + 1, s, .node n =>
    if key &&& pathMask (m.nodes n).shift = (m.nodes n).path then
      descend m key f (.child n (idx key (m.nodes n).shift))
        ((m.nodes n).child (idx key (m.nodes n).shift))
    else some (s, .node n)
  | _ + 1, s, p => some (s, p)

/-- More steps than the loops can need: shifts are multiples of 4 below 64 and decrease. -/
def depth : Nat := 18

/-- `path` of `critnib_insert`, `critnib.c:353` (of a pointer that is not null). -/
def pathOf (m : Mem V) : Ptr → W
  | .leaf l => (m.leaves l).key
  | .node n => (m.nodes n).path
  | .null => 0#64

/-- The stores that fill a new inner node, `critnib.c:383-390`. -/
def fillNode (n : Nat) (key path : W) (sh : Nat) (kn old : Ptr) : List (Store V) :=
  (List.finRange 16).map (fun i => .slot (.child n i) .null) ++
    [.slot (.child n (idx key sh)) kn, .slot (.child n (idx path sh)) old, .shift n sh,
      .path n (key &&& pathMask sh)]

/-- The rest of `critnib_insert` for a slot that holds `n`, not null: `critnib.c:353-395`. `ss`:
the stores made so far, `m` the memory after them, `k` the new leaf. -/
def insertFull (m : Mem V) (ss : List (Store V)) (k : Nat) (key : W) (v : V)
    (update nodeOk : Bool) (s : Slot) (n : Ptr) : Option (List (Store V) × InsRes) :=
  if pathOf m n ^^^ key = 0#64 then
    match n with
    | .leaf l =>
      if update then some (ss ++ freeLeaf m (some k) ++ [.val l (.user v)], .ok)
      else some (ss ++ freeLeaf m (some k), .exist)
    | _ => none
  else
    match allocNode m nodeOk with
    | .wild => none
    | .refused => some (ss ++ freeLeaf m (some k), .nomem)
    | .got nn as =>
      let sh := msb64 (pathOf m n ^^^ key) / 4 * 4
      some (ss ++ as ++ fillNode nn key (pathOf m n) sh (.leaf k) n ++ [.slot s (.node nn)], .ok)

/-- `critnib_insert`, `critnib.c:310-396`: the stores and the result. `none`: a wild access or a
loop that does not end. -/
def insertStores (m : Mem V) (key : W) (v : V) (update leafOk nodeOk : Bool) :
    Option (List (Store V) × InsRes) :=
  match allocLeaf m leafOk with
  | .refused => some ([], .nomem)
  | .wild => none
  | .got k as =>
    let ss := as ++ [.key k key, .val k (.user v)]
    let m1 := m.stores ss
    match m1.root with
    | .null => some (ss ++ [.slot .root (.leaf k)], .ok)
    | r =>
      match descend m1 key depth .root r with
      | none => none
      | some (s, .null) => some (ss ++ [.slot s (.leaf k)], .ok)
      | some (s, n) => insertFull m1 ss k key v update nodeOk s n

/-- Where the loop of `critnib_remove` ends. -/
inductive Des where
  | missing
  | found (np : Slot) (n : Nat) (i : Fin 16) (l : Nat)

/-- The loop of `critnib_remove`, `critnib.c:432-445`, from `kn = node n` found in slot `s`. -/
def descendR (m : Mem V) (key : W) : Nat → Slot → Nat → Option Des
  | 0, _, _ => none
  | f + 1, s, n =>
    match (m.nodes n).child (idx key (m.nodes n).shift) with
    | .null => some .missing
    | .leaf l => some (.found s n (idx key (m.nodes n).shift) l)
    | .node n' => descendR m key f (.child n (idx key (m.nodes n).shift)) n'

/-- `c->remove_count` was `count`: the index in the arrays of pending items, `critnib.c:412`. -/
def delIdx (count : Nat) : Fin 16 := Fin.ofNat 16 count

/-- The children that are not null, in order (`critnib.c:456-465`). -/
def kids (ch : Fin 16 → Ptr) : List (Fin 16) := (List.finRange 16).filter fun i => ch i != .null

/-- The end of `critnib_remove`, `critnib.c:472-478`, for the leaf `l`. -/
def removeEnd (m : Mem V) (ss : List (Store V)) (del : Fin 16) (l : Nat) :
    Option (List (Store V) × Option V) :=
  match (m.leaves l).val with
  | .user v => some (ss ++ [.pendL del (some l)], some v)
  | .link _ => none

/-- `critnib_remove`, `critnib.c:401-479`: the stores and the value returned. `none`: a wild
access (among them `child[-1]`) or a loop that does not end. -/
def removeStores (m : Mem V) (key : W) : Option (List (Store V) × Option V) :=
  match m.root with
  | .null => some ([], none)
  | r =>
    let del := delIdx m.count
    let s1 : List (Store V) := [.incCount]
    let s2 := s1 ++ freeNode (m.stores s1) (m.pendN del)
    let s3 := s2 ++ freeLeaf (m.stores s2) (m.pendL del)
    let ss := s3 ++ [.pendN del none, .pendL del none]
    let m1 := m.stores ss
    match r with
    | .null => none
    | .leaf l =>
      if (m1.leaves l).key = key then removeEnd m1 (ss ++ [.slot .root .null]) del l
      else some (ss, none)
    | .node n0 =>
      match descendR m1 key depth .root n0 with
      | none => none
      | some .missing => some (ss, none)
      | some (.found np n i l) =>
        if (m1.leaves l).key = key then
          let ss' := ss ++ [.slot (.child n i) .null]
          let m2 := m.stores ss'
          match kids (m2.nodes n).child with
          | [] => none
          | [o] => removeEnd m2 (ss' ++ [.slot np ((m2.nodes n).child o), .pendN del (some n)])
              del l
          | _ => removeEnd m2 ss' del l
        else some (ss, none)

/-! ## Readers -/

/-- Lookups. -/
inductive Query where
  | get (key : W)
  | findLe (key : W)
deriving DecidableEq, Repr

def Query.key : Query → W
  | .get k => k
  | .findLe k => k

/-- Where a reader is. `w` is `wrs1`; `st` are the suspended calls of `find_le`, innermost
first: the node and how many slots to the left remain to be searched. -/
inductive Pc (V : Type) where
  /-- not in a call -/
  | idle
  /-- about to load `remove_count` -/
  | start
  /-- about to load `root` -/
  | root (w : Nat)
  /-- the loop of `critnib_get`, with `n` -/
  | walk (w : Nat) (p : Ptr)
  /-- about to load `n->child[slice_index(key, sh)]` -/
  | shift (w : Nat) (n : Nat) (sh : Nat)
  /-- about to load the value of a leaf whose key was read -/
  | value (w : Nat) (l : Nat) (k : W)
  /-- about to load `remove_count` again -/
  | check (w : Nat) (res : Option (W × Val V))
  /-- entering `find_le(p)` -/
  | call (w : Nat) (st : List (Nat × Nat)) (p : Ptr)
  /-- `n->path` was read -/
  | path (w : Nat) (st : List (Nat × Nat)) (n : Nat) (pa : W)
  /-- about to load `n->child[nib]`, to follow the path -/
  | follow (w : Nat) (st : List (Nat × Nat)) (n : Nat) (nib : Fin 16)
  /-- a call of `find_le` (or of `find_predecessor` in its tail) returned NULL -/
  | none (w : Nat) (st : List (Nat × Nat))
  /-- `find_predecessor(n)`, about to load `n->child[nib]` -/
  | pred (w : Nat) (st : List (Nat × Nat)) (n : Nat) (nib : Fin 16)
  /-- `find_predecessor(n)`, about to load `n->child[nib]` a second time -/
  | pred2 (w : Nat) (st : List (Nat × Nat)) (n : Nat) (nib : Fin 16)
  /-- the leaf was found, about to load its key -/
  | found (w : Nat) (l : Nat)

/-- One step of `critnib_get` (`critnib.c:491-518`) or of `critnib_find_le`,
`critnib_find(FIND_LE)` (`critnib.c:625-639`, `722-779`, with `find_le`, 554-618, and
`find_predecessor`, 523-549). The second component is the result when the call returns: the key
and the value of the leaf found. -/
def readStep (m : Mem V) (q : Query) : Pc V → Pc V × Option (Option (W × Val V))
  | .idle => (.idle, none)
  | .start => (.root m.count, none)
  | .root w =>
    match q with
    | .get _ => (.walk w m.root, none)
    | .findLe _ => (.call w [] m.root, none)
  | .walk w .null => (.check w none, none)
  | .walk w (.leaf l) =>
    if (m.leaves l).key = q.key then (.value w l q.key, none) else (.check w none, none)
  | .walk w (.node n) => (.shift w n (m.nodes n).shift, none)
  | .shift w n sh => (.walk w ((m.nodes n).child (idx q.key sh)), none)
  | .value w l k => (.check w (some (k, (m.leaves l).val)), none)
  | .check w res => if w + 16 ≤ m.count then (.start, none) else (.idle, some res)
  | .call w st .null => (.none w st, none)
  | .call w st (.leaf l) =>
    if (m.leaves l).key ≤ q.key then (.found w l, none) else (.none w st, none)
  | .call w st (.node n) => (.path w st n (m.nodes n).path, none)
  | .path w st n pa =>
    if outside q.key pa (m.nodes n).shift then
      if pa < q.key then (.pred w st n 15, none) else (.none w st, none)
    else (.follow w st n (idx q.key (m.nodes n).shift), none)
  | .follow w st n nib => (.call w ((n, nib.val) :: st) ((m.nodes n).child nib), none)
  | .none w [] => (.check w none, none)
  | .none w ((_, 0) :: st) => (.none w st, none)
  | .none w ((n, nib + 1) :: st) =>
    match (m.nodes n).child (Fin.ofNat 16 nib) with
    | .null => (.none w ((n, nib) :: st), none)
    | .leaf l => (.found w l, none)
    | .node n' => (.pred w st n' 15, none)
  | .pred w st n nib =>
    match (m.nodes n).child nib with
    | .null => if nib = 0 then (.none w st, none) else (.pred w st n (nib - 1), none)
    | _ => (.pred2 w st n nib, none)
  | .pred2 w st n nib =>
    match (m.nodes n).child nib with
    | .null => (.none w st, none)
    | .leaf l => (.found w l, none)
    | .node n' => (.pred w st n' 15, none)
  | .found w l => (.value w l (m.leaves l).key, none)

/-! ## The system -/

/-- The shared memory, the writer that holds the mutex (the stores still to be made and its
result) and the readers. `broken`: a writer made a wild access or never ends. -/
structure Sys (V : Type) where
  mem : Mem V
  writer : Option (List (Store V) × Spec.Out V)
  readers : Nat → Query × Pc V
  broken : Bool

/-- Who runs next. -/
inductive Act (V : Type) where
  /-- a thread takes the mutex for `critnib_insert` -/
  | insert (key : W) (v : V) (update leafOk nodeOk : Bool)
  /-- a thread takes the mutex for `critnib_remove` -/
  | remove (key : W)
  /-- the writer makes its next store, or releases the mutex and returns -/
  | write
  /-- reader `r` begins a lookup -/
  | call (r : Nat) (q : Query)
  /-- reader `r` makes a step -/
  | read (r : Nat)

/-- What callers see. -/
inductive Ev (V : Type) where
  | tau
  | updCall (op : Spec.Op V)
  | updRet (out : Spec.Out V)
  | call (r : Nat) (q : Query)
  | ret (r : Nat) (res : Option (W × Val V))

/-- A step of the system. A choice that is not possible (the mutex is taken, the reader is busy)
does nothing. -/
def step (s : Sys V) : Act V → Sys V × Ev V
  | .insert key v update leafOk nodeOk =>
    match s.writer with
    | some _ => (s, .tau)
    | none =>
      match insertStores s.mem key v update leafOk nodeOk with
      | none => ({ s with broken := true }, .tau)
      | some (ss, r) =>
        ({ s with writer := some (ss, .inserted r) },
          .updCall (.insert key v update leafOk nodeOk))
  | .remove key =>
    match s.writer with
    | some _ => (s, .tau)
    | none =>
      match removeStores s.mem key with
      | none => ({ s with broken := true }, .tau)
      | some (ss, r) => ({ s with writer := some (ss, .value r) }, .updCall (.remove key))
  | .write =>
    match s.writer with
    | none => (s, .tau)
    | some ([], out) => ({ s with writer := none }, .updRet out)
    | some (a :: ss, out) => ({ s with mem := s.mem.store a, writer := some (ss, out) }, .tau)
  | .call r q =>
    match (s.readers r).2 with
    | .idle => ({ s with readers := Function.update s.readers r (q, .start) }, .call r q)
    | _ => (s, .tau)
  | .read r =>
    let p := readStep s.mem (s.readers r).1 (s.readers r).2
    ({ s with readers := Function.update s.readers r ((s.readers r).1, p.1) },
      match p.2 with
      | none => .tau
      | some res => .ret r res)

/-- A new tree, no writer, all readers idle. -/
def Sys.init (nodes : Nat → Node) (leaves : Nat → Leaf V) : Sys V where
  mem := .new nodes leaves
  writer := none
  readers := fun _ => (.get 0#64, .idle)
  broken := false

/-- The states of a run: `sched t` chooses who runs at time `t`. -/
def run (s0 : Sys V) (sched : Nat → Act V) : Nat → Sys V
  | 0 => s0
  | t + 1 => (step (run s0 sched t) (sched t)).1

/-- What callers see at time `t`. -/
def event (s0 : Sys V) (sched : Nat → Act V) (t : Nat) : Ev V :=
  (step (run s0 sched t) (sched t)).2

end Verif.Critnib.Conc
