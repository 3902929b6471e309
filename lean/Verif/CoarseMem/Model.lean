import Verif.Coarse.IndexModel
import Verif.RavlMem.Model
/-!
# The coarse allocator, pointer by pointer: `src/coarse/coarse.c` with its own memory

`Coarse/Model.lean` keeps the blocks and the free blocks in lists. Here is what the code has in memory: descriptors of blocks
(`block_t`), the elements and the heads of the lists of free blocks, and the nodes of the two trees (`RavlMem/Model.lean`) are blocks
of the base allocator that point to each other. Every access goes through a pointer. `none` is undefined behaviour: a `NULL`
pointer, a block of memory that was never allocated or is freed. Loops take a number of rounds (`fuel`); the theorems say that every
call ends and has the same result for every larger number.

Simplifications. Release build: assertions do nothing. Each call here runs under `coarse->lock` (the two halves of
`coarse_add_memory_fixed` and of `coarse_add_memory_from_provider` are one call). Locking does not fail, handles and result pointers are
not `NULL`. Addresses and sizes of the memory that is handed out are numbers without wrap-around, except the sum that
`find_free_block` checks. What the callbacks answer is an argument (`Env`). The base allocator answers a request with an address and with
what is in the byte `used` of the memory there (`block_t` is not cleared). `struct coarse_t` and the two `struct ravl` are not blocks here:
their creation and release is in `CpuProv/` (C68).
-/
namespace Verif.CoarseMem
open Verif.Coarse (Res Strategy Cfg Check aligned alignUp effAlign)
open Verif.Coarse.Index (Elem)
open Verif.Ravl (Slot Pred)

abbrev Addr := Nat

/-- `block_t`, `coarse.c:67-75`; `fl` is `free_list_ptr`. -/
structure Blk where
  data : Nat
  size : Nat
  used : Bool
  fl : Addr
deriving DecidableEq, Repr

/-- The two trees of `coarse_t`, `coarse.c:45-51`: `all_blocks` and `free_blocks`. -/
inductive Tr where
  | all | fre
deriving DecidableEq, Repr

/-- `coarse_t`, `coarse.c:32-58`, and the memory of the base allocator: the trees with their nodes (data: `ravl_data_t`, 84-87), the
descriptors of blocks, the elements of lists (95-99), the heads of lists (90-92), and the next answers of the base allocator. `refused` is
no part of the program: it records that the base allocator has refused a request. -/
structure St where
  tree : Tr → RavlMem.St (Nat × Addr)
  blk : Addr → Option Blk
  elm : Addr → Option Elem
  hd : Addr → Option Addr
  usedSize : Nat
  allocSize : Nat
  host : List (Addr × Bool)
  refused : Bool

/-- `coarse_new`, `coarse.c:860-944`: two empty trees. -/
def St.init : St := ⟨fun _ => RavlMem.init, fun _ => none, fun _ => none, fun _ => none, 0, 0, [], false⟩

/-- One place of the memory changes (auxiliary). -/
def upd {β : Type} (f : Addr → β) (a : Addr) (x : β) : Addr → β := fun b => if b = a then x else f b

/-- One tree changes (auxiliary). -/
def updT {β : Type} (f : Tr → β) (t : Tr) (x : β) : Tr → β := fun u => if u = t then x else f u

/-- A piece of code: the number of rounds its loops may take, the state before; `none` is undefined behaviour. -/
def M (α : Type) := Nat → St → Option (α × St)

instance : Monad M where
  pure a := fun _ s => some (a, s)
  bind m f := fun n s => match m n s with
    | none => none
    | some (a, s) => f a n s

/-- What the callbacks answer, `coarse.h`; `upAlloc`: the result and the address. -/
structure Env where
  splitCb : Nat → Nat → Nat → Res
  mergeCb : Nat → Nat → Nat → Res
  upAlloc : Nat → Nat → Res × Nat

/-! ## Memory -/

/-- No block of memory has the address `a`. -/
def fresh (s : St) (a : Addr) : Bool :=
  (s.blk a).isNone && (s.elm a).isNone && (s.hd a).isNone && ((s.tree .all).h a).isNone && ((s.tree .fre).h a).isNone

/-- `umf_ba_global_alloc`, seen from its callers: an address without a block and what the byte `used` holds there, or `NULL`. -/
def hostAlloc : M (Addr × Bool) := fun _ s =>
  let a := s.host.headD (0, false)
  if a.1 ≠ 0 ∧ fresh s a.1 = true then some (a, { s with host := s.host.tail })
  else some ((0, false), { s with host := s.host.tail, refused := true })

/-- Reads, writes, allocation (`new…`) and release (`umf_ba_global_free`) of descriptors, elements and heads. -/
def getB (b : Addr) : M Blk := fun _ s => (s.blk b).map fun B => (B, s)
def modB (b : Addr) (f : Blk → Blk) : M Unit := fun _ s => (s.blk b).map fun B => ((), { s with blk := upd s.blk b (some (f B)) })
def newB (b : Addr) (B : Blk) : M Unit := fun _ s => some ((), { s with blk := upd s.blk b (some B) })
def freeB (b : Addr) : M Unit := fun _ s => (s.blk b).map fun _ => ((), { s with blk := upd s.blk b none })

def getE (e : Addr) : M Elem := fun _ s => if e = 0 then none else (s.elm e).map fun n => (n, s)
def newE (e : Addr) (n : Elem) : M Unit := fun _ s => some ((), { s with elm := upd s.elm e (some n) })
def freeE (e : Addr) : M Unit := fun _ s => (s.elm e).map fun _ => ((), { s with elm := upd s.elm e none })
/-- `if (p) { p->prev = v; }`, 230-232, 257-259, 284-286. -/
def setPrev (p v : Addr) : M Unit := fun _ s => (Coarse.Index.setPrev s.elm p v).map fun m => ((), { s with elm := m })
/-- `if (p) { p->next = v; }`, 261-263. -/
def setNext (p v : Addr) : M Unit := fun _ s => (Coarse.Index.setNext s.elm p v).map fun m => ((), { s with elm := m })

def getH (h : Addr) : M Addr := fun _ s => (s.hd h).map fun f => (f, s)
def setH (h f : Addr) : M Unit := fun _ s => (s.hd h).map fun _ => ((), { s with hd := upd s.hd h (some f) })
def newH (h f : Addr) : M Unit := fun _ s => some ((), { s with hd := upd s.hd h (some f) })
def freeH (h : Addr) : M Unit := fun _ s => (s.hd h).map fun _ => ((), { s with hd := upd s.hd h none })

def addSizes (used alloc : Nat) : M Unit := fun _ s =>
  some ((), { s with usedSize := s.usedSize + used, allocSize := s.allocSize + alloc })
def subSizes (used alloc : Nat) : M Unit := fun _ s =>
  some ((), { s with usedSize := s.usedSize - used, allocSize := s.allocSize - alloc })

/-! ## The trees -/

/-- `RAVL_PREDICATE_EQUAL` and `RAVL_PREDICATE_GREATER_EQUAL`, `ravl.h`. -/
def eqP : Pred := ⟨true, false, false⟩
def geP : Pred := ⟨true, true, false⟩

/-- `ravl_find` with `coarse_ravl_comp` (102-117): the node or `NULL`. -/
def findN (t : Tr) (q : Nat) (p : Pred) : M Addr := fun n s => (RavlMem.find Prod.fst q p n (s.tree t)).map fun a => (a, s)
/-- `*ravl_data(node)`. -/
def dataOf (t : Tr) (a : Addr) : M (Nat × Addr) := fun _ s => (RavlMem.get (s.tree t) a).map fun c => (c.data, s)
/-- `ravl_node_predecessor` and `ravl_node_successor`, 125-131. -/
def cessorN (t : Tr) (d : Slot) (a : Addr) : M Addr := fun n s => (RavlMem.cessor d n (s.tree t) a).map fun b => (b, s)
/-- `ravl_remove`. -/
def removeN (t : Tr) (a : Addr) : M Unit := fun n s =>
  (RavlMem.remove n (s.tree t) a).map fun r => ((), { s with tree := updT s.tree t r })
/-- `ravl_emplace` with the block `a` for the node. -/
def emplaceAt (t : Tr) (x : Nat × Addr) (a : Addr) : M Bool := fun n s =>
  (RavlMem.emplace Prod.fst x a n (s.tree t)).map fun r => (r.2, { s with tree := updT s.tree t r.1 })
/-- `ravl_emplace_copy`: `true` is 0. -/
def emplaceN (t : Tr) (x : Nat × Addr) : M Bool := do
  let r ← hostAlloc
  emplaceAt t x r.1
/-- `ravl_foreach`: what the callback gets, in this order. The callbacks of `coarse.c` do not change the tree they are called for. -/
def foreachN (t : Tr) : M (List (Nat × Addr)) := fun n s => (RavlMem.foreach n (s.tree t)).map fun r => (r.2, s)
/-- `ravl_delete`, without the release of `struct ravl`. -/
def deleteN (t : Tr) : M Unit := fun n s =>
  (RavlMem.deleteCb n (s.tree t)).map fun r => ((), { s with tree := updT s.tree t r.1 })

/-! ## Lists of free blocks of one size -/

/-- `node_list_add`, 220-240: the new element or `NULL`. -/
def nodeListAdd (h b : Addr) : M Addr := do
  let r ← hostAlloc
  if r.1 = 0 then pure 0
  else do
    let f ← getH h
    setPrev f r.1
    newE r.1 ⟨b, f, 0⟩
    setH h r.1
    pure r.1

/-- `if (node == head_node->head) { head_node->head = node->next; }`, 249-252. -/
def unhead (h e f next : Addr) : M Unit := if e = f then setH h next else pure ()

/-- `node_list_rm`, 243-269. -/
def nodeListRm (h e : Addr) : M Addr := do
  let f ← getH h
  let n ← getE e
  unhead h e f n.next
  setPrev n.next n.prev
  setNext n.prev n.next
  modB n.blk fun B => { B with fl := 0 }
  freeE e
  pure n.blk

/-- `node_list_rm_first`, 272-294. The first element is read without a check for `NULL`. -/
def nodeListRmFirst (h a : Addr) : M Addr := do
  let f ← getH h
  let n ← getE f
  let B ← getB n.blk
  if aligned B.data a then do
    setPrev n.next 0
    setH h n.next
    modB n.blk fun B => { B with fl := 0 }
    freeE f
    pure n.blk
  else pure 0

/-- The loop of `node_list_rm_with_alignment`, 305-309: the element found or `NULL`. -/
def walk (a : Nat) : Nat → Addr → M Addr
  | 0, _ => fun _ _ => none
  | k + 1, p =>
    if p = 0 then pure 0
    else do
      let n ← getE p
      let B ← getB n.blk
      if aligned B.data a then pure p else walk a k n.next

/-- The loop with all the rounds it may take. -/
def walkAll (a : Nat) (p : Addr) : M Addr := fun n s => walk a n p n s

/-- `node_list_rm_with_alignment`, 297-312. -/
def nodeListRmAligned (h a : Addr) : M Addr := do
  let f ← getH h
  let e ← walkAll a f
  if e = 0 then pure 0 else nodeListRm h e

/-! ## The tree of lists -/

/-- `free_blocks_add`, the end, 347-354: `true` is 0. -/
def addTo (h b : Addr) : M Bool := do
  let e ← nodeListAdd h b
  modB b fun B => { B with fl := e }
  pure (decide (e ≠ 0))

/-- `free_blocks_add`, 319-355: `true` is 0. -/
def freeAdd (b : Addr) : M Bool := do
  let B ← getB b
  let n ← findN .fre B.size eqP
  if n ≠ 0 then do
    let d ← dataOf .fre n
    addTo d.2 b
  else do
    let r ← hostAlloc
    if r.1 = 0 then pure false
    else do
      newH r.1 0
      let ok ← emplaceN .fre (B.size, r.1)
      if ok = true then addTo r.1 b
      else do
        freeH r.1
        pure false

/-- The common end of `free_blocks_rm_ge` (387-390) and `free_blocks_rm_node` (417-420): an empty list goes away. -/
def dropEmpty (n h : Addr) : M Unit := do
  let f ← getH h
  if f = 0 then do
    freeH h
    removeN .fre n
  else pure ()

/-- The `switch` of `free_blocks_rm_ge`, 378-385. -/
def takeFrom (check : Check) (h a : Addr) : M Addr :=
  match check with
  | .first => nodeListRmFirst h a
  | .allOfSize => nodeListRmAligned h a

/-- `free_blocks_rm_ge`, 360-393: the descriptor taken out or `NULL`. -/
def rmGe (size a : Nat) (check : Check) : M Addr := do
  let n ← findN .fre size geP
  if n = 0 then pure 0
  else do
    let d ← dataOf .fre n
    let b ← takeFrom check d.2 a
    dropEmpty n d.2
    pure b

/-- `free_blocks_rm_node`, 398-423. -/
def rmNode (e : Addr) : M Addr := do
  let m ← getE e
  let B ← getB m.blk
  let n ← findN .fre B.size eqP
  let d ← dataOf .fre n
  let b ← nodeListRm d.2 e
  dropEmpty n d.2
  pure b

/-! ## Blocks -/

/-- `coarse_ravl_add_new`, 158-190: the descriptor (or `NULL`) and its node. `used` stays what it is. -/
def addNew (d size : Nat) : M (Addr × Addr) := do
  let r ← hostAlloc
  if r.1 = 0 then pure (0, 0)
  else do
    newB r.1 ⟨d, size, r.2, 0⟩
    let ok ← emplaceN .all (d, r.1)
    if ok = true then do
      let n ← findN .all d eqP
      pure (r.1, n)
    else do
      freeB r.1
      pure (0, 0)

/-- `coarse_ravl_rm`, 199-213. -/
def ravlRm (d : Nat) : M Addr := do
  let n ← findN .all d eqP
  if n ≠ 0 then do
    let x ← dataOf .all n
    removeN .all n
    pure x.2
  else pure 0

/-- `if (block->free_list_ptr) { … }`, 460-463 and 465-468. -/
def unlistIf (b : Addr) : M Unit := do
  let B ← getB b
  if B.fl ≠ 0 then do
    let _ ← rmNode B.fl
    modB b fun B => { B with fl := 0 }
  else pure ()

/-- `user_block_merge`, 426-484; `*merged_node` is `n1` when the result is success. -/
def userBlockMerge (env : Env) (n1 n2 : Addr) (used : Bool) : M Res := do
  let x1 ← dataOf .all n1
  let x2 ← dataOf .all n2
  let B1 ← getB x1.2
  let B2 ← getB x2.2
  if ¬ (B1.used = used ∧ B2.used = used) ∨ B1.data + B1.size ≠ B2.data then pure .invalidArgument
  else if env.mergeCb B1.data B2.data (B1.size + B2.size) = .success then do
    unlistIf x1.2
    unlistIf x2.2
    let C2 ← getB x2.2
    modB x1.2 fun B => { B with size := B.size + C2.size }
    let _ ← ravlRm C2.data
    freeB x2.2
    pure .success
  else pure (env.mergeCb B1.data B2.data (B1.size + B2.size))

/-- `free_block_merge_with_prev`, 489-506. -/
def mergePrev (env : Env) (n : Addr) : M Addr := do
  let p ← cessorN .all .left n
  if p = 0 then pure n
  else do
    let r ← userBlockMerge env p n false
    pure (if r = .success then p else n)

/-- `free_block_merge_with_next`, 511-528. -/
def mergeNext (env : Env) (n : Addr) : M Addr := do
  let p ← cessorN .all .right n
  if p = 0 then pure n
  else do
    let _ ← userBlockMerge env n p false
    pure n

/-- Merge with both neighbours and put the block on its list: 1193-1197 of `coarse_free`, 808-811 of `free_blocks_re_add`. -/
def mergeAdd (env : Env) (n : Addr) : M Bool := do
  let n ← mergePrev env n
  let n ← mergeNext env n
  let x ← dataOf .all n
  freeAdd x.2

/-- `free_blocks_re_add`, 801-812. -/
def reAdd (env : Env) (b : Addr) : M Bool := do
  let B ← getB b
  let n ← findN .all B.data eqP
  mergeAdd env n

/-- `coarse_add_used_block`, 611-624. -/
def addUsedBlock (d size : Nat) : M Bool := do
  let r ← addNew d size
  if r.1 = 0 then pure false
  else do
    modB r.1 fun B => { B with used := true }
    addSizes size size
    pure true

/-- `create_aligned_block`, 672-712: the result and `*current`. -/
def createAligned (env : Env) (b : Addr) (a : Nat) : M (Res × Addr) := do
  let B ← getB b
  if a > 0 ∧ alignUp B.data a - B.data > 0 then
    if env.splitCb B.data B.size (alignUp B.data a - B.data) = .success then do
      let r ← addNew (B.data + (alignUp B.data a - B.data)) (B.size - (alignUp B.data a - B.data))
      if r.1 = 0 then pure (.outOfHostMemory, b)
      else do
        modB b fun C => { C with used := false, size := alignUp B.data a - B.data }
        let ok ← freeAdd b
        pure (if ok = true then (.success, r.1) else (.outOfHostMemory, b))
    else pure (env.splitCb B.data B.size (alignUp B.data a - B.data), b)
  else pure (.success, b)

/-- `split_current_block`, 715-741. -/
def splitCurrent (env : Env) (b : Addr) (size : Nat) : M Res := do
  let B ← getB b
  if env.splitCb B.data B.size size = .success then do
    let r ← addNew (B.data + size) (B.size - size)
    if r.1 = 0 then pure .outOfHostMemory
    else do
      modB r.1 fun C => { C with used := false }
      let x ← dataOf .all r.2
      let ok ← freeAdd x.2
      pure (if ok = true then .success else .outOfHostMemory)
  else pure (env.splitCb B.data B.size size)

/-- The last search of `find_free_block`, 753-759, 769-776, 789-797. -/
def findFastest (size a : Nat) : M Addr := if size + a ≥ 2 ^ 64 then pure 0 else rmGe (size + a) 0 .first

/-- `find_free_block`, 743-799. -/
def findFree (cfg : Cfg) (size a : Nat) : M Addr :=
  match cfg.strategy with
  | .fastest => findFastest size a
  | .fastestButOne => do
    let b ← rmGe size a .first
    if b ≠ 0 then pure b else findFastest size a
  | .checkAllSize => do
    let b ← rmGe size a .allOfSize
    if b ≠ 0 then pure b else findFastest size a

/-! ## Calls -/

/-- What a call returns: the result, the address, and what was given to `cb.free`. -/
structure Ret where
  res : Res
  ptr : Nat := 0
  freed : List (Nat × Nat) := []
deriving DecidableEq, Repr

/-- `coarse_alloc`, the end when a block is used, 1097-1108. -/
def useBlock (b : Addr) (size : Nat) : M Ret := do
  modB b fun B => { B with used := true }
  addSizes size 0
  let B ← getB b
  pure { res := .success, ptr := B.data }

/-- `coarse_alloc`, after the alignment, 1081-1095. `split`: the action is `ACTION_SPLIT`. -/
def cutBlock (env : Env) (b : Addr) (size : Nat) (split : Bool) : M Ret :=
  if split = true then do
    let r ← splitCurrent env b size
    if r = .success then do
      modB b fun B => { B with size := size }
      useBlock b size
    else do
      let _ ← reAdd env b
      pure { res := r }
  else useBlock b size

/-- `coarse_alloc`, when there is a free block, 1070-1108. -/
def allocFrom (env : Env) (b : Addr) (size a : Nat) (split : Bool) : M Ret := do
  let r ← createAligned env b a
  if r.1 = .success then cutBlock env r.2 size split
  else do
    let _ ← reAdd env r.2
    pure { res := r.1 }

/-- `coarse_alloc`, when there is no free block, 1110-1146. -/
def allocUpstream (cfg : Cfg) (env : Env) (size a : Nat) : M Ret :=
  if cfg.hasAlloc = true then
    if (env.upAlloc size a).1 = .success then do
      let ok ← addUsedBlock (env.upAlloc size a).2 size
      pure (if ok = true then { res := .success, ptr := (env.upAlloc size a).2 }
        else { res := .outOfHostMemory, freed := if cfg.hasFree = true then [((env.upAlloc size a).2, size)] else [] })
    else pure { res := (env.upAlloc size a).1 }
  else pure { res := .outOfHostMemory }

/-- `coarse_alloc`, 1027-1146. -/
def alloc (cfg : Cfg) (env : Env) (size align : Nat) : M Ret :=
  match effAlign cfg.page align with
  | none => pure { res := .invalidAlignment }
  | some a => do
    let b ← findFree cfg size a
    if b = 0 then allocUpstream cfg env size a
    else do
      let B ← getB b
      if B.size > size then allocFrom env b size a true
      else if B.size = size then allocFrom env b size a false
      else allocUpstream cfg env size a

/-- `coarse_free`, the end, 1186-1206. -/
def giveBack (env : Env) (n b : Addr) : M Ret := do
  let B ← getB b
  subSizes B.size 0
  modB b fun B => { B with used := false }
  let ok ← mergeAdd env n
  pure { res := if ok = true then .success else .outOfHostMemory }

/-- `coarse_free`, 1148-1207. -/
def free (env : Env) (ptr bytes : Nat) : M Ret :=
  if ptr = 0 then pure { res := .success }
  else do
    let n ← findN .all ptr eqP
    if n = 0 then pure { res := .invalidArgument }
    else do
      let x ← dataOf .all n
      let B ← getB x.2
      if B.used = false then pure { res := .invalidArgument }
      else if bytes > 0 ∧ bytes ≠ B.size then pure { res := .invalidArgument }
      else giveBack env n x.2

/-- `coarse_merge`, after both blocks are found, 1257-1279. -/
def mergeFound (env : Env) (n m : Addr) (low high total : Nat) (B C : Blk) : M Ret := do
  let k ← cessorN .all .right n
  if k ≠ m ∨ high ≠ low + B.size then pure { res := .invalidArgument }
  else if B.size + C.size ≠ total then pure { res := .invalidArgument }
  else do
    let r ← userBlockMerge env n m true
    pure { res := r }

/-- `coarse_merge`, 1209-1285. -/
def merge (env : Env) (low high total : Nat) : M Ret :=
  if low = 0 ∨ high = 0 ∨ total = 0 ∨ high ≤ low ∨ high - low ≥ total then pure { res := .invalidArgument }
  else do
    let n ← findN .all low eqP
    if n = 0 then pure { res := .invalidArgument }
    else do
      let x ← dataOf .all n
      let B ← getB x.2
      if B.used = false then pure { res := .invalidArgument }
      else do
        let m ← findN .all high eqP
        if m = 0 then pure { res := .invalidArgument }
        else do
          let y ← dataOf .all m
          let C ← getB y.2
          if C.used = false then pure { res := .invalidArgument } else mergeFound env n m low high total B C

/-- `coarse_split`, the end, 1329-1343. -/
def cutUsed (b : Addr) (B : Blk) (first : Nat) : M Ret := do
  let r ← addNew (B.data + first) (B.size - first)
  if r.1 = 0 then pure { res := .outOfHostMemory }
  else do
    modB b fun B => { B with size := first }
    modB r.1 fun B => { B with used := true }
    pure { res := .success }

/-- `coarse_split`, 1287-1351. -/
def split (env : Env) (ptr total first : Nat) : M Ret :=
  if ptr = 0 ∨ first ≥ total ∨ first = 0 ∨ total = 0 then pure { res := .invalidArgument }
  else do
    let n ← findN .all ptr eqP
    if n = 0 then pure { res := .invalidArgument }
    else do
      let x ← dataOf .all n
      let B ← getB x.2
      if B.size ≠ total then pure { res := .invalidArgument }
      else if B.used = false then pure { res := .invalidArgument }
      else if env.splitCb ptr total first = .success then cutUsed x.2 B first
      else pure { res := env.splitCb ptr total first }

/-- `coarse_add_memory_fixed`, 987-1025. -/
def addFixed (cfg : Cfg) (env : Env) (addr size : Nat) : M Ret :=
  if addr = 0 ∨ size = 0 then pure { res := .invalidArgument }
  else if cfg.hasAlloc = true ∨ cfg.hasFree = true then pure { res := .notSupported }
  else do
    let ok ← addUsedBlock addr size
    if ok = true then free env addr size else pure { res := .outOfHostMemory }

/-- `coarse_add_memory_from_provider`, 964-985. -/
def addUpstream (cfg : Cfg) (env : Env) (size : Nat) : M Ret :=
  if size = 0 then pure { res := .invalidArgument }
  else if cfg.hasAlloc = true then do
    let r ← alloc cfg env size cfg.page
    if r.res = .success then free env r.ptr size else pure { res := r.res, freed := r.freed }
  else pure { res := .notSupported }

/-- `ravl_cb_count_free`, 822-838: the number of elements, for one head. -/
def countList : Nat → Addr → M Nat
  | 0, _ => fun _ _ => none
  | k + 1, p =>
    if p = 0 then pure 0
    else do
      let n ← getE p
      let c ← countList k n.next
      pure (c + 1)

def countAll (p : Addr) : M Nat := fun n s => countList n p n s

/-- `ravl_foreach(coarse->free_blocks, ravl_cb_count_free, …)`, 847-848. -/
def countHeads : List (Nat × Addr) → M Nat
  | [] => pure 0
  | d :: l => do
    let f ← getH d.2
    let c ← countAll f
    let r ← countHeads l
    pure (c + r)

/-- `coarse_get_stats`, 840-856, 1353-1370: number of blocks, number of free blocks. -/
def stats : M (Nat × Nat) := do
  let l ← foreachN .all
  let k ← foreachN .fre
  let c ← countHeads k
  pure (l.length, c)

/-- The calls. -/
inductive Op where
  | alloc (size align : Nat)
  | free (ptr bytes : Nat)
  | split (ptr total first : Nat)
  | merge (low high total : Nat)
  | addFixed (addr size : Nat)
  | addUpstream (size : Nat)
deriving DecidableEq, Repr

/-- One call. -/
def run (cfg : Cfg) (env : Env) : Op → M Ret
  | .alloc size align => alloc cfg env size align
  | .free ptr bytes => free env ptr bytes
  | .split ptr total first => split env ptr total first
  | .merge low high total => merge env low high total
  | .addFixed addr size => addFixed cfg env addr size
  | .addUpstream size => addUpstream cfg env size

/-- One call, with the answers of the base allocator it gets. -/
def step (cfg : Cfg) (fuel : Nat) (s : St) (op : Op) (env : Env) (host : List (Addr × Bool)) : Option (Ret × St) :=
  run cfg env op fuel { s with host := host }

/-! ## The end -/

/-- `coarse_ravl_cb_rm_all_blocks_node`, 626-656, without the last line: `if (block->free_list_ptr)`. -/
def cbUnlist (b : Addr) : M Unit := do
  let B ← getB b
  if B.fl ≠ 0 then do
    let _ ← rmNode B.fl
    pure ()
  else pure ()

/-- `coarse_ravl_cb_rm_all_blocks_node`, 626-656: what was given to `cb.free`. -/
def cbRm (b : Addr) : M (Nat × Nat) := do
  let B ← getB b
  cbUnlist b
  subSizes (if B.used = true then B.size else 0) B.size
  let C ← getB b
  freeB b
  pure (C.data, C.size)

/-- `ravl_foreach(coarse->all_blocks, coarse_ravl_cb_rm_all_blocks_node, coarse)`, 954. -/
def rmAll : List (Nat × Addr) → M (List (Nat × Nat))
  | [] => pure []
  | d :: l => do
    let r ← cbRm d.2
    let k ← rmAll l
    pure (r :: k)

/-- `coarse_delete`, 946-962: what was given to `cb.free`, if there is such a callback. -/
def delete (cfg : Cfg) : M (List (Nat × Nat)) := do
  let l ← foreachN .all
  let r ← rmAll l
  deleteN .all
  deleteN .fre
  pure (if cfg.hasFree = true then r else [])

end Verif.CoarseMem
