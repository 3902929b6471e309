/-!
# Model of `src/coarse/coarse.c` (allocator behind the fixed, file and devdax providers)

Simplifications, all local to this file:

* Addresses and sizes are `Nat`; the 64-bit bound is written out where the code can
  overflow (`size + alignment` in `find_free_block`). Alignment masks are written with
  `%`; for powers of two that is what the masks compute (`Verif.Utils`, C41).
* `all_blocks` (a ravl tree keyed by address) is the list of its elements in increasing
  address order; `Verif.Ravl` (C08) shows that the tree behaves like that list.
* `free_blocks` (a ravl tree from a size to a LIFO list of free blocks of that size) is one
  list of `(size, address)` pairs, newest first; the list kept for one size is its filter.
  `Verif.Coarse.FreeIndex` models the tree of lists itself and proves that it answers
  like this list.
* A block is identified by its address (unique in `all_blocks`).
* Every public function runs under `coarse->lock`, so operations are atomic steps.
* What the callbacks and the host allocator answer is an argument (`Env`), one per
  operation. `Env.garbage` is the content of the `used` field of a block that
  `coarse_ravl_add_new` just allocated, which the C code does not initialise.
-/
namespace Verif.Coarse

/-- The result codes that occur here (`include/umf/base.h`); `upstream n` is a code handed
back by a callback. -/
inductive Res where
  | success
  | invalidArgument
  | invalidAlignment
  | outOfHostMemory
  | notSupported
  | upstream (n : Nat)
deriving DecidableEq, Repr

/-- `block_t`, `coarse.c:67-75`. `listed` is `free_list_ptr != NULL`. -/
structure Block where
  data : Nat
  size : Nat
  used : Bool
  listed : Bool
deriving DecidableEq, Repr

/-- `coarse_strategy_t`, `coarse.h`. -/
inductive Strategy where
  | fastest
  | fastestButOne
  | checkAllSize
deriving DecidableEq, Repr

/-- The constant part of `coarse_t`, `coarse.c:32-58`, after `coarse_new`. `page` is a power
of two for every provider that uses coarse. `hasAlloc`/`hasFree`: the optional callbacks. -/
structure Cfg where
  page : Nat
  strategy : Strategy
  hasAlloc : Bool
  hasFree : Bool
deriving Repr

/-- The changing part of `coarse_t`, `coarse.c:32-58`. -/
structure St where
  blocks : List Block
  free : List (Nat × Nat)
  usedSize : Nat
  allocSize : Nat
deriving DecidableEq, Repr

/-- Call sites of host allocations within one operation. `addNew1`: in
`create_aligned_block` or the only `coarse_ravl_add_new` of other operations; `addNew2`: in
`split_current_block`; `freeAdd1`, `freeAdd2`: `free_blocks_add` in those two; `reAdd`: the
final `free_blocks_add` of `free_blocks_re_add` or `coarse_free`. -/
inductive Site where
  | addNew1 | addNew2 | freeAdd1 | freeAdd2 | reAdd
deriving DecidableEq, Repr

/-- Answers of the outside world during one operation. `upAlloc size alignment` is
`cb.alloc`: an address or an error code. -/
structure Env where
  splitCb : Nat → Nat → Nat → Res
  mergeCb : Nat → Nat → Nat → Res
  upAlloc : Nat → Nat → Except Res Nat
  host : Site → Bool
  garbage : Bool

/-- `coarse_new`, `coarse.c:860-944`: no memory yet. -/
def init : St := ⟨[], [], 0, 0⟩

/-- `coarse_ravl_find_node`, `coarse.c:193-196`. -/
def lookup (d : Nat) (l : List Block) : Option Block := l.find? (fun b => b.data == d)

/-- Writing through a `block_t *`. -/
def modify (d : Nat) (f : Block → Block) (l : List Block) : List Block :=
  l.map fun b => if b.data == d then f b else b

/-- `coarse_ravl_rm`, `coarse.c:199-213`. -/
def removeBlock (d : Nat) (l : List Block) : List Block := l.filter fun b => b.data != d

/-- `get_node_prev`, `coarse.c:125-127`: the tree predecessor. -/
def prevOf (d : Nat) (l : List Block) : Option Block := (l.filter fun b => b.data < d).getLast?

/-- `get_node_next`, `coarse.c:129-131`: the tree successor. -/
def nextOf (d : Nat) (l : List Block) : Option Block := l.find? fun b => d < b.data

/-- `ravl_emplace_copy` into `all_blocks`: sorted insertion, refused on an equal key. -/
def insertBlock (n : Block) : List Block → Option (List Block)
  | [] => some [n]
  | b :: l =>
    if n.data < b.data then some (n :: b :: l)
    else if n.data = b.data then none
    else (insertBlock n l).map (b :: ·)

/-- `coarse_ravl_add_new`, `coarse.c:158-190`. `used` is left uninitialised. -/
def addNew (env : Env) (site : Site) (l : List Block) (d s : Nat) : Option (List Block) :=
  if env.host site then insertBlock ⟨d, s, env.garbage, false⟩ l else none

/-- `free_blocks_add`, `coarse.c:319-355`, for the block at address `d`: `none` when a
host allocation fails (the C code may then leave an empty list head behind; see
`FreeIndex`). -/
def freeAdd (env : Env) (site : Site) (st : St) (d : Nat) : Option St :=
  if env.host site then
    match lookup d st.blocks with
    | none => none
    | some b => some { st with
        free := (b.size, d) :: st.free
        blocks := modify d (fun b => { b with listed := true }) st.blocks }
  else none

/-- `IS_ALIGNED`, `utils_common.h:43-46`, for alignment 0 or a power of two. -/
def aligned (v a : Nat) : Bool := a == 0 || v % a == 0

/-- `ALIGN_UP`, `utils_common.h:47`, for powers of two, without wrap-around. -/
def alignUp (v a : Nat) : Nat := (v + (a - 1)) / a * a

/-- `check_free_blocks_t`, `coarse.c:62-65`. -/
inductive Check where
  | first
  | allOfSize
deriving DecidableEq, Repr

/-- The key found by `ravl_find(free_blocks, size, GREATER_EQUAL)`: the smallest size of a
free block that is at least `s`. -/
def minGe (s : Nat) (free : List (Nat × Nat)) : Option Nat :=
  ((free.map (·.1)).filter (fun k => s ≤ k)).min?

/-- `free_blocks_rm_ge`, `coarse.c:360-393`, with `node_list_rm_first` (272-294) and
`node_list_rm_with_alignment` (297-312): the entry taken out, if any. -/
def rmGe (s a : Nat) (check : Check) (free : List (Nat × Nat)) : Option (Nat × Nat) :=
  match minGe s free with
  | none => none
  | some k =>
    let cls := free.filter (fun e => e.1 == k)
    match check with
    | .first => match cls.head? with
      | none => none
      | some e => if aligned e.2 a then some e else none
    | .allOfSize => cls.find? (fun e => aligned e.2 a)

/-- `find_free_block`, `coarse.c:743-799`: the entry chosen. `size + alignment` is a 64-bit
sum checked for overflow. -/
def findFree (cfg : Cfg) (size a : Nat) (free : List (Nat × Nat)) : Option (Nat × Nat) :=
  let fastest := if size + a ≥ 2 ^ 64 then none else rmGe (size + a) 0 .first free
  match cfg.strategy with
  | .fastest => fastest
  | .fastestButOne => match rmGe size a .first free with | some e => some e | none => fastest
  | .checkAllSize => match rmGe size a .allOfSize free with | some e => some e | none => fastest

/-- Taking an entry out of the free list: the list element is unlinked and the block's
`free_list_ptr` cleared (`coarse.c:265,289-290`). -/
def unlist (st : St) (e : Nat × Nat) : St :=
  { st with free := st.free.erase e,
            blocks := modify e.2 (fun b => { b with listed := false }) st.blocks }

/-- `user_block_merge`, `coarse.c:426-484`, on the blocks `b1` and `b2` (tree neighbours). -/
def userBlockMerge (env : Env) (st : St) (b1 b2 : Block) (used : Bool) : St × Res :=
  if ¬ (b1.used = used ∧ b2.used = used) ∨ b1.data + b1.size ≠ b2.data then
    (st, .invalidArgument)
  else
    match env.mergeCb b1.data b2.data (b1.size + b2.size) with
    | .success =>
      let free1 := if b1.listed then st.free.erase (b1.size, b1.data) else st.free
      let free2 := if b2.listed then free1.erase (b2.size, b2.data) else free1
      let blocks1 := modify b1.data
        (fun b => { b with size := b1.size + b2.size, listed := false }) st.blocks
      ({ st with free := free2, blocks := removeBlock b2.data blocks1 }, .success)
    | r => (st, r)

/-- `free_block_merge_with_prev`, `coarse.c:489-506`: the new state and the address of the
block the node now stands for. -/
def mergePrev (env : Env) (st : St) (d : Nat) : St × Nat :=
  match lookup d st.blocks, prevOf d st.blocks with
  | some b, some p =>
    match userBlockMerge env st p b false with
    | (st', .success) => (st', p.data)
    | _ => (st, d)
  | _, _ => (st, d)

/-- `free_block_merge_with_next`, `coarse.c:511-528`. -/
def mergeNext (env : Env) (st : St) (d : Nat) : St :=
  match lookup d st.blocks, nextOf d st.blocks with
  | some b, some n =>
    match userBlockMerge env st b n false with
    | (st', .success) => st'
    | _ => st
  | _, _ => st

/-- Merge both ways and put the result on the free list: the tail of `coarse_free`,
`coarse.c:1193-1201`, and `free_blocks_re_add`, `coarse.c:801-812`. `none`: the free-list
element could not be allocated; the state is what the C code leaves behind. -/
def mergeAndAdd (env : Env) (st : St) (d : Nat) : St × Bool :=
  let (st1, d1) := mergePrev env st d
  let st2 := mergeNext env st1 d1
  match freeAdd env .reAdd st2 d1 with
  | some st3 => (st3, true)
  | none => (st2, false)

/-- `create_aligned_block`, `coarse.c:672-712`: new state, result and the block in use
(`*current`). -/
def createAligned (env : Env) (st : St) (b : Block) (a : Nat) : St × Res × Block :=
  let padding := alignUp b.data a - b.data
  if a > 0 ∧ padding > 0 then
    match env.splitCb b.data b.size padding with
    | .success =>
      match addNew env .addNew1 st.blocks (b.data + padding) (b.size - padding) with
      | none => (st, .outOfHostMemory, b)
      | some bl =>
        let curr := { b with used := false, size := padding }
        let st1 := { st with blocks := modify b.data (fun _ => curr) bl }
        match freeAdd env .freeAdd1 st1 b.data with
        | none => (st1, .outOfHostMemory, curr)
        | some st2 => (st2, .success, ⟨b.data + padding, b.size - padding, env.garbage, false⟩)
    | r => (st, r, b)
  else (st, .success, b)

/-- `split_current_block`, `coarse.c:715-741`. The caller shrinks `curr` afterwards. -/
def splitCurrent (env : Env) (st : St) (b : Block) (size : Nat) : St × Res :=
  match env.splitCb b.data b.size size with
  | .success =>
    match addNew env .addNew2 st.blocks (b.data + size) (b.size - size) with
    | none => (st, .outOfHostMemory)
    | some bl =>
      let st1 := { st with
        blocks := modify (b.data + size) (fun n => { n with used := false }) bl }
      match freeAdd env .freeAdd2 st1 (b.data + size) with
      | none => (st1, .outOfHostMemory)
      | some st2 => (st2, .success)
  | r => (st, r)

/-- The alignment rule at the head of `coarse_alloc`, `coarse.c:1035-1047`; `none`:
INVALID_ALIGNMENT. -/
def effAlign (page align : Nat) : Option Nat :=
  if align = 0 then some page
  else if align &&& (align - 1) ≠ 0 ∨ (align % page ≠ 0 ∧ page % align ≠ 0) then none
  else if align % page ≠ 0 then some (alignUp align page)
  else some align

/-- What an operation reports: result code, address (when successful), and, to let the
specification see it, the memory obtained from upstream during the call. -/
structure Out where
  res : Res
  ptr : Nat := 0
  got : Option (Nat × Nat) := none
deriving DecidableEq, Repr

/-- The part of `coarse_alloc` that uses a free block, `coarse.c:1070-1108`. `b` has just
been taken off the free list. -/
def allocFrom (env : Env) (st : St) (b : Block) (size a : Nat) : St × Out :=
  match createAligned env st b a with
  | (st2, .success, c) =>
    if b.size > size then
      match splitCurrent env st2 c size with
      | (st3, .success) =>
        ({ st3 with
            blocks := modify c.data (fun x => { x with size := size, used := true }) st3.blocks
            usedSize := st3.usedSize + size }, { res := .success, ptr := c.data })
      | (st3, r) => ((mergeAndAdd env st3 c.data).1, { res := r })
    else
      ({ st2 with
          blocks := modify c.data (fun x => { x with used := true }) st2.blocks
          usedSize := st2.usedSize + size }, { res := .success, ptr := c.data })
  | (st2, r, c) => ((mergeAndAdd env st2 c.data).1, { res := r })

/-- The part of `coarse_alloc` that asks upstream, `coarse.c:1110-1139`, with
`coarse_add_used_block`, 611-624. -/
def allocUpstream (cfg : Cfg) (env : Env) (st : St) (size a : Nat) : St × Out :=
  if cfg.hasAlloc then
    match env.upAlloc size a with
    | .error r => (st, { res := r })
    | .ok p =>
      match addNew env .addNew1 st.blocks p size with
      | none => (st, { res := .outOfHostMemory })
      | some bl =>
        ({ st with blocks := modify p (fun b => { b with used := true }) bl
                   allocSize := st.allocSize + size
                   usedSize := st.usedSize + size },
          { res := .success, ptr := p, got := some (p, size) })
  else (st, { res := .outOfHostMemory })

/-- `coarse_alloc`, `coarse.c:1027-1146` (non-null handle and result pointer). -/
def alloc (cfg : Cfg) (env : Env) (st : St) (size align : Nat) : St × Out :=
  match effAlign cfg.page align with
  | none => (st, { res := .invalidAlignment })
  | some a =>
    match findFree cfg size a st.free with
    | some e =>
      match lookup e.2 st.blocks with
      | some b =>
        if b.size ≥ size then
          allocFrom env (unlist st e) { b with listed := false } size a
        else allocUpstream cfg env (unlist st e) size a
      | none => allocUpstream cfg env st size a
    | none => allocUpstream cfg env st size a

/-- `coarse_free`, `coarse.c:1148-1207` (non-null handle). -/
def free (env : Env) (st : St) (ptr bytes : Nat) : St × Out :=
  if ptr = 0 then (st, { res := .success })
  else
    match lookup ptr st.blocks with
    | none => (st, { res := .invalidArgument })
    | some b =>
      if b.used = false then (st, { res := .invalidArgument })
      else if bytes > 0 ∧ bytes ≠ b.size then (st, { res := .invalidArgument })
      else
        let st1 := { st with
          usedSize := st.usedSize - b.size
          blocks := modify ptr (fun b => { b with used := false }) st.blocks }
        match mergeAndAdd env st1 ptr with
        | (st2, true) => (st2, { res := .success })
        | (st2, false) => (st2, { res := .outOfHostMemory })

/-- `coarse_merge`, `coarse.c:1209-1285`. -/
def merge (env : Env) (st : St) (low high total : Nat) : St × Out :=
  if low = 0 ∨ high = 0 ∨ total = 0 ∨ high ≤ low ∨ high - low ≥ total then
    (st, { res := .invalidArgument })
  else
    match lookup low st.blocks, lookup high st.blocks with
    | some l, some h =>
      if l.used = false ∨ h.used = false then (st, { res := .invalidArgument })
      else if nextOf low st.blocks ≠ some h ∨ high ≠ low + l.size then
        (st, { res := .invalidArgument })
      else if l.size + h.size ≠ total then (st, { res := .invalidArgument })
      else
        match userBlockMerge env st l h true with
        | (st', r) => (st', { res := r })
    | _, _ => (st, { res := .invalidArgument })

/-- `coarse_split`, `coarse.c:1287-1351`. -/
def split (env : Env) (st : St) (ptr total first : Nat) : St × Out :=
  if ptr = 0 ∨ first ≥ total ∨ first = 0 ∨ total = 0 then (st, { res := .invalidArgument })
  else
    match lookup ptr st.blocks with
    | none => (st, { res := .invalidArgument })
    | some b =>
      if b.size ≠ total then (st, { res := .invalidArgument })
      else if b.used = false then (st, { res := .invalidArgument })
      else
        match env.splitCb ptr total first with
        | .success =>
          match addNew env .addNew1 st.blocks (ptr + first) (b.size - first) with
          | none => (st, { res := .outOfHostMemory })
          | some bl =>
            let bl1 := modify ptr (fun b => { b with size := first }) bl
            let bl2 := modify (ptr + first) (fun n => { n with used := true }) bl1
            ({ st with blocks := bl2 }, { res := .success })
        | r => (st, { res := r })

/-- `coarse_add_memory_fixed`, `coarse.c:987-1025`, with `coarse_add_used_block`,
611-624. The lock is released between the two halves; the model takes them as one step. -/
def addFixed (cfg : Cfg) (env : Env) (st : St) (addr size : Nat) : St × Out :=
  if addr = 0 ∨ size = 0 then (st, { res := .invalidArgument })
  else if cfg.hasAlloc ∨ cfg.hasFree then (st, { res := .notSupported })
  else
    match addNew env .addNew1 st.blocks addr size with
    | none => (st, { res := .outOfHostMemory })
    | some bl =>
      let st1 := { st with
        blocks := modify addr (fun b => { b with used := true }) bl
        allocSize := st.allocSize + size
        usedSize := st.usedSize + size }
      match free env st1 addr size with
      | (st2, o) => (st2, { res := o.res, got := some (addr, size) })

/-- `coarse_get_stats`, `coarse.c:840-856,1353-1370`:
(allocated, used, number of blocks, number of free blocks). -/
def stats (st : St) : Nat × Nat × Nat × Nat :=
  (st.allocSize, st.usedSize, st.blocks.length, st.free.length)

/-- The public operations with their arguments. `coarse_add_memory_from_provider`
(`coarse.c:964-985`) is `alloc` followed by `free`. -/
inductive Op where
  | alloc (size align : Nat)
  | free (ptr bytes : Nat)
  | split (ptr total first : Nat)
  | merge (low high total : Nat)
  | addFixed (addr size : Nat)
deriving DecidableEq, Repr

/-- One operation. -/
def step (cfg : Cfg) (env : Env) (st : St) : Op → St × Out
  | .alloc size align => alloc cfg env st size align
  | .free ptr bytes => free env st ptr bytes
  | .split ptr total first => split env st ptr total first
  | .merge low high total => merge env st low high total
  | .addFixed addr size => addFixed cfg env st addr size

end Verif.Coarse
