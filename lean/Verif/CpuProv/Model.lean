import Verif.Policy.Model
/-!
# Model of the creation and destruction of the OS, file, devdax and fixed memory providers

`src/provider/provider_os_memory.c`, `provider_file_memory.c`, `provider_devdax_memory.c`,
`provider_fixed_memory.c`, `coarse_new` and `coarse_delete` of `src/coarse/coarse.c`, and
`umfMemoryProviderCreate` and `umfMemoryProviderDestroy` of `src/memory_provider.c`.

Only the life time of the objects is modelled: every function yields the objects it makes and releases, in
order. What the host memory, hwloc and the operating system answer is given. A provider is known by a number.
The nodes of the trees and of the critnib maps belong to their tree or map.
-/
namespace Verif.CpuProv
open Verif.Policy

/-- What belongs to one provider: `umf_memory_provider_t`; the structure of the provider; the hwloc topology; the map of
file offsets; the array of bitmaps and the bitmaps; the array of partitions; the file descriptor; the named shared
memory file; the lock; the buffer for printing nodes; `coarse_t`, its two trees and its lock; the descriptors of
blocks, the heads and the elements of the lists of free blocks; the map of mappings; memory mappings. -/
inductive Slot where
  | handle | prov | topo | offsets | nodeArr | bitmap (i : Nat) | partitions | fd | shmFile | lock | strBuf
  | coarse | freeTree | allTree | coarseLock | block (i : Nat) | head (i : Nat) | elem (i : Nat)
  | mmaps | mapping (a : Nat)
deriving DecidableEq, Repr

/-- An object of provider `n` is made or released; a pointer that points to no object is used or freed. -/
inductive Ev where
  | mk (n : Nat) (s : Slot)
  | rm (n : Nat) (s : Slot)
  | crash
deriving DecidableEq, Repr

/-- `umf_result_t`; `minusOne` is the number -1, which is no value of that type. -/
inductive Res where
  | success | oom | invalidArgument | notSupported | unknown | specific | minusOne
deriving DecidableEq, Repr

/-! ## coarse -/

/-- Which allocations of `coarse_new` succeed. -/
structure CoarseAns where
  mem : Bool
  freeTree : Bool
  allTree : Bool
  lock : Bool

/-- `coarse_new`, `coarse.c:860-944`; the parameters of the three providers pass its checks. -/
def coarseNew (n : Nat) (a : CoarseAns) : Res × List Ev :=
  if a.mem = false then (.oom, [])
  else if a.freeTree = false then (.oom, [.mk n .coarse, .rm n .coarse])
  else if a.allTree = false then (.oom, [.mk n .coarse, .mk n .freeTree, .rm n .freeTree, .rm n .coarse])
  else if a.lock = false then
    (.unknown, [.mk n .coarse, .mk n .freeTree, .mk n .allTree, .rm n .allTree, .rm n .freeTree, .rm n .coarse])
  else (.success, [.mk n .coarse, .mk n .freeTree, .mk n .allTree, .mk n .coarseLock])

/-- What `coarse_t` holds: the blocks of its tree of all blocks, those of them that are in the index of free blocks, and
the heads of the lists of the index that have a block. -/
structure CoarseSt where
  blocks : List Nat
  elems : List Nat
  heads : List Nat
deriving DecidableEq

/-- `coarse_delete`, `coarse.c:946-962`, with `coarse_ravl_cb_rm_all_blocks_node` (626-656). A list loses its head with
its last block (`free_blocks_rm_node`); here the heads come after the blocks. A head without a block stays. -/
def coarseDelete (n : Nat) (c : CoarseSt) : List Ev :=
  .rm n .coarseLock ::
    (c.blocks.flatMap fun b => (if b ∈ c.elems then [.rm n (.elem b)] else []) ++ [.rm n (.block b)]) ++
    c.heads.map (fun h => .rm n (.head h)) ++ [.rm n .allTree, .rm n .freeTree, .rm n .coarse]

/-- Which allocations of `coarse_add_memory_fixed` succeed: the block, the node of the tree of all blocks, the head, the node of
the tree of free blocks, the element. -/
structure AddAns where
  block : Bool
  node : Bool
  head : Bool
  headNode : Bool
  elem : Bool

/-- `coarse_add_memory_fixed`, `coarse.c:986-1025`, on a new `coarse_t`, with `coarse_add_used_block` (608-624),
`coarse_ravl_add_new` (158-190), `coarse_free` and `free_blocks_add` (319-355). Address and size are not null. The
result, the objects and what `coarse_t` holds after. -/
def addFixed (n : Nat) (a : AddAns) : Res × List Ev × CoarseSt :=
  if a.block = false then (.oom, [], ⟨[], [], []⟩)
  else if a.node = false then (.oom, [.mk n (.block 0), .rm n (.block 0)], ⟨[], [], []⟩)
  else if a.head = false then (.oom, [.mk n (.block 0)], ⟨[0], [], []⟩)
  else if a.headNode = false then
    (.oom, [.mk n (.block 0), .mk n (.head 0), .rm n (.head 0)], ⟨[0], [], []⟩)
  else if a.elem = false then (.oom, [.mk n (.block 0), .mk n (.head 0)], ⟨[0], [], []⟩)
  else (.success, [.mk n (.block 0), .mk n (.head 0), .mk n (.elem 0)], ⟨[0], [0], [0]⟩)

/-! ## The private structures of the providers -/

/-- What the structure of a provider holds, as far as `finalize` and the first allocation look at it. -/
inductive Prov where
  /-- mode, `nodeset_len`, `partitions != NULL`, `nodeset_str_buf != NULL`, `fd` (`none`: -1), named file. -/
  | os (mode : Mode) (len : Nat) (parts strBuf : Bool) (fd : Option Nat) (shm : Bool)
  /-- coarse, the recorded mappings (`mmaps`). -/
  | file (c : CoarseSt) (maps : List Nat)
  /-- coarse; the mapping of the device is mapping 0. -/
  | devdax (c : CoarseSt)
  | fixed (c : CoarseSt)
deriving DecidableEq

/-! ## The OS provider -/

/-- `PATH_MAX` and `NAME_MAX` of Linux. -/
def PATH_MAX : Nat := 4096
def NAME_MAX : Nat := 255

/-- `umf_os_memory_provider_params_t`: the protection and visibility flags are known, `UMF_MEM_MAP_SHARED`, the name, the NUMA part. -/
structure OsIn where
  flags : Bool
  shared : Bool
  shmName : Option (List Char)
  numa : Params

/-- What succeeds: host memory for the structure; `hwloc_topology_init` and `_load`; `critnib_new`; the array of bitmaps;
`hwloc_bitmap_dup`; `hwloc_bitmap_alloc` and `hwloc_bitmap_set` number `i`; the array of partitions; the descriptor that
`shm_open` or `memfd_create` gives; `ftruncate`; the mutex; the buffer. -/
structure OsAns where
  prov : Bool
  topoInit : Bool
  topoLoad : Bool
  offsets : Bool
  nodeArr : Bool
  dup : Bool
  bitmap : Nat → Bool
  bitSet : Nat → Bool
  partitions : Bool
  fd : Option Nat
  size : Bool
  lock : Bool
  strBuf : Bool

/-- Number of the first of `m` calls that fails, if any. -/
def firstFail (ok : Nat → Bool) (m : Nat) : Option Nat := (List.range m).find? fun i => !ok i

def mkBitmaps (n m : Nat) : List Ev := (List.range m).map fun i => .mk n (.bitmap i)
def rmBitmaps (n m : Nat) : List Ev := (List.range m).map fun i => .rm n (.bitmap i)

/-- `initialize_nodeset`, `provider_os_memory.c:270-331`: success, the objects, `nodeset_len`. The error path calls
`umf_ba_global_free(*out_nodeset)`: the first bitmap instead of the array. -/
def initNodeset (n : Nat) (list : List Nat) (ded : Bool) (a : OsAns) : Bool × List Ev × Nat :=
  let size := if list ≠ [] ∧ ded then list.length else 1
  if a.nodeArr = false then (false, [], 0)
  else if list = [] then
    if a.dup then (true, [.mk n .nodeArr, .mk n (.bitmap 0)], size)
    else (false, [.mk n .nodeArr], 0)
  else match firstFail a.bitmap size with
    | some i =>
      (false, .mk n .nodeArr :: mkBitmaps n i ++ rmBitmaps n i ++ (if i = 0 then [] else [.crash]), 0)
    | none =>
      match firstFail a.bitSet list.length with
      | some _ => (false, .mk n .nodeArr :: mkBitmaps n size ++ rmBitmaps n size ++ [.crash], 0)
      | none => (true, .mk n .nodeArr :: mkBitmaps n size, size)

/-- `translate_params`, `provider_os_memory.c:602-665`: result, objects, `nodeset_len`, `partitions != NULL`. The result of
`initializePartitions` (556-600) is not looked at. -/
def osTranslate (n P : Nat) (i : OsIn) (a : OsAns) : Res × List Ev × Nat × Bool :=
  if i.flags = false then (.invalidArgument, [], 0, false)
  else match translate P [] i.numa with
    | none => (.invalidArgument, [], 0, false)
    | some _ =>
      let r := initNodeset n i.numa.list (dedicated i.numa) a
      if r.1 = false then (.oom, r.2.1, 0, false)
      else if i.numa.mode = .split ∧ a.partitions = true then (.success, r.2.1 ++ [.mk n .partitions], r.2.2, true)
      else (.success, r.2.1, r.2.2, false)

/-- `validate_and_copy_shm_name`, `provider_os_memory.c:408-435`: whether the name is taken. -/
def shmNameOk (name : List Char) : Bool := !name.contains '/' && decide (name.length ≤ NAME_MAX - 2)

/-- `create_fd_for_mmap`, `provider_os_memory.c:437-503`, with `utils_shm_create` (`utils_linux_common.c:142-166`) and
`utils_create_anonymous_fd` (219-242): result, objects, `fd`, named. Simplification: the named file is not one of
another provider, which `utils_shm_create` would unlink. -/
def createFd (n : Nat) (i : OsIn) (a : OsAns) : Res × List Ev × Option Nat × Bool :=
  if i.shared = false then (.success, [], none, false)
  else match i.shmName with
    | some name =>
      if shmNameOk name = false then (.minusOne, [], none, false)
      else match a.fd with
        | none => (.minusOne, [], none, false)
        | some d =>
          if a.size then (.success, [.mk n .shmFile, .mk n .fd], some d, true)
          else (.minusOne, [.mk n .shmFile, .mk n .fd, .rm n .fd, .rm n .shmFile], none, false)
    | none =>
      match a.fd with
      | none => (.unknown, [], none, false)
      | some d =>
        if d = 0 then (.unknown, [.mk n .fd], none, false)
        else if a.size then (.success, [.mk n .fd], some d, false)
        else (.invalidArgument, [.mk n .fd, .rm n .fd], none, false)

/-- `free_bitmaps`, `provider_os_memory.c:549-554`. -/
def freeBitmaps (n len : Nat) : List Ev := rmBitmaps n len ++ [.rm n .nodeArr]

/-- `fd > 0`. -/
def fdPos (fd : Option Nat) : Bool := match fd with
  | some d => decide (0 < d)
  | none => false

/-- `os_initialize`, `provider_os_memory.c:667-761`. `P`: the page size. -/
def osInit (n P : Nat) (i : OsIn) (a : OsAns) : Res × List Ev × Option Prov :=
  if i.shared = true ∧ i.numa.mode ≠ .default then (.notSupported, [], none)
  else if a.prov = false then (.oom, [], none)
  else if a.topoInit = false then (.oom, [.mk n .prov, .rm n .prov], none)
  else if a.topoLoad = false then (.specific, [.mk n .prov, .mk n .topo, .rm n .topo, .rm n .prov], none)
  else if a.offsets = false then (.oom, [.mk n .prov, .mk n .topo, .rm n .topo, .rm n .prov], none)
  else
    let t := osTranslate n P i a
    let evs := [.mk n .prov, .mk n .topo, .mk n .offsets] ++ t.2.1
    let undo := [.rm n .offsets, .rm n .topo, .rm n .prov]
    if t.1 ≠ .success then (t.1, evs ++ undo, none)
    else
      let f := createFd n i a
      if f.1 ≠ .success then (f.1, evs ++ f.2.1 ++ freeBitmaps n t.2.2.1 ++ undo, none)
      else if fdPos f.2.2.1 = true ∧ a.lock = false then
        (.unknown, evs ++ f.2.1 ++ freeBitmaps n t.2.2.1 ++ undo, none)
      else
        (.success, evs ++ f.2.1 ++ (if fdPos f.2.2.1 then [.mk n .lock] else []) ++
          (if a.strBuf then [.mk n .strBuf] else []),
          some (.os i.numa.mode t.2.2.1 t.2.2.2 a.strBuf f.2.2.1 f.2.2.2))

/-- `os_finalize`, `provider_os_memory.c:763-784`. -/
def osFinalize (n : Nat) (len : Nat) (parts strBuf : Bool) (fd : Option Nat) : List Ev :=
  (if fdPos fd then [.rm n .lock] else []) ++ [.rm n .offsets] ++ freeBitmaps n len ++
    (if parts then [.rm n .partitions] else []) ++ (if strBuf then [.rm n .strBuf] else []) ++
    [.rm n .topo, .rm n .prov]

/-- `membindFirst` (`provider_os_memory.c:1014-1052`) at the first allocation: `nextBind` (935-1012) reads the array of
partitions in split mode with more than one bitmap. -/
def osFirstBind (p : Prov) : List Ev := match p with
  | .os .split len parts _ _ _ => if len = 1 then [] else if parts then [] else [.crash]
  | _ => []

/-! ## The file provider -/

/-- The path (`none`: NULL), whether the flags are known, `UMF_MEM_MAP_PRIVATE`. -/
structure FileIn where
  path : Option (List Char)
  flags : Bool
  isPrivate : Bool

/-- What succeeds: the structure, `open`, `ftruncate`, the trial mapping (at an address), `coarse_new`, the lock, the two maps. -/
structure FileAns where
  prov : Bool
  fd : Bool
  size : Bool
  trial : Option Nat
  coarse : CoarseAns
  lock : Bool
  offsets : Bool
  mmaps : Bool

/-- `utils_copy_path`, `utils_common.c:91-105`: whether the path is copied. -/
def pathOk (path : List Char) : Bool := decide (path.length ≤ PATH_MAX - 1)

/-- The trial mapping of `file_initialize`, `provider_file_memory.c:238-247`. -/
def fileTrial (n : Nat) (i : FileIn) (a : FileAns) : List Ev :=
  if i.isPrivate then [] else match a.trial with
    | some x => [.mk n (.mapping x), .rm n (.mapping x)]
    | none => []

/-- `file_initialize`, `provider_file_memory.c:188-307`. When the path is too long, `ret` still has the value
`UMF_RESULT_SUCCESS` of `file_translate_params`. -/
def fileInit (n : Nat) (i : FileIn) (a : FileAns) : Res × List Ev × Option Prov :=
  match i.path with
  | none => (.invalidArgument, [], none)
  | some path =>
    if a.prov = false then (.oom, [], none)
    else if i.flags = false then (.invalidArgument, [.mk n .prov, .rm n .prov], none)
    else if pathOk path = false then (.success, [.mk n .prov, .rm n .prov], none)
    else if a.fd = false then (.invalidArgument, [.mk n .prov, .rm n .prov], none)
    else if a.size = false then (.unknown, [.mk n .prov, .mk n .fd, .rm n .fd, .rm n .prov], none)
    else
      let c := coarseNew n a.coarse
      let evs := [.mk n .prov, .mk n .fd] ++ fileTrial n i a ++ c.2
      let undo := [.rm n .fd, .rm n .prov]
      if c.1 ≠ .success then (c.1, evs ++ undo, none)
      else if a.lock = false then (.unknown, evs ++ coarseDelete n ⟨[], [], []⟩ ++ undo, none)
      else if a.offsets = false then
        (.oom, evs ++ [.mk n .lock, .rm n .lock] ++ coarseDelete n ⟨[], [], []⟩ ++ undo, none)
      else if a.mmaps = false then
        (.oom, evs ++ [.mk n .lock, .mk n .offsets, .rm n .offsets, .rm n .lock] ++
          coarseDelete n ⟨[], [], []⟩ ++ undo, none)
      else (.success, evs ++ [.mk n .lock, .mk n .offsets, .mk n .mmaps], some (.file ⟨[], [], []⟩ []))

/-- `critnib_find(…, FIND_G)`: the least recorded address above `key`. -/
def nextAbove (maps : List Nat) (key : Nat) : Option Nat := (maps.filter fun a => decide (key < a)).min?

/-- The loop of `file_finalize`, `provider_file_memory.c:312-320`; `fuel` bounds the number of rounds. -/
def unmapLoop (n : Nat) (maps : List Nat) (key : Nat) : Nat → List Ev
  | 0 => []
  | fuel + 1 => match nextAbove maps key with
    | none => []
    | some a => .rm n (.mapping a) :: unmapLoop n (maps.erase a) a fuel

/-- `file_finalize`, `provider_file_memory.c:309-328`. -/
def fileFinalize (n : Nat) (c : CoarseSt) (maps : List Nat) : List Ev :=
  unmapLoop n maps 0 (maps.length + 1) ++ [.rm n .lock, .rm n .fd, .rm n .offsets, .rm n .mmaps] ++
    coarseDelete n c ++ [.rm n .prov]

/-! ## The devdax provider -/

/-- The path (`none`: NULL), the size, whether the protection flags are known. -/
structure DevdaxIn where
  path : Option (List Char)
  size : Nat
  flags : Bool

/-- What `utils_mmap_file` gives: no mapping, one without `MAP_SYNC`, one with it. -/
inductive Map where
  | fails | plain | sync
deriving DecidableEq

/-- What succeeds: the structure, `coarse_new`, `open`; `stat` says that it is a character device; the mapping; adding the
memory; the lock. -/
structure DevdaxAns where
  prov : Bool
  coarse : CoarseAns
  fd : Bool
  chr : Bool
  map : Map
  add : AddAns
  lock : Bool

/-- `utils_devdax_open`, `utils_posix_common.c:201-234`. -/
def devdaxOpen (n : Nat) (path : List Char) (a : DevdaxAns) : Bool × List Ev :=
  if ("/dev/dax".toList.isPrefixOf path) = false then (false, [])
  else if a.fd = false then (false, [])
  else if a.chr = false then (false, [.mk n .fd, .rm n .fd])
  else (true, [.mk n .fd])

/-- `devdax_initialize`, `provider_devdax_memory.c:150-263`. When the path is too long, `ret` still has the value
`UMF_RESULT_SUCCESS` of `devdax_translate_params`. -/
def devdaxInit (n : Nat) (i : DevdaxIn) (a : DevdaxAns) : Res × List Ev × Option Prov :=
  match i.path with
  | none => (.invalidArgument, [], none)
  | some path =>
    if i.size = 0 then (.invalidArgument, [], none)
    else if a.prov = false then (.oom, [], none)
    else
      let c := coarseNew n a.coarse
      let evs := .mk n .prov :: c.2
      let undo := fun st => coarseDelete n st ++ [.rm n .prov]
      if c.1 ≠ .success then (c.1, evs ++ [.rm n .prov], none)
      else if i.flags = false then (.invalidArgument, evs ++ undo ⟨[], [], []⟩, none)
      else if pathOk path = false then (.success, evs ++ undo ⟨[], [], []⟩, none)
      else
        let o := devdaxOpen n path a
        if o.1 = false then (.invalidArgument, evs ++ o.2 ++ undo ⟨[], [], []⟩, none)
        else if a.map = .fails then (.unknown, evs ++ o.2 ++ [.rm n .fd] ++ undo ⟨[], [], []⟩, none)
        else
          let evs := evs ++ o.2 ++ [.mk n (.mapping 0), .rm n .fd]
          if a.map = .plain then (.unknown, evs ++ [.rm n (.mapping 0)] ++ undo ⟨[], [], []⟩, none)
          else
            let d := addFixed n a.add
            if d.1 ≠ .success then (d.1, evs ++ d.2.1 ++ [.rm n (.mapping 0)] ++ undo d.2.2, none)
            else if a.lock = false then (.unknown, evs ++ d.2.1 ++ [.rm n (.mapping 0)] ++ undo d.2.2, none)
            else (.success, evs ++ d.2.1 ++ [.mk n .lock], some (.devdax d.2.2))

/-- `devdax_finalize`, `provider_devdax_memory.c:265-271`. -/
def devdaxFinalize (n : Nat) (c : CoarseSt) : List Ev :=
  [.rm n .lock, .rm n (.mapping 0)] ++ coarseDelete n c ++ [.rm n .prov]

/-! ## The fixed provider -/

/-- What succeeds: the structure, `coarse_new`, adding the memory. -/
structure FixedAns where
  prov : Bool
  coarse : CoarseAns
  add : AddAns

/-- `fixed_initialize`, `provider_fixed_memory.c:83-143`. The pointer and the size are not null
(`umfFixedMemoryProviderParamsSetMemory`). -/
def fixedInit (n : Nat) (a : FixedAns) : Res × List Ev × Option Prov :=
  if a.prov = false then (.oom, [], none)
  else
    let c := coarseNew n a.coarse
    let evs := .mk n .prov :: c.2
    if c.1 ≠ .success then (c.1, evs ++ [.rm n .prov], none)
    else
      let d := addFixed n a.add
      if d.1 ≠ .success then (d.1, evs ++ d.2.1 ++ coarseDelete n d.2.2 ++ [.rm n .prov], none)
      else (.success, evs ++ d.2.1, some (.fixed d.2.2))

/-- `fixed_finalize`, `provider_fixed_memory.c:145-149`. -/
def fixedFinalize (n : Nat) (c : CoarseSt) : List Ev := coarseDelete n c ++ [.rm n .prov]

/-! ## The calls of the user -/

/-- A call of `umfMemoryProviderCreate` with one of the four operation tables and not-null parameters, with what the rest of the
system answers. -/
inductive Req where
  | os (P : Nat) (i : OsIn) (a : OsAns)
  | file (i : FileIn) (a : FileAns)
  | devdax (i : DevdaxIn) (a : DevdaxAns)
  | fixed (a : FixedAns)

/-- `ops->initialize`. -/
def init (n : Nat) : Req → Res × List Ev × Option Prov
  | .os P i a => osInit n P i a
  | .file i a => fileInit n i a
  | .devdax i a => devdaxInit n i a
  | .fixed a => fixedInit n a

/-- `umf_memory_provider_t`: its number and `provider_priv`. `none`: the variable was never written. -/
structure Handle where
  n : Nat
  priv : Option Prov
deriving DecidableEq

/-- `umfMemoryProviderCreate`, `memory_provider.c:186-223`; `mem`: host memory for the handle. -/
def create (n : Nat) (mem : Bool) (q : Req) : Res × List Ev × Option Handle :=
  if mem = false then (.oom, [], none)
  else
    let r := init n q
    if r.1 ≠ .success then (r.1, .mk n .handle :: r.2.1 ++ [.rm n .handle], none)
    else (.success, .mk n .handle :: r.2.1, some ⟨n, r.2.2⟩)

/-- `ops.finalize`. -/
def finalize (n : Nat) : Prov → List Ev
  | .os _ len parts strBuf fd _ => osFinalize n len parts strBuf fd
  | .file c maps => fileFinalize n c maps
  | .devdax c => devdaxFinalize n c
  | .fixed c => fixedFinalize n c

/-- `umfMemoryProviderDestroy`, `memory_provider.c:225-230`. -/
def destroy (h : Handle) : List Ev := match h.priv with
  | none => [.crash]
  | some p => finalize h.n p ++ [.rm h.n .handle]

end Verif.CpuProv
