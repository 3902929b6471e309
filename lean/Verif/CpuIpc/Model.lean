/-!
# IPC handles of the OS, file and devdax providers

The provider side of `umfGetIPCHandle`, `umfPutIPCHandle`, `umfOpenIPCHandle` and `umfCloseIPCHandle`: what the handle says,
which file the consumer opens, which part of it is mapped, and what is unmapped. The machine is modelled by the memory of
every process (which byte of which file an address shows), the descriptors of every process, the names of shared memory files
and the paths of files and devices.

Simplifications: sizes and addresses are unbounded numbers (no wrap at 2^64); the two file name spaces (`shm_open`, `open`) are
maps from names to files; the path of a handle is the whole path (paths that do not fit are refused at creation, C68).
-/
namespace Verif.CpuIpc

/-- `FSDAX_PAGE_SIZE_2MB`, `DEVDAX_PAGE_SIZE_2MB` (src/provider/provider_file_memory.c 81, provider_devdax_memory.c 74). -/
@[irreducible] def MB2 : Nat := 2097152

/-- `umf_result_t`; `other` is whatever `utils_errno_to_umf_result` gives (src/utils/utils_posix_common.c 67-84). `mismatch` is
no result of the code: it marks a call whose handle was made by a provider of another kind, where the code would read the
bytes of the handle as another structure. -/
inductive Res | success | invalidArgument | unknown | providerSpecific | other | mismatch
deriving DecidableEq, Repr

/-- What an address shows: a byte of a file (`none`: anonymous memory), with a protection, and whether writes go to the file
(`MAP_SHARED`). -/
structure Cell where
  file : Option Nat
  off : Nat
  prot : Nat
  shared : Bool
deriving DecidableEq, Repr

/-- The memory of a process; `none`: nothing is mapped. -/
abbrev Mem := Nat → Option Cell

/-- The machine. `P` is the size of a page. -/
structure Kernel where
  P : Nat
  /-- process, address -/
  mem : Nat → Mem
  /-- process, number of the descriptor -/
  fd : Nat → Nat → Option Nat
  /-- names of shared memory files -/
  shm : String → Option Nat
  /-- paths of files and devices -/
  path : String → Option Nat

/-- `ALIGN_UP` (src/utils/utils_common.h 47): here with division, the masks are C66. -/
def alignUp (n a : Nat) : Nat := (n + (a - 1)) / a * a

/-- `ALIGN_DOWN` (src/utils/utils_common.h 52). -/
def alignDown (n a : Nat) : Nat := n / a * a

/-- `utils_align_ptr_down_size_up` (src/utils/utils_common.c 34-53). -/
def alignPtrDownSizeUp (p s a : Nat) : Nat × Nat :=
  let rest := p % a
  let p' := if rest ≠ 0 then alignDown p a else p
  let s' := if rest ≠ 0 then s + rest else s
  (p', alignUp s' a)

/-- Replace one process's part of a map. -/
def setAt {α : Type} (f : Nat → α) (q : Nat) (v : α) : Nat → α := fun x => if x = q then v else f x

/-- mmap(2) of `len` bytes from `off` of `file` to address `a` of process `q`: whole pages are mapped. -/
def mapAt (K : Kernel) (q a len : Nat) (file : Option Nat) (off prot : Nat) (shared : Bool) : Kernel :=
  { K with mem := setAt K.mem q fun x =>
      if a ≤ x ∧ x < a + alignUp len K.P then some ⟨file, off + (x - a), prot, shared⟩ else K.mem q x }

/-- mmap(2) without hint through `utils_mmap` (src/utils/utils_posix_common.c 158-175): refused (`EINVAL`) when the length is 0 or
the offset is no multiple of the page size; `a` is the place the kernel chooses otherwise, a multiple of the page size other than
`NULL` where nothing is mapped (an answer that is no such place counts as none). `n` is the number of the descriptor, open
for `file`: for number 0 `utils_mmap` asks for anonymous memory, which the kernel refuses (`EINVAL`) with
`MAP_SHARED_VALIDATE | MAP_SYNC` (`sync`). -/
def mmap (K : Kernel) (q len n file off prot : Nat) (shared sync : Bool) (a : Option Nat) : Option Nat × Kernel :=
  if len = 0 ∨ off % K.P ≠ 0 then (none, K)
  else if n = 0 ∧ sync = true then (none, K)
  else match a with
    | none => (none, K)
    | some a =>
      if 0 < a ∧ a % K.P = 0 ∧ ∀ i < alignUp len K.P, K.mem q (a + i) = none then
        (some a, mapAt K q a len (if n = 0 then none else some file) off prot shared)
      else (none, K)

/-- munmap(2) through `utils_munmap` (src/utils/utils_posix_common.c 177-183): refused (`EINVAL`) when the length is 0 or the address is no
multiple of the page size; `ok = false` when the kernel refuses otherwise. -/
def munmap (K : Kernel) (q a len : Nat) (ok : Bool) : Bool × Kernel :=
  if len = 0 ∨ a % K.P ≠ 0 ∨ ok = false then (false, K)
  else (true, { K with mem := setAt K.mem q fun x =>
      if a ≤ x ∧ x < a + alignUp len K.P then none else K.mem q x })

/-- What the kernel answers during one call of open. -/
structure Ans where
  /-- the number of the new descriptor; `none`: `shm_open`, `open`, `pidfd_open` or `pidfd_getfd` fails -/
  newFd : Option Nat
  /-- the result of `utils_errno_to_umf_result` when `pidfd_open` or `pidfd_getfd` fails -/
  dupErr : Res
  /-- the address given to the mapping with `MAP_SYNC` (file and devdax) -/
  sync : Option Nat
  /-- `errno` is `EINVAL`, `ENOTSUP` or `EOPNOTSUPP` after the mapping with `MAP_SYNC` failed -/
  retry : Bool
  /-- the address given to the plain mapping -/
  plain : Option Nat
  /-- the unmapping of a mapping without `MAP_SYNC` works (devdax) -/
  unmapOk : Bool

/-- The descriptor a call gets: the kernel never gives a number that is in use. -/
def Ans.fdFor (a : Ans) (K : Kernel) (q : Nat) : Option Nat :=
  match a.newFd with
  | some n => if K.fd q n = none then some n else none
  | none => none

/-- `utils_mmap_file` (src/utils/utils_linux_common.c 52-111) with a `NULL` hint; the boolean is `*map_sync`. -/
def mmapFile (K : Kernel) (q len n file off prot : Nat) (priv : Bool) (a : Ans) : Option Nat × Bool × Kernel :=
  if priv = true then
    let r := mmap K q len n file off prot false false a.plain
    (r.1, false, r.2)
  else
    let r := mmap K q len n file off prot true true a.sync
    match r.1 with
    | some x => (some x, true, r.2)
    | none =>
      if a.retry = true ∨ n = 0 then
        let r := mmap K q len n file off prot true false a.plain
        (r.1, false, r.2)
      else (none, false, K)

/-- The fields of the providers the IPC functions use: `os_memory_provider_t` (src/provider/provider_os_memory_internal.h 29-74),
`file_memory_provider_t` (src/provider/provider_file_memory.c 85-115), `devdax_memory_provider_t`
(src/provider/provider_devdax_memory.c 78-86). `pid` is the process the provider lives in, `offsets` is `fd_offset_map` (offset + 1;
0: no value). -/
inductive Prov
  | os (pid : Nat) (ipc : Bool) (fd : Nat) (name : String) (prot : Nat) (offsets : Nat → Nat)
  | file (pid : Nat) (ipc fsdax : Bool) (path : String) (prot : Nat) (offsets : Nat → Nat)
  | devdax (pid : Nat) (path : String) (prot : Nat) (base : Nat)

/-- `os_ipc_data_t` (src/provider/provider_os_memory.c 1380-1392), `file_ipc_data_t` (src/provider/provider_file_memory.c 708-714),
`devdax_ipc_data_t` (src/provider/provider_devdax_memory.c 399-405). `visibility` is not kept: handles exist only with
`UMF_MEM_MAP_SHARED` (`IPC_enabled`). -/
inductive Handle
  | os (pid fd off size prot : Nat) (name : String)
  | file (path : String) (off size prot : Nat)
  | devdax (path : String) (prot off size : Nat)
deriving DecidableEq, Repr

/-- The process the provider lives in. -/
def Prov.pid : Prov → Nat
  | .os p .. => p
  | .file p .. => p
  | .devdax p .. => p

/-- `os_get_ipc_handle` (src/provider/provider_os_memory.c 1407-1439), `file_get_ipc_handle` (src/provider/provider_file_memory.c 728-752),
`devdax_get_ipc_handle` (src/provider/provider_devdax_memory.c 415-431). For a provider with a name the field `fd` is not written:
here it is 0. -/
def getHandle (s : Prov) (ptr size : Nat) : Res × Option Handle :=
  match s with
  | .os pid ipc fd name prot offsets =>
    if ipc = false then (.invalidArgument, none)
    else
      let value := offsets ptr
      if value = 0 then (.invalidArgument, none)
      else (.success, some (.os pid (if name.length > 0 then 0 else fd) (value - 1) size prot name))
  | .file _ ipc _ path prot offsets =>
    if ipc = false then (.invalidArgument, none)
    else
      let value := offsets ptr
      if value = 0 then (.invalidArgument, none)
      else (.success, some (.file path (value - 1) size prot))
  | .devdax _ path prot base => (.success, some (.devdax path prot (ptr - base) size))

/-- `os_put_ipc_handle` (src/provider/provider_os_memory.c 1441-1470), `file_put_ipc_handle` (src/provider/provider_file_memory.c 754-768),
`devdax_put_ipc_handle` (src/provider/provider_devdax_memory.c 433-447). -/
def putHandle (s : Prov) (h : Handle) : Res :=
  match s, h with
  | .os pid ipc fd name _ _, .os hpid hfd _ _ _ hname =>
    if ipc = false then .invalidArgument
    else if hpid ≠ pid then .invalidArgument
    else if name.length > 0 then
      if hname ≠ name then .invalidArgument else .success
    else if hfd ≠ fd then .invalidArgument
    else .success
  | .file _ ipc _ path _ _, .file hpath .. =>
    if ipc = false then .invalidArgument else if hpath ≠ path then .invalidArgument else .success
  | .devdax _ path _ _, .devdax hpath .. => if hpath ≠ path then .invalidArgument else .success
  | _, _ => .mismatch

/-- A new descriptor for a file. -/
def setFd (K : Kernel) (q n : Nat) (f : Option Nat) : Kernel :=
  { K with fd := setAt K.fd q (setAt (K.fd q) n f) }

/-- The end of `os_open_ipc_handle` (src/provider/provider_os_memory.c 1501-1513): map and close the descriptor `n`. -/
def osMap (K : Kernel) (q n f size off prot : Nat) (a : Ans) : Res × Option Nat × Kernel :=
  let r := mmap (setFd K q n (some f)) q size n f off prot true false a.plain
  match r.1 with
  | some x => (.success, some x, setFd r.2 q n none)
  | none => (.providerSpecific, none, setFd r.2 q n none)

/-- `os_open_ipc_handle` (src/provider/provider_os_memory.c 1472-1513) in process `q`. -/
def osOpen (K : Kernel) (q : Nat) (ipc : Bool) (pid fd off size prot : Nat) (name : String) (a : Ans) :
    Res × Option Nat × Kernel :=
  if ipc = false then (.invalidArgument, none, K)
  else if name.length > 0 then
    match K.shm name with
    | none => (.unknown, none, K)
    | some f =>
      match a.fdFor K q with
      | none => (.unknown, none, K)
      | some n =>
        if n ≤ 0 then (.unknown, none, setFd K q n (some f))
        else osMap { K with shm := fun s => if s = name then none else K.shm s } q n f size off prot a
  else
    match K.fd pid fd with
    | none => (a.dupErr, none, K)
    | some f =>
      match a.fdFor K q with
      | none => (a.dupErr, none, K)
      | some n => osMap K q n f size off prot a

/-- `file_open_ipc_handle` (src/provider/provider_file_memory.c 770-823) in process `q`; `ipc` and `fsdax` are fields of the
opening provider. -/
def fileOpen (K : Kernel) (q : Nat) (ipc fsdax : Bool) (path : String) (off size prot : Nat) (a : Ans) :
    Res × Option Nat × Kernel :=
  if ipc = false then (.invalidArgument, none, K)
  else
    let al := if fsdax = true then alignPtrDownSizeUp off size MB2 else (off, size)
    match K.path path, a.fdFor K q with
    | some f, some n =>
      let r := mmapFile (setFd K q n (some f)) q al.2 n f al.1 prot false a
      match r.1 with
      | none => (.providerSpecific, none, setFd r.2.2 q n none)
      | some x => (.success, some x, setFd r.2.2 q n none)
    | _, _ => (.invalidArgument, none, K)

/-- `devdax_open_ipc_handle` (src/provider/provider_devdax_memory.c 449-505) in process `q`. -/
def devdaxOpen (K : Kernel) (q : Nat) (path : String) (prot off size : Nat) (a : Ans) : Res × Option Nat × Kernel :=
  match K.path path, a.fdFor K q with
  | some f, some n =>
    let al := alignPtrDownSizeUp off size MB2
    let r := mmapFile (setFd K q n (some f)) q al.2 n f al.1 prot false a
    let K1 := setFd r.2.2 q n none
    match r.1 with
    | none => (.providerSpecific, none, K1)
    | some x =>
      if r.2.1 = false then (.unknown, none, (munmap K1 q x al.2 a.unmapOk).2)
      else (.success, some x, K1)
  | _, _ => (.invalidArgument, none, K)

/-- `open_ipc_handle` of the providers, called by provider `s` in the process it lives in. -/
def openHandle (K : Kernel) (s : Prov) (h : Handle) (a : Ans) : Res × Option Nat × Kernel :=
  match s, h with
  | .os q ipc _ _ _ _, .os pid fd off size prot name => osOpen K q ipc pid fd off size prot name a
  | .file q ipc fsdax _ _ _, .file path off size prot => fileOpen K q ipc fsdax path off size prot a
  | .devdax q _ _ _, .devdax path prot off size => devdaxOpen K q path prot off size a
  | _, _ => (.mismatch, none, K)

/-- The common end of the close functions: an error of `munmap` with size 0 is ignored. -/
def closeAt (K : Kernel) (q : Nat) (al : Nat × Nat) (ok : Bool) : Res × Kernel :=
  let r := munmap K q al.1 al.2 ok
  if r.1 = false ∧ al.2 > 0 then (.providerSpecific, r.2) else (.success, r.2)

/-- `os_close_ipc_handle` (src/provider/provider_os_memory.c 1515-1536), `file_close_ipc_handle`
(src/provider/provider_file_memory.c 825-853), `devdax_close_ipc_handle` (src/provider/provider_devdax_memory.c 507-524). -/
def closeHandle (K : Kernel) (s : Prov) (ptr size : Nat) (ok : Bool) : Res × Kernel :=
  match s with
  | .os q ipc _ _ _ _ =>
    if ipc = false then (.invalidArgument, K) else closeAt K q (ptr, size) ok
  | .file q ipc fsdax _ _ _ =>
    if ipc = false then (.invalidArgument, K)
    else closeAt K q (if fsdax = true then alignPtrDownSizeUp ptr size MB2 else (ptr, size)) ok
  | .devdax q _ _ _ => closeAt K q (ptr, alignUp size MB2) ok

/-- `utils_shm_create` (src/utils/utils_linux_common.c 142-166), called by `os_initialize` for a provider with a name: a file of
the same name loses the name. `f` is the new file, `n` its descriptor in process `q`. -/
def shmCreate (K : Kernel) (q n : Nat) (name : String) (f : Nat) : Kernel :=
  setFd { K with shm := fun s => if s = name then some f else K.shm s } q n (some f)

end Verif.CpuIpc
