import Verif.Gpu.Msg
/-!
# Model of the native errors of the OS, file, devdax and fixed providers

Every one of the four files has its own thread-local record of the last native error and its own
table of texts. Here are all functions that return `UMF_RESULT_ERROR_MEMORY_PROVIDER_SPECIFIC` or
write the record, reduced to their error paths; what the kernel, hwloc and the host allocator
answer is an argument. `errno` is followed from the call that fails to where it is recorded.
`LOG_PERR` (`utils_log.c:137-163`) restores `errno` after `strerror_r`, but prints afterwards: the
value it leaves is given by an oracle. A call only touches the record of its own thread, so calls
of different threads need not be interleaved.
-/
namespace Verif.Native
open Gpu.Msg (Bytes lit)

inductive Kind where
  | os | file | devdax | fixed
deriving DecidableEq, Repr

/-- Results of the functions of a provider; all errors other than
`UMF_RESULT_ERROR_MEMORY_PROVIDER_SPECIFIC` that occur here. -/
inductive Other where
  | invalidArgument | invalidAlignment | notSupported | outOfHost | unknown
deriving DecidableEq, Repr

inductive Res where
  | success
  | specific
  | other (e : Other)
deriving DecidableEq, Repr

/-- `UMF_OS_RESULTS_START_FROM`, `provider_os_memory.h:20`; `provider_devdax_memory.h:18`;
`provider_file_memory.h:18`; `provider_fixed_memory.h:18`. -/
def start : Kind → Int
  | .os => 1000
  | .devdax => 2000
  | .file => 3000
  | .fixed => 4000

/-- `Native_error_str`: `provider_os_memory.c:162-174`, `provider_file_memory.c:142-147`,
`provider_devdax_memory.c:115-122`, `provider_fixed_memory.c:55-57`. -/
def table : Kind → List String
  | .os => ["success", "memory allocation failed", "allocated address is not aligned",
      "binding memory to NUMA node failed", "memory deallocation failed", "lazy purging failed",
      "force purging failed", "HWLOC topology discovery failed"]
  | .file => ["success", "memory allocation failed", "memory deallocation failed",
      "force purging failed"]
  | .devdax => ["success", "memory allocation failed", "allocated address is not aligned",
      "memory deallocation failed", "force purging failed"]
  | .fixed => ["success", "force purging failed"]

/-- The enumerations `umf_os_memory_provider_native_error` (`provider_os_memory.h:138-147`), and
those of `provider_file_memory.h:62-67`, `provider_devdax_memory.h:60-66` and
`provider_fixed_memory.h:55-58`. -/
def osAllocFailed : Int := 1001
def osNotAligned : Int := 1002
def osBindFailed : Int := 1003
def osFreeFailed : Int := 1004
def osPurgeLazyFailed : Int := 1005
def osPurgeForceFailed : Int := 1006
def osTopoFailed : Int := 1007
def devdaxAllocFailed : Int := 2001
def devdaxFreeFailed : Int := 2003
def devdaxPurgeForceFailed : Int := 2004
def fileAllocFailed : Int := 3001
def fileFreeFailed : Int := 3002
def filePurgeForceFailed : Int := 3003
def fixedPurgeForceFailed : Int := 4001

/-- `ENOSYS` on Linux. -/
def ENOSYS : Int := 38

/-- `TLS_MSG_BUF_LEN`, `provider_os_memory.c:107` and the other files. -/
def bufLen : Nat := 1024

/-- `os_last_native_error_t`, `provider_os_memory.c:135-139`, and the like. -/
structure Rec where
  code : Int
  errno : Int
  buf : Bytes

/-- Thread-local storage starts with zeros. -/
def rec0 : Rec := ⟨0, 0, List.replicate bufLen 0⟩

/-- `os_store_last_native_error`, `provider_os_memory.c:265-268`, and the like. -/
def store (r : Rec) (code errno : Int) : Rec := { r with code := code, errno := errno }

/-- `strcpy`-like `memcpy` of a string with its terminating zero to `buf + pos`; `none`: outside
the buffer. -/
def poke (buf : Bytes) (pos : Nat) (s : Bytes) : Option Bytes :=
  if pos + s.length + 1 ≤ buf.length then
    some (buf.take pos ++ s ++ [0] ++ buf.drop (pos + s.length + 1))
  else none

/-- What `*ppMessage` points to afterwards: a constant, or the thread's buffer. -/
inductive Ptr where
  | const (s : String)
  | buf
deriving DecidableEq, Repr

/-- `os_get_last_native_error`, `provider_os_memory.c:1240-1273`, and the same function in
`provider_file_memory.c:548-581`, `provider_devdax_memory.c:284-317`,
`provider_fixed_memory.c:159-192`. `none`: the table is read outside, or the buffer written
outside. `strerr` is what `strerror_r` (`utils_strerror`, `utils_posix_common.c:189-198`) writes
if there is room; the XSI variant is used as `_GNU_SOURCE` is not defined in that file. -/
def query (k : Kind) (r : Rec) (strerr : Int → Bytes) : Option (Int × Ptr × Rec) :=
  let i := r.code - start k
  if i < 0 then none
  else
    match (table k)[i.toNat]? with
    | none => none
    | some text =>
      if r.errno = 0 then some (r.code, .const text, r)
      else do
        let msg := lit text
        let buf ← poke r.buf 0 msg
        let pos := 0 + msg.length
        let msg := lit ": "
        let buf ← poke buf pos msg
        let pos := pos + msg.length
        let buf ← poke buf pos ((strerr r.errno).take (bufLen - pos - 1))
        some (r.code, .buf, { r with buf := buf })

/-! ## The OS provider -/

/-- `os_initialize`, `provider_os_memory.c:667-761`: the answers of `hwloc_topology_init` and
`hwloc_topology_load`; then what the rest returns, which is never a provider specific error. -/
def osInit (r : Rec) (init load : Bool) (rest : Option Other) : Rec × Res :=
  if init = false then (r, .other .outOfHost)
  else if load = false then (store r osTopoFailed 0, .specific)
  else (r, match rest with | none => .success | some e => .other e)

/-- What happens in `os_alloc`. `binds`: the results of `hwloc_set_area_membind`, `some e` for a
failure with `errno = e`. -/
structure OsAlloc where
  wrongAlign : Bool
  mmap : Bool
  misaligned : Bool
  numa : Bool
  tooBig : Bool
  bitmap : Bool
  binds : List (Option Int)

/-- The loop of `os_alloc`, `provider_os_memory.c:1142-1165`. -/
def bindLoop (log : Int → Int) (r : Rec) : List (Option Int) → Rec × Res
  | [] => (r, .success)
  | none :: l => bindLoop log r l
  | some e :: l =>
    let r := store r osBindFailed e
    let e := log e
    if e ≠ ENOSYS ∧ e ≠ 0 then (r, .specific) else bindLoop log r l

/-- `os_alloc`, `provider_os_memory.c:1083-1207`. -/
def osAlloc (log : Int → Int) (r : Rec) (a : OsAlloc) : Rec × Res :=
  if a.wrongAlign then (r, .other .invalidArgument)
  else if a.mmap = false then (store r osAllocFailed 0, .specific)
  else if a.misaligned then (store r osNotAligned 0, .specific)
  else if a.numa = false then (r, .success)
  else if a.tooBig then (r, .other .invalidArgument)
  else if a.bitmap = false then (r, .specific)
  else bindLoop log r a.binds

/-- `os_free`, `provider_os_memory.c:1209-1238`. `err`: `errno` if `munmap` fails. -/
def osFree (r : Rec) (null : Bool) (err : Option Int) : Rec × Res :=
  if null then (r, .success)
  else match err with
    | none => (r, .success)
    | some e => (store r osFreeFailed e, .specific)

/-- `os_purge_lazy`, `provider_os_memory.c:1290-1304`; `file_purge_lazy`
(`provider_file_memory.c:601-609`), `devdax_purge_lazy` (`provider_devdax_memory.c:337-345`) and
`fixed_purge_lazy` (`provider_fixed_memory.c:211-217`) are not supported. -/
def purgeLazy (k : Kind) (r : Rec) (err : Option Int) : Rec × Res :=
  match k with
  | .os => match err with
    | none => (r, .success)
    | some e => (store r osPurgeLazyFailed e, .specific)
  | _ => (r, .other .notSupported)

/-- `os_purge_force`, `provider_os_memory.c:1306-1317`; `provider_file_memory.c:611-622`;
`provider_devdax_memory.c:347-357`; `provider_fixed_memory.c:219-229`. -/
def purgeForce (k : Kind) (r : Rec) (err : Option Int) : Rec × Res :=
  match err with
  | none => (r, .success)
  | some e =>
    (store r (match k with
      | .os => osPurgeForceFailed
      | .file => filePurgeForceFailed
      | .devdax => devdaxPurgeForceFailed
      | .fixed => fixedPurgeForceFailed) e, .specific)

/-! ## IPC -/

/-- What happens while an IPC handle is opened: IPC is enabled, the descriptor is obtained or there
is another error, `mmap` fails with an `errno`, closing the descriptor fails with an `errno`, the
mapping is not DAX. -/
structure Open where
  enabled : Bool
  fd : Option Other
  mmap : Option Int
  close : Option Int
  dax : Bool

/-- `os_open_ipc_handle`, `provider_os_memory.c:1463-1508`. The record is written before the
descriptor is closed. -/
def osOpen (r : Rec) (a : Open) : Rec × Res :=
  if a.enabled = false then (r, .other .invalidArgument)
  else match a.fd with
    | some e => (r, .other e)
    | none => match a.mmap with
      | none => (r, .success)
      | some e => (store r osAllocFailed e, .specific)

/-- `file_open_ipc_handle`, `provider_file_memory.c:769-820`. The record is written after the
descriptor was closed. -/
def fileOpen (r : Rec) (a : Open) : Rec × Res :=
  if a.enabled = false then (r, .other .invalidArgument)
  else match a.fd with
    | some _ => (r, .other .invalidArgument)
    | none => match a.mmap with
      | none => (r, .success)
      | some e => (store r fileAllocFailed (a.close.getD e), .specific)

/-- `devdax_open_ipc_handle`, `provider_devdax_memory.c:447-505`. The record is written after the
descriptor was closed and the error was logged. -/
def devdaxOpen (log : Int → Int) (r : Rec) (a : Open) : Rec × Res :=
  match a.fd with
  | some _ => (r, .other .invalidArgument)
  | none => match a.mmap with
    | some e => (store r devdaxAllocFailed (log (a.close.getD e)), .specific)
    | none => if a.dax = false then (r, .other .unknown) else (r, .success)

/-- `os_close_ipc_handle`, `provider_os_memory.c:1510-1529`; `file_close_ipc_handle`,
`provider_file_memory.c:822-847`; `devdax_close_ipc_handle`, `provider_devdax_memory.c:507-524`
(which has no check of the visibility). The fixed provider has no such function,
`provider_fixed_memory.c:275`, `memory_provider.c:103-109,150-152`. `zero`: the size is 0. -/
def ipcClose (k : Kind) (r : Rec) (enabled zero : Bool) (err : Option Int) : Rec × Res :=
  if k = .fixed then (r, .other .notSupported)
  else if k ≠ .devdax ∧ enabled = false then (r, .other .invalidArgument)
  else match err with
    | none => (r, .success)
    | some e =>
      if zero then (r, .success)
      else (store r (match k with
        | .os => osFreeFailed
        | .file => fileFreeFailed
        | _ => devdaxFreeFailed) e, .specific)

/-! ## The file provider -/

/-- What happens in an allocation of the file provider. -/
inductive FileAlloc where
  /-- the coarse allocator answers without new memory (`coarse.c:1035-1113`) -/
  | served (e : Option Other)
  /-- `file_alloc_cb` refuses the alignment -/
  | wrongAlign
  /-- `file_alloc_aligned` (`provider_file_memory.c:418-485`) fails: the lock, the size, the size of
  the file -/
  | refused (e : Other)
  /-- the file cannot be mapped, `provider_file_memory.c:388-393` -/
  | mmap
  /-- no room in the map of offsets, or in the coarse allocator (`coarse.c:1128-1134`) -/
  | late (e : Other)
  | done

/-- `file_alloc` and `file_alloc_cb`, `provider_file_memory.c:487-546`. -/
def fileAlloc (r : Rec) : FileAlloc → Rec × Res
  | .served none => (r, .success)
  | .served (some e) => (r, .other e)
  | .wrongAlign => (r, .other .invalidAlignment)
  | .refused e => (store r fileAllocFailed 0, .other e)
  | .mmap => (store r fileAllocFailed 0, .specific)
  | .late e => (r, .other e)
  | .done => (r, .success)

/-! ## Calls and threads -/

/-- A call of a provider function with all the answers it gets. Functions of the devdax and fixed
providers that pass the call on to the coarse allocator never touch the record. -/
inductive Op where
  | osInit (init load : Bool) (rest : Option Other)
  | osAlloc (a : OsAlloc)
  | osFree (null : Bool) (err : Option Int)
  | purgeLazy (k : Kind) (err : Option Int)
  | purgeForce (k : Kind) (err : Option Int)
  | osOpen (a : Open)
  | fileOpen (a : Open)
  | devdaxOpen (a : Open)
  | ipcClose (k : Kind) (enabled zero : Bool) (err : Option Int)
  | fileAlloc (a : FileAlloc)
  /-- any other call: `coarse_alloc`, `coarse_free`, `coarse_split`, `coarse_merge`, page sizes,
  names, handles -/
  | quiet (k : Kind) (e : Option Other)

/-- The provider a call is made on. -/
def Op.kind : Op → Kind
  | .osInit .. | .osAlloc _ | .osFree .. | .osOpen _ => .os
  | .fileOpen _ | .fileAlloc _ => .file
  | .devdaxOpen _ => .devdax
  | .purgeLazy k _ | .purgeForce k _ | .ipcClose k _ _ _ | .quiet k _ => k

def Op.run (log : Int → Int) (r : Rec) : Op → Rec × Res
  | .osInit i l e => Native.osInit r i l e
  | .osAlloc a => Native.osAlloc log r a
  | .osFree n e => Native.osFree r n e
  | .purgeLazy k e => Native.purgeLazy k r e
  | .purgeForce k e => Native.purgeForce k r e
  | .osOpen a => Native.osOpen r a
  | .fileOpen a => Native.fileOpen r a
  | .devdaxOpen a => Native.devdaxOpen log r a
  | .ipcClose k en z e => Native.ipcClose k r en z e
  | .fileAlloc a => Native.fileAlloc r a
  | .quiet _ e => (r, match e with | none => .success | some e => .other e)

/-- The records of all threads: thread-local variables of four files. -/
abbrev Tls := Nat → Kind → Rec

def tls0 : Tls := fun _ _ => rec0

/-- One event: thread `t` calls a function, or asks for the last native error of a provider. -/
inductive Ev where
  | call (t : Nat) (op : Op) (log : Int → Int)
  | ask (t : Nat) (k : Kind)

def set (T : Tls) (t : Nat) (k : Kind) (r : Rec) : Tls := fun t' k' =>
  if t' = t ∧ k' = k then r else T t' k'

/-- The records after an event; `none`: undefined behaviour. -/
def step (strerr : Int → Bytes) (T : Tls) : Ev → Option Tls
  | .call t op log => some (set T t op.kind (op.run log (T t op.kind)).1)
  | .ask t k => (query k (T t k) strerr).map fun q => set T t k q.2.2

def run (strerr : Int → Bytes) (T : Tls) : List Ev → Option Tls
  | [] => some T
  | e :: l => (step strerr T e).bind fun T => run strerr T l

end Verif.Native
