/-!
# Model of the OS memory provider (`src/provider/provider_os_memory.c`): mapping, files, IPC

`size_t` values are natural numbers below `2^64`; sums that can exceed `2^64` in the code are
reduced here too. The kernel works on pages of size `P`: `mmap` maps, and `munmap` unmaps, whole
pages. The address space of the process is a function from byte addresses to cells. The file
descriptor is either absent (`fd = -1`) or positive; `fd_offset_map` is a finite map
(`Verif.Critnib`). Binding to NUMA nodes is in `Verif.Os.Bind`; here it
only succeeds or fails. Statistics are in `Verif.Os.Stats`.
-/
namespace Verif.Os

/-- What a byte of the address space holds: nothing, anonymous memory, or a byte of the file of
this provider. -/
inductive Cell where
  | unmapped
  | anon
  | file (off : Nat)
deriving Repr, DecidableEq

def W : Nat := 2 ^ 64

/-- Configuration: page size, whether the provider has a file (visibility SHARED), the size of the
file, whether allocations are bound to NUMA nodes. -/
structure Cfg where
  P : Nat
  fd : Bool
  maxFd : Nat
  bind : Bool
deriving Repr

/-- The provider: address space, `size_fd`, `fd_offset_map` (address to offset + 1). -/
structure St where
  mem : Nat → Cell
  sizeFd : Nat
  offMap : List (Nat × Nat)

/-- A provider after `os_initialize` (`provider_os_memory.c:667-761`). -/
def initSt (mem : Nat → Cell) : St := ⟨mem, 0, []⟩

/-- The end of the last page that has a byte of `[0, x)`. -/
def roundUp (P x : Nat) : Nat := (x + P - 1) / P * P

/-- The environment of one allocation: the address the kernel chooses for a length and a file offset
(`none`: `mmap` fails), the result of binding, the host memory for the map entry. -/
structure Env where
  addr : Nat → Nat → Option Nat
  bindOk : Bool
  ins : Bool

/-- Effect of `mmap`, `utils_mmap` (`utils_posix_common.c:158-175`): the pages of `[a, a + len)`. -/
def mapped (c : Cfg) (mem : Nat → Cell) (a len off : Nat) : Nat → Cell := fun x =>
  if a ≤ x ∧ x < a + roundUp c.P len then (if c.fd then .file (off + (x - a)) else .anon) else mem x

/-- Effect of `munmap`, `utils_munmap` (`utils_posix_common.c:177-183`). The kernel refuses an
address that is not at a page boundary, the length 0 and a range that leaves the address space. -/
def unmapped (c : Cfg) (mem : Nat → Cell) (a len : Nat) : Nat → Cell := fun x =>
  if a % c.P = 0 ∧ len ≠ 0 ∧ a + roundUp c.P len ≤ W then
    (if a ≤ x ∧ x < a + roundUp c.P len then .unmapped else mem x)
  else mem x

/-- Whether that `munmap` succeeds. -/
def unmapOk (c : Cfg) (a len : Nat) : Bool :=
  a % c.P == 0 && len != 0 && decide (a + roundUp c.P len ≤ W)

/-- `x & (page_size - 1)` and `x & ~(page_size - 1)` for a power of two. -/
def pageRest (P x : Nat) : Nat := x % P
def pageBase (P x : Nat) : Nat := x - x % P

/-- `extended_length`, `provider_os_memory.c:834-842`. -/
def extLen (c : Cfg) (len al : Nat) : Nat := if c.P < al then (len + al) % W else len

/-- The first address of the aligned part, `provider_os_memory.c:874-880`. -/
def alignedAddr (addr al : Nat) : Nat :=
  if addr % al ≠ 0 then (addr + (al - addr % al)) % W else addr

/-- `tail`, `provider_os_memory.c:889-893`. -/
def tailOf (c : Cfg) (a len : Nat) : Nat :=
  let t := (a + len) % W
  if pageRest c.P t ≠ 0 then pageBase c.P ((t + c.P) % W) else t

/-- `utils_mmap_aligned`, `provider_os_memory.c:827-906`. Returns the new state and, on success, the
address and the file offset. -/
def mmapAligned (c : Cfg) (st : St) (len al : Nat) (env : Env) : St × Option (Nat × Nat) :=
  let ext := extLen c len al
  if c.fd ∧ c.maxFd < (st.sizeFd + ext) % W then (st, none)
  else
    let off := if c.fd then st.sizeFd else 0
    let st := if c.fd then { st with sizeFd := (st.sizeFd + ext) % W } else st
    match env.addr ext off with
    | none => (st, none)
    | some addr =>
      let mem := mapped c st.mem addr ext off
      if c.P < al then
        let a := alignedAddr addr al
        let headLen := (a + (W - addr)) % W
        let mem := if 0 < headLen then unmapped c mem addr headLen else mem
        let tail := tailOf c a len
        let tailLen := ((addr + ext) % W + (W - tail)) % W
        let mem := if 0 < tailLen then unmapped c mem tail tailLen else mem
        ({ st with mem := mem }, some (a, off))
      else ({ st with mem := mem }, some (addr, off))

/-- `critnib_insert(map, key, value, 0)`: fails if the key is present or without host memory. -/
def mapInsert (m : List (Nat × Nat)) (k v : Nat) (host : Bool) : List (Nat × Nat) :=
  if host = false ∨ m.any (fun e => e.1 == k) then m else (k, v) :: m

/-- `critnib_get`. -/
def mapGet (m : List (Nat × Nat)) (k : Nat) : Option Nat := (m.find? fun e => e.1 == k).map Prod.snd

/-- `critnib_remove`. -/
def mapRemove (m : List (Nat × Nat)) (k : Nat) : List (Nat × Nat) := m.filter fun e => e.1 != k

/-- `ALIGN_UP_SAFE(size, page_size)`, `utils_common.h:49-52`. -/
def alignUpSafe (P x : Nat) : Nat := if W ≤ x + P - 1 then 0 else roundUp P x

/-- `os_alloc`, `provider_os_memory.c:1083-1207`. `none`: an error is returned. -/
def alloc (c : Cfg) (st : St) (size al : Nat) (env : Env) : St × Option Nat :=
  if al ≠ 0 ∧ al % c.P ≠ 0 ∧ c.P % al ≠ 0 then (st, none)
  else
    match mmapAligned c st size al env with
    | (st1, none) => (st1, none)
    | (st1, some (a, off)) =>
      if 0 < al ∧ a % al ≠ 0 then ({ st1 with mem := unmapped c st1.mem a size }, none)
      else if c.bind ∧ (alignUpSafe c.P size = 0 ∨ env.bindOk = false) then
        ({ st1 with mem := unmapped c st1.mem a size }, none)
      else if c.fd then
        ({ st1 with offMap := mapInsert st1.offMap a (off + 1) env.ins }, some a)
      else (st1, some a)

/-- `os_free`, `provider_os_memory.c:1209-1238`; `false`: an error is returned. -/
def free (c : Cfg) (st : St) (ptr size : Nat) : St × Bool :=
  if ptr = 0 then (st, true)
  else
    let st := if c.fd then { st with offMap := mapRemove st.offMap ptr } else st
    ({ st with mem := unmapped c st.mem ptr size }, unmapOk c ptr size)

/-- `os_allocation_split`, `provider_os_memory.c:1326-1355`. -/
def split (c : Cfg) (st : St) (ptr first : Nat) (host : Bool) : St × Bool :=
  if c.fd = false then (st, true)
  else match mapGet st.offMap ptr with
    | none => (st, false)
    | some v =>
      if host = false ∨ st.offMap.any (fun e => e.1 == (ptr + first) % W) then (st, false)
      else ({ st with offMap := ((ptr + first) % W, (v + first) % W) :: st.offMap }, true)

/-- `os_allocation_merge`, `provider_os_memory.c:1358-1378`. -/
def merge (c : Cfg) (st : St) (high : Nat) : St × Bool :=
  if c.fd = false then (st, true)
  else match mapGet st.offMap high with
    | none => (st, false)
    | some _ => ({ st with offMap := mapRemove st.offMap high }, true)

/-- The offset in the handle made by `os_get_ipc_handle`, `provider_os_memory.c:1405-1437`. -/
def ipcOffset (c : Cfg) (st : St) (ptr : Nat) : Option Nat :=
  if c.fd = false then none else (mapGet st.offMap ptr).map (· - 1)

/-- `os_open_ipc_handle`, `provider_os_memory.c:1470-1508`, in another process that has no other
mapping of the file: byte `i` of the opened mapping. -/
def openedCell (off i : Nat) : Cell := .file (off + i)

end Verif.Os
