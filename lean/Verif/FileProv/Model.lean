import Verif.Os.Spec
/-!
# Model of the file memory provider (`src/provider/provider_file_memory.c`)

The callbacks that `coarse` uses (`file_alloc_cb`, `file_allocation_split_cb`,
`file_allocation_merge_cb`) and the IPC handle. `coarse` itself is in `Verif.Coarse`. The address space is
that of `Verif.Os`: a byte is unmapped or a byte of the file. The page size `P` and the alignments are powers
of two, so `x & (P - 1)` is written `x % P`. One callback is one step: `file_alloc_aligned` holds a
mutex. The file is positive (`fd > 0`).
-/
namespace Verif.FileProv
open Verif.Os (Cell W roundUp mapInsert mapGet mapRemove FileRange)

/-- `file_memory_provider_t`, `provider_file_memory.c:85-113`: the current mapping (`base_mmap`, `size_mmap`,
`offset_mmap`), the position in the file `offset_fd`, the size of the file, the map of offsets and the map
of mappings; and the address space. -/
structure St where
  mem : Nat → Cell
  base : Nat
  sizeM : Nat
  offM : Nat
  offFd : Nat
  sizeFd : Nat
  offMap : List (Nat × Nat)
  mmaps : List (Nat × Nat)

/-- After `file_initialize`, `provider_file_memory.c:188-307`. -/
def initSt (mem : Nat → Cell) : St := ⟨mem, 0, 0, 0, 0, 2 * 1024 * 1024, [], []⟩

/-- The environment of one call: whether the file can grow to a size, the address the kernel chooses
for a length and an offset (`none`: `mmap` fails), host memory for the two maps. -/
structure Env where
  grow : Nat → Bool
  addr : Nat → Nat → Option Nat
  insM : Bool
  ins : Bool

/-- Rounding up to a page, `provider_file_memory.c:349-352` and `361-364`: `none` when the sum exceeds
64 bits and the check after it fails. -/
def pageUp (P x min : Nat) : Option Nat :=
  let y := if x % P ≠ 0 then (x + (P - x % P)) % W else x
  if y < min then none else some y

/-- `ALIGN_UP_SAFE(ptr, alignment)`, `utils_common.h:49-52`. -/
def alignPtr (p al : Nat) : Nat :=
  if al = 0 then p else if W ≤ p + al - 1 then 0 else roundUp al p

/-- `file_mmap_aligned`, `provider_file_memory.c:330-416`. -/
def mmapAligned (P : Nat) (st : St) (size al : Nat) (env : Env) : St × Bool :=
  let ext := (size + al) % W
  if ext < size then (st, false)
  else match pageUp P ext size with
    | none => (st, false)
    | some ext =>
      match pageUp P st.offFd st.offFd with
      | none => (st, false)
      | some off =>
        let new := (off + ext) % W
        if st.sizeFd < new ∧ env.grow new = false then (st, false)
        else
          let st := if st.sizeFd < new then { st with sizeFd := new } else st
          let st := if st.offFd < off then { st with offFd := off } else st
          match env.addr ext off with
          | none => (st, false)
          | some ptr =>
            let a := alignPtr ptr al
            ({ st with
               mem := fun x => if ptr ≤ x ∧ x < ptr + ext then .file (off + (x - ptr)) else st.mem x
               mmaps := mapInsert st.mmaps ptr ext env.insM
               base := a
               sizeM := (ext + (W - (a + (W - ptr)) % W)) % W
               offM := 0 }, true)

/-- The next aligned address in the current mapping, `provider_file_memory.c:444-452`. -/
def nextPtr (st : St) (al : Nat) : Nat :=
  let p := (st.base + st.offM) % W
  if al ≠ 0 ∧ p % al ≠ 0 then (p + (al - p % al)) % W else p

/-- The end of `file_alloc_aligned`, `provider_file_memory.c:475-480`. -/
def take (st : St) (size ptr offM offFd : Nat) : St × Option (Nat × Nat) :=
  ({ st with offFd := (offFd + size) % W, offM := (offM + size) % W }, some (ptr, offFd))

/-- `file_alloc_aligned`, `provider_file_memory.c:418-485`. Returns the address and the offset. -/
def allocAligned (P : Nat) (st : St) (size al : Nat) (env : Env) : St × Option (Nat × Nat) :=
  let r := if (st.sizeM + (W - st.offM)) % W < size then mmapAligned P st size al env else (st, true)
  if r.2 = false then (r.1, none)
  else
    let st := r.1
    let ptr := nextPtr st al
    let offM := (ptr + (W - st.base)) % W
    let offFd := (st.offFd + offM + (W - st.offM)) % W
    if (st.sizeM + (W - offM)) % W < size then
      let r := mmapAligned P st size al env
      if r.2 = false then (r.1, none) else take r.1 size r.1.base 0 r.1.offFd
    else take st size ptr offM offFd

/-- `file_alloc_cb`, `provider_file_memory.c:493-546`. -/
def alloc (P : Nat) (st : St) (size al : Nat) (env : Env) : St × Option Nat :=
  if al ≠ 0 ∧ (al &&& (al - 1) ≠ 0 ∨ (al % P ≠ 0 ∧ P % al ≠ 0)) then (st, none)
  else
    let al := if al % P ≠ 0 then roundUp P al else al
    match allocAligned P st size al env with
    | (st1, none) => (st1, none)
    | (st1, some (a, off)) =>
      if env.ins = false ∨ st1.offMap.any (fun e => e.1 == a) then (st1, none)
      else ({ st1 with offMap := (a, (off + 1) % W) :: st1.offMap }, some a)

/-- `file_allocation_split_cb`, `provider_file_memory.c:635-673`. -/
def split (st : St) (ptr first : Nat) (host : Bool) : St × Bool :=
  match mapGet st.offMap ptr with
  | none => (st, false)
  | some v =>
    if host = false ∨ st.offMap.any (fun e => e.1 == (ptr + first) % W) then (st, false)
    else ({ st with offMap := ((ptr + first) % W, (v + first) % W) :: st.offMap }, true)

/-- `file_allocation_merge_cb`, `provider_file_memory.c:681-705`. -/
def merge (st : St) (high : Nat) : St × Bool :=
  match mapGet st.offMap high with
  | none => (st, false)
  | some _ => ({ st with offMap := mapRemove st.offMap high }, true)

/-- The offset in the handle made by `file_get_ipc_handle`, `provider_file_memory.c:726-750`. -/
def ipcOffset (st : St) (ptr : Nat) : Option Nat := (mapGet st.offMap ptr).map (· - 1)

/-- `file_open_ipc_handle`, `provider_file_memory.c:769-822`, with ordinary pages: byte `i` of the opened
mapping. -/
def openedCell (off i : Nat) : Cell := .file (off + i)

/-- `file_finalize`, `provider_file_memory.c:309-328`: everything in the map of mappings is
unmapped. -/
def finalize (st : St) : Nat → Cell := fun x =>
  if st.mmaps.any (fun e => decide (e.1 ≤ x ∧ x < e.1 + e.2)) then .unmapped else st.mem x

end Verif.FileProv
