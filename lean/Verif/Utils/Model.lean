/-!
# Model of the alignment and flag helpers

Sources: `src/utils/utils_common.h`, `src/utils/utils_common.c`,
`src/utils/utils_math.h`, `src/utils/utils_posix_common.c`.
All arithmetic is on 64-bit words (`size_t`/`uintptr_t` on the supported targets).
-/
namespace Verif.Utils

/-- A 64-bit machine word: `size_t`, `uintptr_t`, `uint64_t`. -/
abbrev W := BitVec 64

/-- `ALIGN_UP(value, align)`, `utils_common.h:41-54`:
`(((value) + (align)-1) & ~((align)-1))`. -/
def alignUp (value align : W) : W := (value + align - 1#64) &&& ~~~(align - 1#64)

/-- `ALIGN_UP_SAFE(value, align)`, `utils_common.h:41-54`:
`align == 0 ? value : (value + align - 1 < value ? 0 : ALIGN_UP(value, align))`. -/
def alignUpSafe (value align : W) : W :=
  if align = 0#64 then value
  else if value + align - 1#64 < value then 0#64
  else alignUp value align

/-- `ALIGN_DOWN(value, align)`, `utils_common.h:41-54`: `((value) & ~((align)-1))`. -/
def alignDown (value align : W) : W := value &&& ~~~(align - 1#64)

/-- `IS_ALIGNED(value, align)`, `utils_common.h:41-54`:
`((align) == 0 || (((value) & ((align)-1)) == 0))`. -/
def isAligned (value align : W) : Bool :=
  align == 0#64 || (value &&& (align - 1#64)) == 0#64

/-- `IS_POWER_OF_2(value)`, `utils_common.h:41-54`:
`((value) != 0 && ((value) & ((value)-1)) == 0)`. -/
def isPowerOf2 (value : W) : Bool := value != 0#64 && (value &&& (value - 1#64)) == 0#64

/-- `utils_align_ptr_up_size_down`, `utils_common.c:16-31`. Returns the new
`(ptr, size)`. The subtraction `s -= alignment - rest` is unsigned and may wrap. -/
def alignPtrUpSizeDown (p s a : W) : W × W :=
  let rest := p &&& (a - 1#64)
  if rest ≠ 0#64 then (alignUp p a, s - (a - rest)) else (p, s)

/-- `utils_align_ptr_down_size_up`, `utils_common.c:34-53`. -/
def alignPtrDownSizeUp (p s a : W) : W × W :=
  let rest := p &&& (a - 1#64)
  let (p', s') := if rest ≠ 0#64 then (alignDown p a, s + rest) else (p, s)
  (p', alignUp s' a)

/-- Result codes used by the helpers (`include/umf/base.h`). -/
inductive FlagRes where
  | success (out : BitVec 32)
  | invalidArgument
deriving DecidableEq, Repr

/-- The loop of `utils_translate_flags`, `utils_common.c:107-130`:
`for (n = 1; n < max; n <<= 1) if (in & n) { out |= tr(n); in &= ~n; }`.
`tr` returns `none` when the per-flag translation fails. Recursion is on the number
of remaining shifts (`fuel`), which the caller sets to 32: after 32 shifts `n` is 0. The C
loop would not terminate when `max > 2^31`, because `n` becomes 0 and stays
below `max`; this model stops there (`n = 0`). Both callers pass a small `max`. -/
def translateLoop (tr : BitVec 32 → Option (BitVec 32)) (max : BitVec 32) :
    (fuel : Nat) → (n inF out : BitVec 32) → Option (BitVec 32 × BitVec 32)
  | 0, _, inF, out => some (inF, out)
  | fuel + 1, n, inF, out =>
    if n < max then
      if inF &&& n ≠ 0#32 then
        match tr n with
        | none => none
        | some flag => translateLoop tr max fuel (n <<< 1) (inF &&& ~~~n) (out ||| flag)
      else translateLoop tr max fuel (n <<< 1) inF out
    else some (inF, out)

/-- `utils_translate_flags`, `utils_common.c:107-130`. -/
def translateFlags (tr : BitVec 32 → Option (BitVec 32)) (max inF : BitVec 32) : FlagRes :=
  match translateLoop tr max 32 1#32 inF 0#32 with
  | none => .invalidArgument
  | some (rest, out) => if rest ≠ 0#32 then .invalidArgument else .success out

/-- `utils_translate_mem_protection_one_flag`, `utils_posix_common.c:118-135`.
`UMF_PROTECTION_NONE/READ/WRITE/EXEC` are bits 0..3 (`include/umf/providers/provider_os_memory.h`
via `base.h`), `PROT_NONE/READ/WRITE/EXEC` are 0,1,2,4 on Linux. -/
def protOneFlag (f : BitVec 32) : Option (BitVec 32) :=
  if f = 1#32 then some 0#32
  else if f = 2#32 then some 1#32
  else if f = 4#32 then some 2#32
  else if f = 8#32 then some 4#32
  else none

end Verif.Utils
