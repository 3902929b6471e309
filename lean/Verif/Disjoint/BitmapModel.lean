import Mathlib.Data.List.Basic
/-!
# The chunk bitmap of a slab: 64-bit words

`slab_t.chunks` and the functions on it (`src/pool/pool_disjoint.c`,
`src/pool/pool_disjoint_internal.h`). A set bit is a free chunk.
-/
namespace Verif.Disjoint.Bitmap

abbrev Word := BitVec 64

/-- Number of words in `create_slab`, `pool_disjoint.c:82-83`. -/
def numWords (n : Nat) : Nat := (n + 64 - 1) / 64

/-- `create_slab`, `pool_disjoint.c:102-108`: all ones, and in the last word only the low
`n % 64` bits when that is not zero. -/
def init (n : Nat) : List Word :=
  let w := List.replicate (numWords n) (BitVec.allOnes 64)
  if n % 64 ≠ 0 then w.set (numWords n - 1) ((1#64 <<< (n % 64)) - 1#64) else w

/-- `utils_lsb64`, `utils_math.h:59-62` (`__builtin_ctzll`): the index of the lowest set bit. The
argument is not zero; `fuel` bounds the scan. -/
def lsbFrom (w : Word) : Nat → Nat → Nat
  | 0, i => i
  | fuel + 1, i => if w.getLsbD i then i else lsbFrom w fuel (i + 1)

def lsb (w : Word) : Nat := lsbFrom w 64 0

/-- `slab_find_first_available_chunk_idx`, `pool_disjoint.c:147-160`; `i` is the index of the first
word of the list. -/
def findFirst : List Word → Nat → Option Nat
  | [], _ => none
  | w :: ws, i => if w ≠ 0#64 then some (i * 64 + lsb w) else findFirst ws (i + 1)

/-- `slab_set_chunk_bit`, `pool_disjoint_internal.h:162-172`. -/
def setBit (ws : List Word) (idx : Nat) (v : Bool) : List Word :=
  let w := (ws[idx / 64]?).getD 0#64
  ws.set (idx / 64) (if v then w ||| (1#64 <<< (idx % 64)) else w &&& ~~~(1#64 <<< (idx % 64)))

/-- `slab_read_chunk_bit`, `pool_disjoint_internal.h:174-182`. -/
def readBit (ws : List Word) (idx : Nat) : Bool :=
  ((ws[idx / 64]?).getD 0#64 >>> (idx % 64)) &&& 1#64 == 1#64

end Verif.Disjoint.Bitmap
