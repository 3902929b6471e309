import Verif.BaseAlloc.Fixed
/-!
# Model of `src/base_alloc/base_alloc_global.c`

The chunk sources (five fixed-chunk allocators, `base_alloc.c`, and the OS) are oracles; what the
fixed-chunk allocators guarantee is proved in `FixedProps`. Memory is a map from addresses to the
8-byte words read there. Sizes are `size_t`: sums are checked or taken modulo 2^64 as in the code.
Release build: `assert`s are not checked; a null chunk therefore leads to a write near address 0,
the outcome `ub`.
-/
namespace Verif.BaseAlloc.Global
open Fixed (word alignUpSafe)

/-- Where a chunk comes from: the allocator of class `i`, or the OS. -/
inductive Src where
  | cls (i : Nat)
  | os
deriving Repr, DecidableEq

/-- `ALLOCATION_CLASSES`, `base_alloc_global.c:31-33`. -/
def classSize (i : Nat) : Nat := [16, 32, 64, 128, 256].getD i 0

/-- `NUM_ALLOCATION_CLASSES`, `base_alloc_global.c:33`. -/
def numClasses : Nat := 5

/-- `size_to_idx`, `base_alloc_global.c:80-91`; `utils_msb64` is the index of the highest set
bit (`C41_msb64`), `smallest_ac_size_log2` is 4. -/
def sizeToIdx (size : Nat) : Nat :=
  if size ≤ 16 then 0
  else Nat.log2 size + (if size &&& (size - 1) = 0 then 0 else 1) - 4

/-- The total size of `umf_ba_global_aligned_alloc`, `base_alloc_global.c:162-183`; `none`: the
function returns NULL. -/
def totalSize (size align : Nat) : Option Nat :=
  if size = 0 then none
  else if size > 2 ^ 64 - 1 - 8 then none
  else if align > 8 then
    if size + 8 > 2 ^ 64 - 1 - align then none else some (size + 8 + align)
  else some (size + 8)

/-- The choice of the source, the same code in `umf_ba_global_aligned_alloc`
(`base_alloc_global.c:185-198`) and in `umf_ba_global_free` (`219-232`). `ac i`: the allocator
of class `i` exists. -/
def source (ac : Nat → Bool) (total : Nat) : Src :=
  if sizeToIdx total ≥ numClasses then .os
  else if ac (sizeToIdx total) then .cls (sizeToIdx total) else .os

/-- Outcome of an allocation: NULL, undefined behaviour, or the user's address together with the
metadata word stored 8 bytes before it. -/
inductive Res where
  | null
  | ub
  | ok (user metaWord : Nat)
deriving Repr, DecidableEq

/-- The address given to the user, `base_alloc_global.c:102-112`; 0: overflow. -/
def userPtr (ptr align : Nat) : Nat :=
  if align ≤ 8 then word (ptr + 8) else alignUpSafe (word (ptr + 8)) align

/-- The metadata word, `base_alloc_global.c:114-123`. -/
def metaWord (ptr user total : Nat) : Nat :=
  word (total ||| word (word (user + 2 ^ 64 - ptr) <<< 32))

/-- `add_metadata_and_align`, `base_alloc_global.c:97-128`. -/
def addMetadataAndAlign (chunk : Option Nat) (total align : Nat) : Res :=
  match chunk with
  | none => .ub
  | some ptr =>
    if userPtr ptr align = 0 then .null
    else .ok (userPtr ptr align) (metaWord ptr (userPtr ptr align) total)

/-- `umf_ba_global_aligned_alloc`, `base_alloc_global.c:162-199`. `chunk src n`: the answer of a
source asked for (at least) `n` bytes. -/
def alignedAlloc (ac : Nat → Bool) (chunk : Src → Nat → Option Nat) (size align : Nat) : Res :=
  match totalSize size align with
  | none => .null
  | some total => addMetadataAndAlign (chunk (source ac total) total) total align

/-- `get_original_alloc`, `base_alloc_global.c:133-160`, given the word 8 bytes before `user`:
the chunk, its total size and the usable size. -/
def getOriginalAlloc (user w : Nat) : Nat × Nat × Nat :=
  (word (user + 2 ^ 64 - (w >>> 32)), w &&& (2 ^ 32 - 1),
    word ((w &&& (2 ^ 32 - 1)) + 2 ^ 64 - (w >>> 32)))

/-- `umf_ba_global_free`, `base_alloc_global.c:205-234`, before the allocator is destroyed: where
the chunk is returned to, its address, and the size passed to the OS. `mem x`: the word at `x`. -/
def free (ac : Nat → Bool) (mem : Nat → Nat) (user : Nat) : Option (Src × Nat × Nat) :=
  if user = 0 then none
  else
    let o := getOriginalAlloc user (mem (user - 8))
    some (source ac o.2.1, o.1, o.2.1)

/-- `umf_ba_global_malloc_usable_size`, `base_alloc_global.c:236-245`. -/
def usableSize (mem : Nat → Nat) (user : Nat) : Nat :=
  if user = 0 then 0 else (getOriginalAlloc user (mem (user - 8))).2.2

end Verif.BaseAlloc.Global
