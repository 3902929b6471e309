/-!
# Model of the size classes of the disjoint pool

Source: `src/pool/pool_disjoint.c`. Values are natural numbers: no sum in this file reaches `2^64`.
-/
namespace Verif.Disjoint

/-- `CutOff`, `pool_disjoint.c:60-62`. -/
def cutOff : Nat := 2 ^ 31

/-- `IS_POWER_OF_2`, `utils_common.h:41`. -/
def isPow2 (x : Nat) : Bool := x != 0 && (x &&& (x - 1)) == 0

/-- The size of the first bucket, `pool_disjoint.c:604-611`: the setting is cut at `CutOff` and
raised to `UMF_DISJOINT_POOL_MIN_BUCKET_DEFAULT_SIZE` (8). -/
def firstSize (minBucket : Nat) : Nat := max (min minBucket cutOff) 8

/-- `min_bucket_size_exp`, `pool_disjoint.c:614`: `utils_msb64(Size1)`. -/
def minExp (minBucket : Nat) : Nat := Nat.log2 (firstSize minBucket)

/-- The loop that creates the buckets, `pool_disjoint.c:636-646`: `Size1` and `Size2` are doubled
while `Size2 < CutOff`; the last bucket has size `CutOff`. `fuel` bounds the number of rounds; the
caller passes 64, and the loop ends after at most 28. -/
def bucketLoop : (fuel size1 size2 : Nat) → List Nat
  | 0, _, _ => [cutOff]
  | fuel + 1, size1, size2 =>
    if size2 < cutOff then size1 :: size2 :: bucketLoop fuel (size1 * 2) (size2 * 2)
    else [cutOff]

/-- The sizes of `pool->buckets[0 .. buckets_num-1]` made by `disjoint_pool_initialize`,
`pool_disjoint.c:603-646`. -/
def classes (minBucket : Nat) : List Nat :=
  bucketLoop 64 (firstSize minBucket) (firstSize minBucket + firstSize minBucket / 2)

/-- `size_to_idx`, `pool_disjoint.c:448-469`; `e` is `min_bucket_size_exp`. -/
def sizeToIdx (e size : Nat) : Nat :=
  if size < 2 ^ e then 0
  else
    let position := Nat.log2 size
    let half := !isPow2 size && (size - 1).testBit (position - 1)
    (position - e) * 2 + (if isPow2 size then 0 else 1) + (if half then 1 else 0)

end Verif.Disjoint
