import Mathlib.Data.List.Basic
/-!
# The shared limit of disjoint pools under interleavings

Any number of pools share one `umf_disjoint_pool_shared_limits_t`; each has any number of buckets.
A thread that pools or takes an empty slab holds the bucket's lock, so at most one thread per
bucket is between the atomic operations below; its program counter is kept in the bucket. Threads
of different buckets interleave freely, one atomic operation at a time. The counter is a 64-bit
word. Only what concerns the counter is modelled: the rest is in `Verif.Disjoint.Model`.
-/
namespace Verif.Disjoint.Limits

/-- Where the thread that holds the lock of a bucket is. -/
inductive Pc where
  /-- not between two of the operations below -/
  | idle
  /-- `bucket_can_pool`, after the addition (`pool_disjoint.c:428-430`) that returned `prev` -/
  | added (prev : Nat)
  /-- `bucket_get_avail_slab`, after `--chunked_slabs_in_pool` (`pool_disjoint.c:378`) -/
  | taken
  /-- the pool was destroyed -/
  | gone
deriving Repr, DecidableEq

/-- A bucket: `bucket_slab_alloc_size`, `bucket_max_pooled_slabs` and `chunked_slabs_in_pool`. -/
structure B where
  size : Nat
  maxPooled : Nat
  pooled : Nat
  pc : Pc
deriving Repr, DecidableEq

/-- `umf_disjoint_pool_shared_limits_t` (`pool_disjoint_internal.h:106-109`), the buckets of all
pools that share it, and (not in the code) the size of the empty slabs that destroyed pools had. -/
structure St where
  max : Nat
  total : Nat
  bs : List B
  lost : Nat
deriving Repr, DecidableEq

/-- The next atomic operation in a bucket. -/
inductive Op where
  /-- a slab became empty: `bucket_can_pool` up to the addition, `pool_disjoint.c:421-430` -/
  | add
  /-- the comparison and what follows, `pool_disjoint.c:432-441` -/
  | decide
  /-- an empty slab is used again: `bucket_get_avail_slab`, `pool_disjoint.c:375-378` -/
  | take
  /-- its subtraction, `pool_disjoint.c:379-381` -/
  | sub
  /-- the pool is destroyed: `destroy_bucket`, `pool_disjoint.c:260-275`; no thread is in it -/
  | destroy
deriving Repr, DecidableEq

/-- One atomic operation on one bucket: the new counter and bucket, and what is added to `lost`.
`none`: the operation is not enabled (`add` is not reached when the bucket has its number of empty
slabs, `pool_disjoint.c:426`). -/
def step (max total : Nat) (b : B) : Op → Option (Nat × B × Nat)
  | .add =>
    if b.pc = .idle ∧ b.pooled + 1 ≤ b.maxPooled then
      some ((total + b.size) % 2 ^ 64, { b with pc := .added total }, 0)
    else none
  | .decide =>
    match b.pc with
    | .added prev =>
      if (prev + b.size) % 2 ^ 64 ≤ max then
        some (total, { b with pooled := b.pooled + 1, pc := .idle }, 0)
      else some ((total + (2 ^ 64 - b.size)) % 2 ^ 64, { b with pc := .idle }, 0)
    | _ => none
  | .take =>
    if b.pc = .idle ∧ 0 < b.pooled then
      some (total, { b with pooled := b.pooled - 1, pc := .taken }, 0)
    else none
  | .sub =>
    if b.pc = .taken then some ((total + (2 ^ 64 - b.size)) % 2 ^ 64, { b with pc := .idle }, 0)
    else none
  | .destroy =>
    if b.pc = .idle then some (total, { b with pooled := 0, pc := .gone }, b.pooled * b.size)
    else none

/-- All interleavings. A new pool can join at any time (`disjoint_pool_initialize`). -/
inductive Run : St → St → Prop where
  | refl (s) : Run s s
  | op {s max total l1 b l2 lost o t b' d} : Run s ⟨max, total, l1 ++ b :: l2, lost⟩ →
      step max total b o = some (t, b', d) →
      Run s ⟨max, t, l1 ++ b' :: l2, lost + d⟩
  | join {s max total bs lost} (size maxPooled : Nat) : Run s ⟨max, total, bs, lost⟩ →
      Run s ⟨max, total, bs ++ [⟨size, maxPooled, 0, .idle⟩], lost⟩

/-- `umfDisjointPoolSharedLimitsCreate`, `pool_disjoint.c:949-959`. -/
def create (max : Nat) : St := ⟨max, 0, [], 0⟩

end Verif.Disjoint.Limits
