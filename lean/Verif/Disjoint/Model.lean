import Verif.Disjoint.Classes
import Verif.Utils.Model
import Verif.Mem
/-!
# Model of the disjoint pool (`src/pool/pool_disjoint.c`)

Addresses and sizes are natural numbers below `2^64`; the two places where the code computes a
size that can exceed `2^64` (`disjoint_pool_aligned_malloc`) wrap around here too. A slab object
is identified by the address of its memory. The chunk bitmap of a slab is a list of booleans, see
`Verif.Disjoint.Bitmap` for the 64-bit words. `known_slabs` is a finite map with the lookup
`critnib_find_le` (`Verif.Critnib`, C11). Operations are atomic here: an operation on a bucket
holds the bucket lock, and the other shared data are `known_slabs` and the shared counter, see
`Verif.Disjoint.Limits` for the interleavings on the counter.

`mem` is what the provider, and the memory tracker, hold for this pool: the ranges the pool has
obtained and not released. Releasing any other range sets `bad`. Asserts are not modelled: where
one would fail in a debug build and the release build has no defined behaviour, the result is `ub`.
Statistics and traces are left out.
-/
namespace Verif.Disjoint
open Mem

/-- `slab_t`, `pool_disjoint_internal.h:76-104`: address, chunk map (`true`: free) and
`num_chunks_allocated`. The number of chunks is the length of the map. -/
structure Slab where
  base : Nat
  free : List Bool
  used : Nat
deriving Repr, DecidableEq

/-- `bucket_t`, `pool_disjoint_internal.h:25-68`: the two slab lists, first element first, and
`chunked_slabs_in_pool`. -/
structure Bucket where
  avail : List Slab
  unavail : List Slab
  pooled : Nat
deriving Repr, DecidableEq

/-- Parameters, `umf_disjoint_pool_params_t` (`pool_disjoint_internal.h:111-140`), the provider's
page size (0 when the provider cannot tell, `pool_disjoint.c:655-659`), and the `max_size` of the
limits object. -/
structure Cfg where
  slabMin : Nat
  maxPoolable : Nat
  capacity : Nat
  minBucket : Nat
  page : Nat
  limMax : Nat
deriving Repr, DecidableEq

/-- The pool. `known` maps slab addresses to the bucket number of the slab; `total` is
`shared_limits->total_size`; `mem` and `bad` describe the provider (see above). -/
structure St where
  bk : Nat → Bucket
  known : List (Nat × Nat)
  total : Nat
  mem : List Region
  bad : Bool

/-- `disjoint_pool_initialize`, `pool_disjoint.c:573-686`, without the failures of host
allocations. -/
def initSt : St := ⟨fun _ => ⟨[], [], 0⟩, [], 0, [], false⟩

/-- `disjoint_pool_initialize` checks the minimal bucket size, `pool_disjoint.c:584-588`. -/
def initOk (c : Cfg) : Bool := isPow2 c.minBucket

/-- The size of bucket `i`. -/
def csize (c : Cfg) (i : Nat) : Nat := (classes c.minBucket)[i]?.getD 0

/-- `bucket_slab_alloc_size`, `pool_disjoint.c:68-70`. -/
def slabSize (c : Cfg) (i : Nat) : Nat := max (csize c i) c.slabMin

/-- `num_chunks_total` in `create_slab`, `pool_disjoint.c:78-79`. -/
def numChunks (c : Cfg) (i : Nat) : Nat := max (c.slabMin / csize c i) 1

/-- `slab_get_end`, `pool_disjoint.c:178-181`: the end is computed from `slab_min_size`. -/
def slabEnd (c : Cfg) (base : Nat) : Nat := base + c.slabMin

def setBk (st : St) (i : Nat) (b : Bucket) : St :=
  { st with bk := fun j => if j = i then b else st.bk j }

/-- `umfMemoryProviderFree`: the range must be one the provider gave out. -/
def provFree (st : St) (r : Region) : St :=
  if r ∈ st.mem then { st with mem := st.mem.erase r } else { st with bad := true }

/-- What the environment does during one allocation: the host allocation of the slab object, the
provider's answer to a request (size and alignment), the host allocation of the map entry. -/
structure Env where
  host : Bool
  up : Nat → Nat → Option Nat
  reg : Bool

/-- `slab_find_first_available_chunk_idx`, `pool_disjoint.c:147-160`. -/
def firstFree : List Bool → Option Nat
  | [] => none
  | true :: _ => some 0
  | false :: l => (firstFree l).map (· + 1)

/-- `bucket_create_slab`, `pool_disjoint.c:344-363`, with `create_slab` (72-131),
`pool_register_slab` (205-227) and `destroy_slab` (133-145) on the failing path, which returns the
new memory to the provider. `none`: no slab was created. -/
def createSlab (c : Cfg) (i : Nat) (st : St) (env : Env) : Option St :=
  if env.host = false then none
  else match env.up (slabSize c i) 0 with
    | none => none
    | some p =>
      if env.reg = false ∨ st.known.any (fun k => k.1 == p) then none
      else
        let b := st.bk i
        let s : Slab := ⟨p, List.replicate (numChunks c i) true, 0⟩
        let st1 := setBk st i { b with avail := s :: b.avail }
        some { st1 with known := (p, i) :: st.known, mem := (p, slabSize c i) :: st.mem }

inductive Res where
  | null
  | ok (p : Nat)
  | ub
deriving Repr, DecidableEq

/-- `bucket_get_free_chunk`, `pool_disjoint.c:326-337`, with `slab_get_chunk` (162-175), on the
first available slab. -/
def takeHead (c : Cfg) (i : Nat) (st : St) : St × Res :=
  let b := st.bk i
  match b.avail with
  | [] => (st, .null)
  | s :: rest =>
    match firstFree s.free with
    | none => (st, .ub)
    | some k =>
      let s' : Slab := ⟨s.base, s.free.set k false, s.used + 1⟩
      let b' : Bucket :=
        if s'.used < s'.free.length then { b with avail := s' :: rest }
        else { b with avail := rest, unavail := s' :: b.unavail }
      (setBk st i b', .ok (s.base + k * csize c i))

/-- `bucket_get_avail_slab` (`pool_disjoint.c:365-389`) and `bucket_get_free_chunk` (320-338). -/
def getFreeChunk (c : Cfg) (i : Nat) (st : St) (env : Env) : St × Res :=
  match (st.bk i).avail with
  | [] =>
    match createSlab c i st env with
    | none => (st, .null)
    | some st1 => takeHead c i st1
  | s :: _ =>
    if s.used = 0 then
      takeHead c i
        { setBk st i { st.bk i with pooled := (st.bk i).pooled - 1 } with
          total := st.total - slabSize c i }
    else takeHead c i st

/-- `umfMemoryProviderAlloc(provider, size, alignment, &ptr)` for a request the pool passes on. -/
def direct (st : St) (size alignment : Nat) (env : Env) : St × Res :=
  match env.up size alignment with
  | none => (st, .null)
  | some p => ({ st with mem := (p, size) :: st.mem }, .ok p)

/-- `disjoint_pool_find_bucket` (`pool_disjoint.c:480-483`) and `bucket_get_free_chunk`. An index
past the end of the bucket array reads memory that is not a bucket. -/
def fromBucket (c : Cfg) (st : St) (size : Nat) (env : Env) : St × Res :=
  let i := sizeToIdx (minExp c.minBucket) size
  if i < (classes c.minBucket).length then getFreeChunk c i st env else (st, .ub)

/-- `disjoint_pool_allocate`, `pool_disjoint.c:520-571`, which `disjoint_pool_malloc` (688-693)
calls. -/
def malloc (c : Cfg) (st : St) (size : Nat) (env : Env) : St × Res :=
  if size = 0 then (st, .null)
  else if c.maxPoolable < size then direct st size 0 env
  else fromBucket c st size env

/-- `ALIGN_UP_SAFE` on `size_t` values. -/
def alignUpSafe (v a : Nat) : Nat :=
  (Utils.alignUpSafe (BitVec.ofNat 64 v) (BitVec.ofNat 64 a)).toNat

/-- The size looked up in `disjoint_pool_aligned_malloc`, `pool_disjoint.c:728-739`. -/
def alignedSize (c : Cfg) (size alignment : Nat) : Nat :=
  if alignment ≤ c.page then (if 1 < size then alignUpSafe size alignment else alignment)
  else (size + alignment - 1) % 2 ^ 64

/-- `disjoint_pool_aligned_malloc`, `pool_disjoint.c:715-794`. -/
def alignedMalloc (c : Cfg) (st : St) (size alignment : Nat) (env : Env) : St × Res :=
  if size = 0 then (st, .null)
  else if alignment ≤ 1 then malloc c st size env
  else if c.maxPoolable < alignedSize c size alignment then
    direct st size alignment env
  else
    match fromBucket c st (alignedSize c size alignment) env with
    | (st', .ok p) => (st', .ok (alignUpSafe p alignment))
    | (st', r) => (st', r)

/-- `critnib_find_le(known_slabs, ptr)`. -/
def findLe : List (Nat × Nat) → Nat → Option (Nat × Nat)
  | [], _ => none
  | e :: l, x =>
    match findLe l x with
    | none => if e.1 ≤ x then some e else none
    | some f => if e.1 ≤ x ∧ f.1 < e.1 then some e else some f

/-- `umfMemoryTrackerGetAllocInfo`: the tracked range that has the address (C14). -/
def allocInfo (mem : List Region) (x : Nat) : Option Region :=
  mem.find? fun r => decide (r.1 ≤ x ∧ x < r.1 + r.2)

/-- `bucket_max_pooled_slabs`, `pool_disjoint.c:340-342,391-399`. -/
def maxPooled (c : Cfg) (i : Nat) : Nat := if csize c i ≤ c.slabMin / 2 then 1 else c.capacity

/-- `bucket_can_pool`, `pool_disjoint.c:420-446`, without interference: add the size to the shared
total and take it back if the limit is exceeded. -/
def canPool (c : Cfg) (i : Nat) (st : St) : St × Bool :=
  let b := st.bk i
  if b.pooled + 1 ≤ maxPooled c i then
    if st.total + slabSize c i ≤ c.limMax then
      ({ setBk st i { b with pooled := b.pooled + 1 } with total := st.total + slabSize c i }, true)
    else (st, false)
  else (st, false)

/-- `bucket_free_chunk`, `pool_disjoint.c:282-317`, with `slab_free_chunk` (183-199), for the slab
object with address `base`. A slab that is in neither list does not exist any more (`none`). -/
def freeChunk (c : Cfg) (i : Nat) (st : St) (base idx : Nat) : Option St :=
  let b := st.bk i
  match (b.avail ++ b.unavail).find? (fun s => s.base == base) with
  | none => none
  | some s =>
    let s' : Slab := ⟨base, s.free.set idx true, s.used - 1⟩
    let b1 : Bucket :=
      if s'.free.length - s'.used = 1 then
        { b with
          avail := s' :: b.avail
          unavail := b.unavail.filter fun t => t.base != base }
      else
        { b with
          avail := b.avail.map fun t => if t.base = base then s' else t
          unavail := b.unavail.map fun t => if t.base = base then s' else t }
    let st1 := setBk st i b1
    if s'.used = 0 then
      match canPool c i st1 with
      | (st2, true) => some st2
      | (st2, false) =>
        let b2 := st2.bk i
        let st3 := setBk st2 i { b2 with avail := b2.avail.filter fun t => t.base != base }
        some (provFree { st3 with known := st3.known.filter fun k => k.1 != base }
          (base, slabSize c i))
    else some st1

inductive FRes where
  | success
  | error
  | ub
deriving Repr, DecidableEq

/-- The part of `disjoint_pool_free` for memory that is not in a slab, `pool_disjoint.c:844-865`. -/
def regularFree (st : St) (ptr : Nat) : St × FRes :=
  match allocInfo st.mem ptr with
  | none => (st, .error)
  | some r => (provFree st (ptr, r.2), .success)

/-- `disjoint_pool_free`, `pool_disjoint.c:833-905`. -/
def free (c : Cfg) (st : St) (ptr : Nat) : St × FRes :=
  if ptr = 0 then (st, .success)
  else
    match findLe st.known ptr with
    | none => regularFree st ptr
    | some (base, i) =>
      if slabEnd c base ≤ ptr then regularFree st ptr
      else
        match freeChunk c i st base ((ptr - base) / csize c i) with
        | none => (st, .ub)
        | some st' => (st', .success)

/-- `disjoint_pool_malloc_usable_size`, `pool_disjoint.c:804-831`. -/
def usableSize (c : Cfg) (st : St) (ptr : Nat) : Nat :=
  if ptr = 0 then 0
  else
    let fromTracker := match allocInfo st.mem ptr with
      | none => 0
      | some r => r.2
    match findLe st.known ptr with
    | none => fromTracker
    | some (base, i) =>
      if slabEnd c base ≤ ptr then fromTracker
      else csize c i - (ptr - (base + (ptr - base) / csize c i * csize c i))

/-- `destroy_bucket`, `pool_disjoint.c:260-275`: every slab's memory goes back to the provider. -/
def destroyBucket (c : Cfg) (i : Nat) (st : St) : St :=
  ((st.bk i).avail ++ (st.bk i).unavail).foldl (fun s sl => provFree s (sl.base, slabSize c i)) st

/-- `disjoint_pool_finalize`, `pool_disjoint.c:913-930`. The shared total is left as it is. -/
def finalize (c : Cfg) (st : St) : St :=
  (List.range (classes c.minBucket).length).foldl (fun s i => destroyBucket c i s) st

end Verif.Disjoint
