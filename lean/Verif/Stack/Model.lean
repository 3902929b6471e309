import Verif.Disjoint.Model
import Verif.Tracker.Model
import Verif.Coarse.Model
/-!
# Disjoint pools on fixed memory providers, with one memory tracker

The models of the layers put together: an allocation of the user enters the disjoint pool
(`src/pool/pool_disjoint.c`), which asks the pool's tracking provider
(`src/provider/provider_tracking.c`), which asks the fixed memory provider
(`src/provider/provider_fixed_memory.c`), which asks its coarse allocator (`src/coarse/coarse.c`).
In `Verif.Disjoint` the provider is an oracle with assumptions; here it is the provider. Several
pools may use one provider. All pools share one tracker.

The functions below follow the functions of `Verif.Disjoint.Model` line by line. Those parts that
do not touch the provider (the slab lists, the chunk maps, the counters) are taken from there.
The failures of the host allocator are answers of an oracle. Each public operation is one step.
Simplifications of the layers' models apply; the IPC cache of the tracking provider is left out
(no IPC handles are asked for), and the pools do not share limits.
-/
namespace Verif.Stack
open Mem

/-- `fixed_memory_provider_t`, `provider_fixed_memory.c:29-33`: the memory the user gave, its
coarse allocator, and the system's page size. -/
structure Fixed where
  page : Nat
  buf : Region
  co : Coarse.St

/-- The coarse parameters of the fixed provider, `provider_fixed_memory.c:101-112`: no alloc and
free callbacks, the strategy is the one with number 0 (`coarse.h:35-40`). -/
def Fixed.cfg (f : Fixed) : Coarse.Cfg := ⟨f.page, .fastestButOne, false, false⟩

/-- What the host allocator answers during one operation of the user: for the slab object, for
the entry of the slab in `known_slabs`, for the tracker, for the coarse allocator during an
allocation, and during the release of an address; and whether fresh block descriptors contain a
non-zero byte where `used` is. -/
structure Orc where
  slab : Bool
  reg : Bool
  trk : Bool
  onAlloc : Coarse.Site → Bool
  onFree : Nat → Coarse.Site → Bool
  garbage : Bool

/-- `fixed_allocation_split_cb` and `fixed_allocation_merge_cb`,
`provider_fixed_memory.c:65-82`, always agree; there is no alloc callback. -/
def fixedEnv (host : Coarse.Site → Bool) (garbage : Bool) : Coarse.Env where
  splitCb _ _ _ := .success
  mergeCb _ _ _ := .success
  upAlloc _ _ := .error .notSupported
  host := host
  garbage := garbage

/-- `fixed_initialize`, `provider_fixed_memory.c:84-143`: the memory is one free block. -/
def fixedNew (page : Nat) (buf : Region) (host : Coarse.Site → Bool) (garbage : Bool) :
    Option Fixed :=
  match Coarse.addFixed ⟨page, .fastestButOne, false, false⟩ (fixedEnv host garbage) Coarse.init
      buf.1 buf.2 with
  | (co, o) => if o.res = .success then some ⟨page, buf, co⟩ else none

/-- The memory tracker and the fixed providers there are. -/
structure World where
  tr : Tracker.St
  prov : Nat → Option Fixed

def World.setCo (w : World) (v : Nat) (f : Fixed) (co : Coarse.St) : World :=
  { w with prov := fun j => if j = v then some { f with co := co } else w.prov j }

/-- `umfMemoryProviderAlloc` on the tracking provider of pool `k`, whose upstream is provider `v`:
`trackingAlloc`, `provider_tracking.c:465-498`, with `fixed_alloc`,
`provider_fixed_memory.c:151-157`, and `fixed_free` (250-254) when the allocation cannot be
tracked. `none`: an error. -/
def provAlloc (w : World) (k v size align : Nat) (o : Orc) : World × Option Nat :=
  match w.prov v with
  | none => (w, none)
  | some f =>
    let r := Coarse.alloc f.cfg (fixedEnv o.onAlloc o.garbage) f.co size align
    let w1 := w.setCo v f r.1
    match Tracker.trackingAlloc w1.tr k size
        (if r.2.res = .success then .ok r.2.ptr else .fail 1) o.trk with
    | (tr, .success, p, _) => ({ w1 with tr := tr }, if p = 0 then none else some p)
    | (tr, _, _, some (p, sz)) =>
      ({ (w1.setCo v f (Coarse.free (fixedEnv (o.onFree p) o.garbage) r.1 p sz).1) with tr := tr },
        none)
    | (tr, _, _, none) => ({ w1 with tr := tr }, none)

/-- `umfMemoryProviderFree` on the tracking provider of pool `k`: `trackingFree`,
`provider_tracking.c:720-773`, with `fixed_free`, `provider_fixed_memory.c:250-254`. The boolean:
success. -/
def provFree (w : World) (k v ptr size : Nat) (o : Orc) : World × Bool :=
  match w.prov v with
  | none => (w, false)
  | some f =>
    let r := Coarse.free (fixedEnv (o.onFree ptr) o.garbage) f.co ptr size
    let t := Tracker.trackingFree w.tr k ptr size
      (if r.2.res = .success then none else some 1) o.trk
    ({ (w.setCo v f r.1) with tr := t.1 }, t.2 == .success)

/-- A disjoint pool: parameters, upstream provider, slab lists, `known_slabs`, and the total of
its own limits object (`pool_disjoint.c:471-478,618`). -/
structure Pool where
  cfg : Disjoint.Cfg
  prov : Nat
  bk : Nat → Disjoint.Bucket
  known : List (Nat × Nat)
  total : Nat

/-- The pool as the functions of `Verif.Disjoint.Model` see it; `mem` and `bad` describe a
provider, and the functions used below do not touch them. -/
def Pool.st (p : Pool) (mem : List Region) : Disjoint.St := ⟨p.bk, p.known, p.total, mem, false⟩

def Pool.back (p : Pool) (st : Disjoint.St) : Pool :=
  { p with bk := st.bk, known := st.known, total := st.total }

/-- `bucket_create_slab`, `pool_disjoint.c:344-363`, with `create_slab` (72-131),
`pool_register_slab` (205-227) and `destroy_slab` (133-145). The boolean: a slab was created. -/
def createSlab (w : World) (k : Nat) (p : Pool) (i : Nat) (o : Orc) : World × Pool × Bool :=
  if o.slab = false then (w, p, false)
  else match provAlloc w k p.prov (Disjoint.slabSize p.cfg i) 0 o with
    | (w1, none) => (w1, p, false)
    | (w1, some q) =>
      if o.reg = false ∨ p.known.any (fun e => e.1 == q) then
        ((provFree w1 k p.prov q (Disjoint.slabSize p.cfg i) o).1, p, false)
      else
        let b := p.bk i
        let s : Disjoint.Slab := ⟨q, List.replicate (Disjoint.numChunks p.cfg i) true, 0⟩
        (w1, { p with
          bk := fun j => if j = i then { b with avail := s :: b.avail } else p.bk j
          known := (q, i) :: p.known }, true)

/-- `bucket_get_free_chunk` on the first available slab, `pool_disjoint.c:326-337`. -/
def takeHead (p : Pool) (i : Nat) : Pool × Disjoint.Res :=
  match Disjoint.takeHead p.cfg i (p.st []) with
  | (st, r) => (p.back st, r)

/-- `bucket_get_avail_slab` (`pool_disjoint.c:365-389`) and `bucket_get_free_chunk` (320-338). -/
def getFreeChunk (w : World) (k : Nat) (p : Pool) (i : Nat) (o : Orc) :
    World × Pool × Disjoint.Res :=
  match (p.bk i).avail with
  | [] =>
    match createSlab w k p i o with
    | (w1, p1, false) => (w1, p1, .null)
    | (w1, p1, true) => (w1, takeHead p1 i)
  | s :: _ =>
    if s.used = 0 then
      (w, takeHead { p with
        bk := fun j => if j = i then { p.bk i with pooled := (p.bk i).pooled - 1 } else p.bk j
        total := p.total - Disjoint.slabSize p.cfg i } i)
    else (w, takeHead p i)

/-- `umfMemoryProviderAlloc(provider, size, alignment, &ptr)` for a request the pool passes on. -/
def direct (w : World) (k : Nat) (p : Pool) (size alignment : Nat) (o : Orc) :
    World × Pool × Disjoint.Res :=
  match provAlloc w k p.prov size alignment o with
  | (w1, none) => (w1, p, .null)
  | (w1, some q) => (w1, p, .ok q)

/-- `disjoint_pool_find_bucket` (`pool_disjoint.c:480-483`) and `bucket_get_free_chunk`. -/
def fromBucket (w : World) (k : Nat) (p : Pool) (size : Nat) (o : Orc) :
    World × Pool × Disjoint.Res :=
  let i := Disjoint.sizeToIdx (Disjoint.minExp p.cfg.minBucket) size
  if i < (Disjoint.classes p.cfg.minBucket).length then getFreeChunk w k p i o else (w, p, .ub)

/-- `disjoint_pool_allocate`, `pool_disjoint.c:520-571`. -/
def poolMalloc (w : World) (k : Nat) (p : Pool) (size : Nat) (o : Orc) :
    World × Pool × Disjoint.Res :=
  if size = 0 then (w, p, .null)
  else if p.cfg.maxPoolable < size then direct w k p size 0 o
  else fromBucket w k p size o

/-- `disjoint_pool_aligned_malloc`, `pool_disjoint.c:715-794`. -/
def poolAligned (w : World) (k : Nat) (p : Pool) (size alignment : Nat) (o : Orc) :
    World × Pool × Disjoint.Res :=
  if size = 0 then (w, p, .null)
  else if alignment ≤ 1 then poolMalloc w k p size o
  else if p.cfg.maxPoolable < Disjoint.alignedSize p.cfg size alignment then
    direct w k p size alignment o
  else
    match fromBucket w k p (Disjoint.alignedSize p.cfg size alignment) o with
    | (w1, p1, .ok q) => (w1, p1, .ok (Disjoint.alignUpSafe q alignment))
    | (w1, p1, r) => (w1, p1, r)

/-- `bucket_free_chunk`, `pool_disjoint.c:282-317`, with `slab_free_chunk` (183-199); `none`: the
slab does not exist. -/
def freeChunk (w : World) (k : Nat) (p : Pool) (i base idx : Nat) (o : Orc) :
    Option (World × Pool) :=
  let b := p.bk i
  match (b.avail ++ b.unavail).find? (fun s => s.base == base) with
  | none => none
  | some s =>
    let s' : Disjoint.Slab := ⟨base, s.free.set idx true, s.used - 1⟩
    let b1 : Disjoint.Bucket :=
      if s'.free.length - s'.used = 1 then
        { b with
          avail := s' :: b.avail
          unavail := b.unavail.filter fun t => t.base != base }
      else
        { b with
          avail := b.avail.map fun t => if t.base = base then s' else t
          unavail := b.unavail.map fun t => if t.base = base then s' else t }
    let p1 := { p with bk := fun j => if j = i then b1 else p.bk j }
    if s'.used = 0 then
      match Disjoint.canPool p.cfg i (p1.st []) with
      | (st2, true) => some (w, p1.back st2)
      | (st2, false) =>
        let b2 := st2.bk i
        let st3 := Disjoint.setBk st2 i { b2 with avail := b2.avail.filter fun t => t.base != base }
        some ((provFree w k p.prov base (Disjoint.slabSize p.cfg i) o).1,
          { p1.back st3 with known := st3.known.filter fun e => e.1 != base })
    else some (w, p1)

/-- The part of `disjoint_pool_free` for memory that is not in a slab, `pool_disjoint.c:844-865`. -/
def regularFree (w : World) (k : Nat) (p : Pool) (ptr : Nat) (o : Orc) :
    World × Pool × Disjoint.FRes :=
  match Tracker.getAllocInfo w.tr ptr with
  | none => (w, p, .error)
  | some (_, size, _) =>
    match provFree w k p.prov ptr size o with
    | (w1, ok) => (w1, p, if ok then .success else .error)

/-- `disjoint_pool_free`, `pool_disjoint.c:833-905`. -/
def poolFree (w : World) (k : Nat) (p : Pool) (ptr : Nat) (o : Orc) :
    World × Pool × Disjoint.FRes :=
  if ptr = 0 then (w, p, .success)
  else
    match Disjoint.findLe p.known ptr with
    | none => regularFree w k p ptr o
    | some (base, i) =>
      if Disjoint.slabEnd p.cfg base ≤ ptr then regularFree w k p ptr o
      else
        match freeChunk w k p i base ((ptr - base) / Disjoint.csize p.cfg i) o with
        | none => (w, p, .ub)
        | some (w1, p1) => (w1, p1, .success)

/-- `disjoint_pool_malloc_usable_size`, `pool_disjoint.c:804-831`. -/
def usableSize (w : World) (p : Pool) (ptr : Nat) : Nat :=
  if ptr = 0 then 0
  else
    let fromTracker := match Tracker.getAllocInfo w.tr ptr with
      | none => 0
      | some (_, size, _) => size
    match Disjoint.findLe p.known ptr with
    | none => fromTracker
    | some (base, i) =>
      if Disjoint.slabEnd p.cfg base ≤ ptr then fromTracker
      else
        Disjoint.csize p.cfg i -
          (ptr - (base + (ptr - base) / Disjoint.csize p.cfg i * Disjoint.csize p.cfg i))

/-- `destroy_bucket`, `pool_disjoint.c:260-275`. -/
def destroyBucket (k : Nat) (p : Pool) (o : Orc) (w : World) (i : Nat) : World :=
  ((p.bk i).avail ++ (p.bk i).unavail).foldl
    (fun w sl => (provFree w k p.prov sl.base (Disjoint.slabSize p.cfg i) o).1) w

/-- `disjoint_pool_finalize`, `pool_disjoint.c:913-930`. -/
def poolFinalize (w : World) (k : Nat) (p : Pool) (o : Orc) : World :=
  (List.range (Disjoint.classes p.cfg.minBucket).length).foldl (destroyBucket k p o) w

/-- The tracker, the providers and the pools there are. -/
structure Sys where
  w : World
  pool : Nat → Option Pool

def Sys.set (s : Sys) (w : World) (k : Nat) (p : Option Pool) : Sys :=
  ⟨w, fun j => if j = k then p else s.pool j⟩

/-- Nothing yet. -/
def init : Sys := ⟨⟨Tracker.empty, fun _ => none⟩, fun _ => none⟩

/-- `umfMemoryProviderCreate(umfFixedMemoryProviderOps(), ..)`. -/
def newProv (s : Sys) (v page : Nat) (buf : Region) (o : Orc) : Option Sys :=
  match fixedNew page buf o.onAlloc o.garbage with
  | none => none
  | some f => some ⟨{ s.w with prov := fun j => if j = v then some f else s.w.prov j }, s.pool⟩

/-- `umfMemoryProviderDestroy` on a fixed provider, `fixed_finalize`,
`provider_fixed_memory.c:145-149`. -/
def dropProv (s : Sys) (v : Nat) : Sys :=
  ⟨{ s.w with prov := fun j => if j = v then none else s.w.prov j }, s.pool⟩

/-- `umfPoolCreate(umfDisjointPoolOps(), provider v, ..)`, `memory_pool.c:51-115`, with
`disjoint_pool_initialize`, `pool_disjoint.c:573-686`, without the failures of host
allocations. The page size is asked from the provider. -/
def newPool (s : Sys) (k v : Nat) (c : Disjoint.Cfg) : Option Sys :=
  match s.w.prov v with
  | none => none
  | some f =>
    if Disjoint.initOk c then
      some (s.set s.w k (some ⟨{ c with page := f.page }, v, fun _ => ⟨[], [], 0⟩, [], 0⟩))
    else none

/-- `umfPoolDestroy`, `memory_pool.c:117-139`. The entries of the tracker that are left at this
point (leaked allocations) are not dealt with here. -/
def dropPool (s : Sys) (k : Nat) (o : Orc) : Sys :=
  match s.pool k with
  | none => s
  | some p => s.set (poolFinalize s.w k p o) k none

/-- `umfPoolMalloc`, `memory_pool.c:187-190`. -/
def malloc (s : Sys) (k size : Nat) (o : Orc) : Sys × Disjoint.Res :=
  match s.pool k with
  | none => (s, .ub)
  | some p =>
    match poolMalloc s.w k p size o with
    | (w, p1, r) => (s.set w k (some p1), r)

/-- `umfPoolAlignedMalloc`, `memory_pool.c:192-196`. -/
def alignedMalloc (s : Sys) (k size alignment : Nat) (o : Orc) : Sys × Disjoint.Res :=
  match s.pool k with
  | none => (s, .ub)
  | some p =>
    match poolAligned s.w k p size alignment o with
    | (w, p1, r) => (s.set w k (some p1), r)

/-- `umfPoolFree`, `memory_pool.c:213-217`. -/
def free (s : Sys) (k ptr : Nat) (o : Orc) : Sys × Disjoint.FRes :=
  match s.pool k with
  | none => (s, .ub)
  | some p =>
    match poolFree s.w k p ptr o with
    | (w, p1, r) => (s.set w k (some p1), r)

/-- `umfPoolByPtr`, `memory_pool.c:151-153`. -/
def poolByPtr (s : Sys) (ptr : Nat) : Option Nat := Tracker.poolByPtr s.w.tr ptr

/-- `umfFree`, `memory_pool.c:141-149`. -/
def umfFree (s : Sys) (ptr : Nat) (o : Orc) : Sys × Disjoint.FRes :=
  match poolByPtr s ptr with
  | none => (s, .success)
  | some k => free s k ptr o

/-- `umfPoolMallocUsableSize`, `memory_pool.c:208-211`. -/
def usable (s : Sys) (k ptr : Nat) : Nat :=
  match s.pool k with
  | none => 0
  | some p => usableSize s.w p ptr

end Verif.Stack
