import Verif.Disjoint.Spec
import Mathlib.Logic.Function.Basic
/-!
# The disjoint pool used by any number of threads (`src/pool/pool_disjoint.c`)

`Verif.Disjoint.Model` treats every call as one step. Here a call is a sequence of steps and the
steps of different threads interleave freely. One step contains at most one of: taking or
releasing a bucket lock, an operation on `known_slabs`, a call of the memory provider or of the
memory tracker, an atomic operation on the shared total, reading a slab object without a lock,
freeing a slab object. What a thread does with data of a bucket whose lock it holds is done
together with the next or the previous of these operations.

Slab objects have an identity (a number that is never used again), because a thread can hold a
pointer to a slab object that was freed in the meantime: reading it sets `ub`. `critnib_find_le`
takes no lock; its answer is described by what `Verif.Critnib.Conc` proves about it
(`C13_findLe_partial`), see `FindOk`. The provider and the tracker are assumed to be usable by
several threads at a time: one call takes effect in one step.

Not modelled: statistics and traces, a provider that refuses to take memory back.
-/
namespace Verif.Disjoint.Conc
open Mem

/-- `slab_t`, `pool_disjoint_internal.h:76-104`: `mem_ptr`, `bucket`, the chunk map (`true`: free)
and `num_chunks_allocated`. `has` is not in the code: the memory is still the pool's. -/
structure Obj where
  base : Nat
  bkt : Nat
  free : List Bool
  used : Nat
  has : Bool
deriving Repr, DecidableEq

/-- `bucket_t`, `pool_disjoint_internal.h:25-68`: the slab lists, `chunked_slabs_in_pool`, and the
thread that holds `bucket_lock`. -/
structure Bk where
  avail : List Nat
  unavail : List Nat
  pooled : Nat
  lock : Option Nat
deriving Repr, DecidableEq

/-- A request: `umfPoolMalloc(size)` has alignment 0. -/
structure Req where
  size : Nat
  al : Nat
deriving Repr, DecidableEq

/-- Where a thread is. `us` distinguishes `disjoint_pool_malloc_usable_size` (true) from
`disjoint_pool_free`. `tk` is the number of the allocation the caller passed (not in the code). -/
inductive Pc where
  /-- not in a call -/
  | idle
  /-- about to pass the request on to the provider, `pool_disjoint.c:527-538,743-755` -/
  | direct (r : Req)
  /-- waiting for the lock of bucket `i`, `pool_disjoint.c:542,760` -/
  | wait (i : Nat) (r : Req)
  /-- holds the lock, in `bucket_get_avail_slab`, `pool_disjoint.c:365-389` -/
  | get (i : Nat) (r : Req)
  /-- in `create_slab`, the slab object has been allocated, `pool_disjoint.c:115` -/
  | make (i : Nat) (r : Req)
  /-- in `pool_register_slab`, `pool_disjoint.c:205-227` -/
  | reg (i : Nat) (r : Req) (id : Nat)
  /-- in `bucket_get_free_chunk`, a slab is available, `pool_disjoint.c:326-337` -/
  | take (i : Nat) (r : Req)
  /-- about to release the lock and return, `NULL` from an allocation (`fr = false`) or success
  from a free (`fr = true`), `pool_disjoint.c:547-551,766-770,891` -/
  | fin (i : Nat) (fr : Bool)
  /-- in `destroy_slab`, about to return the memory, `pool_disjoint.c:137-142` -/
  | drop (id i : Nat) (fr : Bool)
  /-- in `destroy_slab`, about to free the slab object, `pool_disjoint.c:144` -/
  | dropObj (id i : Nat) (fr : Bool)
  /-- in `critnib_find_le`, called when the map had changed `t0` times,
  `pool_disjoint.c:811-812,840-841` -/
  | find (tk ptr t0 : Nat) (us : Bool)
  /-- about to read the slab object found, `pool_disjoint.c:813,843` -/
  | read (tk ptr id : Nat) (us : Bool)
  /-- about to ask the tracker, `pool_disjoint.c:815-821,846-852` -/
  | info (tk ptr : Nat) (us : Bool)
  /-- about to return memory that is not a slab's to the provider, `pool_disjoint.c:854-862` -/
  | pfree (tk ptr size : Nat)
  /-- waiting for the lock of the bucket of the slab, `pool_disjoint.c:877` -/
  | fwait (tk ptr id i : Nat)
  /-- holds the lock, about to call `bucket_free_chunk`, `pool_disjoint.c:880-886` -/
  | chunk (tk ptr id i : Nat)
  /-- in `bucket_can_pool`, about to add to the shared total, `pool_disjoint.c:428-430` -/
  | add (id i : Nat)
  /-- after the addition, which returned `prev`, `pool_disjoint.c:432` -/
  | cmp (id i prev : Nat)
  /-- about to take the addition back, `pool_disjoint.c:437-438` -/
  | back (id i : Nat)
  /-- the slab is not kept: about to remove it from the map, `pool_disjoint.c:305-311` -/
  | unreg (id i : Nat)
deriving Repr, DecidableEq

/-- An allocation the pool handed out and has not taken back (not in the code): what was returned
and requested, the threads that ask for its size, the thread that frees it. -/
structure Own where
  ptr : Nat
  size : Nat
  al : Nat
  readers : List Nat
  freeing : Option Nat
deriving Repr, DecidableEq

/-- The pool. `known` maps slab addresses to slab objects; `hist` are the earlier contents of
`known`, newest first (not in the code); `mem` and `bad` describe the provider: the size of the
memory at an address the pool has obtained and not returned, and whether it returned other memory.
`own` are the allocations, numbered in the order they were made. -/
structure St where
  objs : Nat → Option Obj
  next : Nat
  bk : Nat → Bk
  known : Nat → Option Nat
  hist : List (Nat → Option Nat)
  total : Nat
  mem : Nat → Option Nat
  bad : Bool
  own : Nat → Option Own
  tickets : Nat
  pc : Nat → Pc
  ub : Bool

/-- `disjoint_pool_initialize`, `pool_disjoint.c:573-686`, without failures of host allocations. -/
def initSt : St :=
  ⟨fun _ => none, 0, fun _ => ⟨[], [], 0, none⟩, fun _ => none, [], 0, fun _ => none, false,
    fun _ => none, 0, fun _ => .idle, false⟩

def St.setPc (s : St) (t : Nat) (p : Pc) : St := { s with pc := Function.update s.pc t p }
def St.setBk (s : St) (i : Nat) (b : Bk) : St := { s with bk := Function.update s.bk i b }
def St.setObj (s : St) (id : Nat) (o : Obj) : St :=
  { s with objs := Function.update s.objs id (some o) }
def St.setOwn (s : St) (tk : Nat) (a : Option Own) : St :=
  { s with own := Function.update s.own tk a }
def St.setMem (s : St) (p : Nat) (z : Option Nat) : St :=
  { s with mem := Function.update s.mem p z }
/-- An update of `known_slabs`. -/
def St.setKnown (s : St) (b : Nat) (v : Option Nat) : St :=
  { s with known := Function.update s.known b v, hist := s.known :: s.hist }

/-- `utils_mutex_lock` and `utils_mutex_unlock` of a bucket. -/
def St.setLock (s : St) (i : Nat) (l : Option Nat) : St := s.setBk i { s.bk i with lock := l }

/-- The contents of `known_slabs` since it had changed `t0` times. -/
def St.seen (s : St) (t0 : Nat) : List (Nat → Option Nat) :=
  s.known :: s.hist.take (s.hist.length - t0)

/-- What `critnib_find_le(known_slabs, x)` may answer when the contents of the map during the call
were `maps` (`Verif.Critnib.Conc.Spec.FindSound` and `FindStable`): the answer was in the map, not
above `x`; and if one key was the greatest not above `x` during the whole call, it is found. -/
def FindOk (maps : List (Nat → Option Nat)) (x : Nat) (res : Option (Nat × Nat)) : Prop :=
  (∀ b id, res = some (b, id) → b ≤ x ∧ ∃ m ∈ maps, m b = some id) ∧
  ∀ a, a ≤ x → (∀ m ∈ maps, m a ≠ none ∧ ∀ k, a < k → k ≤ x → m k = none) →
    ∃ m ∈ maps, ∃ id, m a = some id ∧ res = some (a, id)

/-- What is assumed of the provider: memory it returns is not null, lies in the address space,
shares no byte with the memory the pool already has, is aligned to the provider's page size and to
the requested alignment (0: no requirement). -/
def Fresh (c : Cfg) (s : St) (p size al : Nat) : Prop :=
  0 < p ∧ p + size < 2 ^ 64 ∧ (∀ q z, s.mem q = some z → p + size ≤ q ∨ q + z ≤ p) ∧
    (c.page ≠ 0 → c.page ∣ p) ∧ (al ≠ 0 → al ∣ p)

/-- `umfMemoryProviderFree`. -/
def St.provFree (s : St) (p size : Nat) : St :=
  if s.mem p = some size then s.setMem p none else { s with bad := true }

/-- The size whose bucket serves a request: `pool_disjoint.c:525` and 728-742. -/
def lookupSize (c : Cfg) (r : Req) : Nat := if r.al ≤ 1 then r.size else alignedSize c r.size r.al

/-- The start of `disjoint_pool_allocate` (`pool_disjoint.c:520-542`) and
`disjoint_pool_aligned_malloc` (`pool_disjoint.c:715-760`) for a request that is not empty. -/
def start (c : Cfg) (r : Req) : Pc :=
  if c.maxPoolable < lookupSize c r then .direct r
  else .wait (sizeToIdx (minExp c.minBucket) (lookupSize c r)) r

/-- The alignment passed to the provider. -/
def upAl (r : Req) : Nat := if r.al ≤ 1 then 0 else r.al

/-- The pointer returned for the chunk at `p`, `pool_disjoint.c:570,780`. -/
def result (r : Req) (p : Nat) : Nat := if r.al ≤ 1 then p else alignUpSafe p r.al

/-- A new slab, `pool_disjoint.c:92-112`. -/
def newObj (c : Cfg) (i p : Nat) : Obj := ⟨p, i, List.replicate (numChunks c i) true, 0, true⟩

/-- `slab_get_chunk` and the move to the unavailable list, `pool_disjoint.c:326-337`. -/
def takeChunk (s : St) (i id : Nat) (rest : List Nat) (o : Obj) (k : Nat) : St :=
  let o' : Obj := { o with free := o.free.set k false, used := o.used + 1 }
  let b := s.bk i
  (s.setObj id o').setBk i
    (if o'.used < o'.free.length then b
     else { b with avail := rest, unavail := id :: b.unavail })

/-- `slab_free_chunk` and the move to the available list, `pool_disjoint.c:282-294`. -/
def putChunk (s : St) (i id : Nat) (o : Obj) (k : Nat) : St :=
  let o' : Obj := { o with free := o.free.set k true, used := o.used - 1 }
  let b := s.bk i
  (s.setObj id o').setBk i
    (if o'.free.length - o'.used = 1 then
       { b with avail := id :: b.avail, unavail := b.unavail.filter (· != id) }
     else b)

/-- What follows `slab_free_chunk` when `used` chunks are left, `pool_disjoint.c:296-316` and
`bucket_can_pool` (420-426). -/
def afterPut (c : Cfg) (id i used pooled : Nat) : Pc :=
  if used = 0 then
    if pooled + 1 ≤ maxPooled c i then .add id i else .unreg id i
  else .fin i true

/-- What a caller sees: the result of a free, the result of a question for the size of an
allocation, nothing. -/
inductive Ev where
  | none
  | freed (tk : Nat) (ok : Bool)
  | usable (tk size : Nat)
deriving Repr, DecidableEq

/-- Requests the theorems are about: no alignment, or one that `AlignOk` allows. -/
def ReqOk (c : Cfg) (r : Req) : Prop := r.al ≤ 1 ∨ ∃ k, r.al = 2 ^ k ∧ AlignOk c r.size r.al

/-- One step of thread `t`. -/
inductive Step (c : Cfg) (t : Nat) : St → Ev → St → Prop where
  /-- `umfPoolMalloc` or `umfPoolAlignedMalloc`; a request of size 0 returns at once -/
  | call {s} (r : Req) : s.pc t = .idle → 0 < r.size → ReqOk c r →
      Step c t s .none (s.setPc t (start c r))
  | directOk {s r} (p : Nat) : s.pc t = .direct r → Fresh c s p r.size (upAl r) →
      Step c t s .none { (s.setMem p (some r.size)).setOwn s.tickets
        (some ⟨p, r.size, r.al, [], none⟩) with
        tickets := s.tickets + 1, pc := Function.update s.pc t .idle }
  | directFail {s r} : s.pc t = .direct r → Step c t s .none (s.setPc t .idle)
  | lock {s i r} : s.pc t = .wait i r → i < (classes c.minBucket).length → (s.bk i).lock = none →
      Step c t s .none ((s.setLock i (some t)).setPc t (.get i r))
  /-- no such bucket -/
  | lockBad {s i r} : s.pc t = .wait i r → ¬ i < (classes c.minBucket).length →
      Step c t s .none { s with ub := true }
  /-- no available slab, the host refuses or grants memory for a slab object -/
  | getNoHost {s i r} : s.pc t = .get i r → (s.bk i).avail = [] →
      Step c t s .none (s.setPc t (.fin i false))
  | getNew {s i r} : s.pc t = .get i r → (s.bk i).avail = [] →
      Step c t s .none (s.setPc t (.make i r))
  /-- the first slab is in use -/
  | getUsed {s i r id rest o} : s.pc t = .get i r → (s.bk i).avail = id :: rest →
      s.objs id = some o → o.used ≠ 0 → Step c t s .none (s.setPc t (.take i r))
  /-- the first slab is empty: take its size off the shared total -/
  | getEmpty {s i r id rest o} : s.pc t = .get i r → (s.bk i).avail = id :: rest →
      s.objs id = some o → o.used = 0 → 0 < (s.bk i).pooled →
      Step c t s .none ({ s.setBk i { s.bk i with pooled := (s.bk i).pooled - 1 } with
        total := (s.total + (2 ^ 64 - slabSize c i)) % 2 ^ 64 }.setPc t (.take i r))
  | getEmptyBad {s i r id rest o} : s.pc t = .get i r → (s.bk i).avail = id :: rest →
      s.objs id = some o → o.used = 0 → (s.bk i).pooled = 0 → Step c t s .none { s with ub := true }
  /-- the provider's answer in `create_slab` -/
  | makeOk {s i r} (p : Nat) : s.pc t = .make i r → Fresh c s p (slabSize c i) 0 →
      Step c t s .none { (s.setObj s.next (newObj c i p)).setMem p (some (slabSize c i)) with
        next := s.next + 1, pc := Function.update s.pc t (.reg i r s.next) }
  | makeFail {s i r} : s.pc t = .make i r → Step c t s .none (s.setPc t (.fin i false))
  /-- `critnib_insert`, then the slab is put in the list -/
  | regOk {s i r id o} : s.pc t = .reg i r id → s.objs id = some o → s.known o.base = none →
      Step c t s .none (((s.setKnown o.base (some id)).setBk i
        { s.bk i with avail := id :: (s.bk i).avail }).setPc t (.take i r))
  | regFail {s i r id} : s.pc t = .reg i r id → Step c t s .none (s.setPc t (.drop id i false))
  /-- take a chunk, release the lock, return the pointer -/
  | takeOk {s i r id rest o k} : s.pc t = .take i r → (s.bk i).avail = id :: rest →
      s.objs id = some o → firstFree o.free = some k →
      Step c t s .none { (((takeChunk s i id rest o k).setLock i none).setOwn s.tickets
        (some ⟨result r (o.base + k * csize c i), r.size, r.al, [], none⟩)) with
        tickets := s.tickets + 1, pc := Function.update s.pc t .idle }
  | takeBad {s i r id rest o} : s.pc t = .take i r → (s.bk i).avail = id :: rest →
      s.objs id = some o → firstFree o.free = none → Step c t s .none { s with ub := true }
  | unlock {s i fr} : s.pc t = .fin i fr →
      Step c t s .none ((s.setLock i none).setPc t .idle)
  | drop {s id i fr o} : s.pc t = .drop id i fr → s.objs id = some o →
      Step c t s .none (((s.provFree o.base (slabSize c i)).setObj id { o with has := false }).setPc
        t (.dropObj id i fr))
  | dropObj {s id i fr} : s.pc t = .dropObj id i fr →
      Step c t s .none { s with
        objs := Function.update s.objs id none, pc := Function.update s.pc t (.fin i fr) }
  /-- `umfPoolFree` of an allocation nobody uses, -/
  | callFree {s tk a} : s.pc t = .idle → s.own tk = some a → a.readers = [] → a.freeing = none →
      Step c t s .none ((s.setOwn tk (some { a with freeing := some t })).setPc t
        (.find tk a.ptr s.hist.length false))
  /-- `umfPoolMallocUsableSize` of an allocation nobody frees -/
  | callUsable {s tk a} : s.pc t = .idle → s.own tk = some a → a.freeing = none →
      Step c t s .none ((s.setOwn tk (some { a with readers := t :: a.readers })).setPc t
        (.find tk a.ptr s.hist.length true))
  | findNone {s tk ptr t0 us} : s.pc t = .find tk ptr t0 us → FindOk (s.seen t0) ptr .none →
      Step c t s .none (s.setPc t (.info tk ptr us))
  | findSome {s tk ptr t0 us} (b id : Nat) : s.pc t = .find tk ptr t0 us →
      FindOk (s.seen t0) ptr (some (b, id)) → Step c t s .none (s.setPc t (.read tk ptr id us))
  /-- the slab object was freed -/
  | readBad {s tk ptr id us} : s.pc t = .read tk ptr id us → s.objs id = .none →
      Step c t s .none { s with ub := true }
  | readPast {s tk ptr id us o} : s.pc t = .read tk ptr id us → s.objs id = some o →
      slabEnd c o.base ≤ ptr → Step c t s .none (s.setPc t (.info tk ptr us))
  | readFree {s tk ptr id o} : s.pc t = .read tk ptr id false → s.objs id = some o →
      ptr < slabEnd c o.base → Step c t s .none (s.setPc t (.fwait tk ptr id o.bkt))
  | readUsable {s tk ptr id o a} : s.pc t = .read tk ptr id true → s.objs id = some o →
      ptr < slabEnd c o.base → s.own tk = some a →
      Step c t s (.usable tk (csize c o.bkt -
          (ptr - (o.base + (ptr - o.base) / csize c o.bkt * csize c o.bkt))))
        ((s.setOwn tk (some { a with readers := a.readers.erase t })).setPc t .idle)
  /-- the tracker knows the range that starts at the pointer -/
  | infoFree {s tk ptr z} : s.pc t = .info tk ptr false → s.mem ptr = some z →
      Step c t s .none (s.setPc t (.pfree tk ptr z))
  | infoUsable {s tk ptr z a} : s.pc t = .info tk ptr true → s.mem ptr = some z →
      s.own tk = some a →
      Step c t s (.usable tk z)
        ((s.setOwn tk (some { a with readers := a.readers.erase t })).setPc t .idle)
  /-- the tracker does not know a range that starts at the pointer: if one contains it, the free is
  passed on with its size, otherwise the call fails (0 for the usable size) -/
  | infoInside {s tk ptr q z} : s.pc t = .info tk ptr false → s.mem ptr = .none →
      s.mem q = some z → q < ptr → ptr < q + z → Step c t s .none (s.setPc t (.pfree tk ptr z))
  | infoInsideUsable {s tk ptr q z} : s.pc t = .info tk ptr true → s.mem ptr = .none →
      s.mem q = some z → q < ptr → ptr < q + z → Step c t s (.usable tk z) (s.setPc t .idle)
  | infoNone {s tk ptr} : s.pc t = .info tk ptr false → s.mem ptr = .none →
      (∀ q z, s.mem q = some z → q < ptr → ¬ ptr < q + z) →
      Step c t s (.freed tk false) (s.setPc t .idle)
  | infoNoneUsable {s tk ptr} : s.pc t = .info tk ptr true → s.mem ptr = .none →
      (∀ q z, s.mem q = some z → q < ptr → ¬ ptr < q + z) →
      Step c t s (.usable tk 0) (s.setPc t .idle)
  | pfree {s tk ptr z} : s.pc t = .pfree tk ptr z →
      Step c t s (.freed tk true) (((s.provFree ptr z).setOwn tk .none).setPc t .idle)
  | flock {s tk ptr id i} : s.pc t = .fwait tk ptr id i → (s.bk i).lock = none →
      Step c t s .none ((s.setLock i (some t)).setPc t (.chunk tk ptr id i))
  /-- `bucket_free_chunk` up to the decision what to do with the slab. From here on the memory is
  the pool's again. -/
  | chunkOk {s tk ptr id i o} : s.pc t = .chunk tk ptr id i → s.objs id = some o →
      Step c t s (.freed tk true) (((putChunk s i id o ((ptr - o.base) / csize c i)).setOwn tk
        .none).setPc t (afterPut c id i (o.used - 1) (s.bk i).pooled))
  /-- the slab object was freed -/
  | chunkBad {s tk ptr id i} : s.pc t = .chunk tk ptr id i → s.objs id = .none →
      Step c t s .none { s with ub := true }
  | add {s id i} : s.pc t = .add id i →
      Step c t s .none ({ s with total := (s.total + slabSize c i) % 2 ^ 64 }.setPc t
        (.cmp id i s.total))
  | keep {s id i prev} : s.pc t = .cmp id i prev → (prev + slabSize c i) % 2 ^ 64 ≤ c.limMax →
      Step c t s .none ((s.setBk i { s.bk i with pooled := (s.bk i).pooled + 1 }).setPc t
        (.fin i true))
  | exceed {s id i prev} : s.pc t = .cmp id i prev →
      ¬ (prev + slabSize c i) % 2 ^ 64 ≤ c.limMax → Step c t s .none (s.setPc t (.back id i))
  | back {s id i} : s.pc t = .back id i →
      Step c t s .none ({ s with total := (s.total + (2 ^ 64 - slabSize c i)) % 2 ^ 64 }.setPc t
        (.unreg id i))
  /-- `critnib_remove`, then the slab is taken out of the list -/
  | unreg {s id i o} : s.pc t = .unreg id i → s.objs id = some o →
      Step c t s .none (((s.setKnown o.base .none).setBk i
        { s.bk i with avail := (s.bk i).avail.filter (· != id) }).setPc t (.drop id i true))

/-- All interleavings, up to the first undefined behaviour. `others`: pools that share the limits
change the total. -/
inductive Reach (c : Cfg) : St → Prop where
  | init : Reach c initSt
  | step {s t e s'} : Reach c s → s.ub = false → Step c t s e s' → Reach c s'
  | others {s} (total : Nat) : Reach c s → Reach c { s with total := total }

/-- `destroy_bucket` (`pool_disjoint.c:260-275`) for the slabs in a list. -/
def destroySlabs (c : Cfg) (s : St) (i : Nat) (l : List Nat) : St :=
  l.foldl (fun s id => match s.objs id with
    | none => { s with ub := true }
    | some o => s.provFree o.base (slabSize c i)) s

/-- `disjoint_pool_finalize`, `pool_disjoint.c:913-930`. -/
def finalize (c : Cfg) (s : St) : St :=
  (List.range (classes c.minBucket).length).foldl
    (fun s i => destroySlabs c s i ((s.bk i).avail ++ (s.bk i).unavail)) s

end Verif.Disjoint.Conc
