/-!
# The disjoint pool's own memory

`src/pool/pool_disjoint.c`, `pool_disjoint_internal.h`, `src/uthash/utlist.h`: the structures of the pool as blocks of the
base allocator that point to each other, the linked lists of slabs pointer by pointer, the memory taken from the provider.

Simplifications. The blocks of one C type are a map of their own; an address is in one map at most, because the base
allocator hands out no address twice. `slab->iter` is part of the slab and is identified with it (`iter.val` is the slab).
Chunks are counted (`num_chunks_allocated`), the bitmap is in `Disjoint/BitmapModel.lean`; which bucket serves which size is in
`Disjoint/Classes.lean`; the slab of a pointer is found by the radix tree, `Critnib/`. The radix tree is one block with a table:
its inner nodes are allocated and freed in `Critnib/`. Several threads are in `Disjoint/ConcModel.lean`. Statistics and
Valgrind annotations are left out. Frees by the provider are taken to have effect; the code only logs their result.
-/
namespace Verif.DjHost

abbrev Addr := Nat

inductive Res where
  | success | oom | invalidArgument
deriving DecidableEq, Repr

/-- `slab_t`, `pool_disjoint_internal.h:81-104`, with `iter.prev` and `iter.next` (71-74). -/
structure Slab where
  mem : Addr
  size : Nat
  total : Nat
  alloc : Nat
  bucket : Addr
  prev : Addr
  next : Addr
deriving DecidableEq, Repr

/-- `bucket_t`, `pool_disjoint_internal.h:25-69`. -/
structure Bucket where
  size : Nat
  avail : Addr
  availNum : Nat
  unavail : Addr
  pool : Addr
  limits : Addr
  inPool : Nat
deriving DecidableEq, Repr

/-- `umf_disjoint_pool_shared_limits_t`, `pool_disjoint_internal.h:106-109`. -/
structure Limits where
  maxSize : BitVec 64
  totalSize : BitVec 64
deriving DecidableEq, Repr

/-- `disjoint_pool_t`, `pool_disjoint_internal.h:140-162`, with the parameters that matter here. -/
structure Pool where
  known : Addr
  buckets : Addr
  num : Nat
  slabMin : Nat
  capacity : Nat
  trace : Nat
  shared : Addr
  default : Addr
deriving DecidableEq, Repr

/-- The blocks of each type, the memory the provider has handed out with its sizes, and the next answers: of the base
allocator, of the provider, of the radix tree (`false`: no memory for the insertion). -/
structure St where
  pools : Addr → Option Pool
  crits : Addr → Option (List (Addr × Addr))
  lims : Addr → Option Limits
  arrs : Addr → Option (List (Option Addr))
  bucks : Addr → Option Bucket
  slabs : Addr → Option Slab
  prov : Addr → Option Nat
  host : List Addr
  give : List Addr
  room : List Bool

def upd {α : Type} (f : Addr → α) (a : Addr) (x : α) : Addr → α := fun b => if b = a then x else f b

/-- A piece of code; `none`: undefined behaviour, a failed assertion, or a loop that takes more rounds than allowed. -/
def M (α : Type) := St → Option (α × St)

instance : Monad M where
  pure a := fun s => some (a, s)
  bind m f := fun s => match m s with
    | none => none
    | some (a, s) => f a s

def fail {α : Type} : M α := fun _ => none

/-! ## Memory -/

/-- No block has the address `a`. -/
def fresh (s : St) (a : Addr) : Bool :=
  (s.pools a).isNone && (s.crits a).isNone && (s.lims a).isNone && (s.arrs a).isNone && (s.bucks a).isNone &&
    (s.slabs a).isNone

/-- `umf_ba_global_alloc`, seen from its callers: an address without a block, or `NULL`. -/
def hostAlloc : M Addr := fun s =>
  let a := s.host.headD 0
  if a ≠ 0 ∧ fresh s a = true then some (a, { s with host := s.host.tail }) else some (0, { s with host := s.host.tail })

def newPool (a : Addr) (c : Pool) : M Unit := fun s => some ((), { s with pools := upd s.pools a (some c) })
def newCrit (a : Addr) : M Unit := fun s => some ((), { s with crits := upd s.crits a (some []) })
def newLimits (a : Addr) (c : Limits) : M Unit := fun s => some ((), { s with lims := upd s.lims a (some c) })
def newArr (a : Addr) (n : Nat) : M Unit := fun s =>
  some ((), { s with arrs := upd s.arrs a (some (List.replicate n none)) })
def newBucket (a : Addr) (c : Bucket) : M Unit := fun s => some ((), { s with bucks := upd s.bucks a (some c) })
def newSlab (a : Addr) (c : Slab) : M Unit := fun s => some ((), { s with slabs := upd s.slabs a (some c) })

/-! `umf_ba_global_free` of each type: freeing what is not allocated is undefined. -/

def freePool (a : Addr) : M Unit := fun s => match s.pools a with
  | some _ => some ((), { s with pools := upd s.pools a none })
  | none => none
def freeCrit (a : Addr) : M Unit := fun s => match s.crits a with
  | some _ => some ((), { s with crits := upd s.crits a none })
  | none => none
def freeLimits (a : Addr) : M Unit := fun s => match s.lims a with
  | some _ => some ((), { s with lims := upd s.lims a none })
  | none => none
def freeArr (a : Addr) : M Unit := fun s => match s.arrs a with
  | some _ => some ((), { s with arrs := upd s.arrs a none })
  | none => none
def freeBucket (a : Addr) : M Unit := fun s => match s.bucks a with
  | some _ => some ((), { s with bucks := upd s.bucks a none })
  | none => none
def freeSlab (a : Addr) : M Unit := fun s => match s.slabs a with
  | some _ => some ((), { s with slabs := upd s.slabs a none })
  | none => none

/-! Reading and writing through a pointer: undefined if there is no such block. -/

def getP (a : Addr) : M Pool := fun s => match s.pools a with
  | some c => some (c, s)
  | none => none
def getB (a : Addr) : M Bucket := fun s => match s.bucks a with
  | some c => some (c, s)
  | none => none
def getS (a : Addr) : M Slab := fun s => match s.slabs a with
  | some c => some (c, s)
  | none => none
def getL (a : Addr) : M Limits := fun s => match s.lims a with
  | some c => some (c, s)
  | none => none
def setP (a : Addr) (c : Pool) : M Unit := fun s => match s.pools a with
  | some _ => some ((), { s with pools := upd s.pools a (some c) })
  | none => none
def setB (a : Addr) (c : Bucket) : M Unit := fun s => match s.bucks a with
  | some _ => some ((), { s with bucks := upd s.bucks a (some c) })
  | none => none
def setS (a : Addr) (c : Slab) : M Unit := fun s => match s.slabs a with
  | some _ => some ((), { s with slabs := upd s.slabs a (some c) })
  | none => none
def setL (a : Addr) (c : Limits) : M Unit := fun s => match s.lims a with
  | some _ => some ((), { s with lims := upd s.lims a (some c) })
  | none => none

/-- Read the element `i` of the array of buckets: undefined outside the array and before the element was written. -/
def getArr (a : Addr) (i : Nat) : M Addr := fun s => match s.arrs a with
  | some l => match l[i]? with
    | some (some b) => some (b, s)
    | _ => none
  | none => none

/-- Write the element `i` of the array of buckets. -/
def setArr (a : Addr) (i : Nat) (b : Addr) : M Unit := fun s => match s.arrs a with
  | some l => if i < l.length then some ((), { s with arrs := upd s.arrs a (some (l.set i (some b))) }) else none
  | none => none

/-- `umfMemoryProviderAlloc`, seen from its callers: an address that is not in use, or a failure (0). -/
def provAlloc (n : Nat) : M Addr := fun s =>
  let a := s.give.headD 0
  if a ≠ 0 ∧ s.prov a = none then some (a, { s with prov := upd s.prov a (some n), give := s.give.tail })
  else some (0, { s with give := s.give.tail })

/-- `umfMemoryProviderFree`, seen from its callers: wrong for an address or a size that was not handed out. -/
def provFree (a : Addr) (n : Nat) : M Unit := fun s =>
  if s.prov a = some n then some ((), { s with prov := upd s.prov a none }) else none

/-- `critnib_insert` without update: fails if the key is there, or without memory. -/
def critInsert (t : Addr) (k v : Addr) : M Bool := fun s => match s.crits t with
  | some l =>
    if l.any (fun e => e.1 = k) then some (false, s)
    else if s.room.headD true then some (true, { s with crits := upd s.crits t (some ((k, v) :: l)), room := s.room.tail })
    else some (false, { s with room := s.room.tail })
  | none => none

/-- `critnib_remove`. -/
def critRemove (t : Addr) (k : Addr) : M Unit := fun s => match s.crits t with
  | some l => some ((), { s with crits := upd s.crits t (some (l.filter fun e => e.1 ≠ k)) })
  | none => none

/-! ## Linked lists, `utlist.h`, on the links of the slabs -/

def setNext (a v : Addr) : M Unit := do
  let c ← getS a
  setS a { c with next := v }

def setPrev (a v : Addr) : M Unit := do
  let c ← getS a
  setS a { c with prev := v }

/-- `DL_PREPEND2`, 708-718: the new head. -/
def dlPrepend (head x : Addr) : M Addr := do
  setNext x head
  if head ≠ 0 then do
    let h ← getS head
    setPrev x h.prev
    setPrev head x
  else setPrev x x
  pure x

/-- `DL_DELETE2`, 787-805: the new head. -/
def dlDelete (head x : Addr) : M Addr :=
  if head = 0 then fail
  else do
    let c ← getS x
    if c.prev = 0 then fail
    else if c.prev = x then pure 0
    else if x = head then
      if c.next = 0 then fail
      else do
        setPrev c.next c.prev
        pure c.next
    else do
      setNext c.prev c.next
      if c.next ≠ 0 then setPrev c.next c.prev else setPrev head c.prev
      pure head

/-- The loop of `LL_DELETE2`, 481-486. -/
def llWalk : Nat → Addr → Addr → M Unit
  | 0, _, _ => fail
  | fuel + 1, t, x => do
    let c ← getS t
    if c.next ≠ 0 ∧ c.next ≠ x then llWalk fuel c.next x
    else if c.next ≠ 0 then do
      let d ← getS x
      setNext t d.next
    else pure ()

/-- `LL_DELETE2`, 475-488: the new head. -/
def llDelete (fuel : Nat) (head x : Addr) : M Addr :=
  if head = x then do
    let c ← getS head
    pure c.next
  else do
    llWalk fuel head x
    pure head

/-! ## Slabs and buckets -/

/-- `destroy_slab`, 133-145. -/
def destroySlab (x : Addr) : M Unit := do
  let c ← getS x
  let b ← getB c.bucket
  let _ ← getP b.pool
  provFree c.mem c.size
  freeSlab x

/-- `create_slab`, 72-131. -/
def createSlab (b : Addr) : M Addr := do
  let c ← getB b
  let p ← getP c.pool
  if c.size = 0 then fail
  else do
    let x ← hostAlloc
    if x = 0 then pure 0
    else do
      newSlab x ⟨0, max c.size p.slabMin, max (p.slabMin / c.size) 1, 0, b, 0, 0⟩
      let m ← provAlloc (max c.size p.slabMin)
      if m = 0 then do
        freeSlab x
        pure 0
      else do
        let s ← getS x
        setS x { s with mem := m }
        pure x

/-- `bucket_create_slab`, 344-363, with `pool_register_slab`, 205-227. -/
def bucketCreateSlab (b : Addr) : M Unit := do
  let x ← createSlab b
  if x = 0 then pure ()
  else do
    let c ← getB b
    let p ← getP c.pool
    let s ← getS x
    let r ← critInsert p.known s.mem x
    if r = false then destroySlab x
    else do
      let h ← dlPrepend c.avail x
      setB b { c with avail := h, availNum := c.availNum + 1 }

/-- `bucket_get_avail_slab`, 365-389. -/
def bucketGetAvail (b : Addr) : M Addr := do
  let c ← getB b
  if c.avail = 0 then bucketCreateSlab b
  else do
    let s ← getS c.avail
    if s.alloc = 0 then
      if c.inPool = 0 then fail
      else do
        setB b { c with inPool := c.inPool - 1 }
        let p ← getP c.pool
        let l ← getL c.limits
        setL c.limits { l with totalSize := l.totalSize - BitVec.ofNat 64 (max c.size p.slabMin) }
    else pure ()
  let c ← getB b
  pure c.avail

/-- `bucket_get_free_chunk`, 320-338, with `slab_get_chunk`, 162-175: the slab of the chunk. -/
def bucketGetChunk (b : Addr) : M Addr := do
  let x ← bucketGetAvail b
  if x = 0 then pure 0
  else do
    let s ← getS x
    if s.alloc < s.total then do
      setS x { s with alloc := s.alloc + 1 }
      if s.alloc + 1 < s.total then pure x
      else do
        let c ← getB b
        let h ← dlDelete c.avail x
        setB b { c with avail := h, availNum := c.availNum - 1 }
        setPrev x 0
        let c ← getB b
        let h ← dlPrepend c.unavail x
        setB b { c with unavail := h }
        pure x
    else fail

/-- `bucket_can_pool`, 420-446, with `bucket_max_pooled_slabs`, 391-399. -/
def bucketCanPool (b : Addr) : M Bool := do
  let c ← getB b
  let p ← getP c.pool
  if (if c.size ≤ p.slabMin / 2 then 1 else p.capacity) ≥ c.inPool + 1 then do
    let n := BitVec.ofNat 64 (max c.size p.slabMin)
    let l ← getL c.limits
    if l.totalSize + n ≤ l.maxSize then do
      setL c.limits { l with totalSize := l.totalSize + n }
      setB b { c with inPool := c.inPool + 1 }
      pure true
    else pure false
  else pure false

/-- `bucket_free_chunk`, 282-317, with `slab_free_chunk`, 183-199, and `pool_unregister_slab`, 229-239. -/
def bucketFreeChunk (b x : Addr) : M Unit := do
  let s ← getS x
  if s.alloc = 0 then fail
  else do
    setS x { s with alloc := s.alloc - 1 }
    if s.total - (s.alloc - 1) = 1 then do
      let c ← getB b
      let h ← dlDelete c.unavail x
      setB b { c with unavail := h }
      let c ← getB b
      let h ← dlPrepend c.avail x
      setB b { c with avail := h, availNum := c.availNum + 1 }
    else pure ()
    if s.alloc - 1 = 0 then do
      let toPool ← bucketCanPool b
      if toPool = false then do
        let c ← getB b
        let p ← getP c.pool
        let s ← getS x
        critRemove p.known s.mem
        let h ← dlDelete c.avail x
        if c.availNum = 0 then fail
        else do
          setB b { c with avail := h, availNum := c.availNum - 1 }
          destroySlab x
      else pure ()
    else pure ()

/-- `create_bucket`, 241-258. -/
def createBucket (size pool limits : Addr) : M Addr := do
  let b ← hostAlloc
  if b = 0 then pure 0
  else do
    newBucket b ⟨size, 0, 0, 0, pool, limits, 0⟩
    pure b

/-- The loop over `available_slabs` in `destroy_bucket`, 260-275. -/
def destroyAvail : Nat → Addr → Addr → M Unit
  | 0, _, _ => fail
  | fuel + 1, b, it =>
    if it = 0 then pure ()
    else do
      let s ← getS it
      let c ← getB b
      let h ← llDelete fuel c.avail it
      setB b { c with avail := h }
      destroySlab it
      destroyAvail fuel b s.next

/-- The loop over `unavailable_slabs` in `destroy_bucket`, 260-275. -/
def destroyUnavail : Nat → Addr → Addr → M Unit
  | 0, _, _ => fail
  | fuel + 1, b, it =>
    if it = 0 then pure ()
    else do
      let s ← getS it
      let c ← getB b
      let h ← llDelete fuel c.unavail it
      setB b { c with unavail := h }
      destroySlab it
      destroyUnavail fuel b s.next

/-- `destroy_bucket`, 260-275. -/
def destroyBucket (fuel : Nat) (b : Addr) : M Unit := do
  let c ← getB b
  destroyAvail fuel b c.avail
  let c ← getB b
  destroyUnavail fuel b c.unavail
  freeBucket b

/-! ## Pools -/

/-- `CutOff`, 62. -/
def CutOff : Nat := 2 ^ 31

/-- The loop that counts the buckets, 628-631. -/
def countLoop : Nat → Nat → Nat → M Nat
  | 0, _, _ => fail
  | fuel + 1, size2, n => if size2 < CutOff then countLoop fuel (size2 * 2) (n + 2) else pure n

/-- The loop that makes the buckets, 642-647. -/
def fillLoop : Nat → Addr → Addr → Addr → Nat → Nat → Nat → M Nat
  | 0, _, _, _, _, _, _ => fail
  | fuel + 1, arr, pool, limits, size1, size2, i =>
    if size2 < CutOff then do
      let b ← createBucket size1 pool limits
      setArr arr i b
      let b ← createBucket size2 pool limits
      setArr arr (i + 1) b
      fillLoop fuel arr pool limits (size1 * 2) (size2 * 2) (i + 2)
    else pure i

/-- The loop that looks for a bucket that could not be made, 652-656: `false` if there is one. -/
def checkLoop (arr : Addr) : Nat → Nat → M Bool
  | 0, _ => pure true
  | k + 1, i => do
    let b ← getArr arr i
    if b = 0 then pure false else checkLoop arr k (i + 1)

/-- The loop after `err_free_buckets`, 669-673. -/
def undoLoop (fuel : Nat) (arr : Addr) : Nat → Nat → M Unit
  | 0, _ => pure ()
  | k + 1, i => do
    let b ← getArr arr i
    if b ≠ 0 then destroyBucket fuel b else pure ()
    undoLoop fuel arr k (i + 1)

/-- `critnib_new`. -/
def critNew : M Addr := do
  let a ← hostAlloc
  if a = 0 then pure 0
  else do
    newCrit a
    pure a

/-- `umfDisjointPoolSharedLimitsCreate`, 949-959. -/
def limitsCreate (n : BitVec 64) : M Addr := do
  let a ← hostAlloc
  if a = 0 then pure 0
  else do
    newLimits a ⟨n, 0⟩
    pure a

/-- What a function returns, and the pointer it hands out (0: none). -/
abbrev Out := Res × Addr

/-- The parameters of a pool that matter here. -/
structure Params where
  slabMin : Nat
  capacity : Nat
  minBucket : Nat
  trace : Nat
  shared : Addr
deriving DecidableEq, Repr

/-- `disjoint_pool_initialize`, 573-686. `args`: the provider, the parameters and `ppPool` are not `NULL`. The page size, which
is asked at the end, is left out. -/
def initializePool (fuel : Nat) (args : Bool) (q : Params) : M Out :=
  if args = false then pure (.invalidArgument, 0)
  else if q.minBucket = 0 ∨ q.minBucket &&& (q.minBucket - 1) ≠ 0 then pure (.invalidArgument, 0)
  else do
    let p ← hostAlloc
    if p = 0 then pure (.oom, 0)
    else do
      newPool p ⟨0, 0, 0, q.slabMin, q.capacity, q.trace, q.shared, 0⟩
      let known ← critNew
      if known = 0 then do
        freePool p
        pure (.oom, 0)
      else do
        let size1 := max (min q.minBucket CutOff) 8
        let lim ← limitsCreate (BitVec.allOnes 64)
        if lim = 0 then do
          freeCrit known
          freePool p
          pure (.oom, 0)
        else do
          let size2 := size1 + size1 / 2
          let n ← countLoop fuel size2 1
          let arr ← hostAlloc
          if arr = 0 then do
            freeLimits lim
            freeCrit known
            freePool p
            pure (.oom, 0)
          else do
            newArr arr n
            setP p ⟨known, arr, n, q.slabMin, q.capacity, q.trace, q.shared, lim⟩
            let limits := if q.shared ≠ 0 then q.shared else lim
            let i ← fillLoop fuel arr p limits size1 size2 0
            let b ← createBucket CutOff p limits
            setArr arr i b
            let good ← checkLoop arr n 0
            if good = true then pure (.success, p)
            else do
              undoLoop fuel arr n 0
              freeArr arr
              freeLimits lim
              freeCrit known
              freePool p
              pure (.oom, 0)

/-- `disjoint_pool_allocate`, 520-571, for a size of the bucket `i`. The pointer is represented by its slab. -/
def malloc (p : Addr) (i : Nat) : M Out := do
  let c ← getP p
  let b ← getArr c.buckets i
  let x ← bucketGetChunk b
  if x = 0 then pure (.oom, 0) else pure (.success, x)

/-- `disjoint_pool_free`, 833-905, for a pointer in the slab `x`. -/
def free (p x : Addr) : M Out := do
  let c ← getP p
  let s ← getS x
  bucketFreeChunk s.bucket x
  if c.trace > 2 then do
    let _ ← getL (if c.shared ≠ 0 then c.shared else c.default)
    pure (.success, 0)
  else pure (.success, 0)

/-- `disjoint_pool_print_stats`, 485-518: what it reads. -/
def statsLoop (arr : Addr) : Nat → Nat → M Unit
  | 0, _ => pure ()
  | k + 1, i => do
    let b ← getArr arr i
    let _ ← getB b
    statsLoop arr k (i + 1)

/-- The loop of `disjoint_pool_finalize`, 913-930. -/
def finalLoop (fuel : Nat) (arr : Addr) : Nat → Nat → M Unit
  | 0, _ => pure ()
  | k + 1, i => do
    let b ← getArr arr i
    destroyBucket fuel b
    finalLoop fuel arr k (i + 1)

/-- `disjoint_pool_finalize`, 913-930. -/
def finalize (fuel : Nat) (p : Addr) : M Out := do
  let c ← getP p
  if c.trace > 1 then do
    statsLoop c.buckets c.num 0
    let _ ← getL (if c.shared ≠ 0 then c.shared else c.default)
  else pure ()
  finalLoop fuel c.buckets c.num 0
  freeLimits c.default
  freeCrit c.known
  freePool p
  pure (.success, 0)

/-! ## Histories -/

inductive Op where
  | create (args : Bool) (q : Params)
  | malloc (p : Addr) (i : Nat)
  | free (p x : Addr)
  | destroy (p : Addr)
  | limCreate (n : BitVec 64)
  | limDestroy (l : Addr)
deriving DecidableEq, Repr

/-- The code of a call. `limCreate` and `limDestroy` are `umfDisjointPoolSharedLimitsCreate` and
`umfDisjointPoolSharedLimitsDestroy`, 961-964. -/
def Op.code (fuel : Nat) : Op → M Out
  | .create args q => initializePool fuel args q
  | .malloc p i => DjHost.malloc p i
  | .free p x => DjHost.free p x
  | .destroy p => finalize fuel p
  | .limCreate n => do
    let l ← limitsCreate n
    pure (if l = 0 then (.oom, 0) else (.success, l))
  | .limDestroy l =>
    if l = 0 then pure (.success, 0)
    else do
      freeLimits l
      pure (.success, 0)

/-- The answers during a call. -/
structure Answers where
  host : List Addr
  give : List Addr
  room : List Bool

/-- One call, whose loops take at most `fuel` rounds. -/
def step (fuel : Nat) (s : St) (op : Op) (a : Answers) : Option (Out × St) :=
  op.code fuel { s with host := a.host, give := a.give, room := a.room }

/-- Nothing exists. -/
def init : St :=
  ⟨fun _ => none, fun _ => none, fun _ => none, fun _ => none, fun _ => none, fun _ => none, fun _ => none, [], [], []⟩

end Verif.DjHost
