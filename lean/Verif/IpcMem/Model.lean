import Verif.Ipc.Model
/-!
# The cache of opened IPC handles: its hash tables and its list, pointer by pointer

`src/ipc_cache.c` with the macros it uses of `src/uthash/uthash.h` (`HASH_FIND`, `HASH_ADD`, `HASH_DEL`, `HASH_ITER`,
`HASH_CLEAR`, and below them `HASH_MAKE_TABLE`, `HASH_APPEND_LIST`, `HASH_ADD_TO_TABLE`, `HASH_ADD_TO_BKT`,
`HASH_EXPAND_BUCKETS`, `HASH_DEL_IN_BKT`, `HASH_FIND_IN_BKT`) and of `src/uthash/utlist.h` (`DL_PREPEND`, `DL_DELETE`,
`DL_COUNT`). Entries, tables, bucket arrays and caches are blocks of the base allocator that point to each other. An entry is in
three linked lists: the list in least-recently-used order of all entries (`next`, `prev`), the list of the entries of its
table (`hh.next`, `hh.prev`) and the chain of its bucket (`hh.hh_next`, `hh.hh_prev`).

Simplifications. The fields of the entries are maps of their own, a field of an entry that is not allocated cannot be read or
written. `hh` is the first member of the entry, so the entry and its handle have one address (`hho = 0`). `hh.key` points to
the key of the entry and `hh.keylen` is the same for all of them. The hash function (`HASH_JEN`) is a parameter. The 32-bit
counters of the tables do not overflow. There is one `ipc_opened_cache_global_t`. Each operation here runs under `cache_lock`,
or changes one word of an entry (`release`); eviction callbacks are results of the operations, what they do is in
`Ipc/Model.lean`.
-/
namespace Verif.IpcMem

abbrev Addr := Nat
abbrev Key := Ipc.Key

inductive Res where
  | success | oom | unknown
deriving DecidableEq, Repr

/-- The pointers of an entry to other entries and to its table: `next`, `prev` of `ipc_opened_cache_entry_t`
(`ipc_cache.c:32`); `next`, `prev`, `hh_next`, `hh_prev`, `tbl` of `UT_hash_handle` (`uthash.h:1250-1259`). -/
inductive Fld where
  | next | prev | aNext | aPrev | bNext | bPrev | tbl
deriving DecidableEq, Repr

/-- The rest of an entry, `ipc_cache.c:33-38`, and `hashv` of `UT_hash_handle`; `table`: the cache whose `hash_table` the
entry points to. -/
structure Data where
  key : Key
  ref : Nat
  hid : Nat
  table : Addr
  base : Nat
  size : Nat
  hashv : Nat
deriving DecidableEq, Repr

/-- `UT_hash_bucket`, `uthash.h:1192-1210`. -/
structure Bkt where
  head : Addr
  count : Nat
  mult : Nat
deriving DecidableEq, Repr

/-- An array of buckets. -/
structure Arr where
  len : Nat
  cell : Nat → Bkt

/-- `UT_hash_table`, `uthash.h:1216-1248`. -/
structure Tab where
  buckets : Addr
  num : Nat
  log2 : Nat
  items : Nat
  tail : Addr
  ideal : Nat
  nonideal : Nat
  ineff : Nat
  noexpand : Bool
deriving DecidableEq, Repr

/-- `ipc_opened_cache_global_t`, `ipc_cache.c:41-47`. -/
structure Glob where
  max : Nat
  cur : Nat
  lru : Addr
deriving DecidableEq, Repr

/-- The blocks: entries (`live`, `link`, `data`), tables, arrays, caches (with `hash_table`, `ipc_cache.c:49-53`), the global
data, and the next answers of the base allocator. -/
structure St where
  live : Addr → Bool
  link : Fld → Addr → Addr
  data : Addr → Data
  tabs : Addr → Option Tab
  arrs : Addr → Option Arr
  caches : Addr → Option Addr
  glob : Option Glob
  host : List Addr

def upd {α : Type} (f : Addr → α) (a : Addr) (x : α) : Addr → α := fun b => if b = a then x else f b

def updL (f : Fld → Addr → Addr) (k : Fld) (a v : Addr) : Fld → Addr → Addr :=
  fun k' b => if k' = k ∧ b = a then v else f k' b

/-- What a piece of code does: undefined behaviour, a failed assertion, or a loop that takes more rounds than allowed
(`undef`); the process ends (`exit`, `uthash.h:136`); or it returns. -/
inductive Out (α : Type) where
  | undef
  | exit
  | ok (a : α) (s : St)

def M (α : Type) := St → Out α

instance : Monad M where
  pure a := fun s => .ok a s
  bind m f := fun s => match m s with
    | .undef => .undef
    | .exit => .exit
    | .ok a s => f a s

def undef {α : Type} : M α := fun _ => .undef
def exit {α : Type} : M α := fun _ => .exit

/-! ## Memory -/

/-- No block has the address `a`. -/
def fresh (s : St) (a : Addr) : Bool :=
  !s.live a && (s.tabs a).isNone && (s.arrs a).isNone && (s.caches a).isNone

/-- `umf_ba_global_alloc` and `umf_ba_alloc`, seen from their callers: an address without a block, or `NULL`. -/
def hostAlloc : M Addr := fun s =>
  let a := s.host.headD 0
  if a ≠ 0 ∧ fresh s a = true then .ok a { s with host := s.host.tail } else .ok 0 { s with host := s.host.tail }

def rd (k : Fld) (a : Addr) : M Addr := fun s => if s.live a then .ok (s.link k a) s else .undef
def wr (k : Fld) (a v : Addr) : M Unit := fun s =>
  if s.live a then .ok () { s with link := updL s.link k a v } else .undef
def getD (a : Addr) : M Data := fun s => if s.live a then .ok (s.data a) s else .undef
def setD (a : Addr) (d : Data) : M Unit := fun s =>
  if s.live a then .ok () { s with data := upd s.data a d } else .undef
def newEnt (a : Addr) : M Unit := fun s => .ok () { s with live := upd s.live a true }
def freeEnt (a : Addr) : M Unit := fun s =>
  if s.live a then .ok () { s with live := upd s.live a false } else .undef

def getT (a : Addr) : M Tab := fun s => match s.tabs a with
  | some t => .ok t s
  | none => .undef
def setT (a : Addr) (t : Tab) : M Unit := fun s => match s.tabs a with
  | some _ => .ok () { s with tabs := upd s.tabs a (some t) }
  | none => .undef
def newT (a : Addr) (t : Tab) : M Unit := fun s => .ok () { s with tabs := upd s.tabs a (some t) }
def freeT (a : Addr) : M Unit := fun s => match s.tabs a with
  | some _ => .ok () { s with tabs := upd s.tabs a none }
  | none => .undef

/-- A bucket of an array; beyond its end is undefined. -/
def getBkt (a : Addr) (i : Nat) : M Bkt := fun s => match s.arrs a with
  | some r => if i < r.len then .ok (r.cell i) s else .undef
  | none => .undef
def setBkt (a : Addr) (i : Nat) (b : Bkt) : M Unit := fun s => match s.arrs a with
  | some r => if i < r.len then .ok () { s with arrs := upd s.arrs a (some { r with cell := upd r.cell i b }) } else .undef
  | none => .undef
/-- A new array of `n` buckets, zeroed. -/
def newArr (a : Addr) (n : Nat) : M Unit := fun s => .ok () { s with arrs := upd s.arrs a (some ⟨n, fun _ => ⟨0, 0, 0⟩⟩) }
def freeArr (a : Addr) : M Unit := fun s => match s.arrs a with
  | some _ => .ok () { s with arrs := upd s.arrs a none }
  | none => .undef

/-- `cache->hash_table`. -/
def getHead (c : Addr) : M Addr := fun s => match s.caches c with
  | some h => .ok h s
  | none => .undef
def setHead (c h : Addr) : M Unit := fun s => match s.caches c with
  | some _ => .ok () { s with caches := upd s.caches c (some h) }
  | none => .undef
def newCache (c : Addr) : M Unit := fun s => .ok () { s with caches := upd s.caches c (some 0) }
def freeCache (c : Addr) : M Unit := fun s => match s.caches c with
  | some _ => .ok () { s with caches := upd s.caches c none }
  | none => .undef

def getG : M Glob := fun s => match s.glob with
  | some g => .ok g s
  | none => .undef
def setG (g : Glob) : M Unit := fun s => match s.glob with
  | some _ => .ok () { s with glob := some g }
  | none => .undef

/-! ## `utlist.h` -/

/-- `DL_PREPEND2` on `lru_list`, `utlist.h:708-718`. -/
def dlPrepend (e : Addr) : M Unit := do
  let g ← getG
  wr .next e g.lru
  if g.lru ≠ 0 then do
    let p ← rd .prev g.lru
    wr .prev e p
    wr .prev g.lru e
  else wr .prev e e
  setG { g with lru := e }

/-- `DL_DELETE2` on `lru_list`, `utlist.h:787-805`, with its assertions. -/
def dlDelete (e : Addr) : M Unit := do
  let g ← getG
  if g.lru = 0 then undef
  else do
    let p ← rd .prev e
    if p = 0 then undef
    else if p = e then setG { g with lru := 0 }
    else if e = g.lru then do
      let n ← rd .next e
      wr .prev n p
      setG { g with lru := n }
    else do
      let n ← rd .next e
      wr .next p n
      if n ≠ 0 then wr .prev n p else wr .prev g.lru p

/-- `DL_COUNT2`, `utlist.h:809-817`. -/
def dlCount : Nat → Addr → M Nat
  | 0, _ => undef
  | fuel + 1, e =>
    if e = 0 then pure 0
    else do
      let n ← rd .next e
      let k ← dlCount fuel n
      pure (k + 1)

/-! ## `uthash.h` -/

/-- `HASH_TO_BKT`, `uthash.h:479-482`. -/
def toBkt (h n : Nat) : Nat := h &&& (n - 1)

/-- `HASH_FIND_IN_BKT`, `uthash.h:839-859`, from the item `e` on. -/
def findIn (key : Key) (h : Nat) : Nat → Addr → M Addr
  | 0, _ => undef
  | fuel + 1, e =>
    if e = 0 then pure 0
    else do
      let d ← getD e
      if d.hashv = h ∧ d.key = key then pure e
      else do
        let n ← rd .bNext e
        findIn key h fuel n

/-- `HASH_FIND`, `uthash.h:170-192`, in the table of cache `c`. -/
def hashFind (hash : Key → Nat) (fuel : Nat) (c : Addr) (key : Key) : M Addr := do
  let head ← getHead c
  if head = 0 then pure 0
  else do
    let T ← rd .tbl head
    let t ← getT T
    let b ← getBkt t.buckets (toBkt (hash key) t.num)
    findIn key (hash key) fuel b.head

/-- `HASH_MAKE_TABLE`, `uthash.h:237-272`, for the first entry. -/
def makeTable (e : Addr) : M Unit := do
  let T ← hostAlloc
  wr .tbl e T
  if T = 0 then exit
  else do
    newT T ⟨0, 32, 5, 0, e, 0, 0, 0, false⟩
    let a ← hostAlloc
    if a = 0 then exit
    else do
      let t ← getT T
      setT T { t with buckets := a }
      newArr a 32

/-- `HASH_APPEND_LIST`, `uthash.h:313-319`. -/
def appendList (head e : Addr) : M Unit := do
  wr .aNext e 0
  let T ← rd .tbl head
  let t ← getT T
  wr .aPrev e t.tail
  wr .aNext t.tail e
  setT T { t with tail := e }

/-- Item `x` goes to the new array `a`, the body of the loop in `HASH_EXPAND_BUCKETS`, `uthash.h:948-966`. -/
def moveItem (T a x : Addr) : M Unit := do
  let t ← getT T
  let d ← getD x
  let i := toBkt d.hashv (t.num * 2)
  let b ← getBkt a i
  if b.count + 1 > t.ideal then do
    setT T { t with nonideal := t.nonideal + 1 }
    setBkt a i { b with count := b.count + 1, mult := if b.count + 1 > b.mult * t.ideal then b.mult + 1 else b.mult }
  else setBkt a i { b with count := b.count + 1 }
  wr .bPrev x 0
  let b ← getBkt a i
  wr .bNext x b.head
  if b.head ≠ 0 then wr .bPrev b.head x else pure ()
  setBkt a i { b with head := x }

/-- The inner loop of `HASH_EXPAND_BUCKETS`, `uthash.h:945-968`, from item `x` on. -/
def moveChain (T a : Addr) : Nat → Addr → M Unit
  | 0, _ => undef
  | fuel + 1, x =>
    if x = 0 then pure ()
    else do
      let n ← rd .bNext x
      moveItem T a x
      moveChain T a fuel n

/-- The outer loop of `HASH_EXPAND_BUCKETS`, `uthash.h:943-969`: `k` buckets from number `i` on. -/
def moveAll (T a : Addr) (fuel : Nat) : Nat → Nat → M Unit
  | 0, _ => pure ()
  | k + 1, i => do
    let t ← getT T
    let b ← getBkt t.buckets i
    moveChain T a fuel b.head
    moveAll T a fuel k (i + 1)

/-- `HASH_EXPAND_BUCKETS`, `uthash.h:925-986`. -/
def expand (fuel : Nat) (T : Addr) : M Unit := do
  let a ← hostAlloc
  if a = 0 then exit
  else do
    let t ← getT T
    newArr a (t.num * 2)
    setT T { t with
      ideal := (t.items >>> (t.log2 + 1)) + (if (t.items &&& (t.num * 2 - 1)) ≠ 0 then 1 else 0)
      nonideal := 0 }
    moveAll T a fuel t.num 0
    let t ← getT T
    freeArr t.buckets
    let ineff := if t.nonideal > t.items >>> 1 then t.ineff + 1 else 0
    setT T { t with
      num := t.num * 2
      log2 := t.log2 + 1
      buckets := a
      ineff := ineff
      noexpand := if ineff > 1 then true else t.noexpand }

/-- `HASH_ADD_TO_BKT`, `uthash.h:862-878`, with the bucket number `i` of array `a`. -/
def addToBkt (fuel : Nat) (a : Addr) (i : Nat) (e : Addr) : M Unit := do
  let b ← getBkt a i
  setBkt a i { b with count := b.count + 1 }
  wr .bNext e b.head
  wr .bPrev e 0
  if b.head ≠ 0 then wr .bPrev b.head e else pure ()
  setBkt a i { b with count := b.count + 1, head := e }
  let T ← rd .tbl e
  let t ← getT T
  if b.count + 1 ≥ (b.mult + 1) * 10 ∧ t.noexpand = false then expand fuel T else pure ()

/-- `HASH_ADD_TO_TABLE`, `uthash.h:373-382`. -/
def addToTable (fuel : Nat) (head e : Addr) (h : Nat) : M Unit := do
  let T ← rd .tbl head
  let t ← getT T
  setT T { t with items := t.items + 1 }
  addToBkt fuel t.buckets (toBkt h t.num) e

/-- `HASH_ADD`, `uthash.h:441-477`, to the table of cache `c`. -/
def hashAdd (hash : Key → Nat) (fuel : Nat) (c e : Addr) : M Unit := do
  let d ← getD e
  setD e { d with hashv := hash d.key }
  let head ← getHead c
  if head = 0 then do
    wr .aNext e 0
    wr .aPrev e 0
    makeTable e
    setHead c e
    addToTable fuel e e (hash d.key)
  else do
    let T ← rd .tbl head
    wr .tbl e T
    appendList head e
    addToTable fuel head e (hash d.key)

/-- `HASH_DEL_IN_BKT`, `uthash.h:881-894`. -/
def delInBkt (a : Addr) (i : Nat) (e : Addr) : M Unit := do
  let b ← getBkt a i
  let p ← rd .bPrev e
  let n ← rd .bNext e
  setBkt a i { b with count := b.count - 1, head := if b.head = e then n else b.head }
  if p ≠ 0 then wr .bNext p n else pure ()
  if n ≠ 0 then wr .bPrev n p else pure ()

/-- The blocks of the table of the entry `head`, as freed by `HASH_DELETE_HH` and `HASH_CLEAR`, `uthash.h:502-507`,
`1155-1160`. -/
def freeTable (c head : Addr) : M Unit := do
  let T ← rd .tbl head
  let t ← getT T
  freeArr t.buckets
  freeT T
  setHead c 0

/-- The item leaves its bucket, `uthash.h:523-527`, in the table of cache `c`. -/
def delFromTable (c e : Addr) : M Unit := do
  let d ← getD e
  let head ← getHead c
  let T ← rd .tbl head
  let t ← getT T
  delInBkt t.buckets (toBkt d.hashv t.num) e
  setT T { t with items := t.items - 1 }

/-- `HASH_DELETE_HH`, `uthash.h:498-530`, from the table of cache `c`. -/
def hashDel (c e : Addr) : M Unit := do
  let p ← rd .aPrev e
  let n ← rd .aNext e
  let head ← getHead c
  if p = 0 ∧ n = 0 then freeTable c head
  else do
    let T ← rd .tbl head
    let t ← getT T
    if e = t.tail then setT T { t with tail := p } else pure ()
    if p ≠ 0 then wr .aNext p n else setHead c n
    if n ≠ 0 then wr .aPrev n p else pure ()
    delFromTable c e

/-- `HASH_CLEAR`, `uthash.h:1152-1162`. -/
def hashClear (c : Addr) : M Unit := do
  let head ← getHead c
  if head ≠ 0 then freeTable c head else pure ()

/-! ## `ipc_cache.c` -/

/-- `umfIpcCacheGlobalInit`, `ipc_cache.c:73-109`, when it succeeds. -/
def globalInit (max : Nat) : M Unit := fun s => .ok () { s with glob := some ⟨max, 0, 0⟩ }

/-- `umfIpcCacheGlobalTearDown`, `ipc_cache.c:120-134`, with its assertions. -/
def globalTearDown (fuel : Nat) : M Unit := do
  let g ← getG
  let n ← dlCount fuel g.lru
  if g.cur = 0 ∧ n = 0 then fun s => .ok () { s with glob := none } else undef

/-- `umfIpcOpenedCacheCreate`, `ipc_cache.c:136-158`. -/
def cacheCreate : M Addr := do
  let c ← hostAlloc
  if c = 0 then pure 0
  else do
    let _ ← getG
    newCache c
    pure c

/-- The loop of `umfIpcOpenedCacheDestroy`, `ipc_cache.c:164-171`: `e` is this round's entry, `tmp` the next one. The result
has the calls of the eviction callback. -/
def destroyLoop (c : Addr) : Nat → Addr → Addr → M (List (Key × Nat × Nat))
  | 0, _, _ => undef
  | fuel + 1, e, tmp =>
    if e = 0 then pure []
    else do
      dlDelete e
      hashDel c e
      let g ← getG
      setG { g with cur := g.cur - 1 }
      let d ← getD e
      freeEnt e
      let tmp' ← if tmp ≠ 0 then rd .aNext tmp else pure 0
      let l ← destroyLoop c fuel tmp tmp'
      pure ((d.key, d.base, d.size) :: l)

/-- `umfIpcOpenedCacheDestroy`, `ipc_cache.c:160-176`. -/
def cacheDestroy (fuel : Nat) (c : Addr) : M (List (Key × Nat × Nat)) := do
  let head ← getHead c
  let tmp ← if head ≠ 0 then rd .aNext head else pure 0
  let l ← destroyLoop c fuel head tmp
  hashClear c
  freeCache c
  pure l

/-- The search for an eviction candidate, `ipc_cache.c:211-221`, from `x` on; 0: none. -/
def candidate : Nat → Addr → M Addr
  | 0, _ => undef
  | fuel + 1, x => do
    let d ← getD x
    if d.ref = 0 then pure x
    else do
      let x ← rd .prev x
      let g ← getG
      let t ← rd .prev g.lru
      if x ≠ t then candidate fuel x else pure 0

/-- The entry of a cache miss is filled in, `ipc_cache.c:248-257` and 262. -/
def fill (hash : Key → Nat) (fuel : Nat) (c e : Addr) (key : Key) (hid : Nat) : M Unit := do
  let d ← getD e
  setD e { d with key := key, ref := 0, hid := hid, table := c, size := 0, base := 0 }
  hashAdd hash fuel c e
  dlPrepend e
  let g ← getG
  setG { g with cur := g.cur + 1 }
  let d ← getD e
  setD e { d with ref := d.ref + 1 }

/-- What `umfIpcOpenedCacheGet` returns: the result, the entry, and the call of the eviction callback (`ipc_cache.c:268-270`). -/
abbrev Got := Res × Addr × Option (Key × Nat × Nat)

/-- A new entry, `ipc_cache.c:233-246`. `mutex`: whether `utils_mutex_init` succeeds; if not, the entry is given to
`umf_ba_global_free`, which did not allocate it. -/
def getNew (hash : Key → Nat) (fuel : Nat) (mutex : Bool) (c : Addr) (key : Key) (hid : Nat) : M Got := do
  let e ← hostAlloc
  if e = 0 then pure (.oom, 0, none)
  else do
    newEnt e
    if mutex = false then undef
    else do
      fill hash fuel c e key hid
      pure (.success, e, none)

/-- An entry is taken out and reused, `ipc_cache.c:224-232`. -/
def getEvict (hash : Key → Nat) (fuel : Nat) (c e : Addr) (key : Key) (hid : Nat) : M Got := do
  dlDelete e
  let d ← getD e
  hashDel d.table e
  let g ← getG
  setG { g with cur := g.cur - 1 }
  fill hash fuel c e key hid
  pure (.success, e, some (key, d.base, d.size))

/-- A cache hit, `ipc_cache.c:199-203` and 262. -/
def getHit (e : Addr) : M Got := do
  dlDelete e
  dlPrepend e
  let d ← getD e
  setD e { d with ref := d.ref + 1 }
  pure (.success, e, none)

/-- `umfIpcOpenedCacheGet`, `ipc_cache.c:178-273`, with pointers that are not `NULL`. -/
def cacheGet (hash : Key → Nat) (fuel : Nat) (mutex : Bool) (c : Addr) (key : Key) (hid : Nat) : M Got := do
  let e ← hashFind hash fuel c key
  if e ≠ 0 then do
    let d ← getD e
    if d.hid = hid then getHit e else getEvict hash fuel c e key hid
  else do
    let g ← getG
    if g.max ≠ 0 ∧ g.cur ≥ g.max then do
      let x ← rd .prev g.lru
      let e ← candidate fuel x
      if e ≠ 0 then getEvict hash fuel c e key hid else getNew hash fuel mutex c key hid
    else getNew hash fuel mutex c key hid

/-- `umfIpcHandleMappedCacheRelease`, `ipc_cache.c:275-290`. -/
def release (e : Addr) : M Unit := do
  let d ← getD e
  setD e { d with ref := if d.ref = 0 then 2 ^ 64 - 1 else d.ref - 1 }

/-- The owner of a reference records the mapping, `provider_tracking.c:1010-1057` through `ipc_opened_cache_value_t`. -/
def setMapped (e base size : Addr) : M Unit := do
  let d ← getD e
  setD e { d with base := base, size := size }

/-! ## Calls -/

/-- `create prov`: the cache is made for the tracking provider `prov`. -/
inductive Op where
  | init (max : Nat)
  | tearDown
  | create (prov : Nat)
  | destroy (c : Addr)
  | get (c : Addr) (key : Key) (hid : Nat)
  | release (e : Addr)
  | map (e : Addr) (base size : Nat)
deriving DecidableEq, Repr

/-- What a call returns: the result, an address, and the calls of the eviction callback. -/
structure Ret where
  res : Res
  addr : Addr
  calls : List (Key × Nat × Nat)
deriving DecidableEq, Repr

/-- The answers to a call: of the base allocator, and of `utils_mutex_init`. -/
structure Answers where
  host : List Addr
  mutex : Bool

def call (hash : Key → Nat) (fuel : Nat) (mutex : Bool) : Op → M Ret
  | .init max => do
    globalInit max
    pure ⟨.success, 0, []⟩
  | .tearDown => do
    globalTearDown fuel
    pure ⟨.success, 0, []⟩
  | .create _ => do
    let c ← cacheCreate
    pure (if c = 0 then ⟨.oom, 0, []⟩ else ⟨.success, c, []⟩)
  | .destroy c => do
    let l ← cacheDestroy fuel c
    pure ⟨.success, 0, l⟩
  | .get c key hid => do
    let r ← cacheGet hash fuel mutex c key hid
    pure ⟨r.1, r.2.1, r.2.2.toList⟩
  | .release e => do
    release e
    pure ⟨.success, 0, []⟩
  | .map e base size => do
    setMapped e base size
    pure ⟨.success, 0, []⟩

def step (hash : Key → Nat) (fuel : Nat) (s : St) (op : Op) (a : Answers) : Out Ret :=
  call hash fuel a.mutex op { s with host := a.host }

/-- Nothing is allocated. -/
def St.init : St := ⟨fun _ => false, fun _ _ => 0, fun _ => ⟨⟨0, 0, 0⟩, 0, 0, 0, 0, 0, 0⟩, fun _ => none, fun _ => none,
  fun _ => none, none, []⟩

end Verif.IpcMem
