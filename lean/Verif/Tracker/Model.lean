/-!
# Model of `src/provider/provider_tracking.c`: the memory tracker

Eight maps ("levels") from addresses to tracked regions. A level is a list of entries; the lookups
of the radix tree the code uses are `findLe` (see `Verif.Critnib`, C10 and C11, and
`Verif.Tracker.Link`). `tracker_alloc_info_t` values are reached through the map, so an entry holds
its value. Sums of addresses and sizes are modulo 2^64. The host allocations an operation makes
are answered by an oracle, as are the upstream provider's operations. Operations are atomic
here; for interleavings see `Verif.Tracker.Concurrent`.
-/
namespace Verif.Tracker

def word (n : Nat) : Nat := n % 2 ^ 64

/-- A map entry: the key and `tracker_alloc_info_t`, `provider_tracking.c:46-53`. -/
structure Entry where
  key : Nat
  pool : Nat
  size : Nat
  nch : Nat
deriving Repr, DecidableEq

/-- `umf_memory_tracker_t`, `provider_tracking.c:35-44`: the level maps (level numbers from 8 on
are not used). -/
structure St where
  lv : Nat → List Entry

inductive Res where
  | success
  | outOfHostMemory
  | outOfResources
  | invalidArgument
  | unknown
  | upstream (code : Nat)
deriving Repr, DecidableEq

/-- `critnib_find(map, ptr, FIND_LE, ..)`: the entry with the greatest key not above `x`. -/
def findLe : List Entry → Nat → Option Entry
  | [], _ => none
  | e :: l, x =>
    match findLe l x with
    | none => if e.key ≤ x then some e else none
    | some f => if e.key ≤ x ∧ f.key < e.key then some e else some f

def hasKey (l : List Entry) (x : Nat) : Bool := l.any fun e => e.key == x

/-- End of an entry as computed in the code, `rkey + rsize`. -/
def Entry.stop (e : Entry) : Nat := word (e.key + e.size)

def setLevel (st : St) (l : Nat) (es : List Entry) : St :=
  ⟨fun i => if i = l then es else st.lv i⟩

/-- `parent_value->n_children++` / `--`: the parent is the entry with key `k` one level up.
(Decrementing 0 wraps around in C and gives 0 here.) -/
def bumpParent (st : St) (level : Nat) (parent : Option Nat) (f : Nat → Nat) : St :=
  match parent with
  | none => st
  | some k => setLevel st (level - 1)
      ((st.lv (level - 1)).map fun e => if e.key = k then { e with nch := f e.nch } else e)

/-- `get_most_nested_alloc_segment`, the loop, `provider_tracking.c:79-100`: level, parent key and
the last value found (`rvalue`, with its key). If the next level has no key up to `ptr`, `rvalue`
still is the parent although `level` has been incremented. -/
def nestedLoop (st : St) (ptr : Nat) : (fuel level : Nat) → (parent : Option Nat) →
    (last : Option Entry) → Nat × Option Nat × Option Entry
  | 0, level, parent, last => (level, parent, last)
  | fuel + 1, level, parent, last =>
    match findLe (st.lv level) ptr with
    | none => (level, parent, last)
    | some e =>
      if ptr < e.stop ∧ e.nch ≠ 0 then
        if level = 7 then (level, parent, some e)
        else nestedLoop st ptr fuel (level + 1) (some e.key) (some e)
      else (level, parent, some e)

/-- `get_most_nested_alloc_segment`, `provider_tracking.c:65-123`: level, key of the parent and
the entry. -/
def mostNested (st : St) (ptr : Nat) (noChildren : Bool) : Option (Nat × Option Nat × Entry) :=
  match nestedLoop st ptr 8 0 none none with
  | (_, _, none) => none
  | (level, parent, some e) =>
    if e.key ≠ ptr then none
    else if noChildren = true ∧ e.nch > 0 then none
    else some (level, parent, e)

/-- `umfMemoryTrackerAddAtLevel`, `provider_tracking.c:125-175`. `host`: the value and the map
nodes can be allocated. -/
def addAtLevel (st : St) (level pool ptr size : Nat) (parent : Option Nat) (host : Bool) : St × Res :=
  if host = false then (st, .outOfHostMemory)
  else if hasKey (st.lv level) ptr then (st, .unknown)
  else
    (bumpParent (setLevel st level (⟨ptr, pool, size, 0⟩ :: st.lv level)) level parent (· + 1),
      .success)

inductive Pos where
  | tooDeep
  | exceeds
  | found (level : Nat) (parent : Option Nat)
deriving Repr, DecidableEq

/-- The loop of `umfMemoryTrackerAdd`, `provider_tracking.c:192-224`. -/
def addLoop (st : St) (ptr size : Nat) : (fuel level : Nat) → (parent : Option Nat) → Pos
  | 0, level, parent => .found level parent
  | fuel + 1, level, parent =>
    match findLe (st.lv level) ptr with
    | none => .found level parent
    | some e =>
      if ptr < e.stop then
        if level = 7 then .tooDeep
        else if word (ptr + size) > e.stop then .exceeds
        else if e.nch ≠ 0 then addLoop st ptr size fuel (level + 1) (some e.key)
        else .found (level + 1) (some e.key)
      else .found level parent

/-- `umfMemoryTrackerAdd`, `provider_tracking.c:177-233`. -/
def add (st : St) (pool ptr size : Nat) (host : Bool) : St × Res :=
  match addLoop st ptr size 8 0 none with
  | .tooDeep => (st, .outOfResources)
  | .exceeds => (st, .invalidArgument)
  | .found level parent => addAtLevel st level pool ptr size parent host

/-- `umfMemoryTrackerRemove`, `provider_tracking.c:235-277`. -/
def remove (st : St) (ptr : Nat) : St × Res :=
  match mostNested st ptr true with
  | none => (st, .unknown)
  | some (level, parent, _) =>
    (bumpParent (setLevel st level ((st.lv level).filter fun e => e.key ≠ ptr)) level parent (· - 1),
      .success)

/-- The loop of `umfMemoryTrackerGetAllocInfo`, `provider_tracking.c:381-397`. -/
def infoLoop (st : St) (ptr : Nat) : (fuel level : Nat) → (best : Option Entry) → Option Entry
  | 0, _, best => best
  | fuel + 1, level, best =>
    match findLe (st.lv level) ptr with
    | none => best
    | some e =>
      if ptr < e.stop then
        if e.nch = 0 ∨ level = 7 then some e
        else infoLoop st ptr fuel (level + 1) (some e)
      else best

/-- `umfMemoryTrackerGetAllocInfo`, `provider_tracking.c:357-409`, once the tracker exists: base,
size and pool. -/
def getAllocInfo (st : St) (ptr : Nat) : Option (Nat × Nat × Nat) :=
  if ptr = 0 then none
  else (infoLoop st ptr 8 0 none).map fun e => (e.key, e.size, e.pool)

/-- `umfMemoryTrackerGetPool` and `umfPoolByPtr`, `provider_tracking.c:347-355`,
`memory_pool.c:151-153`; `none`: NULL. -/
def poolByPtr (st : St) (ptr : Nat) : Option Nat := (getAllocInfo st ptr).map (·.2.2)

/-- `umfFree`, `memory_pool.c:141-149`: the call it makes, `umfPoolFree(pool, ptr)`. -/
def umfFree (st : St) (ptr : Nat) : Option (Nat × Nat) := (poolByPtr st ptr).map fun p => (p, ptr)

/-! ### The tracking provider -/

/-- Upstream's answer to an allocation request (success with address 0: NULL). -/
inductive UpAlloc where
  | fail (code : Nat)
  | ok (ptr : Nat)
deriving Repr, DecidableEq

/-- `trackingAlloc`, `provider_tracking.c:465-498`: the new tracker, the result, and the address
given to the caller (0: none), the range given back to upstream if tracking it failed. -/
def trackingAlloc (st : St) (pool size : Nat) (up : UpAlloc) (host : Bool) :
    St × Res × Nat × Option (Nat × Nat) :=
  match up with
  | .fail c => (st, .upstream c, 0, none)
  | .ok ptr =>
    if ptr = 0 then (st, .success, 0, none)
    else
      match add st pool ptr size host with
      | (st', .success) => (st', .success, ptr, none)
      | (st', r) => (st', r, 0, some (ptr, size))

/-- `trackingFree`, `provider_tracking.c:720-773`, without the IPC cache; `up`: the error
upstream's free returns, if any. -/
def trackingFree (st : St) (pool ptr size : Nat) (up : Option Nat) (host : Bool) : St × Res :=
  let r := if ptr = 0 then (st, Res.unknown) else remove st ptr
  match up with
  | none => (r.1, .success)
  | some c =>
    if r.2 = .success then ((add r.1 pool ptr size host).1, .upstream c)
    else (r.1, .upstream c)

/-- `umfMemoryProviderAllocationSplit`, `memory_provider.c:322-336`. `up`: the error upstream's
operation returns, if any. -/
def upSplit (total first : Nat) (up : Option Nat) : Res :=
  if first = 0 ∨ total = 0 then .invalidArgument
  else if ¬ first < total then .invalidArgument
  else match up with
    | none => .success
    | some c => .upstream c

/-- `critnib_insert(map, key, value, 1)`: insert or replace. It is assumed that there is memory for the leaf it allocates
(`critnib.c:313`); for the other case see `C82_splitUpdate_violated`. -/
def upsert (l : List Entry) (e : Entry) : List Entry :=
  if hasKey l e.key then l.map fun f => if f.key = e.key then e else f else e :: l

/-- `trackingAllocationSplit`, `provider_tracking.c:500-603`. `host1`: the value for the low part
can be allocated; `host2`: value and map nodes for the high part. The last component: upstream
has split the allocation. -/
def trackingSplit (st : St) (pool ptr total first : Nat) (up : Option Nat) (host1 host2 : Bool) :
    St × Res × Bool :=
  if host1 = false then (st, .outOfHostMemory, false)
  else
    match mostNested st ptr true with
    | none => (st, .invalidArgument, false)
    | some (level, parent, v) =>
      if v.size ≠ total then (st, .invalidArgument, false)
      else
        match upSplit total first up with
        | .success =>
          match addAtLevel (setLevel st level (upsert (st.lv level) ⟨ptr, pool, first, 0⟩)) level
              pool (word (ptr + first)) (total - first) parent host2 with
          | (st', .success) => (st', .success, true)
          | (_, r) => (st, r, true)
        | r => (st, r, false)

/-- `umfMemoryProviderAllocationMerge`, `memory_provider.c:338-354`. -/
def upMerge (low high total : Nat) (up : Option Nat) : Res :=
  if low = 0 ∨ high = 0 ∨ total = 0 then .invalidArgument
  else if ¬ low < high then .invalidArgument
  else if ¬ high - low < total then .invalidArgument
  else match up with
    | none => .success
    | some c => .upstream c

/-- `trackingAllocationMerge`, `provider_tracking.c:605-718`, release build (`assert(0)` on the
error path is not compiled in). The child count of the parent is not touched. The last
component: upstream has merged the allocations. -/
def trackingMerge (st : St) (pool lowPtr highPtr total : Nat) (up : Option Nat) (host : Bool) :
    St × Res × Bool :=
  if host = false then (st, .outOfHostMemory, false)
  else
    match mostNested st lowPtr false, mostNested st highPtr false with
    | some (ll, _, lo), some (hl, _, hi) =>
      if ll ≠ hl then (st, .invalidArgument, false)
      else if lo.pool ≠ hi.pool then (st, .invalidArgument, false)
      else if word (lo.size + hi.size) ≠ total then (st, .invalidArgument, false)
      else
        match upMerge lowPtr highPtr total up with
        | .success =>
          let l1 := upsert (st.lv ll) ⟨lowPtr, pool, total, lo.nch + hi.nch⟩
          (setLevel st ll (l1.filter fun e => e.key ≠ highPtr), .success, true)
        | r => (st, r, false)
    | _, _ => (st, .invalidArgument, false)

/-- An empty tracker, `umfMemoryTrackerCreate`, `provider_tracking.c:1192-1252`. -/
def empty : St := ⟨fun _ => []⟩

end Verif.Tracker
