import Verif.Tracker.Model
/-!
# The entries of the tracker in memory

`src/provider/provider_tracking.c`: the same functions as `Verif.Tracker.Model`, but the maps of the levels hold addresses of
entries (`tracker_alloc_info_t`), which are blocks of the base allocator `alloc_info_allocator`. A function returns `none` if it
touches a block that is not allocated, frees one, uses a map that does not exist, or takes a count of children below zero.

Simplifications. One thread at a time (for several see `Verif.TrkConc`). A radix tree is a list of keys and values
(`Verif.Critnib`); `critnib_insert` may be refused memory. The upstream provider's answers are parameters. Log messages are
left out. Result codes are those of `Verif.Tracker.Model`.
-/
namespace Verif.TrkMem
open Tracker (Res word upSplit upMerge UpAlloc)

abbrev Addr := Nat

/-- `tracker_alloc_info_t`, `provider_tracking.c:46-53`. -/
structure Info where
  pool : Nat
  size : Nat
  nch : Nat
deriving DecidableEq, Repr

/-- `umf_memory_tracker_t`, 35-44: the maps, what the blocks of `alloc_info_allocator` hold, and which are allocated. -/
structure St where
  lv : Nat → List (Nat × Addr)
  heap : Addr → Info
  used : Addr → Bool

/-- `umf_ba_alloc`: which block it hands out, if any, when these are allocated. -/
abbrev Give := (Addr → Bool) → Option Addr

def upd {α : Type} (f : Nat → α) (a : Nat) (x : α) : Nat → α := fun b => if b = a then x else f b

/-- `umf_memory_tracker_t` after `umfMemoryTrackerCreate`, 1192-1252. -/
def empty : St := ⟨fun _ => [], fun _ => ⟨0, 0, 0⟩, fun _ => false⟩

/-! ## Blocks -/

/-- Read an entry. -/
def load (s : St) (a : Addr) : Option Info := if s.used a then some (s.heap a) else none

/-- Write an entry. -/
def store (s : St) (a : Addr) (i : Info) : Option St := if s.used a then some { s with heap := upd s.heap a i } else none

/-- `umf_ba_free`. -/
def release (s : St) (a : Addr) : Option St := if s.used a then some { s with used := upd s.used a false } else none

/-- The block `x` has been handed out and filled. -/
def newBlk (s : St) (x : Addr) (i : Info) : St := { s with used := upd s.used x true, heap := upd s.heap x i }

/-! ## Maps -/

/-- `critnib_find(map, ptr, FIND_LE, ..)`: the greatest key not above `x`. -/
def findLe : List (Nat × Addr) → Nat → Option (Nat × Addr)
  | [], _ => none
  | e :: l, x =>
    match findLe l x with
    | none => if e.1 ≤ x then some e else none
    | some f => if e.1 ≤ x ∧ f.1 < e.1 then some e else some f

def hasKey (l : List (Nat × Addr)) (x : Nat) : Bool := l.any fun e => e.1 == x

/-- `critnib_get`. -/
def get (l : List (Nat × Addr)) (x : Nat) : Option Addr := (l.find? fun e => e.1 == x).map (·.2)

def setLevel (s : St) (l : Nat) (es : List (Nat × Addr)) : St := { s with lv := fun i => if i = l then es else s.lv i }

/-- `critnib_insert(map, key, value, 1)`, `critnib.c:310-396`. `leaf`: there is memory for a leaf, which is allocated (313)
before it is known whether the key is there. The tracker does not look at the result. -/
def update (s : St) (level key : Nat) (x : Addr) (leaf : Bool) : Option St :=
  if level < 8 then
    if leaf then
      if hasKey (s.lv level) key then some (setLevel s level ((s.lv level).map fun e => if e.1 = key then (key, x) else e))
      else some (setLevel s level ((key, x) :: s.lv level))
    else some s
  else none

/-- `critnib_remove`: the map without the key and the value of the key. -/
def erase (s : St) (level key : Nat) : Option (St × Option Addr) :=
  if level < 8 then some (setLevel s level ((s.lv level).filter fun e => e.1 ≠ key), get (s.lv level) key) else none

/-! ## The functions of the tracker -/

/-- The loop of `get_most_nested_alloc_segment`, 79-100: level, parent and the last key and value found. It uses the map
number `level`, which is 8 less `fuel`. -/
def nestedLoop (s : St) (ptr : Nat) : (fuel level : Nat) → (parent : Option Addr) → (last : Option (Nat × Addr)) →
    Option (Nat × Option Addr × Option (Nat × Addr))
  | 0, _, _, _ => none
  | fuel + 1, level, parent, last =>
    match findLe (s.lv level) ptr with
    | none => some (level, parent, last)
    | some (k, a) =>
      match load s a with
      | none => none
      | some i =>
        if ptr < word (k + i.size) ∧ i.nch ≠ 0 then
          if level = 7 then some (level, parent, some (k, a))
          else nestedLoop s ptr fuel (level + 1) (some a) (some (k, a))
        else some (level, parent, some (k, a))

/-- `get_most_nested_alloc_segment`, 65-123: level, parent and entry, or NULL. -/
def mostNested (s : St) (ptr : Nat) (noChildren : Bool) : Option (Option (Nat × Option Addr × Addr)) :=
  match nestedLoop s ptr 8 0 none none with
  | none => none
  | some (_, _, none) => some none
  | some (level, parent, some (k, a)) =>
    if k ≠ ptr then some none
    else
      match load s a with
      | none => none
      | some i => if noChildren = true ∧ i.nch > 0 then some none else some (some (level, parent, a))

/-- `parent_value->n_children++`, 152-153. -/
def incr (s : St) (parent : Option Addr) : Option St :=
  match parent with
  | none => some s
  | some p =>
    match load s p with
    | none => none
    | some i => store s p { i with nch := i.nch + 1 }

/-- `parent_value->n_children--`, 266-271. -/
def decr (s : St) (parent : Option Addr) : Option St :=
  match parent with
  | none => some s
  | some p =>
    match load s p with
    | none => none
    | some i => if i.nch = 0 then none else store s p { i with nch := i.nch - 1 }

/-- `umfMemoryTrackerAddAtLevel`, 125-175. `node`: `critnib_insert` gets the memory it asks for. -/
def addAtLevel (s : St) (level pool ptr size : Nat) (parent : Option Addr) (g : Give) (node : Bool) : Option (St × Res) :=
  match g s.used with
  | none => some (s, .outOfHostMemory)
  | some x =>
    let s1 := newBlk s x ⟨pool, size, 0⟩
    if level < 8 then
      if node = false then (release s1 x).map fun s2 => (s2, .outOfHostMemory)
      else if hasKey (s1.lv level) ptr then (release s1 x).map fun s2 => (s2, .unknown)
      else (incr (setLevel s1 level ((ptr, x) :: s1.lv level)) parent).map fun s2 => (s2, .success)
    else none

inductive Pos where
  | tooDeep
  | exceeds
  | found (level : Nat) (parent : Option Addr)
deriving DecidableEq, Repr

/-- The loop of `umfMemoryTrackerAdd`, 192-224. -/
def addLoop (s : St) (ptr size : Nat) : (fuel level : Nat) → (parent : Option Addr) → Option Pos
  | 0, _, _ => none
  | fuel + 1, level, parent =>
    match findLe (s.lv level) ptr with
    | none => some (.found level parent)
    | some (k, a) =>
      match load s a with
      | none => none
      | some i =>
        if ptr < word (k + i.size) then
          if level = 7 then some .tooDeep
          else if word (ptr + size) > word (k + i.size) then some .exceeds
          else if i.nch ≠ 0 then addLoop s ptr size fuel (level + 1) (some a)
          else some (.found (level + 1) (some a))
        else some (.found level parent)

/-- `umfMemoryTrackerAdd`, 177-233. -/
def add (s : St) (pool ptr size : Nat) (g : Give) (node : Bool) : Option (St × Res) :=
  match addLoop s ptr size 8 0 none with
  | none => none
  | some .tooDeep => some (s, .outOfResources)
  | some .exceeds => some (s, .invalidArgument)
  | some (.found level parent) => addAtLevel s level pool ptr size parent g node

/-- `umfMemoryTrackerRemove`, 235-277. The block freed is the one `critnib_remove` returns. -/
def remove (s : St) (ptr : Nat) : Option (St × Res) :=
  match mostNested s ptr true with
  | none => none
  | some none => some (s, .unknown)
  | some (some (level, parent, _)) =>
    match erase s level ptr with
    | none => none
    | some (_, none) => none
    | some (s1, some v) =>
      match decr s1 parent with
      | none => none
      | some s2 => (release s2 v).map fun s3 => (s3, .success)

/-- The loop of `umfMemoryTrackerGetAllocInfo`, 381-397. -/
def infoLoop (s : St) (ptr : Nat) : (fuel level : Nat) → (best : Option (Nat × Addr)) → Option (Option (Nat × Addr))
  | 0, _, _ => none
  | fuel + 1, level, best =>
    match findLe (s.lv level) ptr with
    | none => some best
    | some (k, a) =>
      match load s a with
      | none => none
      | some i =>
        if ptr < word (k + i.size) then
          if i.nch = 0 ∨ level = 7 then some (some (k, a))
          else infoLoop s ptr fuel (level + 1) (some (k, a))
        else some best

/-- `umfMemoryTrackerGetAllocInfo`, 357-409, once the tracker exists: base, size and pool. -/
def getAllocInfo (s : St) (ptr : Nat) : Option (Option (Nat × Nat × Nat)) :=
  if ptr = 0 then some none
  else
    match infoLoop s ptr 8 0 none with
    | none => none
    | some none => some none
    | some (some (k, a)) => (load s a).map fun i => some (k, i.size, i.pool)

/-! ## The tracking provider -/

/-- `trackingAlloc`, 465-498: the new tracker, the result, the address given to the caller (0: none), the range given back
to the upstream provider. -/
def trackingAlloc (s : St) (pool size : Nat) (up : UpAlloc) (g : Give) (node : Bool) :
    Option (St × Res × Nat × Option (Nat × Nat)) :=
  match up with
  | .fail c => some (s, .upstream c, 0, none)
  | .ok ptr =>
    if ptr = 0 then some (s, .success, 0, none)
    else
      match add s pool ptr size g node with
      | none => none
      | some (s', .success) => some (s', .success, ptr, none)
      | some (s', r) => some (s', r, 0, some (ptr, size))

/-- `trackingFree`, 720-773, without the IPC cache (`Verif.IpcExp`); `up`: the error of the upstream provider's free, if any. -/
def trackingFree (s : St) (pool ptr size : Nat) (up : Option Nat) (g : Give) (node : Bool) : Option (St × Res) :=
  match (if ptr = 0 then some (s, Res.unknown) else remove s ptr) with
  | none => none
  | some (s1, r1) =>
    match up with
    | none => some (s1, .success)
    | some c =>
      if r1 = .success then (add s1 pool ptr size g node).map fun r => (r.1, .upstream c)
      else some (s1, .upstream c)

/-- What comes from outside in a split or a merge: the first block, whether the mutex can be locked, whether there is memory for
the leaf of the first `critnib_insert`; for a split also the block and the memory of the map for the upper part, and the
leaf of the `critnib_insert` that reverts. -/
structure Ans where
  give : Give
  lock : Bool
  leaf : Bool
  give2 : Give
  node2 : Bool
  leaf3 : Bool

/-- The error path `err:`, `err_lock:`, 590-602 and 705-717: the new block is freed. -/
def bail (s : St) (x : Addr) (r : Res) (b : Bool) : Option (St × Res × Bool) := (release s x).map fun s' => (s', r, b)

/-- `trackingAllocationSplit`, 500-603, release build. The last component: the upstream provider has split the allocation. -/
def trackingSplit (s : St) (pool ptr total first : Nat) (up : Option Nat) (v : Ans) : Option (St × Res × Bool) :=
  match v.give s.used with
  | none => some (s, .outOfHostMemory, false)
  | some x =>
    let s1 := newBlk s x ⟨pool, first, 0⟩
    if v.lock = false then bail s1 x .unknown false
    else
      match mostNested s1 ptr true with
      | none => none
      | some none => bail s1 x .invalidArgument false
      | some (some (level, parent, a)) =>
        match load s1 a with
        | none => none
        | some i =>
          if i.size ≠ total then bail s1 x .invalidArgument false
          else
            match upSplit total first up with
            | .success =>
              match update s1 level ptr x v.leaf with
              | none => none
              | some s2 =>
                match addAtLevel s2 level pool (word (ptr + first)) (total - first) parent v.give2 v.node2 with
                | none => none
                | some (s3, .success) => (release s3 a).map fun s4 => (s4, .success, true)
                | some (s3, r) =>
                  match update s3 level ptr a v.leaf3 with
                  | none => none
                  | some s4 => bail s4 x r true
            | r => bail s1 x r false

/-- `trackingAllocationMerge`, 605-718, release build (`assert` is not compiled in). Freeing NULL (`base_alloc.c:275`) does
nothing. -/
def trackingMerge (s : St) (pool lowPtr highPtr total : Nat) (up : Option Nat) (v : Ans) : Option (St × Res × Bool) :=
  match v.give s.used with
  | none => some (s, .outOfHostMemory, false)
  | some x =>
    let s1 := newBlk s x ⟨pool, total, 0⟩
    if v.lock = false then bail s1 x .unknown false
    else
      match mostNested s1 lowPtr false with
      | none => none
      | some none => bail s1 x .invalidArgument false
      | some (some (ll, _, la)) =>
        match mostNested s1 highPtr false with
        | none => none
        | some none => bail s1 x .invalidArgument false
        | some (some (hl, _, ha)) =>
          if ll ≠ hl then bail s1 x .invalidArgument false
          else
            match load s1 la, load s1 ha with
            | some lo, some hi =>
              if lo.pool ≠ hi.pool then bail s1 x .invalidArgument false
              else if word (lo.size + hi.size) ≠ total then bail s1 x .invalidArgument false
              else
                match store s1 x ⟨pool, total, lo.nch + hi.nch⟩ with
                | none => none
                | some s2 =>
                  match upMerge lowPtr highPtr total up with
                  | .success =>
                    match update s2 ll lowPtr x v.leaf with
                    | none => none
                    | some s3 =>
                      match release s3 la with
                      | none => none
                      | some s4 =>
                        match erase s4 hl highPtr with
                        | none => none
                        | some (s5, none) => some (s5, .success, true)
                        | some (s5, some w) => (release s5 w).map fun s6 => (s6, .success, true)
                  | r => bail s2 x r false
            | _, _ => none

/-! ## Regions opened from other processes -/

/-- `tracker_ipc_info_t`, 55-59. -/
structure IpcInfo where
  size : Nat
  provider : Nat
  cache : Nat
deriving DecidableEq, Repr

/-- `ipc_segments_map` and the blocks of `ipc_info_allocator`. -/
structure Ipc where
  map : List (Nat × Addr)
  heap : Addr → IpcInfo
  used : Addr → Bool

def Ipc.empty : Ipc := ⟨[], fun _ => ⟨0, 0, 0⟩, fun _ => false⟩

/-- `umf_ba_free` in `ipc_info_allocator`. -/
def Ipc.release (s : Ipc) (a : Addr) : Option Ipc := if s.used a then some { s with used := upd s.used a false } else none

/-- `umfMemoryTrackerAddIpcSegment`, 279-322. -/
def addIpc (s : Ipc) (ptr size provider cache : Nat) (g : Give) (node : Bool) : Option (Ipc × Res) :=
  match g s.used with
  | none => some (s, .outOfHostMemory)
  | some x =>
    let s1 : Ipc := { s with used := upd s.used x true, heap := upd s.heap x ⟨size, provider, cache⟩ }
    if node = false then (s1.release x).map fun s2 => (s2, .outOfHostMemory)
    else if hasKey s1.map ptr then (s1.release x).map fun s2 => (s2, .unknown)
    else some ({ s1 with map := (ptr, x) :: s1.map }, .success)

/-- `umfMemoryTrackerRemoveIpcSegment`, 324-345. -/
def removeIpc (s : Ipc) (ptr : Nat) : Option (Ipc × Res) :=
  match get s.map ptr with
  | none => some (s, .unknown)
  | some a =>
    let s1 : Ipc := { s with map := s.map.filter fun e => e.1 ≠ ptr }
    if s1.used a then (s1.release a).map fun s2 => (s2, .success) else none

/-- `umfMemoryTrackerGetIpcInfo`, 411-443, once the tracker exists: base, size and provider. -/
def getIpcInfo (s : Ipc) (ptr : Nat) : Option (Option (Nat × Nat × Nat)) :=
  if ptr = 0 then some none
  else
    match findLe s.map ptr with
    | none => some none
    | some (k, a) =>
      if s.used a then
        if ptr ≥ word (k + (s.heap a).size) then some none else some (some (k, (s.heap a).size, (s.heap a).provider))
      else none

/-- `trackingCloseIpcHandle` and `getTrackerIpcInfo`, 1110-1130: the entry of the cache that is released; `some none`: the
call is refused. -/
def closeIpc (s : Ipc) (ptr : Nat) : Option (Option Nat) :=
  match get s.map ptr with
  | none => some none
  | some a => if s.used a then some (some (s.heap a).cache) else none

/-! ## Creating and destroying the tracker -/

/-- What a tracker is made of. -/
inductive Part where
  | handle
  | infos
  | mutex
  | level (i : Nat)
  | ipcInfos
  | ipcMap
deriving DecidableEq, Repr

/-- What a pointer in the handle holds: what was in the memory before, NULL, or the object. -/
inductive Ptr where
  | junk
  | null
  | obj
deriving DecidableEq, Repr

/-- The handle's memory: its pointers. `live`: the parts that exist. -/
structure Mk where
  live : List Part
  maps : Nat → Ptr

/-- Make the part `p`; `ok`: the allocator, the mutex or the map can be made. -/
def make (ok : Part → Bool) (m : Mk) (p : Part) : Option Mk := if ok p then some { m with live := p :: m.live } else none

/-- Destroy the part `p`: undefined if it does not exist. -/
def drop (m : Mk) (p : Part) : Option Mk := if p ∈ m.live then some { m with live := m.live.filter (· ≠ p) } else none

/-- The loop `critnib_delete`, 1240-1244 and 1273-1278, from `i` on: a pointer that is not NULL is used. -/
def dropMaps (m : Mk) : (n i : Nat) → Option Mk
  | 0, _ => some m
  | n + 1, i =>
    match m.maps i with
    | .null => dropMaps m n (i + 1)
    | _ =>
      match drop m (.level i) with
      | none => none
      | some m' => dropMaps m' n (i + 1)

/-- The loop 1215-1220: the maps that could be made, and whether all could. -/
def makeMaps (ok : Part → Bool) (m : Mk) : (n i : Nat) → Mk × Bool
  | 0, _ => (m, true)
  | n + 1, i =>
    match make ok m (.level i) with
    | none => ({ m with maps := upd m.maps i .null }, false)
    | some m' => makeMaps ok { m' with maps := upd m'.maps i .obj } n (i + 1)

/-- The labels from `err_destroy_alloc_segments_map` on, 1239-1250. -/
def undoMaps (m : Mk) : Option Mk :=
  match dropMaps m 8 0 with
  | none => none
  | some m1 =>
    match drop m1 .mutex with
    | none => none
    | some m2 =>
      match drop m2 .infos with
      | none => none
      | some m3 => drop m3 .handle

/-- `umfMemoryTrackerCreate`, 1192-1252: what is there afterwards, and whether a handle is returned. -/
def create (ok : Part → Bool) : Option (Mk × Bool) :=
  match make ok ⟨[], fun _ => .junk⟩ .handle with
  | none => some (⟨[], fun _ => .junk⟩, false)
  | some m0 =>
    let m1 : Mk := { m0 with maps := fun _ => .null }
    match make ok m1 .infos with
    | none => (drop m1 .handle).map fun m => (m, false)
    | some m2 =>
      match make ok m2 .mutex with
      | none =>
        match drop m2 .infos with
        | none => none
        | some m3 => (drop m3 .handle).map fun m => (m, false)
      | some m3 =>
        match makeMaps ok m3 8 0 with
        | (m4, false) => (undoMaps m4).map fun m => (m, false)
        | (m4, true) =>
          match make ok m4 .ipcInfos with
          | none => (undoMaps m4).map fun m => (m, false)
          | some m5 =>
            match make ok m5 .ipcMap with
            | none =>
              match drop m5 .ipcInfos with
              | none => none
              | some m6 => (undoMaps m6).map fun m => (m, false)
            | some m6 => some (m6, true)

/-- `umfMemoryTrackerDestroy`, 1254-1290, of a handle that is not NULL. -/
def destroy (proxy : Bool) (m : Mk) : Option Mk :=
  if proxy then some m
  else
    match dropMaps m 8 0 with
    | none => none
    | some m1 =>
      match drop m1 .mutex with
      | none => none
      | some m2 =>
        match drop m2 .infos with
        | none => none
        | some m3 =>
          match drop m3 .ipcMap with
          | none => none
          | some m4 =>
            match drop m4 .ipcInfos with
            | none => none
            | some m5 => drop m5 .handle

end Verif.TrkMem
