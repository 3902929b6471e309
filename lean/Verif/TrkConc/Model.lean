/-!
# The tracker used by several threads

`src/provider/provider_tracking.c`: `umfMemoryTrackerAdd`, `umfMemoryTrackerRemove`, `trackingAllocationSplit`,
`trackingAllocationMerge` and `umfMemoryTrackerGetAllocInfo`, step by step: each access to memory that other threads may use is
a step of its own. The entries of the tracker (`tracker_alloc_info_t`) are blocks of a base allocator, which hands them out
again after they were freed.

Simplifications. Memory is sequentially consistent. An operation of a radix tree is one step; `FIND_LE` of a registering
thread may return any key not above the pointer, or none, because it is exact only if the greatest such key does not change
during the call (`Critnib/ConcProps.lean`). The pool of a provider is the pool of its regions. `trackingAlloc` and
`trackingFree` are `add` and `remove`; the upstream provider is a precondition of these calls. Log messages are left out.
-/
namespace Verif.TrkConc

abbrev Addr := Nat

/-- `tracker_alloc_info_t`, 47-54. -/
structure Info where
  pool : Nat
  size : Nat
  nch : Nat
deriving DecidableEq, Repr

/-- A region of memory and the pool it belongs to. -/
structure Rec where
  ptr : Nat
  size : Nat
  pool : Nat
deriving DecidableEq, Repr

/-- `umf_memory_tracker_t`, 35-45: the maps of the levels, the blocks of `alloc_info_allocator` with what is written in them,
which blocks are allocated, and which thread holds `splitMergeMutex`. -/
structure St where
  lv : Nat → List (Nat × Addr)
  heap : Addr → Info
  used : Addr → Bool
  lock : Option Nat

def upd {α : Type} (f : Nat → α) (a : Nat) (x : α) : Nat → α := fun b => if b = a then x else f b

/-- 2^64. -/
def W : Nat := 18446744073709551616

inductive Res where
  | success
  /-- `UMF_RESULT_ERROR_OUT_OF_HOST_MEMORY` -/
  | oom
  | invalidArgument
  | unknown
  | outOfResources
  /-- what the upstream provider returned -/
  | upstream
  /-- the base, the size and the pool found -/
  | found (base size pool : Nat)
deriving DecidableEq, Repr

/-- What a thread is asked to do. `look` is `umfMemoryTrackerGetAllocInfo`; the region is not used by the program. -/
inductive Op where
  | add (r : Rec)
  | remove (r : Rec)
  | split (r : Rec) (first : Nat)
  | merge (lo hi : Rec)
  | look (r : Rec) (ptr : Nat)
deriving DecidableEq, Repr

/-- Where a thread is. `lvl`: the level; `par`: the parent entry; `k`, `a`: the key and the entry found; `x`: a new entry;
`lo`: the level and the entry of the lower region of a merge, when it has been found. -/
inductive Pc where
  | start
  | addFind (lvl : Nat) (par : Option Addr)
  | addLoad (lvl : Nat) (par : Option Addr) (k : Nat) (a : Addr)
  | addKids (lvl : Nat) (a : Addr)
  | addAlloc (lvl : Nat) (par : Option Addr)
  | addInsert (lvl : Nat) (par : Option Addr) (x : Addr)
  | addDrop (x : Addr) (res : Res)
  | addInc (a : Addr)
  | addInc2 (a : Addr) (n : Nat)
  | seekFind (x : Addr) (lo : Option (Nat × Addr)) (lvl : Nat) (par : Option Addr) (last : Option (Nat × Addr))
  | seekLoad (x : Addr) (lo : Option (Nat × Addr)) (lvl : Nat) (par : Option Addr) (k : Nat) (a : Addr)
  | seekKids (x : Addr) (lo : Option (Nat × Addr)) (lvl : Nat) (par : Option Addr) (k : Nat) (a : Addr)
  | seekMore (x : Addr) (lo : Option (Nat × Addr)) (lvl : Nat) (par : Option Addr) (k : Nat) (a : Addr)
  | seekEnd (x : Addr) (lo : Option (Nat × Addr)) (lvl : Nat) (par : Option Addr) (k : Nat) (a : Addr)
  | remDelete (lvl : Nat) (par : Option Addr)
  | remDec (par a : Addr)
  | remDec2 (par : Addr) (n : Nat) (a : Addr)
  | remFree (a : Addr)
  | lockWait (x : Addr)
  | spSize (x : Addr) (lvl : Nat) (par : Option Addr) (a : Addr)
  | spUp (x : Addr) (lvl : Nat) (par : Option Addr) (a : Addr)
  | spPut (x : Addr) (lvl : Nat) (par : Option Addr) (a : Addr)
  | spAlloc (x : Addr) (lvl : Nat) (par : Option Addr) (a : Addr)
  | spInsert (x : Addr) (lvl : Nat) (par : Option Addr) (a y : Addr)
  | spDrop (x : Addr) (lvl : Nat) (a y : Addr) (res : Res)
  | spRevert (x : Addr) (lvl : Nat) (a : Addr) (res : Res)
  | spInc (par a : Addr)
  | spInc2 (par : Addr) (n : Nat) (a : Addr)
  | freeLast (a : Addr)
  | unlock
  | errUnlock (x : Addr) (res : Res)
  | errFree (x : Addr) (res : Res)
  | mgCheck (x : Addr) (ll : Nat) (la : Addr) (lh : Nat) (ha : Addr)
  | mgUp (x : Addr) (ll : Nat) (la : Addr) (lh : Nat) (ha : Addr)
  | mgPut (x : Addr) (ll : Nat) (la : Addr) (lh : Nat) (ha : Addr)
  | mgFreeLow (la : Addr) (lh : Nat) (ha : Addr)
  | mgRemove (lh : Nat) (ha : Addr)
  | lkFind (lvl : Nat) (top : Option (Nat × Addr))
  | lkLoad (lvl : Nat) (top : Option (Nat × Addr)) (k : Nat) (a : Addr)
  | lkKids (lvl : Nat) (k : Nat) (a : Addr)
  | lkMore (lvl : Nat) (top : Option (Nat × Addr)) (k : Nat) (a : Addr)
  | lkEnd (top : Option (Nat × Addr))
  | fin (res : Res)
deriving DecidableEq, Repr

/-- What comes from outside in a step: the block the base allocator hands out (0: none), whether there is memory for a node of
a radix tree or the upstream provider succeeds, what `FIND_LE` of a registering thread returns, and what a freed block
holds in its first word. -/
structure Ans where
  addr : Addr
  ok : Bool
  pick : Option (Nat × Addr)
  junk : Nat

/-! ## Maps and blocks -/

def hasKey (l : List (Nat × Addr)) (k : Nat) : Bool := l.any fun e => e.1 = k

/-- `critnib_get`. -/
def look? (l : List (Nat × Addr)) (k : Nat) : Option Addr := (l.find? fun e => e.1 = k).map (·.2)

/-- `critnib_find` with `FIND_LE`: the greatest key not above `p`. -/
def findLe (l : List (Nat × Addr)) (p : Nat) : Option (Nat × Addr) :=
  l.foldl (fun b e => if e.1 ≤ p then match b with
    | none => some e
    | some c => if c.1 < e.1 then some e else b else b) none

/-- Remove the key `k`. -/
def del (l : List (Nat × Addr)) (k : Nat) : List (Nat × Addr) := l.filter fun e => e.1 ≠ k

/-- `critnib_insert` with `update`: replace the value of the key `k`, or add it. It is assumed that there is memory for the
leaf it allocates (see `C82_splitUpdate_violated`). -/
def put (l : List (Nat × Addr)) (k : Nat) (a : Addr) : List (Nat × Addr) := (k, a) :: del l k

def setLv (s : St) (n : Nat) (l : List (Nat × Addr)) : St := { s with lv := upd s.lv n l }

/-- `umf_ba_free`: the first word of the block links the free blocks. -/
def freeBlk (s : St) (a : Addr) (junk : Nat) : St :=
  { s with used := upd s.used a false, heap := upd s.heap a { s.heap a with pool := junk } }

/-- `umf_ba_alloc`, and writing the fields. -/
def newBlk (s : St) (x : Addr) (i : Info) : St := { s with used := upd s.used x true, heap := upd s.heap x i }

def setKids (s : St) (a : Addr) (n : Nat) : St := { s with heap := upd s.heap a { s.heap a with nch := n } }

/-- `rkey + rsize`. -/
def endOf (s : St) (k : Nat) (a : Addr) : Nat := (k + (s.heap a).size) % W

/-! ## The steps -/

/-- The pointer that `get_most_nested_alloc_segment` is asked for. -/
def target (op : Op) (lo : Option (Nat × Addr)) : Nat :=
  match op with
  | .add r => r.ptr
  | .remove r => r.ptr
  | .split r _ => r.ptr
  | .merge l h => if lo = none then l.ptr else h.ptr
  | .look _ p => p

/-- The parameter `no_children`. -/
def noKids : Op → Bool
  | .merge _ _ => false
  | _ => true

/-- After `get_most_nested_alloc_segment` returned `NULL`: 246-251, 528-532, 635-644 (where `assert(0)` follows, 702). -/
def seekNull (s : St) (op : Op) (x : Addr) : Option (St × Pc) :=
  match op with
  | .remove _ => some (s, .fin .unknown)
  | .split _ _ => some (s, .errUnlock x .invalidArgument)
  | _ => none

/-- After `get_most_nested_alloc_segment` returned the entry `a`. -/
def seekDone (s : St) (op : Op) (x : Addr) (lo : Option (Nat × Addr)) (lvl : Nat) (par : Option Addr) (a : Addr) : Option (St × Pc) :=
  match op with
  | .remove _ => some (s, .remDelete lvl par)
  | .split _ _ => some (s, .spSize x lvl par a)
  | .merge _ _ =>
    match lo with
    | none => some (s, .seekFind x (some (lvl, a)) 0 none none)
    | some (l, b) => some (s, .mgCheck x l b lvl a)
  | _ => none

/-- One step of the thread `t`; `none`: an assertion fails. -/
def next (t : Nat) (op : Op) (s : St) (pc : Pc) (v : Ans) : Option (St × Pc) :=
  match pc with
  | .start =>
    match op with
    | .add _ => some (s, .addFind 0 none)
    | .remove _ => some (s, .seekFind 0 none 0 none none)
    -- 508-517
    | .split r f =>
      if v.addr = 0 ∨ s.used v.addr = true then some (s, .fin .oom)
      else some (newBlk s v.addr ⟨r.pool, f, 0⟩, .lockWait v.addr)
    -- 611-620
    | .merge l h =>
      if v.addr = 0 ∨ s.used v.addr = true then some (s, .fin .oom)
      else some (newBlk s v.addr ⟨l.pool, (l.size + h.size) % W, 0⟩, .lockWait v.addr)
    | .look _ _ => some (s, .lkFind 0 none)
  /- `umfMemoryTrackerAdd`, 177-233 -/
  -- 193-199
  | .addFind lvl par =>
    match v.pick with
    | none => some (s, .addAlloc lvl par)
    | some e => if e ∈ s.lv lvl ∧ e.1 ≤ target op none then some (s, .addLoad lvl par e.1 e.2) else some (s, .addAlloc lvl par)
  -- 201-223
  | .addLoad lvl par k a =>
    match op with
    | .add r =>
      if r.ptr < endOf s k a then
        if lvl = 7 then some (s, .fin .outOfResources)
        else if (r.ptr + r.size) % W > endOf s k a then some (s, .fin .invalidArgument)
        else some (s, .addKids (lvl + 1) a)
      else some (s, .addAlloc lvl par)
    | _ => none
  -- 224
  | .addKids lvl a => if (s.heap a).nch ≠ 0 then some (s, .addFind lvl (some a)) else some (s, .addAlloc lvl (some a))
  /- `umfMemoryTrackerAddAtLevel`, 125-175 -/
  -- 134-143
  | .addAlloc lvl par =>
    match op with
    | .add r =>
      if v.addr = 0 ∨ s.used v.addr = true then some (s, .fin .oom)
      else some (newBlk s v.addr ⟨r.pool, r.size, 0⟩, .addInsert lvl par v.addr)
    | _ => none
  -- 145-148, 152
  | .addInsert lvl par x =>
    match op with
    | .add r =>
      if v.ok = false then some (s, .addDrop x .oom)
      else if hasKey (s.lv lvl) r.ptr = true then some (s, .addDrop x .unknown)
      else
        match par with
        | none => some (setLv s lvl ((r.ptr, x) :: s.lv lvl), .fin .success)
        | some a => some (setLv s lvl ((r.ptr, x) :: s.lv lvl), .addInc a)
    | _ => none
  -- 172
  | .addDrop x res => some (freeBlk s x v.junk, .fin res)
  -- 153
  | .addInc a => some (s, .addInc2 a (s.heap a).nch)
  | .addInc2 a n => some (setKids s a (n + 1), .fin .success)
  /- `get_most_nested_alloc_segment`, 65-123 -/
  -- 79-85, 102
  | .seekFind x lo lvl par last =>
    match findLe (s.lv lvl) (target op lo) with
    | none =>
      match last with
      | none => seekNull s op x
      | some e => some (s, .seekEnd x lo lvl par e.1 e.2)
    | some e => some (s, .seekLoad x lo lvl par e.1 e.2)
  -- 88-90
  | .seekLoad x lo lvl par k a =>
    if target op lo < endOf s k a then some (s, .seekKids x lo lvl par k a) else some (s, .seekEnd x lo lvl par k a)
  -- 91-99
  | .seekKids x lo lvl par k a =>
    if (s.heap a).nch ≠ 0 then
      if lvl = 7 then some (s, .seekEnd x lo lvl par k a) else some (s, .seekMore x lo (lvl + 1) (some a) k a)
    else some (s, .seekMore x lo lvl par k a)
  -- 100
  | .seekMore x lo lvl par k a =>
    if (s.heap a).nch ≠ 0 then some (s, .seekFind x lo lvl par (some (k, a))) else some (s, .seekEnd x lo lvl par k a)
  -- 102-122
  | .seekEnd x lo lvl par k a =>
    if k ≠ target op lo then seekNull s op x
    else if noKids op = true ∧ (s.heap a).nch > 0 then seekNull s op x
    else seekDone s op x lo lvl par a
  /- `umfMemoryTrackerRemove`, 254-277 -/
  | .remDelete lvl par =>
    match look? (s.lv lvl) (target op none) with
    | none => none
    | some b =>
      match par with
      | none => some (setLv s lvl (del (s.lv lvl) (target op none)), .remFree b)
      | some p => some (setLv s lvl (del (s.lv lvl) (target op none)), .remDec p b)
  | .remDec p b => some (s, .remDec2 p (s.heap p).nch b)
  | .remDec2 p n b => some (setKids s p (n - 1), .remFree b)
  | .remFree b => some (freeBlk s b v.junk, .fin .success)
  /- `trackingAllocationSplit`, 519-603, and `trackingAllocationMerge`, 626-629 -/
  | .lockWait x => if s.lock = none then some ({ s with lock := some t }, .seekFind x none 0 none none) else some (s, .lockWait x)
  -- 535-540
  | .spSize x lvl par a =>
    match op with
    | .split r _ => if (s.heap a).size ≠ r.size then some (s, .errUnlock x .invalidArgument) else some (s, .spUp x lvl par a)
    | _ => none
  -- 542-547
  | .spUp x lvl par a => if v.ok = true then some (s, .spPut x lvl par a) else some (s, .errUnlock x .upstream)
  -- 549-555
  | .spPut x lvl par a => some (setLv s lvl (put (s.lv lvl) (target op none) x), .spAlloc x lvl par a)
  -- 557-564, with 134-143
  | .spAlloc x lvl par a =>
    match op with
    | .split r f =>
      if v.addr = 0 ∨ s.used v.addr = true then some (s, .spRevert x lvl a .oom)
      else some (newBlk s v.addr ⟨r.pool, r.size - f, 0⟩, .spInsert x lvl par a v.addr)
    | _ => none
  -- 145-148, 152
  | .spInsert x lvl par a y =>
    match op with
    | .split r f =>
      if v.ok = false then some (s, .spDrop x lvl a y .oom)
      else if hasKey (s.lv lvl) (r.ptr + f) = true then some (s, .spDrop x lvl a y .unknown)
      else
        match par with
        | none => some (setLv s lvl ((r.ptr + f, y) :: s.lv lvl), .freeLast a)
        | some p => some (setLv s lvl ((r.ptr + f, y) :: s.lv lvl), .spInc p a)
    | _ => none
  | .spInc p a => some (s, .spInc2 p (s.heap p).nch a)
  | .spInc2 p n a => some (setKids s p (n + 1), .freeLast a)
  -- 172
  | .spDrop x lvl a y res => some (freeBlk s y v.junk, .spRevert x lvl a res)
  -- 565-580
  | .spRevert x lvl a res => some (setLv s lvl (put (s.lv lvl) (target op none) a), .errUnlock x res)
  -- 584, 687
  | .freeLast a => some (freeBlk s a v.junk, .unlock)
  -- 585, 689
  | .unlock => some ({ s with lock := none }, .fin .success)
  -- 594, 705
  | .errUnlock x res => some ({ s with lock := none }, .errFree x res)
  -- 596, 708
  | .errFree x res => some (freeBlk s x v.junk, .fin res)
  /- `trackingAllocationMerge`, 630-718 -/
  -- 646-662; a mismatch ends in `assert(0)`
  | .mgCheck x ll la lh ha =>
    match op with
    | .merge l h =>
      if ll ≠ lh then none
      else if (s.heap la).pool ≠ (s.heap ha).pool then none
      else if ((s.heap la).size + (s.heap ha).size) % W ≠ (l.size + h.size) % W then none
      else some (setKids s x ((s.heap la).nch + (s.heap ha).nch), .mgUp x ll la lh ha)
    | _ => none
  -- 664-669
  | .mgUp x ll la lh ha => if v.ok = true then some (s, .mgPut x ll la lh ha) else some (s, .errUnlock x .upstream)
  -- 671-680
  | .mgPut x ll la lh ha => some (setLv s ll (put (s.lv ll) (target op none) x), .mgFreeLow la lh ha)
  -- 683
  | .mgFreeLow la lh ha => some (freeBlk s la v.junk, .mgRemove lh ha)
  -- 685-687
  | .mgRemove lh ha =>
    match op with
    | .merge _ h => if look? (s.lv lh) h.ptr = some ha then some (setLv s lh (del (s.lv lh) h.ptr), .freeLast ha) else none
    | _ => none
  /- `umfMemoryTrackerGetAllocInfo`, 357-409 -/
  | .lkFind lvl top =>
    match findLe (s.lv lvl) (target op none) with
    | none => some (s, .lkEnd top)
    | some e => some (s, .lkLoad lvl top e.1 e.2)
  | .lkLoad lvl top k a => if target op none < endOf s k a then some (s, .lkKids lvl k a) else some (s, .lkMore lvl top k a)
  | .lkKids lvl k a =>
    if (s.heap a).nch = 0 ∨ lvl = 7 then some (s, .lkEnd (some (k, a))) else some (s, .lkMore (lvl + 1) (some (k, a)) k a)
  | .lkMore lvl top k a =>
    if target op none < endOf s k a ∧ (s.heap a).nch ≠ 0 then some (s, .lkFind lvl top) else some (s, .lkEnd top)
  | .lkEnd top =>
    match top with
    | none => some (s, .fin .invalidArgument)
    | some e => some (s, .fin (.found e.1 (s.heap e.2).size (s.heap e.2).pool))
  | .fin res => some (s, .fin res)

/-- Nothing is tracked. -/
def init : St := ⟨fun _ => [], fun _ => ⟨0, 0, 0⟩, fun _ => false, none⟩

end Verif.TrkConc
