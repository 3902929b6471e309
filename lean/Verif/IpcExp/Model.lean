/-!
# Making IPC handles from several threads

`src/ipc.c`: `umfPoolGetIPCHandleSize`, `umfGetIPCHandle` and `umfPutIPCHandle`; `src/provider/provider_tracking.c`:
`trackingGetIpcHandle` and `trackingFree`. Every call of the tracker, of the cache of handles, of the global allocator and of
the upstream provider is a step of its own, and so is every access to memory that another thread may use. The answers of the
upstream provider and of the global allocator are chosen by the environment at each step.

Simplifications. Memory is sequentially consistent. An operation of the radix tree is one step (`Critnib/ConcProps.lean`
proves this of `critnib_get` and of the writers). There is one pool, its regions are not nested, and the tracker is a list of
regions (`TrkConc` models its inside). `utils_getpid` and the log messages are left out. Splitting and merging, which do not
touch the cache of handles, are left to `Ipc/Export.lean`.
-/
namespace Verif.IpcExp

def upd {α : Type} (f : Nat → α) (a : Nat) (x : α) : Nat → α := fun b => if b = a then x else f b

/-- `umf_ipc_data_t`, `src/ipc_internal.h` 23-30, without the process id. `prov` stands for the bytes in `providerIpcData`:
the number of the upstream handle that they are. -/
structure Handle where
  id : Nat
  base : Nat
  size : Nat
  off : Nat
  prov : Nat
deriving DecidableEq, Repr

/-- `ipc_cache_value_t`, `provider_tracking.c` 446-453: the id, the length of the upstream handle, and the upstream handle. -/
structure Val where
  id : Nat
  len : Nat
  prov : Nat
deriving DecidableEq, Repr

/-- A block of the global allocator: a value of the cache, or a handle of the user. `none` before it is filled in. -/
inductive Obj where
  | val (v : Option Val)
  | data (h : Option Handle)
deriving DecidableEq, Repr

/-- What the calls return. -/
inductive Res where
  /-- success with the block of the handle -/
  | handle (d : Nat)
  | ok
  | invalidArgument
  | oom
  /-- what the upstream provider returned -/
  | upstream (c : Nat)
deriving DecidableEq, Repr

/-- The local variables of `umfGetIPCHandle` once it has its block: the pointer, the base and the size of its allocation, the
block, and the room for the upstream handle in it. -/
structure Loc where
  x : Nat
  b : Nat
  sz : Nat
  d : Nat
  room : Nat
deriving DecidableEq, Repr

/-- Where a thread is. -/
inductive Pc where
  | idle
  /-- `umfGetIPCHandle`, ipc.c 62: `umfMemoryTrackerGetAllocInfo` -/
  | lookup (x : Nat)
  /-- ipc.c 68: `umfPoolGetIPCHandleSize`, which asks the upstream provider -/
  | size1 (x b sz : Nat)
  /-- ipc.c 74: the block for the user -/
  | alloc1 (x b sz room : Nat)
  /-- `trackingGetIpcHandle`, provider_tracking.c 907: `critnib_get` -/
  | look (g : Loc)
  /-- 912: the size of the upstream handle -/
  | size2 (g : Loc)
  /-- 920: the block for the cache -/
  | alloc2 (g : Loc) (len : Nat)
  /-- 926: the upstream handle -/
  | upget (g : Loc) (v len : Nat)
  /-- 934-935: the id -/
  | fill (g : Loc) (v len u : Nat)
  /-- 937: `critnib_insert` -/
  | ins (g : Loc) (v : Nat)
  /-- 951: the upstream handle is put back; `full` is `insRes == ENOMEM` -/
  | put (g : Loc) (v : Nat) (full : Bool)
  /-- 930 and 953: the block of the cache is freed; then the call fails (`some`) or looks again (`none`) -/
  | freeV (g : Loc) (v : Nat) (r : Option Res)
  /-- 966-968, and ipc.c 93-100 -/
  | copy (g : Loc) (v : Nat)
  /-- ipc.c 88: the block of the user is freed -/
  | freeD (g : Loc) (r : Res)
  /-- the call returns -/
  | done (x : Nat) (r : Res)
  /-- `trackingFree`, 731: `umfMemoryTrackerRemove` -/
  | free0 (b sz : Nat)
  /-- 741: `critnib_remove` -/
  | free1 (b sz : Nat)
  /-- 744: the upstream handle is put back -/
  | freePut (b sz v : Nat)
  /-- 751: the block of the cache is freed -/
  | freeVal (b sz v : Nat)
  /-- 754: `umfMemoryProviderFree` of the upstream provider -/
  | freeUp (b sz : Nat)
  /-- 763: the region is added to the tracker again -/
  | freeAdd (b sz c : Nat)
  /-- `trackingFree` returns -/
  | freed (b sz : Nat) (r : Res)
deriving DecidableEq, Repr

structure St where
  /-- the regions of the tracker: base and size -/
  regs : List (Nat × Nat)
  /-- `ipcCache` -/
  cache : Nat → Option Nat
  /-- the blocks of the global allocator in use -/
  obj : Nat → Option Obj
  /-- the handles that the upstream provider has made and that were not put back: for which base and size -/
  ups : Nat → Option (Nat × Nat)
  /-- `IPC_HANDLE_ID`, provider_tracking.c 33. Simplification: it does not wrap around. -/
  nextId : Nat
  pc : Nat → Pc
  /-- a block was used or freed that is not in use, written past its end, or an upstream handle put back that is not out -/
  bad : Bool

def St.init : St :=
  ⟨[], fun _ => none, fun _ => none, fun _ => none, 0, fun _ => .idle, false⟩

/-- What the environment answers in a step: a number (a block, an upstream handle, a size), or an error with its code. -/
inductive Ans where
  | yes (n : Nat)
  | no (c : Nat)
deriving DecidableEq, Repr

/-- `umfMemoryTrackerGetAllocInfo`, 357-412, for regions that are not nested. -/
def find (regs : List (Nat × Nat)) (x : Nat) : Option (Nat × Nat) :=
  regs.find? fun r => decide (r.1 ≤ x ∧ x < r.1 + r.2)

def St.to (s : St) (t : Nat) (p : Pc) : St := { s with pc := upd s.pc t p }

def St.fail (s : St) : St := { s with bad := true }

/-- `umf_ba_global_free` of a block. -/
def St.gfree (s : St) (o : Nat) : St :=
  match s.obj o with
  | some _ => { s with obj := upd s.obj o none }
  | none => s.fail

/-- `umfMemoryProviderPutIPCHandle` of the upstream provider on the handle in the block `o`. -/
def St.uput (s : St) (o : Nat) : St :=
  match s.obj o with
  | some (.val (some v)) =>
    match s.ups v.prov with
    | some _ => { s with ups := upd s.ups v.prov none }
    | none => s.fail
  | _ => s.fail

/-- provider_tracking.c 934-935: the id and the length are written into the block. -/
def St.fillV (s : St) (v len u : Nat) : St :=
  match s.obj v with
  | some (.val _) => { s with obj := upd s.obj v (some (.val (some ⟨s.nextId + 1, len, u⟩))), nextId := s.nextId + 1 }
  | _ => s.fail

/-- provider_tracking.c 966-968 and ipc.c 93-97: the handle of the user is written. -/
def St.copyV (s : St) (g : Loc) (v : Nat) : St :=
  match s.obj v, s.obj g.d with
  | some (.val (some c)), some (.data _) =>
    if c.len ≤ g.room then
      { s with obj := upd s.obj g.d (some (.data (some ⟨c.id, g.b, g.sz, g.x - g.b, c.prov⟩))) }
    else s.fail
  | _, _ => s.fail

/-- One step of thread `t`. `umfGetIPCHandle`, ipc.c 53-104; `trackingGetIpcHandle`, provider_tracking.c 896-971;
`trackingFree`, 720-774. -/
def step (s : St) (t : Nat) (a : Ans) : St :=
  match s.pc t with
  | .idle => s
  | .lookup x =>
    match find s.regs x with
    | some (b, sz) => s.to t (.size1 x b sz)
    | none => s.to t (.done x .invalidArgument)
  | .size1 x b sz =>
    match a with
    | .yes n => s.to t (.alloc1 x b sz n)
    | .no c => s.to t (.done x (.upstream c))
  | .alloc1 x b sz room =>
    match a with
    | .yes d => { s with obj := upd s.obj d (some (.data none)) }.to t (.look ⟨x, b, sz, d, room⟩)
    | .no _ => s.to t (.done x .oom)
  | .look g =>
    match s.cache g.b with
    | some v => s.to t (.copy g v)
    | none => s.to t (.size2 g)
  | .size2 g =>
    match a with
    | .yes n => s.to t (.alloc2 g n)
    | .no c => s.to t (.freeD g (.upstream c))
  | .alloc2 g len =>
    match a with
    | .yes v => { s with obj := upd s.obj v (some (.val none)) }.to t (.upget g v len)
    | .no _ => s.to t (.freeD g .oom)
  | .upget g v len =>
    match a with
    | .yes u => { s with ups := upd s.ups u (some (g.b, g.sz)) }.to t (.fill g v len u)
    | .no c => s.to t (.freeV g v (some (.upstream c)))
  | .fill g v len u => (s.fillV v len u).to t (.ins g v)
  | .ins g v =>
    match s.cache g.b with
    | some _ => s.to t (.put g v false)
    | none =>
      match a with
      | .yes _ => { s with cache := upd s.cache g.b (some v) }.to t (.copy g v)
      | .no _ => s.to t (.put g v true)
  | .put g v full =>
    match a with
    | .yes _ => (s.uput v).to t (.freeV g v (if full then some .oom else none))
    | .no c => (s.uput v).to t (.freeV g v (some (.upstream c)))
  | .freeV g v r =>
    match r with
    | some r => (s.gfree v).to t (.freeD g r)
    | none => (s.gfree v).to t (.look g)
  | .copy g v => (s.copyV g v).to t (.done g.x (.handle g.d))
  | .freeD g r => (s.gfree g.d).to t (.done g.x r)
  | .done _ _ => s
  | .free0 b sz => { s with regs := s.regs.filter fun r => decide (r.1 ≠ b) }.to t (.free1 b sz)
  | .free1 b sz =>
    match s.cache b with
    | some v => { s with cache := upd s.cache b none }.to t (.freePut b sz v)
    | none => s.to t (.freeUp b sz)
  | .freePut b sz v => (s.uput v).to t (.freeVal b sz v)
  | .freeVal b sz v => (s.gfree v).to t (.freeUp b sz)
  | .freeUp b sz =>
    match a with
    | .yes _ => s.to t (.freed b sz .ok)
    | .no c => s.to t (.freeAdd b sz c)
  | .freeAdd b sz c =>
    match a with
    | .yes _ => { s with regs := (b, sz) :: s.regs }.to t (.freed b sz (.upstream c))
    | .no _ => s.to t (.freed b sz (.upstream c))
  | .freed _ _ _ => s

/-- `umfPutIPCHandle`, ipc.c 106-121. -/
def putHandle (s : St) (d : Nat) : St := s.gfree d

end Verif.IpcExp
