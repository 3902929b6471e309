/-!
# Model of initialisation and shut-down (`src/libumf.c`)

Any number of threads call `umfInit` and `umfTearDown`. A step is one access to the shared variables; memory is sequentially
consistent. Creating an object and storing its address is one step: nothing else sees the object before. The predefined
memspaces and the topology, which shut-down also destroys, are modelled in `Verif.Memspace`; the logger in `Verif.Log`.

Three things that live longer than one initialisation are included: the global control tree, the control trees of providers and
pools, and the library opened by the scalable pool.
-/
namespace Verif.Init

/-- How the process runs: `utils_common.h:75-85`. -/
structure Cfg where
  /-- with the proxy library -/
  proxy : Bool
  /-- with the proxy library and a size threshold -/
  threshold : Bool

/-- Where a thread is. -/
inductive Pc where
  | idle
  /-- `umfInit` before lines 38, 46 and 53 -/
  | tracker | ipc | ctl
  /-- `umfTearDown` before line 72, and in `umfIpcCacheGlobalTearDown` with the cache, `ipc_cache.c:121-135` -/
  | downIpc | downFree (c : Option Nat)
  /-- before line 83, before line 85 with the tracker, before line 88, before line 92 -/
  | downTracker | downDestroy (t : Option Nat) | downBa | downLibs
deriving DecidableEq

/-- Shared state. Objects have numbers. -/
structure State where
  /-- `umfRefCount` -/
  count : Nat
  /-- `TRACKER`, `IPC_OPENED_CACHE_GLOBAL` -/
  tracker : Option Nat
  ipc : Option Nat
  /-- trackers and caches that exist -/
  objs : List Nat
  next : Nat
  /-- `ctl_global_first_free`, `ctl.c:49` -/
  ctl : Nat
  /-- `ba_is_destroyed`, `base_alloc_global.c:26` -/
  destroyed : Bool
  /-- how often the memory of the base allocator was given back -/
  epoch : Nat
  /-- allocations from the base allocator that were not given back -/
  mem : List Nat
  /-- `os_memory_ctl_root` with its once flag: `epoch` when it was allocated, `provider_os_memory.c:173-175` -/
  osRoot : Option Nat
  /-- `tbb_initialized`, `pool_scalable.c:88` -/
  tbbOnce : Bool
  /-- whether the library the function pointers point into is loaded -/
  tbbLoaded : Bool
  pc : Nat → Pc

/-- The state before the first initialisation. -/
def State.init : State where
  count := 0
  tracker := none
  ipc := none
  objs := []
  next := 0
  ctl := 0
  destroyed := false
  epoch := 0
  mem := []
  osRoot := none
  tbbOnce := false
  tbbLoaded := false
  pc := fun _ => .idle

/-- What a thread does: call `umfInit`, call `umfTearDown`, take the next step of the call it is in (`ok`: whether a creation
succeeds), or use the library: the control function of an OS provider, the creation of a scalable pool, an allocation from
the base allocator and giving it back. -/
inductive Act where
  | init
  | down
  | go (ok : Bool)
  | osCtl
  | scalable
  | alloc
  | free (i : Nat)
deriving DecidableEq

/-- What a caller sees. -/
inductive Ev where
  | initCall (t : Nat)
  | initRet (t : Nat) (r : Int)
  | downCall (t : Nat)
  | downRet (t : Nat)
  | allocRet (i : Nat)
deriving DecidableEq

def State.setPc (s : State) (t : Nat) (p : Pc) : State := { s with pc := fun u => if u = t then p else s.pc u }

/-- The number of entries of the global control tree, `CTL_MAX_ENTRIES`, `ctl.c:39`. -/
def ctlMax : Nat := 100

/-- The counter is `uint64_t`, `libumf.c:28`. -/
@[irreducible] def wrap : Nat := 2 ^ 64

/-- One less, in `uint64_t`. -/
def dec (n : Nat) : Nat := if n = 0 then wrap - 1 else n - 1

/-- `umfInit` up to the test, `libumf.c:36`. -/
def callInit (s : State) (t : Nat) : State × List Ev :=
  let s' := { s with count := (s.count + 1) % wrap }
  if s.count = 0 then (s'.setPc t .tracker, [.initCall t]) else (s', [.initCall t, .initRet t 0])

/-- `umfTearDown` up to the test, `libumf.c:64`. -/
def callDown (s : State) (t : Nat) : State × List Ev :=
  let s' := { s with count := dec s.count }
  if s.count = 1 then (s'.setPc t .downIpc, [.downCall t]) else (s', [.downCall t, .downRet t])

/-- The next step of a call. `none`: undefined behaviour. -/
def go (cfg : Cfg) (s : State) (t : Nat) (ok : Bool) : Option (State × List Ev) :=
  match s.pc t with
  | .idle => some (s, [])
  | .tracker =>
    -- `libumf.c:38-42`
    if ok then some ({ s with tracker := some s.next, objs := s.next :: s.objs, next := s.next + 1 }.setPc t .ipc, [])
    else some ({ s with tracker := none }.setPc t .idle, [.initRet t (-1)])
  | .ipc =>
    -- `libumf.c:46-50`, `ipc_cache.c:73-110`
    if ok then some ({ s with ipc := some s.next, objs := s.next :: s.objs, next := s.next + 1 }.setPc t .ctl, [])
    else some (s.setPc t .idle, [.initRet t (-1)])
  | .ctl =>
    -- `libumf.c:33`, `53-60`, `ctl.c:433-442`: no test whether the array is full
    if s.ctl < ctlMax then some ({ s with ctl := s.ctl + 1 }.setPc t .idle, [.initRet t 0]) else none
  | .downIpc => some ({ s with ipc := none }.setPc t (.downFree s.ipc), [])
  | .downFree c =>
    let p := if cfg.threshold then .downLibs else .downTracker
    match c with
    | none => some (s.setPc t p, [])
    | some i => if i ∈ s.objs then some ({ s with objs := s.objs.erase i }.setPc t p, []) else none
  | .downTracker => some ({ s with tracker := none }.setPc t (.downDestroy s.tracker), [])
  | .downDestroy c =>
    -- `provider_tracking.c:1254-1285`
    match c with
    | none => some (s.setPc t .downBa, [])
    | some i =>
      if cfg.proxy then some (s.setPc t .downBa, [])
      else if i ∈ s.objs then some ({ s with objs := s.objs.erase i }.setPc t .downBa, []) else none
  | .downBa =>
    -- `base_alloc_global.c:43-56`; with the proxy library memory in use is kept, `base_alloc.c:300-302`
    if cfg.proxy then some ({ s with destroyed := true }.setPc t .downLibs, [])
    else some ({ s with destroyed := true, objs := [], mem := [], epoch := s.epoch + 1 }.setPc t .downLibs, [])
  | .downLibs =>
    -- `pool_scalable.c:168-177`
    some ({ s with tbbLoaded := false }.setPc t .idle, [.downRet t])

/-- A step of thread `t`. Calls are made by threads that are not in a call. `none`: undefined behaviour. -/
def step (cfg : Cfg) (s : State) (t : Nat) (a : Act) : Option (State × List Ev) :=
  match a with
  | .go ok => go cfg s t ok
  | .init => if s.pc t = .idle then some (callInit s t) else some (s, [])
  | .down => if s.pc t = .idle then some (callDown s t) else some (s, [])
  | .osCtl =>
    -- `provider_os_memory.c:1531-1538`: the tree is made once and never again
    match s.osRoot with
    | none => some ({ s with osRoot := some s.epoch }, [])
    | some e => if e = s.epoch then some (s, []) else none
  | .scalable =>
    -- `pool_scalable.c:163-166`, `287-290`: the library is opened once and never again
    if s.tbbOnce then (if s.tbbLoaded then some (s, []) else none)
    else some ({ s with tbbOnce := true, tbbLoaded := true }, [])
  | .alloc => some ({ s with mem := s.next :: s.mem, next := s.next + 1 }, [.allocRet s.next])
  | .free i =>
    -- `base_alloc_global.c:203-212`
    if s.destroyed then some (s, []) else some ({ s with mem := s.mem.erase i }, [])

/-- A schedule: the steps of the threads, in order, with the events so far, newest first. -/
def run (cfg : Cfg) : State → List Ev → List (Nat × Act) → Option (State × List Ev)
  | s, evs, [] => some (s, evs)
  | s, evs, (t, a) :: rest =>
    match step cfg s t a with
    | none => none
    | some (s', es) => run cfg s' (es.reverse ++ evs) rest

end Verif.Init
