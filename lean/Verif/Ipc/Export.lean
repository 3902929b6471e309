import Verif.Tracker.Model
/-!
# Model of exporting memory: `umfGetIPCHandle` and the handle cache of the tracking provider

The tracker is `Verif.Tracker`; a pool's tracking provider keeps the handles it made by address.
-/
namespace Verif.Ipc

/-- `ipc_cache_value_t`, `provider_tracking.c:449-453`. The upstream provider's data describes the
memory it was made for: first address and size. -/
structure HVal where
  hid : Nat
  dataBase : Nat
  dataSize : Nat
deriving Repr, DecidableEq

/-- `umf_ipc_data_t`, `ipc_internal.h:23-30`, with the provider's data. -/
structure Handle where
  hid : Nat
  base : Nat
  size : Nat
  offset : Nat
  dataBase : Nat
  dataSize : Nat
deriving Repr, DecidableEq

/-- The tracker, the handles cached by (pool, address), and `IPC_HANDLE_ID`. -/
structure PSt where
  tr : Tracker.St
  cache : List ((Nat × Nat) × HVal)
  nextId : Nat

/-- The initial state: `provider_tracking.c:33`, `1164`. -/
def PSt.empty : PSt := ⟨Tracker.empty, [], 0⟩

/-- `critnib_get(p->ipcCache, ptr)`, `provider_tracking.c:907`. -/
def PSt.cached (ps : PSt) (pool base : Nat) : Option HVal :=
  (ps.cache.find? fun c => c.1 == (pool, base)).map Prod.snd

/-- The results of `umfGetIPCHandle`, `ipc.c:53-104`. -/
inductive ExpRes where
  | success
  | invalidArgument
  | outOfHostMemory
  | upstream (code : Nat)
deriving Repr, DecidableEq

/-- The handle for address `x` of an allocation, `ipc.c:94-100`, `provider_tracking.c:963-967`. -/
def mkHandle (v : HVal) (base size x : Nat) : Handle :=
  ⟨v.hid, base, size, x - base, v.dataBase, v.dataSize⟩

/-- `umfGetIPCHandle` and `trackingGetIpcHandle`, `ipc.c:53-104`, `provider_tracking.c:896-971`;
`up`: upstream's error, if any; `host`: host memory is available. Simplification: one thread at a
time makes a handle for an address. -/
def getHandle (ps : PSt) (x : Nat) (up : Option Nat) (host : Bool) : PSt × ExpRes × Option Handle :=
  match Tracker.getAllocInfo ps.tr x with
  | none => (ps, .invalidArgument, none)
  | some (base, size, pool) =>
    match ps.cached pool base with
    | some v => if host then (ps, .success, some (mkHandle v base size x))
        else (ps, .outOfHostMemory, none)
    | none =>
      if host = false then (ps, .outOfHostMemory, none)
      else match up with
        | some c => (ps, .upstream c, none)
        | none =>
          let v : HVal := ⟨ps.nextId + 1, base, size⟩
          ({ ps with cache := ((pool, base), v) :: ps.cache, nextId := ps.nextId + 1 }, .success,
            some (mkHandle v base size x))

/-- `trackingFree`, `provider_tracking.c:720-773`, with the handle cache (line 741). -/
def freeP (ps : PSt) (pool ptr size : Nat) (up : Option Nat) (host : Bool) : PSt :=
  { ps with
    tr := (Tracker.trackingFree ps.tr pool ptr size up host).1
    cache := ps.cache.filter fun c => c.1 ≠ (pool, ptr) }

/-- `trackingAllocationMerge`, `provider_tracking.c:605-718`: does not touch the handle cache. -/
def mergeP (ps : PSt) (pool low high total : Nat) : PSt :=
  { ps with tr := (Tracker.trackingMerge ps.tr pool low high total none true).1 }

/-- `trackingAllocationSplit`, `provider_tracking.c:500-603`: does not touch the handle cache. -/
def splitP (ps : PSt) (pool ptr total first : Nat) : PSt :=
  { ps with tr := (Tracker.trackingSplit ps.tr pool ptr total first none true true).1 }

/-- `trackingAlloc`, `provider_tracking.c:465-498`: does not touch the handle cache. -/
def allocP (ps : PSt) (pool size ptr : Nat) : PSt :=
  { ps with tr := (Tracker.trackingAlloc ps.tr pool size (.ok ptr) true).1 }

end Verif.Ipc
