/-!
# Model of pool creation and destruction (`src/memory_pool.c`), with the tracking wrapper

Only the life time of the objects is modelled: every function yields the list of objects that it creates and
releases, in order. What can fail is given by `Fail`. A pool is known by a number, and so is a
provider of the caller.
-/
namespace Verif.Api.Pool

/-- What belongs to one pool: its structure, its mutex, the private data made by the pool's
`initialize` and released by its `finalize`; the wrapper provider, its private data, its map of
exported handles and its cache of opened handles. -/
inductive Kind where
  | mem | lock | priv | wrapper | wrapperPriv | ipcMap | openedCache
deriving DecidableEq, Repr

inductive Obj where
  | pool (id : Nat) (k : Kind)
  | provider (h : Nat)
deriving DecidableEq, Repr

/-- An object is made, an object is released, a null pointer is used. -/
inductive Ev where
  | acquire (o : Obj)
  | release (o : Obj)
  | crash
deriving DecidableEq, Repr

/-- What succeeds: memory for the pool, the tracker exists, the map, the cache, memory for the
wrapper and for its private data, the mutex, the pool's own `initialize`. -/
structure Fail where
  mem : Bool
  tracker : Bool
  ipcMap : Bool
  cache : Bool
  wrapper : Bool
  wrapperPriv : Bool
  lock : Bool
  init : Bool

/-- A pool: number, provider, `UMF_POOL_CREATE_FLAG_DISABLE_TRACKING` not set,
`UMF_POOL_CREATE_FLAG_OWN_PROVIDER`, and whether its cache exists. -/
structure Pool where
  id : Nat
  h : Nat
  tracked : Bool
  own : Bool
  cache : Bool
deriving DecidableEq

/-- `umfTrackingMemoryProviderCreate`, `provider_tracking.c:1152-1181`, with `umfMemoryProviderCreate` and
`trackingInitialize` (775-790). The result of `umfIpcOpenedCacheCreate` is not checked. When
`umfMemoryProviderCreate` fails, the map and the cache are not released. -/
def createWrapper (id : Nat) (f : Fail) : Bool × List Ev :=
  if f.tracker = false then (false, [])
  else if f.ipcMap = false then (false, [])
  else
    let evs := .acquire (.pool id .ipcMap) ::
      (if f.cache then [.acquire (.pool id .openedCache)] else [])
    if f.wrapper = false then (false, evs)
    else if f.wrapperPriv = false then
      (false, evs ++ [.acquire (.pool id .wrapper), .release (.pool id .wrapper)])
    else (true, evs ++ [.acquire (.pool id .wrapper), .acquire (.pool id .wrapperPriv)])

/-- `umfMemoryProviderDestroy` of the wrapper (`memory_provider.c:225-230`) with `trackingFinalize`
(`provider_tracking.c:834-843`); `umfIpcOpenedCacheDestroy` uses its argument unchecked. -/
def destroyWrapper (id : Nat) (cache : Bool) : List Ev :=
  if cache then
    [.release (.pool id .openedCache), .release (.pool id .ipcMap), .release (.pool id .wrapperPriv),
      .release (.pool id .wrapper)]
  else [.crash]

/-- `umfPoolCreateInternal`, `memory_pool.c:51-115`; the pointers are not null. -/
def createPool (id h : Nat) (tracked own : Bool) (f : Fail) : Option Pool × List Ev :=
  if f.mem = false then (none, [])
  else
    let w := if tracked then createWrapper id f else (true, [])
    let evs := .acquire (.pool id .mem) :: w.2
    if w.1 = false then (none, evs ++ [.release (.pool id .mem)])
    else if f.lock = false then
      (none, evs ++ (if tracked then destroyWrapper id f.cache else []) ++ [.release (.pool id .mem)])
    else if f.init = false then
      (none, evs ++ [.acquire (.pool id .lock), .release (.pool id .lock)] ++
        (if tracked then destroyWrapper id f.cache else []) ++ [.release (.pool id .mem)])
    else (some ⟨id, h, tracked, own, f.cache⟩,
      evs ++ [.acquire (.pool id .lock), .acquire (.pool id .priv)])

/-- `umfPoolDestroy`, `memory_pool.c:117-139`. -/
def destroyPool (p : Pool) : List Ev :=
  .release (.pool p.id .priv) ::
    ((if p.tracked then destroyWrapper p.id p.cache else []) ++
    (if p.own then [.release (.provider p.h)] else []) ++
    [.release (.pool p.id .lock), .release (.pool p.id .mem)])

end Verif.Api.Pool
