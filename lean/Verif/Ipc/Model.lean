import Verif.Mem
/-!
# Model of `src/ipc_cache.c` and of the opening side of `src/provider/provider_tracking.c`

Opened IPC mappings. A tracking provider has one cache; all caches share one list in
least-recently-used order, one size and one limit. The provider is part of the key
(`provider_tracking.c:1074-1077`), so a lookup in a provider's hash table is a lookup in the
common list by key. Entries keep their identity (their address) when reused.

Each operation is split where the code releases the lock, so histories are interleavings:
`get` (under `cache_lock`), `mapStep` (under the entry's `mmap_lock`), `evictCb` (the callback after
the lock is released), `close`, `destroy` (under `cache_lock`).
-/
namespace Verif.Ipc

/-- `ipc_opened_cache_key_t`, `ipc_cache.h:17-21`. -/
structure Key where
  remote : Nat
  prov : Nat
  pid : Nat
deriving Repr, DecidableEq

/-- `ipc_opened_cache_entry_t`, `ipc_cache.c:30-39`; `base = 0`: not mapped yet. -/
structure CEnt where
  id : Nat
  key : Key
  hid : Nat
  ref : Nat
  base : Nat
  size : Nat
deriving Repr, DecidableEq

/-- Entry of `ipc_segments_map`: address and `tracker_ipc_info_t`, `provider_tracking.c:55-59`. -/
structure Seg where
  base : Nat
  size : Nat
  prov : Nat
  id : Nat
deriving Repr, DecidableEq

/-- A mapping made by the upstream provider of tracking provider `prov`. -/
structure Mapping where
  prov : Nat
  base : Nat
  size : Nat
deriving Repr, DecidableEq

/-- `ipc_opened_cache_global_t`, `ipc_cache.c:41-47` (`lru`: head is the most recently used),
`ipc_segments_map`, eviction callbacks not made yet (with the provider of the key they get), and
the mappings the upstream providers hold open. -/
structure St where
  max : Nat
  cur : Nat
  lru : List CEnt
  segs : List Seg
  evict : List Mapping
  maps : List Mapping
deriving Repr, DecidableEq

inductive Res where
  | success
  | outOfHostMemory
  | invalidArgument
  | unknown
  | upstream (code : Nat)
  | ub
deriving Repr, DecidableEq

/-- `umfIpcCacheGlobalInit`, `ipc_cache.c:73-109`; `max = 0`: no limit. -/
def init (max : Nat) : St := ⟨max, 0, [], [], [], []⟩

/-- `HASH_FIND`, `ipc_cache.c:197`. -/
def lookup (l : List CEnt) (key : Key) : Option CEnt := l.find? fun e => e.key == key

/-- The search for an eviction candidate, `ipc_cache.c:207-221`: the least recently used entry
whose reference count is 0. -/
def candidate (l : List CEnt) : Option CEnt := l.reverse.find? fun e => e.ref == 0

/-- An entry is taken out and reused, `ipc_cache.c:224-232`, `248-257`, `262`. The callback is
called with the new key (`ipc_cache.c:268-270`). -/
def replace (s : St) (e : CEnt) (key : Key) (hid : Nat) : St :=
  { s with
    lru := ⟨e.id, key, hid, 1, 0, 0⟩ :: s.lru.filter fun f => f.id ≠ e.id
    cur := s.cur - 1 + 1
    evict := ⟨key.prov, e.base, e.size⟩ :: s.evict }

/-- A new entry, `ipc_cache.c:233-246`, `248-257`, `262`. -/
def fresh (s : St) (key : Key) (hid newId : Nat) (host : Bool) : St × Res × Nat :=
  if host = false then (s, .outOfHostMemory, 0)
  else ({ s with lru := ⟨newId, key, hid, 1, 0, 0⟩ :: s.lru, cur := s.cur + 1 }, .success, newId)

/-- `umfOpenedIpcCacheGet`, `ipc_cache.c:178-273`, up to releasing the lock. `newId`: address of
the new entry, if one is allocated; the result has the address of the entry. -/
def get (s : St) (key : Key) (hid newId : Nat) (host : Bool) : St × Res × Nat :=
  match lookup s.lru key with
  | some e =>
    if e.hid = hid then
      ({ s with lru := { e with ref := e.ref + 1 } :: s.lru.filter fun f => f.id ≠ e.id },
        .success, e.id)
    else (replace s e key hid, .success, e.id)
  | none =>
    if s.max ≠ 0 ∧ s.cur ≥ s.max then
      match candidate s.lru with
      | some e => (replace s e key hid, .success, e.id)
      | none => fresh s key hid newId host
    else fresh s key hid newId host

/-- `umfMemoryTrackerRemoveIpcSegment`, `provider_tracking.c:322-345`. -/
def removeSeg (segs : List Seg) (base : Nat) : List Seg := segs.filter fun g => g.base ≠ base

/-- `ipcOpenedCacheEvictionCallback`, `provider_tracking.c:982-1008`, for a pending call. Closing
with a provider that does not hold the mapping has no effect. -/
def evictCb (s : St) (m : Mapping) : St :=
  { s with
    evict := s.evict.erase m
    segs := if m.base ≠ 0 then removeSeg s.segs m.base else s.segs
    maps := s.maps.erase m }

/-- Upstream's answer to opening a handle. -/
inductive UpOpen where
  | fail (code : Nat)
  | ok (base : Nat)
deriving Repr, DecidableEq

/-- The rest of `trackingOpenIpcHandle` and `upstreamOpenIPCHandle`, `provider_tracking.c:1085-1108`,
`1010-1057`, `279-320`: provider `prov` got entry `id`. `size`: `baseSize` of the handle. If the
mapping cannot be tracked it is closed again. The reference count is not decremented on failure. -/
def mapStep (s : St) (prov id size : Nat) (up : UpOpen) (host : Bool) : St × Res × Nat :=
  match s.lru.find? fun e => e.id == id with
  | none => (s, .ub, 0)
  | some e =>
    if e.base ≠ 0 then (s, .success, e.base)
    else
      match up with
      | .fail c => (s, .upstream c, 0)
      | .ok b =>
        if host = false then (s, .outOfHostMemory, 0)
        else if s.segs.any fun g => g.base == b then (s, .unknown, 0)
        else
          ({ s with
              lru := s.lru.map fun f => if f.id = id then { f with base := b, size := size } else f
              segs := ⟨b, size, prov, id⟩ :: s.segs
              maps := ⟨prov, b, size⟩ :: s.maps }, .success, b)

/-- `critnib_find(ipc_segments_map, ptr, FIND_LE, ..)`. -/
def segLe : List Seg → Nat → Option Seg
  | [], _ => none
  | g :: l, x =>
    match segLe l x with
    | none => if g.base ≤ x then some g else none
    | some f => if g.base ≤ x ∧ f.base < g.base then some g else some f

/-- `umfMemoryTrackerGetIpcInfo`, `provider_tracking.c:411-444`. -/
def ipcInfo (s : St) (x : Nat) : Option Seg :=
  if x = 0 then none
  else
    match segLe s.segs x with
    | none => none
    | some g => if x ≥ (g.base + g.size) % 2 ^ 64 then none else some g

/-- `umfIpcHandleMappedCacheRelease`, `ipc_cache.c:275-290`. The decrement wraps at 0; increments
are not bounded (simplification: fewer than `2 ^ 64` opens are outstanding). -/
def release (s : St) (id : Nat) : St × Res :=
  if s.lru.any fun e => e.id == id then
    ({ s with lru := s.lru.map fun f =>
        if f.id = id then { f with ref := if f.ref = 0 then 2 ^ 64 - 1 else f.ref - 1 } else f }, .success)
  else (s, .ub)

/-- `umfCloseIPCHandle` and `trackingCloseIpcHandle`, `ipc.c:148-158`,
`provider_tracking.c:1110-1130`. -/
def close (s : St) (x : Nat) : St × Res :=
  match ipcInfo s x with
  | none => (s, .invalidArgument)
  | some g => release s g.id

/-- One step of the loop of `umfIpcOpenedCacheDestroy`, `ipc_cache.c:164-171`. -/
def destroyOne (s : St) (e : CEnt) : St :=
  { s with
    lru := s.lru.filter fun f => f.id ≠ e.id
    cur := s.cur - 1
    segs := if e.base ≠ 0 then removeSeg s.segs e.base else s.segs
    maps := s.maps.erase ⟨e.key.prov, e.base, e.size⟩ }

/-- `umfIpcOpenedCacheDestroy`, `ipc_cache.c:160-176` (in list order). -/
def destroy (s : St) (prov : Nat) : St :=
  (s.lru.filter fun e => e.key.prov = prov).foldl destroyOne s

/-- `umfOpenIPCHandle`, `ipc.c:123-146`: the address for the client. -/
def openedPtr (base offset : Nat) : Nat := (base + offset) % 2 ^ 64

end Verif.Ipc
