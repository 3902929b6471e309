import Verif.Ipc.Model
/-! # Specification vocabulary for opened IPC mappings (C17, C18) -/
namespace Verif.Ipc
open Mem

/-- A mapping some client has opened and not closed: the remote memory (key and handle), and the
address of the mapping. -/
structure Opened where
  key : Key
  hid : Nat
  base : Nat
deriving Repr, DecidableEq

def Mapping.range (m : Mapping) : Region := (m.base, m.size)

/-- An address an upstream provider may return for a new mapping. -/
structure FreshMap (maps : List Mapping) (base size : Nat) : Prop where
  pos : 0 < base
  nonempty : 0 < size
  bound : base + size < 2 ^ 64
  apart : ∀ m ∈ maps, Disjoint (base, size) m.range

/-- `Reach sz max s pend op lost`: `s` is reachable with limit `max`. `sz key hid`: size of the
memory behind a handle. `pend`: entries of threads that are between the two parts of an open;
`op`: opened and not closed; `lost`: entries of failed opens. A handle is opened for memory that
is not cached under another handle (`C17_newHandle_violated`), clients close only what they
opened (at any address in it), and a provider is destroyed when nothing is open. -/
inductive Reach (sz : Key → Nat → Nat) (max : Nat) :
    St → List Nat → List Opened → List Nat → Prop where
  | init : Reach sz max (init max) [] [] []
  | get {s pend op lost key hid newId host s' id} : Reach sz max s pend op lost →
      (∀ e ∈ s.lru, e.key = key → e.hid = hid) → (∀ e ∈ s.lru, e.id ≠ newId) →
      get s key hid newId host = (s', .success, id) → Reach sz max s' (id :: pend) op lost
  | getFail {s pend op lost key hid newId host s' r id} : Reach sz max s pend op lost →
      get s key hid newId host = (s', r, id) → r ≠ .success → Reach sz max s' pend op lost
  | map {s pend op lost e up host s' b} : Reach sz max s pend op lost → e ∈ s.lru → e.id ∈ pend →
      (∀ b, up = .ok b → FreshMap s.maps b (sz e.key e.hid)) →
      mapStep s e.key.prov e.id (sz e.key e.hid) up host = (s', .success, b) →
      Reach sz max s' (pend.erase e.id) (⟨e.key, e.hid, b⟩ :: op) lost
  | mapFail {s pend op lost e up host s' r b} : Reach sz max s pend op lost → e ∈ s.lru →
      e.id ∈ pend →
      mapStep s e.key.prov e.id (sz e.key e.hid) up host = (s', r, b) → r ≠ .success →
      Reach sz max s' (pend.erase e.id) op (e.id :: lost)
  | evict {s pend op lost m} : Reach sz max s pend op lost → m ∈ s.evict →
      Reach sz max (evictCb s m) pend op lost
  | close {s pend op lost t x s' r} : Reach sz max s pend op lost → t ∈ op →
      Has (t.base, sz t.key t.hid) x → close s x = (s', r) → Reach sz max s' pend (op.erase t) lost
  | destroy {s pend op lost prov} : Reach sz max s pend op lost →
      (∀ t ∈ op, t.key.prov ≠ prov) → (∀ e ∈ s.lru, e.key.prov = prov → e.id ∉ pend) →
      Reach sz max (destroy s prov) pend op
        (lost.filter fun i => (s.lru.filter fun e => e.key.prov = prov).all fun e => e.id ≠ i)

end Verif.Ipc
