import Verif.Tracker.Model
import Verif.Mem
/-! # Specification vocabulary for the memory tracker (C14, C15, C16, C35) -/
namespace Verif.Tracker
open Mem

/-- An allocation a pool got from its provider. -/
structure Alloc where
  ptr : Nat
  size : Nat
  pool : Nat
deriving Repr, DecidableEq

def Alloc.range (a : Alloc) : Region := (a.ptr, a.size)

/-- Ranges a provider may return: not empty, not null, inside the address space, and each live
allocation either has no byte in common with it or contains it (a pool that serves as a provider
hands out parts of its own allocations). -/
structure Fresh (live : List Alloc) (r : Region) : Prop where
  ptr : 0 < r.1
  size : 0 < r.2
  bound : r.1 + r.2 < 2 ^ 64
  nested : ∀ a ∈ live, Disjoint r a.range ∨ Inside r a.range

/-- `Reach oom st live`: the tracker after some history of the pools' tracking providers; `live`
are the tracked allocations, newest first. With `oom = false` no host allocation fails after the
upstream provider has been called, and `live` are the allocations as the upstream providers see
them. An allocation is freed or split only when no newer allocation lies in it. Missing
operations: requests the providers answer inconsistently (not `Fresh`) and merging nested
allocations (`C16_nestedMerge_violated`). -/
inductive Reach (oom : Bool) : St → List Alloc → Prop where
  | init : Reach oom empty []
  | alloc {st live pool size ptr host st'} : Reach oom st live → Fresh live (ptr, size) →
      trackingAlloc st pool size (.ok ptr) host = (st', .success, ptr, none) →
      Reach oom st' (⟨ptr, size, pool⟩ :: live)
  | allocFail {st live pool size up host st' r back} : Reach oom st live →
      trackingAlloc st pool size up host = (st', r, 0, back) → Reach oom st' live
  | free {st l1 a l2 size host} : Reach oom st (l1 ++ a :: l2) →
      (∀ b ∈ l1, Disjoint b.range a.range) →
      Reach oom (trackingFree st a.pool a.ptr size none host).1 (l1 ++ l2)
  | freeFail {st l1 a l2 code} : Reach oom st (l1 ++ a :: l2) →
      (∀ b ∈ l1, Disjoint b.range a.range) →
      Reach oom (trackingFree st a.pool a.ptr a.size (some code) true).1 (l1 ++ a :: l2)
  | freeLost {st l1 a l2 code} : oom = true → Reach oom st (l1 ++ a :: l2) →
      (∀ b ∈ l1, Disjoint b.range a.range) →
      Reach oom (trackingFree st a.pool a.ptr a.size (some code) false).1 (l1 ++ l2)
  | split {st l1 a l2 first st' r} : Reach oom st (l1 ++ a :: l2) →
      (∀ b ∈ l1, Disjoint b.range a.range) →
      trackingSplit st a.pool a.ptr a.size first none true true = (st', r, true) →
      Reach oom st' (l1 ++ ⟨a.ptr + first, a.size - first, a.pool⟩ :: ⟨a.ptr, first, a.pool⟩ :: l2)
  | splitRefused {st live pool ptr total first up host1 host2 st' r} : Reach oom st live →
      trackingSplit st pool ptr total first up host1 host2 = (st', r, false) → Reach oom st' live
  | splitLost {st live pool ptr total first up host1 st' r} : oom = true → Reach oom st live →
      trackingSplit st pool ptr total first up host1 false = (st', r, true) → Reach oom st' live
  | merge {st live lo hi st' r} : Reach oom st live → lo ∈ live → hi ∈ live.erase lo →
      hi.ptr = lo.ptr + lo.size → hi.pool = lo.pool →
      (∀ c ∈ (live.erase lo).erase hi, Disjoint c.range (lo.ptr, lo.size + hi.size)) →
      trackingMerge st lo.pool lo.ptr hi.ptr (lo.size + hi.size) none true = (st', r, true) →
      Reach oom st' (⟨lo.ptr, lo.size + hi.size, lo.pool⟩ :: (live.erase lo).erase hi)
  | mergeRefused {st live pool lo hi total up host st' r} : Reach oom st live →
      trackingMerge st pool lo hi total up host = (st', r, false) → Reach oom st' live

/-- The live allocation that owns address `x`: it contains `x`, no newer one does, and every
older one that does contains all of it. -/
def Innermost (live : List Alloc) (x : Nat) (a : Alloc) : Prop :=
  ∃ l1 l2, live = l1 ++ a :: l2 ∧ Has a.range x ∧ (∀ b ∈ l1, ¬ Has b.range x) ∧
    ∀ b ∈ l2, Has b.range x → Inside a.range b.range

/-- `Tracked st a`: some level map has an entry for `a`. -/
def Tracked (st : St) (a : Alloc) : Prop :=
  ∃ l e, l < 8 ∧ e ∈ st.lv l ∧ e.key = a.ptr ∧ e.size = a.size ∧ e.pool = a.pool

end Verif.Tracker
