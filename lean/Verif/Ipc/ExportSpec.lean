import Verif.Ipc.Export
import Verif.Tracker.Spec
/-! # Specification vocabulary for exported memory (C18) -/
namespace Verif.Ipc
open Mem Tracker

/-- `PReach ps live made`: a process after some history of allocating, freeing and exporting;
`live`: the allocations, newest first; `made`: the handles handed out. A pool never gets
overlapping allocations. Missing operations: splitting and merging (`C18_merge_violated`,
`C18_reuse_violated`). -/
inductive PReach : PSt → List Alloc → List Handle → Prop where
  | init : PReach PSt.empty [] []
  | alloc {ps live made pool size ptr host st'} : PReach ps live made → Fresh live (ptr, size) →
      (∀ a ∈ live, a.pool = pool → Disjoint a.range (ptr, size)) →
      trackingAlloc ps.tr pool size (.ok ptr) host = (st', .success, ptr, none) →
      PReach { ps with tr := st' } (⟨ptr, size, pool⟩ :: live) made
  | free {ps l1 a l2 made size host} : PReach ps (l1 ++ a :: l2) made →
      (∀ b ∈ l1, Disjoint b.range a.range) →
      PReach (freeP ps a.pool a.ptr size none host) (l1 ++ l2) made
  | freeFail {ps l1 a l2 made code} : PReach ps (l1 ++ a :: l2) made →
      (∀ b ∈ l1, Disjoint b.range a.range) →
      PReach (freeP ps a.pool a.ptr a.size (some code) true) (l1 ++ a :: l2) made
  | export {ps live made x up host ps' h} : PReach ps live made →
      getHandle ps x up host = (ps', .success, some h) → PReach ps' live (h :: made)
  | exportFail {ps live made x up host ps' r} : PReach ps live made →
      getHandle ps x up host = (ps', r, none) → PReach ps' live made

end Verif.Ipc
