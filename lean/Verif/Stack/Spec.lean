import Verif.Stack.Model
import Verif.Disjoint.Spec
/-! # Specification vocabulary for disjoint pools on fixed providers (C70) -/
namespace Verif.Stack
open Mem

/-- What is assumed of the host allocator: the coarse allocator gets its free-list elements (see
`Verif.Coarse.C01_hostOom_violated`), and either fresh block descriptors have a zero `used` byte
or the second descriptor of an allocation can be allocated (see `C05_uninit_violated` there). All
other host allocations may fail. -/
structure OrcOk (o : Orc) : Prop where
  alloc : ∀ s, s = .freeAdd1 ∨ s = .freeAdd2 ∨ s = .reAdd → o.onAlloc s = true
  free : ∀ p s, s = .freeAdd1 ∨ s = .freeAdd2 ∨ s = .reAdd → o.onFree p s = true
  flag : o.garbage = false ∨ o.onAlloc .addNew2 = true

/-- No host allocation fails. -/
structure Calm (o : Orc) : Prop where
  slab : o.slab = true
  reg : o.reg = true
  trk : o.trk = true
  alloc : ∀ s, o.onAlloc s = true
  free : ∀ p s, o.onFree p s = true

/-- Pool parameters the theorems are about, see `Verif.Disjoint.CfgOk`. -/
structure ParamsOk (c : Disjoint.Cfg) : Prop where
  slabMin : 0 < c.slabMin
  maxPoolable : c.maxPoolable ≤ 2 ^ 31

/-- An allocation of the user: the pool, and the range `(pointer, requested size)`. -/
abbrev Alloc := Nat × Region

/-- `Hist s live`: the system after some history of calls; `live` are the user's allocations.
The user creates fixed providers on memory areas that have no byte in common, disjoint pools on
the providers, allocates, frees what was allocated, through `umfPoolFree` or `umfFree`, destroys
pools without live allocations, and providers without pools. -/
inductive Hist : Sys → List Alloc → Prop where
  | init : Hist init []
  | newProv {s live v m buf o s'} : Hist s live → OrcOk o → s.w.prov v = none →
      buf.1 + buf.2 < 2 ^ 64 → (∀ u f, s.w.prov u = some f → Mem.Disjoint f.buf buf) →
      newProv s v (2 ^ m) buf o = some s' → Hist s' live
  | dropProv {s live v} : Hist s live → (∀ k p, s.pool k = some p → p.prov ≠ v) →
      Hist (dropProv s v) live
  | newPool {s live k v c s'} : Hist s live → s.pool k = none → ParamsOk c →
      newPool s k v c = some s' → Hist s' live
  | dropPool {s live k o} : Hist s live → OrcOk o → (∀ a ∈ live, a.1 ≠ k) →
      Hist (dropPool s k o) live
  | malloc {s live k p size o s' q} : Hist s live → OrcOk o → s.pool k = some p →
      malloc s k size o = (s', .ok q) → Hist s' ((k, q, size) :: live)
  | mallocNull {s live k p size o s'} : Hist s live → OrcOk o → s.pool k = some p →
      malloc s k size o = (s', .null) → Hist s' live
  | aligned {s live k p size j o s' q} : Hist s live → OrcOk o → s.pool k = some p →
      Disjoint.AlignOk p.cfg size (2 ^ j) →
      alignedMalloc s k size (2 ^ j) o = (s', .ok q) → Hist s' ((k, q, size) :: live)
  | alignedNull {s live k p size j o s'} : Hist s live → OrcOk o → s.pool k = some p →
      Disjoint.AlignOk p.cfg size (2 ^ j) →
      alignedMalloc s k size (2 ^ j) o = (s', .null) → Hist s' live
  | free {s l1 k a l2 o} : Hist s (l1 ++ (k, a) :: l2) → OrcOk o →
      Hist (free s k a.1 o).1 (l1 ++ l2)
  | umfFree {s l1 k a l2 o} : Hist s (l1 ++ (k, a) :: l2) → OrcOk o →
      Hist (umfFree s a.1 o).1 (l1 ++ l2)

/-- The memory pool `k` was created on. -/
def BufOf (s : Sys) (k : Nat) (buf : Region) : Prop :=
  ∃ p f, s.pool k = some p ∧ s.w.prov p.prov = some f ∧ f.buf = buf

/-- No pool has byte `x`, as far as `umfPoolByPtr` can tell. -/
def Unused (s : Sys) (x : Nat) : Prop := poolByPtr s x = none

end Verif.Stack
