import Verif.Disjoint.Model
/-! # Specification vocabulary for the disjoint pool (C22–C26) -/
namespace Verif.Disjoint
open Mem

/-- `c` is the least element of `sizes` that can hold `size` bytes. -/
def Tightest (sizes : List Nat) (size c : Nat) : Prop :=
  c ∈ sizes ∧ size ≤ c ∧ ∀ d ∈ sizes, size ≤ d → c ≤ d

/-- What is assumed of the provider: an allocation it returns is not null, lies in the address
space, shares no byte with the memory the pool already has, is aligned to the provider's page size
and to the requested alignment (0: no requirement). -/
def EnvOk (c : Cfg) (mem : List Region) (env : Env) : Prop :=
  ∀ size alignment p, env.up size alignment = some p → 0 < size →
    0 < p ∧ p + size < 2 ^ 64 ∧ (∀ r ∈ mem, Mem.Disjoint (p, size) r) ∧ (c.page ≠ 0 → c.page ∣ p) ∧
      (alignment ≠ 0 → alignment ∣ p)

/-- Configurations the positive theorems are about: creation succeeds (`minBucket` is a power of
two), the smallest slab is not empty, requests above the largest class (2 GiB) are not pooled, the
provider's page size is a power of two or unknown. -/
structure CfgOk (c : Cfg) : Prop where
  minBucket : ∃ k, c.minBucket = 2 ^ k
  slabMin : 0 < c.slabMin
  maxPoolable : c.maxPoolable ≤ 2 ^ 31
  page : c.page = 0 ∨ ∃ m, c.page = 2 ^ m

/-- Requests of `umfPoolAlignedMalloc` the positive theorems are about: the padded size is
representable, and the alignment is at most the provider's page size, or at most the smallest slab
size, or the request is too large for the pool. -/
structure AlignOk (c : Cfg) (size alignment : Nat) : Prop where
  nowrap : size + alignment - 1 < 2 ^ 64
  route : alignment ≤ c.page ∨ alignment ≤ c.slabMin ∨ c.maxPoolable < alignedSize c size alignment

/-- `Reach c st live ext`: a history of the pool. `live` are the ranges `(pointer, requested size)`
handed out and not freed, newest first. `ext` is the part of the shared total that belongs to other
pools; the other pools keep to the limit, too. -/
inductive Reach (c : Cfg) : St → List Region → Nat → Prop where
  | init : Reach c initSt [] 0
  | malloc {st live ext size env st' p} : Reach c st live ext → EnvOk c st.mem env →
      malloc c st size env = (st', .ok p) → Reach c st' ((p, size) :: live) ext
  | mallocNull {st live ext size env st'} : Reach c st live ext → EnvOk c st.mem env →
      malloc c st size env = (st', .null) → Reach c st' live ext
  | aligned {st live ext size k env st' p} : Reach c st live ext → EnvOk c st.mem env →
      AlignOk c size (2 ^ k) → alignedMalloc c st size (2 ^ k) env = (st', .ok p) →
      Reach c st' ((p, size) :: live) ext
  | alignedNull {st live ext size k env st'} : Reach c st live ext → EnvOk c st.mem env →
      AlignOk c size (2 ^ k) → alignedMalloc c st size (2 ^ k) env = (st', .null) →
      Reach c st' live ext
  | free {st l1 a l2 ext st' r} : Reach c st (l1 ++ a :: l2) ext → free c st a.1 = (st', r) →
      Reach c st' (l1 ++ l2) ext
  | others {st live ext ext'} : Reach c st live ext →
      (st.total - ext + ext' ≤ c.limMax ∨ ext' ≤ ext) →
      Reach c { st with total := st.total - ext + ext' } live ext'

/-- The empty slabs a pool keeps in class `i`. -/
def kept (st : St) (i : Nat) : Nat :=
  ((st.bk i).avail ++ (st.bk i).unavail).countP fun s => s.free.all id

def sumTo (f : Nat → Nat) : Nat → Nat
  | 0 => 0
  | n + 1 => sumTo f n + f n

/-- The bytes of the empty slabs a pool keeps. -/
def keptBytes (c : Cfg) (st : St) : Nat :=
  sumTo (fun i => kept st i * slabSize c i) (classes c.minBucket).length

/-- Chunk `k` of the slab at `base` in class `i` is marked as handed out. -/
def InUse (st : St) (i base k : Nat) : Prop :=
  ∃ s ∈ (st.bk i).avail ++ (st.bk i).unavail, s.base = base ∧ s.free[k]? = some false

/-- `m` is the memory of a slab of the pool. -/
def IsSlab (st : St) (m : Region) : Prop := ∃ k ∈ st.known, k.1 = m.1

end Verif.Disjoint
