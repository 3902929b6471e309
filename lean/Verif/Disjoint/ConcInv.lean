import Verif.Disjoint.ConcModel
import Verif.Disjoint.Lemmas
/-! # The invariant of the disjoint pool under all interleavings -/
set_option linter.unusedSimpArgs false
namespace Verif.Disjoint.Conc
open Mem

/-- Where the memory of an allocation comes from: a chunk of a slab, or the provider. -/
inductive Home where
  | chunk (id k : Nat)
  | direct
deriving DecidableEq

/-- The bucket whose lock the thread holds. -/
def sec : Pc → Option Nat
  | .get i _ => some i
  | .make i _ => some i
  | .reg i _ _ => some i
  | .take i _ => some i
  | .fin i _ => some i
  | .drop _ i _ => some i
  | .dropObj _ i _ => some i
  | .chunk _ _ _ i => some i
  | .add _ i => some i
  | .cmp _ i _ => some i
  | .back _ i => some i
  | .unreg _ i => some i
  | _ => none

/-- The slab object is there and has no chunk in use. -/
def isEmpty (s : St) (id : Nat) : Bool :=
  match s.objs id with
  | some o => o.used == 0
  | none => false

/-- The empty slabs in the list of available slabs. -/
def zeros (s : St) (i : Nat) : Nat := (s.bk i).avail.countP (isEmpty s)

structure Heap (c : Cfg) (s : St) : Prop where
  memOk : ∀ p z, s.mem p = some z → 0 < p ∧ 0 < z ∧ p + z < 2 ^ 64
  memSep : ∀ p z q w, s.mem p = some z → s.mem q = some w → p ≠ q → p + z ≤ q ∨ q + w ≤ p
  objLt : ∀ id o, s.objs id = some o → id < s.next
  obj : ∀ id o, s.objs id = some o →
    o.bkt < nb c ∧ o.free.length = numChunks c o.bkt ∧ o.used = o.free.count false
  objMem : ∀ id o, s.objs id = some o → o.has = true →
    s.mem o.base = some (slabSize c o.bkt) ∧ (c.page ≠ 0 → c.page ∣ o.base)
  objInj : ∀ id o id' o', s.objs id = some o → s.objs id' = some o' → o.has = true →
    o'.has = true → o.base = o'.base → id = id'
  known : ∀ b id, s.known b = some id → ∃ o, s.objs id = some o ∧ o.base = b ∧ o.has = true ∧
    (id ∈ (s.bk o.bkt).avail ∨ id ∈ (s.bk o.bkt).unavail)
  listed : ∀ i id, id ∈ (s.bk i).avail ∨ id ∈ (s.bk i).unavail →
    ∃ o, s.objs id = some o ∧ o.bkt = i ∧ o.has = true ∧ s.known o.base = some id
  nodup : ∀ i, ((s.bk i).avail ++ (s.bk i).unavail).Nodup
  av : ∀ i id o, id ∈ (s.bk i).avail → s.objs id = some o → o.used < o.free.length
  un : ∀ i id o, id ∈ (s.bk i).unavail → s.objs id = some o → o.used = o.free.length

/-- The memory of one allocation. -/
def OwnOk (c : Cfg) (s : St) (a : Own) : Home → Prop
  | .chunk id k => ∃ o, s.objs id = some o ∧ o.has = true ∧ s.known o.base = some id ∧
      o.free[k]? = some false ∧ o.base + k * csize c o.bkt ≤ a.ptr ∧
      a.ptr + a.size ≤ o.base + k * csize c o.bkt + csize c o.bkt ∧ a.ptr < o.base + c.slabMin
  | .direct => s.mem a.ptr = some a.size ∧
      ∀ id o, s.objs id = some o → o.has = true → o.base ≠ a.ptr

structure Owners (c : Cfg) (s : St) (home : Nat → Home) : Prop where
  lt : ∀ n a, s.own n = some a → n < s.tickets
  ok : ∀ n a, s.own n = some a → 0 < a.size ∧ (a.al ≠ 0 → a.al ∣ a.ptr) ∧ OwnOk c s a (home n)
  injChunk : ∀ n m a b id k, s.own n = some a → s.own m = some b → home n = .chunk id k →
    home m = .chunk id k → n = m
  injDirect : ∀ n m a b, s.own n = some a → s.own m = some b → home n = .direct →
    home m = .direct → a.ptr = b.ptr → n = m
  full : ∀ id o k, s.objs id = some o → o.free[k]? = some false →
    ∃ n a, s.own n = some a ∧ home n = .chunk id k
  cover : ∀ p z, s.mem p = some z → (∃ id o, s.objs id = some o ∧ o.has = true ∧ o.base = p) ∨
    ∃ n a, s.own n = some a ∧ home n = .direct ∧ a.ptr = p
  /-- users of an allocation -/
  excl : ∀ n a, s.own n = some a → a.freeing ≠ none → a.readers = []
  kind : ∀ n a, s.own n = some a → (home n = .direct ↔ c.maxPoolable < lookupSize c ⟨a.size, a.al⟩)

/-- What a thread may rely on about the allocation it was given: it is the one that frees it, or
one of its readers. -/
def Holds (s : St) (t tk ptr : Nat) (us : Bool) : Prop :=
  ∃ a, s.own tk = some a ∧ a.ptr = ptr ∧
    if us then t ∈ a.readers ∧ a.freeing = none else a.freeing = some t

/-- How the slabs look to a lookup of the address `ptr` of an allocation. -/
def Window (c : Cfg) (s : St) (ptr : Nat) (m : Nat → Option Nat) : Home → Prop
  | .chunk id _ => ∃ o, s.objs id = some o ∧ o.base ≤ ptr ∧ m o.base = some id ∧
      ∀ b, o.base < b → b ≤ ptr → m b = none
  | .direct => ∀ b id, m b = some id → b ≤ ptr → b + c.slabMin ≤ ptr

/-- Chunks of class `i` can serve the request. -/
structure Fit (c : Cfg) (i : Nat) (r : Req) : Prop where
  lt : i < nb c
  size : 0 < r.size
  pool : lookupSize c r ≤ c.maxPoolable
  fit : ∀ base k, k < numChunks c i → base + slabSize c i < 2 ^ 64 → (c.page ≠ 0 → c.page ∣ base) →
    (r.al ≠ 0 → r.al ∣ result r (base + k * csize c i)) ∧
    base + k * csize c i ≤ result r (base + k * csize c i) ∧
    result r (base + k * csize c i) + r.size ≤ base + k * csize c i + csize c i ∧
    result r (base + k * csize c i) < base + c.slabMin

/-- A slab object that is in no list, without chunks in use. -/
def Private (s : St) (id i : Nat) : Prop :=
  ∃ o, s.objs id = some o ∧ o.bkt = i ∧ o.has = true ∧ o.used = 0 ∧
    id ∉ (s.bk i).avail ∧ id ∉ (s.bk i).unavail

/-- A listed slab that has just become empty. -/
def Emptied (s : St) (id i : Nat) : Prop :=
  id ∈ (s.bk i).avail ∧ (∃ o, s.objs id = some o ∧ o.used = 0) ∧ (s.bk i).pooled + 1 = zeros s i

def headEmpty (s : St) (i : Nat) : Nat :=
  match (s.bk i).avail with
  | [] => 0
  | id :: _ => if isEmpty s id then 1 else 0

def PcOk (c : Cfg) (s : St) (home : Nat → Home) (t : Nat) : Pc → Prop
  | .idle => True
  | .direct r => 0 < r.size ∧ (r.al ≤ 1 ∨ upAl r = r.al) ∧ c.maxPoolable < lookupSize c r
  | .wait i r => Fit c i r
  | .get i r => Fit c i r ∧ (s.bk i).pooled = zeros s i
  | .make i r => Fit c i r ∧ (s.bk i).pooled = zeros s i ∧ (s.bk i).avail = []
  | .reg i r id => Fit c i r ∧ (s.bk i).pooled = zeros s i ∧ (s.bk i).avail = [] ∧ Private s id i
  | .take i r => Fit c i r ∧ (s.bk i).pooled + headEmpty s i = zeros s i ∧ (s.bk i).avail ≠ []
  | .fin i _ => (s.bk i).pooled = zeros s i
  | .drop id i _ => (s.bk i).pooled = zeros s i ∧ Private s id i
  | .dropObj id i _ => (s.bk i).pooled = zeros s i ∧
      ∃ o, s.objs id = some o ∧ o.bkt = i ∧ o.has = false ∧ o.used = 0
  | .find tk ptr t0 us => Holds s t tk ptr us ∧ t0 ≤ s.hist.length ∧
      ∀ m ∈ s.seen t0, Window c s ptr m (home tk)
  | .read tk ptr id us => Holds s t tk ptr us ∧ id < s.next ∧
      match home tk with
      | .chunk id' _ => id = id'
      | .direct => ∀ o, s.objs id = some o → o.base + c.slabMin ≤ ptr
  | .info tk ptr us => Holds s t tk ptr us ∧ home tk = .direct
  | .pfree tk ptr z => Holds s t tk ptr false ∧ home tk = .direct ∧ s.mem ptr = some z
  | .fwait tk ptr id i => Holds s t tk ptr false ∧ ∃ k, home tk = .chunk id k ∧
      ∃ o, s.objs id = some o ∧ o.bkt = i
  | .chunk tk ptr id i => (s.bk i).pooled = zeros s i ∧ Holds s t tk ptr false ∧
      ∃ k, home tk = .chunk id k ∧ ∃ o, s.objs id = some o ∧ o.bkt = i
  | .add id i => Emptied s id i ∧ (s.bk i).pooled + 1 ≤ maxPooled c i
  | .cmp id i _ => Emptied s id i ∧ (s.bk i).pooled + 1 ≤ maxPooled c i
  | .back id i => Emptied s id i
  | .unreg id i => Emptied s id i

structure Inv (c : Cfg) (s : St) (home : Nat → Home) : Prop where
  heap : Heap c s
  owners : Owners c s home
  bad : s.bad = false
  hist : ∀ m ∈ s.hist, ∀ b id, m b = some id →
    id < s.next ∧ ∀ o, s.objs id = some o → o.base = b
  lim : ∀ i, (s.bk i).pooled ≤ maxPooled c i
  lock : ∀ i t, (s.bk i).lock = some t ↔ sec (s.pc t) = some i
  free : ∀ i, (s.bk i).lock = none → (s.bk i).pooled = zeros s i
  pcs : ∀ t, PcOk c s home t (s.pc t)

/-! ## Consequences -/

/-- The map as it is now, seen from an allocation. -/
theorem window_now {c : Cfg} {s : St} {home} (hh : Heap c s) (ho : Owners c s home)
    {tk : Nat} {a : Own} (ha : s.own tk = some a) : Window c s a.ptr s.known (home tk) := by
  have h := (ho.ok tk a ha).2.2
  have h0 := (ho.ok tk a ha).1
  revert h
  cases home tk with
  | chunk id k =>
    rintro ⟨o, h1, h2, h3, h4, h5, h6, h7⟩
    refine ⟨o, h1, by omega, h3, fun b hb1 hb2 => ?_⟩
    cases hk : s.known b with
    | none => rfl
    | some id' =>
      exfalso
      obtain ⟨o', g1, g2, g3, g4⟩ := hh.known b id' hk
      have m1 := (hh.objMem id o h1 h2).1
      have m2 := (hh.objMem id' o' g1 g3).1
      rw [g2] at m2
      have := @slabMin_le c o.bkt
      have := (hh.memOk _ _ m2).2.1
      have := hh.memSep _ _ _ _ m1 m2 (by omega)
      omega
  | direct =>
    rintro ⟨h1, h2⟩ b id hb hle
    obtain ⟨o', g1, g2, g3, g4⟩ := hh.known b id hb
    have m2 := (hh.objMem id o' g1 g3).1
    have hne := h2 id o' g1 g3
    rw [g2] at m2 hne
    have := @slabMin_le c o'.bkt
    have := hh.memSep _ _ _ _ m2 h1 hne
    omega

theorem isEmpty_iff {s : St} {id : Nat} {o : Obj} (h : s.objs id = some o) :
    isEmpty s id = decide (o.used = 0) := by
  unfold isEmpty; rw [h]
  by_cases h0 : o.used = 0 <;> simp [h0]

/-- Two threads that hold the lock of one bucket are one. -/
theorem Inv.excl {c : Cfg} {s : St} {home} (h : Inv c s home) {i t u : Nat}
    (ht : sec (s.pc t) = some i) (hu : sec (s.pc u) = some i) : u = t := by
  have h1 := (h.lock i t).2 ht
  have h2 := (h.lock i u).2 hu
  rw [h1] at h2
  exact (Option.some.inj h2).symm

end Verif.Disjoint.Conc
