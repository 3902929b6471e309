import Verif.Tracker.Lemmas3
/-!
# Concurrent use of the tracker

`umfMemoryTrackerAdd` and `umfMemoryTrackerRemove` take no lock (`provider_tracking.c:177-277`);
the radix trees are safe for concurrent use, but `parent_value->n_children++`
(`provider_tracking.c:153`) is a plain read-modify-write. Here an operation is a sequence of
steps: find the place, insert into (or remove from) the map, read the child count, write it. The
search for the place and each map operation are one step.
-/
set_option linter.unusedSimpArgs false
namespace Verif.Tracker
open Mem

/-- A thread registering a region. -/
structure Req where
  pool : Nat
  ptr : Nat
  size : Nat
deriving Repr, DecidableEq

/-- Where a registering thread is. -/
inductive Pc where
  | start
  | placed (level : Nat) (parent : Option Nat)
  | inserted (level : Nat) (parent : Nat)
  | counted (level : Nat) (parent : Nat) (n : Nat)
  | done
  | refused
deriving Repr, DecidableEq

/-- `n_children` of the entry with key `k`. -/
def readCount (st : St) (level k : Nat) : Nat :=
  match (st.lv level).find? fun e => e.key == k with
  | none => 0
  | some e => e.nch

def writeCount (st : St) (level k n : Nat) : St :=
  setLevel st level ((st.lv level).map fun e => if e.key = k then { e with nch := n } else e)

/-- One step of `umfMemoryTrackerAdd`, `provider_tracking.c:177-233`, `125-175` (host allocations
succeed). -/
def stepAdd (st : St) (r : Req) : Pc → St × Pc
  | .start =>
    match addLoop st r.ptr r.size 8 0 none with
    | .found level parent => (st, .placed level parent)
    | _ => (st, .refused)
  | .placed level parent =>
    if hasKey (st.lv level) r.ptr then (st, .refused)
    else
      let st' := setLevel st level (⟨r.ptr, r.pool, r.size, 0⟩ :: st.lv level)
      match parent with
      | none => (st', .done)
      | some k => (st', .inserted level k)
  | .inserted level k => (st, .counted level k (readCount st (level - 1) k))
  | .counted level k n => (writeCount st (level - 1) k (n + 1), .done)
  | .done => (st, .done)
  | .refused => (st, .refused)

/-- The tracker and the registering threads. -/
structure Sys where
  st : St
  threads : List (Req × Pc)

/-- Thread `i` makes a step. -/
def stepAt : St → List (Req × Pc) → Nat → St × List (Req × Pc)
  | st, [], _ => (st, [])
  | st, (r, pc) :: ts, 0 =>
    let q := stepAdd st r pc
    (q.1, (r, q.2) :: ts)
  | st, t :: ts, i + 1 =>
    let q := stepAt st ts i
    (q.1, t :: q.2)

def Sys.step (s : Sys) (i : Nat) : Sys :=
  let q := stepAt s.st s.threads i
  ⟨q.1, q.2⟩

def Sys.run (s : Sys) (sched : List Nat) : Sys := sched.foldl Sys.step s

/-- A system in which the threads have not started. -/
def Sys.begin (st : St) (rs : List Req) : Sys := ⟨st, rs.map fun r => (r, .start)⟩

/-- **C45 is violated**: two threads register regions of pools 2 and 3 inside a region of pool 1,
one increment of the child count is lost; after pool 2's region is removed, addresses in
pool 3's region are reported as pool 1's. -/
theorem C45_lostUpdate_violated :
    let s0 := (trackingAlloc empty 1 0x1000 (.ok 0x1000) true).1
    let s := (Sys.begin s0 [⟨2, 0x1000, 0x100⟩, ⟨3, 0x1100, 0x100⟩]).run [0, 1, 0, 1, 0, 1, 0, 1]
    let s' := (trackingFree s.st 2 0x1000 0x100 none true)
    s.threads.map (·.2) = [.done, .done] ∧ poolByPtr s.st 0x1180 = some 3 ∧
      s'.2 = .success ∧ poolByPtr s'.1 0x1180 = some 1 := by
  decide +kernel

/-! ### Regions that are not nested -/

/-- Nodes of the finished threads. -/
def doneNodes (ts : List (Req × Pc)) : List Node :=
  (ts.filter fun t => t.2 == .done).map fun t => ⟨t.1.ptr, t.1.size, t.1.pool, 0⟩

def Req.rg (r : Req) : Region := (r.ptr, r.size)

structure ReqOk (r : Req) : Prop where
  ptr : 0 < r.ptr
  size : 0 < r.size
  bound : r.ptr + r.size < 2 ^ 64

def PcOk (pc : Pc) : Prop := pc = .start ∨ pc = .placed 0 none ∨ pc = .done

theorem mem_doneNodes {ts : List (Req × Pc)} {n : Node} :
    n ∈ doneNodes ts ↔ ∃ r, (r, Pc.done) ∈ ts ∧ n = ⟨r.ptr, r.size, r.pool, 0⟩ := by
  unfold doneNodes
  rw [List.mem_map]
  constructor
  · rintro ⟨⟨r, pc⟩, h1, h2⟩
    rw [List.mem_filter] at h1
    obtain ⟨h1, h3⟩ := h1
    have : pc = .done := by simpa using h3
    subst this
    exact ⟨r, h1, h2.symm⟩
  · rintro ⟨r, h1, h2⟩
    exact ⟨(r, .done), by rw [List.mem_filter]; exact ⟨h1, by simp⟩, h2.symm⟩

/-- State of a system whose threads register regions apart from each other. -/
structure CInv (st : St) (ts : List (Req × Pc)) : Prop where
  inv : Inv st (doneNodes ts)
  pcs : ∀ t ∈ ts, PcOk t.2
  reqs : ∀ t ∈ ts, ReqOk t.1
  apart : ts.Pairwise fun a b => Disjoint a.1.rg b.1.rg

theorem stepAt_split (st : St) (ts : List (Req × Pc)) (i : Nat) :
    stepAt st ts i = (st, ts) ∨ ∃ t1 r pc t2, ts = t1 ++ (r, pc) :: t2 ∧
      stepAt st ts i = ((stepAdd st r pc).1, t1 ++ (r, (stepAdd st r pc).2) :: t2) := by
  induction ts generalizing i with
  | nil => exact Or.inl rfl
  | cons t ts ih =>
    obtain ⟨r, pc⟩ := t
    cases i with
    | zero => exact Or.inr ⟨[], r, pc, ts, rfl, rfl⟩
    | succ i =>
      rcases ih i with h | ⟨t1, r', pc', t2, h1, h2⟩
      · left
        show ((stepAt st ts i).1, (r, pc) :: (stepAt st ts i).2) = _
        rw [h]
      · right
        refine ⟨(r, pc) :: t1, r', pc', t2, by rw [h1]; rfl, ?_⟩
        show ((stepAt st ts i).1, (r, pc) :: (stepAt st ts i).2) = _
        rw [h2]; rfl

theorem doneNodes_append (t1 t2 : List (Req × Pc)) :
    doneNodes (t1 ++ t2) = doneNodes t1 ++ doneNodes t2 := by simp [doneNodes]

theorem doneNodes_skip {r : Req} {pc : Pc} (h : pc ≠ .done) (t2 : List (Req × Pc)) :
    doneNodes ((r, pc) :: t2) = doneNodes t2 := by
  unfold doneNodes
  rw [List.filter_cons_of_neg (by simpa using h)]

theorem doneNodes_done (r : Req) (t2 : List (Req × Pc)) :
    doneNodes ((r, .done) :: t2) = ⟨r.ptr, r.size, r.pool, 0⟩ :: doneNodes t2 := by
  unfold doneNodes
  rw [List.filter_cons_of_pos (by simp)]
  rfl

theorem cinv_step {st : St} {ts : List (Req × Pc)} (h : CInv st ts) (i : Nat) :
    CInv (stepAt st ts i).1 (stepAt st ts i).2 := by
  rcases stepAt_split st ts i with hs | ⟨t1, r, pc, t2, rfl, hs⟩
  · rw [hs]; exact h
  · rw [hs]
    have hro := h.reqs (r, pc) (by simp)
    obtain ⟨hap, hap1, hap2⟩ := pw_mid.1 h.apart
    -- bookkeeping that does not depend on the step
    have mk : ∀ st' pc', PcOk pc' → Inv st' (doneNodes (t1 ++ (r, pc') :: t2)) →
        CInv st' (t1 ++ (r, pc') :: t2) := by
      intro st' pc' hpc hi
      refine ⟨hi, ?_, ?_, ?_⟩
      · intro t ht
        rw [mem_mid] at ht
        rcases ht with rfl | ht
        · exact hpc
        · exact h.pcs t (mem_mid.2 (Or.inr ht))
      · intro t ht
        rw [mem_mid] at ht
        rcases ht with rfl | ht
        · exact hro
        · exact h.reqs t (mem_mid.2 (Or.inr ht))
      · exact pw_mid.2 ⟨hap, hap1, hap2⟩
    rcases h.pcs (r, pc) (by simp) with hpc | hpc | hpc
    · -- search for the place
      simp only at hpc
      subst hpc
      have hinv := h.inv
      rw [doneNodes_append, doneNodes_skip (by simp)] at hinv
      have hno : ∀ n ∈ doneNodes t1 ++ doneNodes t2, ¬ Has n.rg r.ptr := by
        intro n hn hx
        have hself : Has r.rg r.ptr := ⟨Nat.le_refl _, by
          have := hro.size
          show r.ptr < r.ptr + r.size
          simp only at this
          omega⟩
        rw [List.mem_append] at hn
        rcases hn with hn | hn
        · obtain ⟨r', h1, rfl⟩ := mem_doneNodes.1 hn
          exact hap1 _ h1 r.ptr ⟨hx, hself⟩
        · obtain ⟨r', h1, rfl⟩ := mem_doneNodes.1 hn
          exact hap2 _ h1 r.ptr ⟨hself, hx⟩
      have hl : stepAdd st r .start = (st, .placed 0 none) := by
        unfold stepAdd
        rw [addLoop_none hinv (fun n hn _ => hno n hn)]
      rw [hl]
      apply mk _ _ (Or.inr (Or.inl rfl))
      rw [doneNodes_append, doneNodes_skip (by simp)]
      exact hinv
    · -- insertion
      simp only at hpc
      subst hpc
      have hinv := h.inv
      rw [doneNodes_append, doneNodes_skip (by simp)] at hinv
      have hself : Has r.rg r.ptr := ⟨Nat.le_refl _, by
        have := hro.size
        show r.ptr < r.ptr + r.size
        simp only at this
        omega⟩
      have hd1 : ∀ n ∈ doneNodes t1, Disjoint n.rg (r.ptr, r.size) := by
        intro n hn
        obtain ⟨r', h1, rfl⟩ := mem_doneNodes.1 hn
        exact hap1 _ h1
      have hd2 : ∀ n ∈ doneNodes t2, Disjoint (r.ptr, r.size) n.rg := by
        intro n hn
        obtain ⟨r', h1, rfl⟩ := mem_doneNodes.1 hn
        exact hap2 _ h1
      have hno : ∀ n ∈ doneNodes t1 ++ doneNodes t2, ¬ Has n.rg r.ptr := by
        intro n hn hx
        rw [List.mem_append] at hn
        rcases hn with hn | hn
        · exact hd1 n hn _ ⟨hx, hself⟩
        · exact hd2 n hn _ ⟨hself, hx⟩
      obtain ⟨g1, g2⟩ := inv_insert (pool := r.pool) hinv hro.ptr hro.size hro.bound hd1
        (fun a ha => Or.inl (hd2 a ha)) (Or.inl ⟨hno, rfl, rfl⟩)
      have hk : hasKey (st.lv 0) r.ptr = false := by
        cases hk : hasKey (st.lv 0) r.ptr with
        | false => rfl
        | true =>
          unfold addAtLevel at g1
          rw [if_neg (by simp)] at g1
          simp [hk] at g1
      have hl : stepAdd st r (.placed 0 none) =
          (setLevel st 0 (⟨r.ptr, r.pool, r.size, 0⟩ :: st.lv 0), .done) := by
        unfold stepAdd
        simp [hk]
      have ha : (addAtLevel st 0 r.pool r.ptr r.size none true).1 =
          setLevel st 0 (⟨r.ptr, r.pool, r.size, 0⟩ :: st.lv 0) := by
        unfold addAtLevel
        rw [if_neg (by simp)]
        simp [hk, bumpParent]
      rw [hl]
      apply mk _ _ (Or.inr (Or.inr rfl))
      rw [doneNodes_append, doneNodes_done, ← ha]
      exact g2
    · simp only at hpc
      subst hpc
      exact mk _ _ (Or.inr (Or.inr rfl)) h.inv

theorem cinv_run (s : Sys) (h : CInv s.st s.threads) (sched : List Nat) :
    CInv (s.run sched).st (s.run sched).threads := by
  induction sched generalizing s with
  | nil => exact h
  | cons i sched ih => exact ih (s.step i) (cinv_step h i)

theorem step_reqs (s : Sys) (i : Nat) : (s.step i).threads.map (·.1) = s.threads.map (·.1) := by
  unfold Sys.step
  rcases stepAt_split s.st s.threads i with hs | ⟨t1, r, pc, t2, h1, hs⟩
  · rw [hs]
  · rw [hs, h1]; simp

theorem run_reqs (s : Sys) (sched : List Nat) : (s.run sched).threads.map (·.1) = s.threads.map (·.1) := by
  induction sched generalizing s with
  | nil => rfl
  | cons i sched ih => exact (ih (s.step i)).trans (step_reqs s i)

/-- **C45**, regions that are not nested: any number of threads register regions that are apart
from each other. Under every schedule and at every moment, no thread is refused, every address
in a region whose registration is complete is reported with that pool, and every other address
is reported as owned by none. -/
theorem C45_topLevel_partial (rs : List Req) (hok : ∀ r ∈ rs, ReqOk r)
    (hap : rs.Pairwise fun a b => Disjoint (a.ptr, a.size) (b.ptr, b.size)) (sched : List Nat) :
    let s := (Sys.begin empty rs).run sched
    s.threads.map (·.1) = rs ∧ (∀ t ∈ s.threads, t.2 ≠ .refused) ∧
    (∀ r x, (r, Pc.done) ∈ s.threads → Has (r.ptr, r.size) x →
      getAllocInfo s.st x = some (r.ptr, r.size, r.pool)) ∧
    (∀ x, (∀ r, (r, Pc.done) ∈ s.threads → ¬ Has (r.ptr, r.size) x) → getAllocInfo s.st x = none) := by
  have h0 : CInv (Sys.begin empty rs).st (Sys.begin empty rs).threads := by
    have hdn : doneNodes (rs.map fun r => (r, Pc.start)) = [] := by
      rw [List.eq_nil_iff_forall_not_mem]
      intro n hn
      obtain ⟨r, h1, _⟩ := mem_doneNodes.1 hn
      rw [List.mem_map] at h1
      obtain ⟨r', _, h2⟩ := h1
      injection h2 with _ h2
      cases h2
    refine ⟨?_, ?_, ?_, ?_⟩
    · show Inv empty (doneNodes (rs.map fun r => (r, Pc.start)))
      rw [hdn]
      refine ⟨?_, ?_, ?_, ?_, ?_, ?_⟩
      · intro n hn; cases hn
      · intro n hn; cases hn
      · exact List.Pairwise.nil
      · intro n hn; cases hn
      · intro l e he; cases he
      · intro n hn; cases hn
    · intro t ht
      obtain ⟨r, _, rfl⟩ := List.mem_map.1 ht
      exact Or.inl rfl
    · intro t ht
      obtain ⟨r, hr, rfl⟩ := List.mem_map.1 ht
      exact hok r hr
    · exact List.pairwise_map.2 hap
  have h := cinv_run _ h0 sched
  have hreq := run_reqs (Sys.begin empty rs) sched
  intro s
  have hlev : ∀ n ∈ doneNodes s.threads, n.level = 0 := by
    intro n hn
    obtain ⟨r, _, rfl⟩ := mem_doneNodes.1 hn
    rfl
  refine ⟨?_, ?_, ?_, ?_⟩
  · rw [hreq]
    show List.map (fun x => x.1) (rs.map fun r => (r, Pc.start)) = rs
    rw [List.map_map]
    exact List.map_id rs
  · intro t ht hc
    rcases h.pcs t ht with h1 | h1 | h1 <;> rw [hc] at h1 <;> cases h1
  · intro r x hr hx
    have hn : (⟨r.ptr, r.size, r.pool, 0⟩ : Node) ∈ doneNodes s.threads := mem_doneNodes.2 ⟨r, hr, rfl⟩
    have hd : Deepest (doneNodes s.threads) x ⟨r.ptr, r.size, r.pool, 0⟩ :=
      ⟨hn, hx, fun m hm _ => by rw [hlev m hm]; exact Nat.zero_le _⟩
    obtain ⟨e, h1, h2⟩ := infoLoop_spec h.inv hd 8 0 none (by omega) (by omega)
    have hp := (h.inv.ok _ hn).ptr
    have hx1 : r.ptr ≤ x := hx.1
    simp only at hp
    unfold getAllocInfo
    rw [if_neg (by omega), h1, Option.map_some, h2.1, h2.2.1, h2.2.2.1]
  · intro x hno
    unfold getAllocInfo
    split
    · rfl
    · rw [infoLoop_none h.inv]
      · rfl
      · intro n hn _ hx
        obtain ⟨r, hr, rfl⟩ := mem_doneNodes.1 hn
        exact hno r hr hx

example :
    let s0 := Sys.begin empty [⟨1, 0x1000, 0x100⟩, ⟨2, 0x1100, 0x80⟩, ⟨3, 0x800, 0x10⟩]
    let s := s0.run [0, 1, 2, 1, 0]
    s.threads.map (·.2) = [.done, .done, .placed 0 none] ∧ poolByPtr s.st 0x1100 = some 2 ∧
      poolByPtr s.st 0x10ff = some 1 ∧ poolByPtr s.st 0x800 = none := by decide +kernel

end Verif.Tracker
