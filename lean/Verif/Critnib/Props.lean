import Verif.Critnib.Iter
import Verif.Critnib.Spec
/-! # Properties C10 (the radix tree is a map), C11 (ordered lookups), C12 (iteration) -/
set_option linter.unusedSimpArgs false
namespace Verif.Critnib
open Spec
variable {V : Type}

/-- The requests against the tree of the code. -/
def treeStep (t : T V) : Op V → T V × Out V
  | .insert k v upd lo no => ((insert k v upd lo no t).1, .inserted (insert k v upd lo no t).2)
  | .remove k =>
    match remove k t with
    | .notFound => (t, .value none)
    | .removed v t' => (t', .value (some v))
    | .ub => (t, .ub)
  | .get k => (t, .value (get k t))

/-- A history against the tree. -/
def treeRun (t : T V) : List (Op V) → T V × List (Out V)
  | [] => (t, [])
  | op :: ops => ((treeRun (treeStep t op).1 ops).1,
      (treeStep t op).2 :: (treeRun (treeStep t op).1 ops).2)

/-- The tree stores the map. -/
private def Rep (t : T V) (m : Map V) : Prop := WF t ∧ ∀ k v, Has t k v ↔ m k = some v

private theorem rep_none {t : T V} {m : Map V} (h : Rep t m) (k : W) :
    (∀ v, ¬ Has t k v) ↔ m k = none := by
  constructor
  · intro hn
    cases hm : m k with
    | none => rfl
    | some v => exact absurd ((h.2 k v).2 hm) (hn v)
  · intro hm v hv
    rw [(h.2 k v).1 hv] at hm; cases hm

private theorem rep_get {t : T V} {m : Map V} (h : Rep t m) (k : W) : get k t = m k := by
  cases hm : m k with
  | none =>
    cases hg : get k t with
    | none => rfl
    | some v => exact absurd ((get_iff k t h.1 v).1 hg) ((rep_none h k).2 hm v)
  | some v => exact (get_iff k t h.1 v).2 ((h.2 k v).2 hm)

private theorem rep_step {t : T V} {m : Map V} (h : Rep t m) (op : Op V) :
    Allowed m op (treeStep t op).2 ∧ Rep (treeStep t op).1 (after m op (treeStep t op).2) := by
  cases op with
  | insert k v upd lo no =>
    cases lo with
    | false => exact ⟨Or.inl rfl, h⟩
    | true =>
      have e : insert k v upd true no t = insertAt k v upd no t := rfl
      simp only [treeStep, e]
      have hs := insertAt_spec k v upd no t h.1
      simp only at hs
      obtain ⟨hw, hsp, _⟩ := hs
      cases hr : (insertAt k v upd no t).2 with
      | ok =>
        rw [hr] at hsp
        refine ⟨⟨rfl, ?_⟩, hw, ?_⟩
        · rcases hsp.2 with h1 | h1
          · exact Or.inl h1
          · exact Or.inr ((rep_none h k).1 h1)
        · intro q w
          rw [hsp.1 q w]
          simp only [after]
          by_cases hq : q = k
          · simp [hq, eq_comm]
          · simp [hq]; exact h.2 q w
      | exist =>
        rw [hr] at hsp
        obtain ⟨h1, h2, w, h3⟩ := hsp
        refine ⟨⟨rfl, h2, ?_⟩, ?_⟩
        · rw [(h.2 k w).1 h3]; simp
        · rw [h1]; exact h
      | nomem =>
        rw [hr] at hsp
        obtain ⟨h1, h2, _⟩ := hsp
        refine ⟨Or.inr h2, ?_⟩
        rw [h1]; exact h
  | remove k =>
    have hs := remove_spec k t h.1 64 0 (below_root t h.1)
    simp only [treeStep]
    cases hr : remove k t with
    | notFound =>
      rw [hr] at hs
      have hm := (rep_none h k).1 hs
      refine ⟨hm.symm, h.1, ?_⟩
      intro q w
      simp only [after]
      by_cases hq : q = k
      · subst hq; simp; exact hs w
      · simp [hq]; exact h.2 q w
    | removed v t' =>
      rw [hr] at hs
      refine ⟨((h.2 k v).1 hs.1).symm, hs.2.1, ?_⟩
      intro q w
      rw [hs.2.2.2.1 q w]
      simp only [after]
      by_cases hq : q = k
      · simp [hq]
      · simp [hq]; exact h.2 q w
    | ub => rw [hr] at hs; exact hs.elim
  | get k => exact ⟨rep_get h k, h⟩

private theorem rep_run {t : T V} {m : Map V} (h : Rep t m) (ops : List (Op V)) :
    ∃ m', Explains m ops (treeRun t ops).2 m' ∧ Rep (treeRun t ops).1 m' := by
  induction ops generalizing t m with
  | nil => exact ⟨m, rfl, h⟩
  | cons op ops ih =>
    obtain ⟨ha, hr⟩ := rep_step h op
    obtain ⟨m', h1, h2⟩ := ih hr
    exact ⟨m', ⟨ha, h1⟩, h2⟩

private theorem explains_unique {m m1 m2 : Map V} {ops : List (Op V)} {outs : List (Out V)}
    (h1 : Explains m ops outs m1) (h2 : Explains m ops outs m2) : m1 = m2 := by
  induction ops generalizing m outs with
  | nil =>
    cases outs with
    | nil => exact h1.trans h2.symm
    | cons _ _ => exact h1.elim
  | cons op ops ih =>
    cases outs with
    | nil => exact h1.elim
    | cons o outs => exact ih h1.2 h2.2

private theorem rep_empty : Rep (.nil : T V) empty :=
  ⟨trivial, fun k v => by simp [Has, empty]⟩

private theorem rep_of_explains {ops : List (Op V)} {m : Map V}
    (h : Explains empty ops (treeRun .nil ops).2 m) : Rep (treeRun .nil ops).1 m := by
  obtain ⟨m', h1, h2⟩ := rep_run rep_empty ops
  rw [explains_unique h h1]; exact h2

/-- **C10.** For every history of insertions, removals and lookups on an initially empty tree,
with any host allocation outcomes, all answers are those of a map (in particular none is
undefined), and afterwards every key looks up to what that map holds. -/
theorem C10_radixTreeIsMap (ops : List (Op V)) :
    ∃ m, Explains empty ops (treeRun .nil ops).2 m ∧ ∀ k, get k (treeRun .nil ops).1 = m k := by
  obtain ⟨m, h1, h2⟩ := rep_run rep_empty ops
  exact ⟨m, h1, fun k => rep_get h2 k⟩

/-- A history with a split of a leaf, a split above a node, a refused duplicate, an update, a
collapse and an exhausted host, and its answers. -/
private def hist : List (Op Nat) :=
  [.insert 0x1234#64 1 false true true, .insert 0x1235#64 2 false true true,
   .insert 0xF000000000000000#64 3 false true true, .insert 0x1235#64 9 false true true,
   .insert 0x1235#64 7 true true true, .insert 0x1335#64 7 true true false,
   .remove 0x1234#64, .get 0x1235#64, .get 0x1234#64, .remove 0x77#64]

example : (treeRun .nil hist).2 = [.inserted .ok, .inserted .ok, .inserted .ok, .inserted .exist,
    .inserted .ok, .inserted .nomem, .value (some 1), .value (some 7), .value none,
    .value none] := by rfl

/-- **C11.** After every history, for every key and every direction, the directed lookup gives
the answer of a sorted map. -/
theorem C11_directedLookup (ops : List (Op V)) (m : Map V)
    (h : Explains empty ops (treeRun .nil ops).2 m) (q : W) (dir : Dir) :
    Answers m q dir (find q dir (treeRun .nil ops).1) := by
  have hr := rep_of_explains h
  generalize (treeRun .nil ops).1 = t at hr
  have hne : ∀ {k}, m k ≠ none → ∃ v, Has t k v := by
    intro k hk
    cases hm : m k with
    | none => exact absurd hm hk
    | some v => exact ⟨v, (hr.2 k v).2 hm⟩
  have hle : ∀ q, LeSpec q t (findLe q t) := fun q => findLe_spec q t hr.1
  have hge : ∀ q, GeSpec q t (findGe q t) := fun q => findGe_spec q t hr.1
  -- the two halves, for any direction whose wanted keys are those at or below / above `q'`
  have low : ∀ q', (∀ k, Wanted dir q k ↔ k ≤ q') → (dir = .l ∨ dir = .le) →
      Answers m q dir (findLe q' t) := by
    intro q' hw hd
    have hs := hle q'
    cases hf : findLe q' t with
    | none =>
      rw [hf] at hs
      intro k hk
      refine (rep_none hr k).1 fun v hv => ?_
      exact absurd (hs k v hv) (BitVec.not_lt.2 ((hw k).1 hk))
    | some r =>
      obtain ⟨k, v⟩ := r
      rw [hf] at hs
      refine ⟨(hr.2 k v).1 hs.1, (hw k).2 hs.2.1, ?_⟩
      intro k' hk' hwk
      obtain ⟨v', hv'⟩ := hne hk'
      refine ⟨fun _ => hs.2.2 k' v' hv' ((hw k').1 hwk), ?_⟩
      rintro (h1 | h1) <;> rcases hd with h2 | h2 <;> rw [h1] at h2 <;> cases h2
  have high : ∀ q', (∀ k, Wanted dir q k ↔ q' ≤ k) → (dir = .g ∨ dir = .ge) →
      Answers m q dir (findGe q' t) := by
    intro q' hw hd
    have hs := hge q'
    cases hf : findGe q' t with
    | none =>
      rw [hf] at hs
      intro k hk
      refine (rep_none hr k).1 fun v hv => ?_
      exact absurd (hs k v hv) (BitVec.not_lt.2 ((hw k).1 hk))
    | some r =>
      obtain ⟨k, v⟩ := r
      rw [hf] at hs
      refine ⟨(hr.2 k v).1 hs.1, (hw k).2 hs.2.1, ?_⟩
      intro k' hk' hwk
      obtain ⟨v', hv'⟩ := hne hk'
      refine ⟨?_, fun _ => hs.2.2 k' v' hv' ((hw k').1 hwk)⟩
      rintro (h1 | h1) <;> rcases hd with h2 | h2 <;> rw [h1] at h2 <;> cases h2
  cases dir with
  | l =>
    by_cases hq : q = 0#64
    · have : find q .l t = none := by simp [find, hq]
      rw [this]
      intro k hk
      have hk' : k < q := hk
      rw [hq, BitVec.lt_def] at hk'
      simp at hk'
    · have : find q .l t = findLe (q - 1#64) t := by simp [find, hq]
      rw [this]
      have hq0 : q.toNat ≠ 0 := fun e => hq (BitVec.toNat_inj.1 e)
      have hlt := q.isLt
      have hsub : (q - 1#64).toNat = q.toNat - 1 := by
        rw [BitVec.toNat_sub]; simp only [BitVec.toNat_ofNat]; omega
      refine low _ (fun k => ?_) (Or.inl rfl)
      show k < q ↔ _
      rw [BitVec.lt_def, BitVec.le_def, hsub]; omega
  | le => exact low q (fun k => Iff.rfl) (Or.inr rfl)
  | eq =>
    have : find q .eq t = (get q t).map (fun v => (q, v)) := findEq_get q t
    rw [this, rep_get hr q]
    cases hm : m q with
    | none => intro k hk; rw [show k = q from hk]; exact hm
    | some v =>
      refine ⟨hm, rfl, ?_⟩
      intro k' _ _
      constructor <;> (rintro (h1 | h1) <;> cases h1)
  | ge => exact high q (fun k => Iff.rfl) (Or.inr rfl)
  | g =>
    by_cases hq : q = BitVec.allOnes 64
    · have : find q .g t = none := by simp [find, hq]
      rw [this]
      intro k hk
      have hk' : q < k := hk
      have := k.isLt
      rw [hq, BitVec.lt_def, BitVec.toNat_allOnes] at hk'
      omega
    · have : find q .g t = findGe (q + 1#64) t := if_neg hq
      rw [this]
      have hlt := q.isLt
      have hq0 : q.toNat ≠ 2 ^ 64 - 1 := by
        intro e; apply hq; apply BitVec.eq_of_toNat_eq; rw [e, BitVec.toNat_allOnes]
      have hadd : (q + 1#64).toNat = q.toNat + 1 := by
        rw [BitVec.toNat_add]; simp only [BitVec.toNat_ofNat]; omega
      refine high _ (fun k => ?_) (Or.inl rfl)
      show q < k ↔ _
      rw [BitVec.lt_def, BitVec.le_def, hadd]; omega

example : find 0x1300#64 .l (treeRun .nil (hist.take 5)).1 = some (0x1235#64, 7) := by rfl
example : find 0x1236#64 .g (treeRun .nil (hist.take 5)).1 = some (0xF000000000000000#64, 3) := by
  rfl

/-- **C11** for `critnib_find_le`: the value of the greatest key not above `q`. -/
theorem C11_findLe (ops : List (Op V)) (m : Map V)
    (h : Explains empty ops (treeRun .nil ops).2 m) (q : W) :
    match findLeValue q (treeRun .nil ops).1 with
    | none => ∀ k, k ≤ q → m k = none
    | some v => ∃ k, m k = some v ∧ k ≤ q ∧ ∀ k', k' ≤ q → m k' ≠ none → k' ≤ k := by
  have hd := C11_directedLookup ops m h q .le
  simp only [find] at hd
  unfold findLeValue
  cases hf : findLe q (treeRun .nil ops).1 with
  | none => rw [hf] at hd; exact fun k hk => hd k hk
  | some r =>
    obtain ⟨k, v⟩ := r
    rw [hf] at hd
    exact ⟨k, hd.1, hd.2.1, fun k' hk' hm => (hd.2.2 k' hm hk').1 (Or.inr rfl)⟩

example : findLeValue 0xFFFF#64 (treeRun .nil (hist.take 5)).1 = some 7 := by rfl

private theorem cut_eq_upToStop (stop : W → V → Bool) (l : List (W × V)) :
    cut stop l = upToStop stop l := by
  induction l with
  | nil => rfl
  | cons x l ih => obtain ⟨k, v⟩ := x; simp only [cut, upToStop, ih]

/-- **C12 (partial).** After every history and for every range and callback: the calls are made
for present keys of the range only, in strictly increasing order (so never twice). If the range
starts at 0, or if all present keys are below 2^60 (all user-space addresses are), the calls are
exactly the required ones. Missing: completeness when some key is above 2^60 and the range does
not start at 0, which fails, see `C12_iterate_violated`. -/
theorem C12_iterate_partial (ops : List (Op V)) (m : Map V)
    (h : Explains empty ops (treeRun .nil ops).2 m) (min max : W) (stop : W → V → Bool) :
    ((iterCalls min max stop (treeRun .nil ops).1).Pairwise (fun a b => a.1 < b.1) ∧
      ∀ k v, (k, v) ∈ iterCalls min max stop (treeRun .nil ops).1 →
        m k = some v ∧ min ≤ k ∧ k ≤ max) ∧
    ((min = 0#64 ∨ ∀ k, m k ≠ none → k.toNat < 2 ^ 60) →
      Visits m min max stop (iterCalls min max stop (treeRun .nil ops).1)) := by
  have hr := rep_of_explains h
  generalize (treeRun .nil ops).1 = t at hr
  have hsub := iter_sublist min max stop t
  have hsorted : (ranged min max t).Pairwise (fun a b => a.1 < b.1) :=
    List.Pairwise.filter _ (toList_sorted t hr.1)
  have hmem : ∀ k v, (k, v) ∈ ranged min max t ↔ m k = some v ∧ min ≤ k ∧ k ≤ max := by
    intro k v
    unfold ranged
    rw [List.mem_filter, mem_toList, hr.2]
    simp [inRange]
  refine ⟨⟨hsorted.sublist hsub, fun k v hk => (hmem k v).1 (hsub.subset hk)⟩, ?_⟩
  intro hc
  refine ⟨ranged min max t, hsorted, hmem, ?_⟩
  have finish : NoPrune min t →
      iterCalls min max stop t = upToStop stop (ranged min max t) := by
    intro hnp
    rw [← cut_eq_upToStop]
    exact (iter_complete min max stop t hr.1 hnp).1
  rcases hc with rfl | hc
  · exact finish (noPrune_zero t)
  · have hk : ∀ k v, Has t k v → k.toNat < 2 ^ 60 := fun k v hk =>
      hc k (by rw [(hr.2 k v).1 hk]; simp)
    rcases Nat.lt_or_ge min.toNat (2 ^ 60) with hlt | hge
    · exact finish (noPrune_small t hr.1 min hlt hk)
    · -- no key is in range
      have hnil : ranged min max t = [] := by
        rw [List.eq_nil_iff_forall_not_mem]
        rintro ⟨k, v⟩ hkv
        have h1 := (hmem k v).1 hkv
        have h2 := hk k v ((hr.2 k v).2 h1.1)
        have h3 := BitVec.le_def.1 h1.2.1
        omega
      rw [hnil] at hsub ⊢
      exact List.sublist_nil.1 hsub

example : iterCalls 0#64 0x1235#64 (fun _ _ => false) (treeRun .nil (hist.take 3)).1 =
    [(0x1234#64, 1), (0x1235#64, 2)] := by rfl
example : iterCalls 1#64 0x1235#64 (fun _ v => v == 1) (treeRun .nil (hist.take 2)).1 =
    [(0x1234#64, 1)] := by rfl

/-- **C12 is violated** by the code: with keys that differ in their top four bits present and a
range that does not start at 0, the iteration skips everything (the test at `critnib.c:800`
uses `path | path_mask(shift)`, which is 0 at the top node, as the upper end of the subtree). -/
theorem C12_iterate_violated :
    ∃ (ops : List (Op Nat)) (m : Map Nat) (min max : W) (stop : W → Nat → Bool),
      Explains empty ops (treeRun .nil ops).2 m ∧
      ¬ Visits m min max stop (iterCalls min max stop (treeRun .nil ops).1) := by
  obtain ⟨m, hm, hg⟩ := C10_radixTreeIsMap (hist.take 3)
  refine ⟨hist.take 3, m, 0x1000#64, 0x2000#64, fun _ _ => false, hm, ?_⟩
  rintro ⟨L, _, hmem, hcalls⟩
  have h1 : iterCalls 0x1000#64 0x2000#64 (fun _ _ => false) (treeRun .nil (hist.take 3)).1 = [] := by
    rfl
  rw [h1] at hcalls
  have h2 : get 0x1234#64 (treeRun .nil (hist.take 3)).1 = some 1 := by rfl
  rw [hg] at h2
  have h3 := (hmem 0x1234#64 1).2 ⟨h2, by decide, by decide⟩
  cases L with
  | nil => cases h3
  | cons x l =>
    obtain ⟨k, v⟩ := x
    simp [upToStop] at hcalls

end Verif.Critnib
