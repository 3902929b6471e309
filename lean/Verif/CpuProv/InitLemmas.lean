import Verif.CpuProv.Lemmas
/-!
# Lemmas: each `initialize` and `finalize`
-/
namespace Verif.CpuProv
open Verif.Policy

/-- Only the handle exists. -/
def hnd (x : Slot) : Bool := decide (x = .handle)

def noCoarse : CoarseSt := ⟨[], [], []⟩

theorem noCoarse_ok : noCoarse.Ok := by simp [noCoarse, CoarseSt.Ok]

theorem run_coarseNew_ok (S : Slot → Bool) (n : Nat) (a : CoarseAns) (h : (coarseNew n a).1 = .success)
    (hS : ∀ x, coarseOwns noCoarse x = true → S x = false) :
    run S (coarseNew n a).2 = some fun x => coarseOwns noCoarse x || S x := by
  have h1 := hS .coarse rfl
  have h2 := hS .freeTree rfl
  have h3 := hS .allTree rfl
  have h4 := hS .coarseLock rfl
  unfold coarseNew at *
  split_ifs at * <;> simp at h
  simp only [run, run1, h1, h2, h3, h4, Bool.false_eq_true, if_false, Option.bind_some, reduceCtorEq]
  congr 1; funext x; cases x <;> simp [coarseOwns, noCoarse]

theorem run_coarseNew_fail (S : Slot → Bool) (n : Nat) (a : CoarseAns) (h : (coarseNew n a).1 ≠ .success)
    (hS : ∀ x, coarseOwns noCoarse x = true → S x = false) : run S (coarseNew n a).2 = some S := by
  have h1 := hS .coarse rfl
  have h2 := hS .freeTree rfl
  have h3 := hS .allTree rfl
  unfold coarseNew at *
  split_ifs at * <;> simp at h <;>
    simp only [run, run1, h1, h2, h3, Bool.false_eq_true, if_false, if_true, Option.bind_some, reduceCtorEq]
  all_goals congr 1; funext x; cases x <;> simp [h1, h2, h3]

/-- Adding memory to a new `coarse_t`. -/
theorem run_addFixed (S : Slot → Bool) (n : Nat) (a : AddAns) (he : a.elem = true)
    (hS : ∀ x, coarseOwns noCoarse x = true → S x = true)
    (h1 : S (.block 0) = false) (h2 : S (.head 0) = false) (h3 : S (.elem 0) = false) :
    (addFixed n a).2.2.Ok ∧
    run S (addFixed n a).2.1 = some fun x => coarseOwns (addFixed n a).2.2 x || S x := by
  have b1 := hS .coarse rfl
  have b2 := hS .freeTree rfl
  have b3 := hS .allTree rfl
  have b4 := hS .coarseLock rfl
  unfold addFixed
  split_ifs <;> simp_all [run, run1, CoarseSt.Ok]
  all_goals funext x; cases x <;> simp [coarseOwns, b1, b2, b3, b4]
  all_goals rename_i i; by_cases hi : i = 0 <;> simp [hi, h1, h2]

theorem of_coarseNew (n : Nat) (a : CoarseAns) : ∀ e ∈ (coarseNew n a).2, e.of n := by
  unfold coarseNew; split_ifs <;> simp [Ev.of]

theorem of_addFixed (n : Nat) (a : AddAns) : ∀ e ∈ (addFixed n a).2.1, e.of n := by
  unfold addFixed; split_ifs <;> simp [Ev.of]

theorem of_coarseDelete (n : Nat) (c : CoarseSt) : ∀ e ∈ coarseDelete n c, e.of n := by
  rw [coarseDelete_eq]; simp [Ev.of]

/-- What creation should do, seen from the provider: on success there is a complete provider and its objects exist, on failure
nothing but the handle exists. -/
def InitOk (r : Res × List Ev × Option Prov) : Prop :=
  (r.1 = .success → ∃ p, r.2.2 = some p ∧ WF p ∧ run hnd r.2.1 = some (owns p)) ∧
  (r.1 ≠ .success → run hnd r.2.1 = some hnd)

theorem initOk_err {r : Res} {es : List Ev} {o : Option Prov} (h : r ≠ .success) (he : run hnd es = some hnd) :
    InitOk (r, es, o) := ⟨fun h' => absurd h' h, fun _ => he⟩

theorem initOk_ok {es : List Ev} {p : Prov} (hw : WF p) (he : run hnd es = some (owns p)) :
    InitOk (.success, es, some p) := ⟨fun _ => ⟨p, rfl, hw, he⟩, fun h => absurd rfl h⟩

/-! ## fixed -/

theorem fixed_spec (n : Nat) (a : FixedAns) (hs : a.add.elem = true) :
    InitOk (fixedInit n a) := by
  unfold fixedInit
  dsimp only
  have hN : ∀ x, coarseOwns noCoarse x = true →
      (if x = Slot.prov then true else decide (x = Slot.handle)) = false := by
    intro x; cases x <;> simp [coarseOwns]
  obtain ⟨hok, hr⟩ := run_addFixed
    (fun x => coarseOwns noCoarse x || if x = Slot.prov then true else decide (x = Slot.handle)) n a.add hs
    (by intro x hx; simp [hx]) (by simp [coarseOwns, noCoarse]) (by simp [coarseOwns, noCoarse])
    (by simp [coarseOwns, noCoarse])
  split_ifs with h1 h2 h3
  · exact initOk_err (by simp) rfl
  · refine initOk_err h2 ?_
    rw [List.cons_append, run]
    simp only [run1, hnd, reduceCtorEq, decide_false, Bool.false_eq_true, if_false, Option.bind_some]
    rw [run_append, run_coarseNew_fail _ n _ h2 hN]
    simp only [Option.bind_some, run, run1, if_true]
    congr 1; funext x; cases x <;> simp [hnd]
  · refine initOk_err h3 ?_
    rw [List.cons_append, List.cons_append, List.cons_append, run]
    simp only [run1, hnd, reduceCtorEq, decide_false, Bool.false_eq_true, if_false, Option.bind_some]
    rw [run_append, run_append, run_append, run_coarseNew_ok _ n _ (not_not.1 h2) hN, Option.bind_some, hr,
      Option.bind_some, run_coarseDelete _ n _ hok (by intro x hx; simp [hx])]
    simp only [Option.bind_some, run, run1]
    simp [coarseOwns]
    funext x; cases x <;> simp [hnd, coarseOwns, noCoarse]
  · refine initOk_ok hok ?_
    rw [List.cons_append, run]
    simp only [run1, hnd, reduceCtorEq, decide_false, Bool.false_eq_true, if_false, Option.bind_some]
    rw [run_append, run_coarseNew_ok _ n _ (not_not.1 h2) hN, Option.bind_some, hr]
    congr 1; funext x; cases x <;> simp [owns, coarseOwns, noCoarse]

/-! ## devdax -/

theorem of_devdaxOpen (n : Nat) (path : List Char) (a : DevdaxAns) : ∀ e ∈ (devdaxOpen n path a).2, e.of n := by
  unfold devdaxOpen; split_ifs <;> simp [Ev.of]

theorem run_devdaxOpen_fail (S : Slot → Bool) (n : Nat) (path : List Char) (a : DevdaxAns) (hS : S .fd = false)
    (h : (devdaxOpen n path a).1 = false) : run S (devdaxOpen n path a).2 = some S := by
  unfold devdaxOpen at *
  split_ifs at * <;> simp [run, run1, hS] at h ⊢
  funext x; by_cases hx : x = .fd <;> simp [hx, hS]

theorem devdaxOpen_ok (n : Nat) (path : List Char) (a : DevdaxAns)
    (h : (devdaxOpen n path a).1 = true) : (devdaxOpen n path a).2 = [.mk n .fd] := by
  unfold devdaxOpen at *
  split_ifs at * <;> simp at h ⊢

theorem devdax_spec (n : Nat) (i : DevdaxIn) (a : DevdaxAns) (hp : ∀ p, i.path = some p → p.length < 4096)
    (hs : a.add.elem = true) :
    InitOk (devdaxInit n i a) := by
  unfold devdaxInit
  cases hpath : i.path with
  | none => exact initOk_err (by simp) rfl
  | some path =>
  have hpo : ¬ pathOk path = false := by
    have := hp path hpath
    have : pathOk path = true := decide_eq_true (by show path.length ≤ 4096 - 1; omega)
    simp [this]
  dsimp only
  have hN : ∀ x, coarseOwns noCoarse x = true →
      (if x = Slot.prov then true else decide (x = Slot.handle)) = false := by
    intro x; cases x <;> simp [coarseOwns]
  have hstart : ∀ es, run hnd (.mk n .prov :: es) =
      run (fun x => if x = Slot.prov then true else decide (x = Slot.handle)) es := by
    intro es
    rw [run]
    simp only [run1, hnd, reduceCtorEq, decide_false, Bool.false_eq_true, if_false, Option.bind_some]
  have hundo : ∀ (c : CoarseSt), c.Ok → ∀ S : Slot → Bool,
      (∀ x, S x = (coarseOwns c x || decide (x = .prov) || hnd x)) →
      run S (coarseDelete n c ++ [.rm n .prov]) = some hnd := by
    intro c hc S hS
    rw [run_append, run_coarseDelete S n c hc (by intro x hx; simp [hS, hx])]
    simp only [Option.bind_some, run, run1]
    simp [coarseOwns, hS, hnd]
    funext x; cases x <;> simp [hnd, coarseOwns]
  split_ifs with h1 h2 h3 h4 h6 h7 h8 h9 h10
  · exact initOk_err (by simp) rfl
  · exact initOk_err (by simp) rfl
  · refine initOk_err h3 ?_
    rw [List.cons_append, hstart, run_append, run_coarseNew_fail _ n _ h3 hN]
    simp only [Option.bind_some, run, run1, if_true]
    congr 1; funext x; cases x <;> simp [hnd]
  · refine initOk_err (by simp) ?_
    rw [List.cons_append, hstart, run_append, run_coarseNew_ok _ n _ (not_not.1 h3) hN, Option.bind_some]
    exact hundo noCoarse noCoarse_ok _ (by intro x; cases x <;> simp [hnd, coarseOwns, noCoarse])
  · refine initOk_err (by simp) ?_
    rw [List.cons_append, List.cons_append, List.append_assoc, hstart, run_append,
      run_coarseNew_ok _ n _ (not_not.1 h3) hN, Option.bind_some, run_append,
      run_devdaxOpen_fail _ n path a (by simp [coarseOwns]) h6, Option.bind_some]
    exact hundo noCoarse noCoarse_ok _ (by intro x; cases x <;> simp [hnd, coarseOwns, noCoarse])
  all_goals
    have ho := devdaxOpen_ok n path a (by simpa using h6)
    rw [ho]
  · refine initOk_err (by simp) ?_
    rw [List.cons_append, List.cons_append, List.cons_append, List.append_assoc, List.append_assoc, hstart, run_append,
      run_coarseNew_ok _ n _ (not_not.1 h3) hN, Option.bind_some, ← List.append_assoc, run_append]
    simp only [List.cons_append, List.nil_append, run, run1, coarseOwns, Bool.false_or, reduceCtorEq, if_false,
      decide_false, Bool.false_eq_true, Option.bind_some, if_true]
    exact hundo noCoarse noCoarse_ok _ (by intro x; cases x <;> simp [hnd, coarseOwns, noCoarse])
  all_goals
    have hr0 : ∀ es, run hnd (.mk n .prov :: (coarseNew n a.coarse).2 ++ [.mk n .fd] ++ [.mk n (.mapping 0), .rm n .fd] ++ es) =
        run (fun x => coarseOwns noCoarse x || decide (x = .mapping 0) || decide (x = .prov) || hnd x) es := by
      intro es
      rw [List.append_assoc, List.append_assoc, List.cons_append, hstart, run_append,
        run_coarseNew_ok _ n _ (not_not.1 h3) hN, Option.bind_some]
      simp only [List.cons_append, List.nil_append, run, run1, coarseOwns, Bool.false_or, reduceCtorEq, if_false,
        decide_false, Bool.false_eq_true, Option.bind_some, if_true]
      congr 1; funext x; cases x <;> simp [hnd, coarseOwns]
  · refine initOk_err (by simp) ?_
    rw [List.append_assoc, hr0, run_append]
    simp only [run, run1, coarseOwns, Bool.false_or, decide_true, Bool.true_or, if_true, Option.bind_some]
    exact hundo noCoarse noCoarse_ok _ (by intro x; cases x <;> simp [hnd, coarseOwns, noCoarse])
  all_goals
    obtain ⟨hok, hr⟩ := run_addFixed
      (fun x => coarseOwns noCoarse x || decide (x = .mapping 0) || decide (x = .prov) || hnd x) n a.add hs
      (by intro x hx; simp [hx]) (by simp [coarseOwns, noCoarse, hnd]) (by simp [coarseOwns, noCoarse, hnd])
      (by simp [coarseOwns, noCoarse, hnd])
  · refine initOk_err h9 ?_
    rw [List.append_assoc, List.append_assoc, hr0, run_append, hr, Option.bind_some, run_append]
    simp only [run, run1, coarseOwns, Bool.false_or, decide_true, Bool.true_or, if_true, Option.bind_some]
    exact hundo _ hok _ (by intro x; cases x <;> simp [hnd, coarseOwns, noCoarse])
  · refine initOk_err (by simp) ?_
    rw [List.append_assoc, List.append_assoc, hr0, run_append, hr, Option.bind_some, run_append]
    simp only [run, run1, coarseOwns, Bool.false_or, decide_true, Bool.true_or, if_true, Option.bind_some]
    exact hundo _ hok _ (by intro x; cases x <;> simp [hnd, coarseOwns, noCoarse])
  · refine initOk_ok hok ?_
    rw [List.append_assoc, hr0, run_append, hr, Option.bind_some]
    simp [run, run1, coarseOwns, hnd]
    funext x; cases x <;> simp [owns, coarseOwns, noCoarse]

/-! ## file -/

theorem run_fileTrial (S : Slot → Bool) (n : Nat) (i : FileIn) (a : FileAns) (hS : ∀ x, S (.mapping x) = false) :
    run S (fileTrial n i a) = some S := by
  unfold fileTrial
  split_ifs
  · rfl
  · cases a.trial with
    | none => rfl
    | some y =>
      simp only [run, run1, hS, Bool.false_eq_true, if_false, Option.bind_some, if_true]
      congr 1; funext x
      by_cases hx : x = .mapping y <;> simp [hx, hS]

theorem of_fileTrial (n : Nat) (i : FileIn) (a : FileAns) : ∀ e ∈ fileTrial n i a, e.of n := by
  unfold fileTrial
  split_ifs
  · simp
  · cases a.trial <;> simp [Ev.of]

theorem file_spec (n : Nat) (i : FileIn) (a : FileAns) (hp : ∀ p, i.path = some p → p.length < 4096) :
    InitOk (fileInit n i a) := by
  unfold fileInit
  cases hpath : i.path with
  | none => exact initOk_err (by simp) rfl
  | some path =>
  have hpo : ¬ pathOk path = false := by
    have := hp path hpath
    have : pathOk path = true := decide_eq_true (by show path.length ≤ 4096 - 1; omega)
    simp [this]
  dsimp only
  have hN : ∀ x, coarseOwns noCoarse x = true → (decide (x = .fd) || decide (x = .prov) || hnd x) = false := by
    intro x; cases x <;> simp [coarseOwns, hnd]
  have hstart : ∀ es, run hnd ([.mk n .prov, .mk n .fd] ++ fileTrial n i a ++ es) =
      run (fun x => decide (x = .fd) || decide (x = .prov) || hnd x) es := by
    intro es
    rw [List.append_assoc, run_append]
    simp only [run, run1, hnd, reduceCtorEq, decide_false, Bool.false_eq_true, if_false, Option.bind_some]
    rw [run_append, run_fileTrial _ n i a (by simp), Option.bind_some]
    congr 1; funext x; cases x <;> simp
  have hundo : ∀ S : Slot → Bool, (∀ x, S x = (decide (x = .fd) || decide (x = .prov) || hnd x)) →
      run S [.rm n .fd, .rm n .prov] = some hnd := by
    intro S hS
    simp only [run, run1, hS, hnd, reduceCtorEq, decide_false, decide_true, Bool.or_true, Bool.or_false, if_true,
      if_false, Option.bind_some]
    congr 1; funext x; cases x <;> simp [hnd]
  have hundo2 : ∀ S : Slot → Bool,
      (∀ x, S x = (coarseOwns noCoarse x || decide (x = .fd) || decide (x = .prov) || hnd x)) →
      run S (coarseDelete n ⟨[], [], []⟩ ++ [.rm n .fd, .rm n .prov]) = some hnd := by
    intro S hS
    rw [run_append, run_coarseDelete S n ⟨[], [], []⟩ noCoarse_ok
      (by intro x hx; have hx' : coarseOwns noCoarse x = true := hx; simp [hS, hx']), Option.bind_some]
    exact hundo _ (by intro x; cases x <;> simp [hS, coarseOwns, hnd, noCoarse])
  split_ifs with h1 h2 h3 h4 h5 h6 h7 h8
  · exact initOk_err (by simp) rfl
  · exact initOk_err (by simp) (by simp [run, run1, hnd]; funext x; cases x <;> simp [hnd])
  · exact initOk_err (by simp) (by simp [run, run1, hnd]; funext x; cases x <;> simp [hnd])
  · exact initOk_err (by simp) (by simp [run, run1, hnd]; funext x; cases x <;> simp [hnd])
  · refine initOk_err h5 ?_
    rw [List.append_assoc, hstart, run_append, run_coarseNew_fail _ n _ h5 hN, Option.bind_some]
    exact hundo _ fun _ => rfl
  · refine initOk_err (by simp) ?_
    rw [List.append_assoc, List.append_assoc, hstart, run_append, run_coarseNew_ok _ n _ (not_not.1 h5) hN,
      Option.bind_some]
    exact hundo2 _ (by intro x; simp [Bool.or_assoc])
  · refine initOk_err (by simp) ?_
    rw [List.append_assoc, List.append_assoc, List.append_assoc, hstart, run_append,
      run_coarseNew_ok _ n _ (not_not.1 h5) hN, Option.bind_some]
    simp only [List.cons_append, List.nil_append, run, run1, coarseOwns, hnd, Bool.false_or, reduceCtorEq, if_false,
      decide_false, Bool.false_eq_true, Option.bind_some, if_true]
    exact hundo2 _ (by intro x; cases x <;> simp [coarseOwns, hnd, noCoarse])
  · refine initOk_err (by simp) ?_
    rw [List.append_assoc, List.append_assoc, List.append_assoc, hstart, run_append,
      run_coarseNew_ok _ n _ (not_not.1 h5) hN, Option.bind_some]
    simp only [List.cons_append, List.nil_append, run, run1, coarseOwns, hnd, Bool.false_or, reduceCtorEq, if_false,
      decide_false, Bool.false_eq_true, Option.bind_some, if_true]
    exact hundo2 _ (by intro x; cases x <;> simp [coarseOwns, hnd, noCoarse])
  · refine initOk_ok ⟨noCoarse_ok, by simp, by simp⟩ ?_
    rw [List.append_assoc, hstart, run_append, run_coarseNew_ok _ n _ (not_not.1 h5) hN, Option.bind_some]
    simp only [run, run1, coarseOwns, hnd, Bool.false_or, reduceCtorEq, if_false,
      decide_false, Bool.false_eq_true, Option.bind_some]
    congr 1; funext x; cases x <;> simp [owns, coarseOwns, noCoarse]

/-! ## OS -/

theorem initNodeset_sound (n : Nat) (list : List Nat) (ded : Bool) (a : OsAns) (h1 : a.dup = true)
    (h2 : ∀ k, a.bitmap k = true) (h3 : ∀ k, a.bitSet k = true) :
    ((initNodeset n list ded a).1 = false → (initNodeset n list ded a).2.1 = []) ∧
    ((initNodeset n list ded a).1 = true →
      (initNodeset n list ded a).2.1 = .mk n .nodeArr :: mkBitmaps n (initNodeset n list ded a).2.2) := by
  unfold initNodeset
  dsimp only
  rw [firstFail_none _ _ h2, firstFail_none _ _ h3]
  by_cases ha : a.nodeArr = false
  · rw [if_pos ha]; simp
  · rw [if_neg ha]
    by_cases hl : list = []
    · rw [if_pos hl, if_pos h1]; simp [hl, mkBitmaps]
    · rw [if_neg hl]; simp

theorem osTranslate_sound (n P : Nat) (i : OsIn) (a : OsAns) (h1 : a.dup = true)
    (h2 : ∀ k, a.bitmap k = true) (h3 : ∀ k, a.bitSet k = true) (h4 : i.numa.mode = .split → a.partitions = true) :
    ((osTranslate n P i a).1 ≠ .success → (osTranslate n P i a).2.1 = []) ∧
    ((osTranslate n P i a).1 = .success →
      (osTranslate n P i a).2.1 = .mk n .nodeArr :: mkBitmaps n (osTranslate n P i a).2.2.1 ++
        (if i.numa.mode = .split then [.mk n .partitions] else []) ∧
      (osTranslate n P i a).2.2.2 = decide (i.numa.mode = .split)) := by
  obtain ⟨hf, ht⟩ := initNodeset_sound n i.numa.list (dedicated i.numa) a h1 h2 h3
  unfold osTranslate
  by_cases hfl : i.flags = false
  · rw [if_pos hfl]; simp
  · rw [if_neg hfl]
    cases translate P [] i.numa with
    | none => simp
    | some v =>
      dsimp only
      by_cases hr : (initNodeset n i.numa.list (dedicated i.numa) a).1 = false
      · rw [if_pos hr]; simp [hf hr]
      · rw [if_neg hr]
        have e := ht (by simpa using hr)
        by_cases hm : i.numa.mode = .split
        · rw [if_pos ⟨hm, h4 hm⟩]; simp [hm, e]
        · rw [if_neg (fun h => hm h.1)]; simp [hm, e]

theorem createFd_fail (S : Slot → Bool) (n : Nat) (i : OsIn) (a : OsAns) (h0 : a.fd ≠ some 0) (h1 : S .fd = false)
    (h2 : S .shmFile = false) : (createFd n i a).1 ≠ .success → run S (createFd n i a).2.1 = some S := by
  have hx : ∀ T : Slot → Bool, (∀ x, T x = if x = .fd then false else if x = .shmFile then false else S x) → T = S := by
    intro T hT; funext x; rw [hT]; by_cases e1 : x = .fd
    · simp [e1, h1]
    · by_cases e2 : x = .shmFile <;> simp [e1, e2, h2]
  unfold createFd
  by_cases hs : i.shared = false
  · rw [if_pos hs]; simp
  rw [if_neg hs]
  cases hn : i.shmName with
  | some name =>
    dsimp only
    by_cases ho : shmNameOk name = false
    · rw [if_pos ho]; intro _; rfl
    rw [if_neg ho]
    cases hfd : a.fd with
    | none => intro _; rfl
    | some d =>
      dsimp only
      by_cases hz : a.size = true
      · rw [if_pos hz]; simp
      rw [if_neg hz]; intro _
      simp only [run, run1, h1, h2, Bool.false_eq_true, if_false, Option.bind_some, reduceCtorEq, if_true]
      congr 1; apply hx; intro x; cases x <;> simp
  | none =>
    dsimp only
    cases hfd : a.fd with
    | none => intro _; rfl
    | some d =>
      dsimp only
      have hd : ¬ d = 0 := by rintro rfl; exact h0 hfd
      rw [if_neg hd]
      by_cases hz : a.size = true
      · rw [if_pos hz]; simp
      rw [if_neg hz]; intro _
      simp only [run, run1, h1, Bool.false_eq_true, if_false, Option.bind_some, if_true]
      congr 1; apply hx; intro x; cases x <;> simp [h2]

theorem createFd_ok (S : Slot → Bool) (n : Nat) (i : OsIn) (a : OsAns) (h0 : a.fd ≠ some 0) (h1 : S .fd = false)
    (h2 : S .shmFile = false) : (createFd n i a).1 = .success →
    (createFd n i a).2.2.1 ≠ some 0 ∧ ((createFd n i a).2.2.2 = true → (createFd n i a).2.2.1.isSome = true) ∧
    (i.shared = false → (createFd n i a).2.2.1 = none) ∧
    run S (createFd n i a).2.1 = some fun x => (decide (x = .fd) && (createFd n i a).2.2.1.isSome) ||
      (decide (x = .shmFile) && (createFd n i a).2.2.2) || S x := by
  unfold createFd
  by_cases hs : i.shared = false
  · rw [if_pos hs]; simp [run]
  rw [if_neg hs]
  cases hn : i.shmName with
  | some name =>
    dsimp only
    by_cases ho : shmNameOk name = false
    · rw [if_pos ho]; simp
    rw [if_neg ho]
    cases hfd : a.fd with
    | none => simp
    | some d =>
      rw [hfd] at h0
      dsimp only
      by_cases hz : a.size = true
      · rw [if_pos hz]; intro _
        refine ⟨h0, fun _ => rfl, fun h => absurd h hs, ?_⟩
        simp only [run, run1, h1, h2, Bool.false_eq_true, if_false, Option.bind_some, reduceCtorEq]
        congr 1; funext x; cases x <;> simp
      rw [if_neg hz]; simp
  | none =>
    dsimp only
    cases hfd : a.fd with
    | none => simp
    | some d =>
      rw [hfd] at h0
      dsimp only
      have hd : ¬ d = 0 := by rintro rfl; exact h0 rfl
      rw [if_neg hd]
      by_cases hz : a.size = true
      · rw [if_pos hz]; intro _
        refine ⟨h0, fun h => by simp at h, fun h => absurd h hs, ?_⟩
        simp only [run, run1, h1, Bool.false_eq_true, if_false, Option.bind_some]
        congr 1; funext x; cases x <;> simp
      rw [if_neg hz]; simp

theorem fdPos_eq (fd : Option Nat) (h : fd ≠ some 0) : fdPos fd = fd.isSome := by
  cases fd with
  | none => rfl
  | some d => simp only [fdPos, Option.isSome_some, decide_eq_true_eq]; simp at h; omega

theorem run_freeBitmaps (S : Slot → Bool) (n len : Nat) (h1 : ∀ i < len, S (.bitmap i) = true) (h2 : S .nodeArr = true) :
    run S (freeBitmaps n len) = some fun x => if x = .nodeArr then false else !isBitmap len x && S x := by
  unfold freeBitmaps
  rw [run_append, run_rmBitmaps S n len h1, Option.bind_some]
  simp [run, run1, isBitmap, h2]

theorem os_spec (n P : Nat) (i : OsIn) (a : OsAns) (hs : (Req.os P i a).Sound) : InitOk (osInit n P i a) := by
  obtain ⟨s1, s2, s3, s4, s5, s6⟩ := hs
  obtain ⟨tf, tt⟩ := osTranslate_sound n P i a s1 s2 s3 s4
  unfold osInit
  dsimp only
  by_cases g1 : i.shared = true ∧ i.numa.mode ≠ .default
  · rw [if_pos g1]; exact initOk_err (by simp) rfl
  rw [if_neg g1]
  by_cases g2 : a.prov = false
  · rw [if_pos g2]; exact initOk_err (by simp) rfl
  rw [if_neg g2]
  by_cases g3 : a.topoInit = false
  · rw [if_pos g3]
    exact initOk_err (by simp) (by simp [run, run1, hnd]; funext x; cases x <;> simp [hnd])
  rw [if_neg g3]
  by_cases g4 : a.topoLoad = false
  · rw [if_pos g4]
    exact initOk_err (by simp) (by simp [run, run1, hnd]; funext x; cases x <;> simp [hnd])
  rw [if_neg g4]
  by_cases g5 : a.offsets = false
  · rw [if_pos g5]
    exact initOk_err (by simp) (by simp [run, run1, hnd]; funext x; cases x <;> simp [hnd])
  rw [if_neg g5]
  by_cases g6 : (osTranslate n P i a).1 ≠ .success
  · rw [if_pos g6]
    refine initOk_err g6 ?_
    rw [tf g6]
    simp [run, run1, hnd]; funext x; cases x <;> simp [hnd]
  rw [if_neg g6]
  obtain ⟨te, tp⟩ := tt (not_not.1 g6)
  generalize hlen : (osTranslate n P i a).2.2.1 = len at *
  -- the state after `translate_params`
  have hstart : ∀ es, run hnd ([.mk n .prov, .mk n .topo, .mk n .offsets] ++ (osTranslate n P i a).2.1 ++ es) =
      run (fun x => decide (x = .prov) || decide (x = .topo) || decide (x = .offsets) || decide (x = .nodeArr) ||
        isBitmap len x || (decide (x = .partitions) && decide (i.numa.mode = .split)) || hnd x) es := by
    intro es
    rw [te, List.append_assoc, run_append]
    simp only [run, run1, hnd, reduceCtorEq, decide_false, Bool.false_eq_true, if_false, Option.bind_some]
    rw [List.cons_append, List.cons_append, run, List.append_assoc]
    simp only [run1, reduceCtorEq, decide_false, Bool.false_eq_true, if_false, Option.bind_some]
    rw [run_append, run_mkBitmaps _ n len (by simp), Option.bind_some, run_append]
    by_cases hm : i.numa.mode = .split
    · rw [if_pos hm]
      simp only [run, run1, isBitmap, reduceCtorEq, decide_false, Bool.false_eq_true, if_false, Option.bind_some,
        Bool.or_false]
      congr 1; funext x; cases x <;> simp [hm, isBitmap]
    · rw [if_neg hm]
      simp only [run, Option.bind_some]
      congr 1; funext x; cases x <;> simp [hm, isBitmap]
  by_cases g7 : (createFd n i a).1 ≠ .success
  · rw [if_pos g7]
    refine initOk_err g7 ?_
    have hsh : i.shared = true := by
      by_contra hc
      apply g7
      unfold createFd
      rw [if_pos (by simpa using hc)]
    have hm : i.numa.mode ≠ .split := by
      intro hm; exact g1 ⟨hsh, by rw [hm]; simp⟩
    rw [List.append_assoc, List.append_assoc, hstart, run_append,
      createFd_fail _ n i a s6 (by simp [hnd, isBitmap]) (by simp [hnd, isBitmap]) g7, Option.bind_some, run_append,
      run_freeBitmaps _ n len (by intro i hi; simp [isBitmap, hi]) (by simp), Option.bind_some]
    simp [run, run1, hnd, hm, isBitmap]
    funext x; cases x <;> simp [hnd, isBitmap]
  rw [if_neg g7]
  obtain ⟨cf, cs, cn, cr⟩ := createFd_ok (fun x => decide (x = .prov) || decide (x = .topo) || decide (x = .offsets) ||
    decide (x = .nodeArr) || isBitmap len x || (decide (x = .partitions) && decide (i.numa.mode = .split)) || hnd x)
    n i a s6 (by simp [hnd, isBitmap]) (by simp [hnd, isBitmap]) (not_not.1 g7)
  have hfd := fdPos_eq _ cf
  have hlk : ¬ (fdPos (createFd n i a).2.2.1 = true ∧ a.lock = false) := by
    rintro ⟨e1, e2⟩
    rw [hfd] at e1
    by_cases hsh : i.shared = true
    · rw [s5 hsh] at e2; simp at e2
    · rw [cn (by simpa using hsh)] at e1; simp at e1
  rw [if_neg hlk]
  refine initOk_ok ⟨tp, cf, cs⟩ ?_
  rw [List.append_assoc, List.append_assoc, hstart, run_append, cr, Option.bind_some, hfd]
  by_cases e1 : (createFd n i a).2.2.1.isSome = true <;> by_cases e2 : a.strBuf = true
  all_goals
    simp only [e1, e2, if_true, if_false, List.append_nil, List.nil_append, List.cons_append, run, run1, hnd, isBitmap,
      reduceCtorEq, decide_false, Bool.false_and, Bool.false_or, Bool.false_eq_true, Option.bind_some]
    congr 1; funext x; cases x <;> simp [owns, isBitmap, e1, e2]

end Verif.CpuProv
