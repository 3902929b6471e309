import Verif.CpuProv.Props
/-!
# Concrete cases for C68, and what the code does in the excluded cases
-/
namespace Verif.CpuProv
open Verif.Policy Verif.Os

/-- Everything succeeds; descriptor 5. -/
def osAll : OsAns := ⟨true, true, true, true, true, true, fun _ => true, fun _ => true, true, some 5, true, true, true⟩
def coarseAll : CoarseAns := ⟨true, true, true, true⟩
def addAll : AddAns := ⟨true, true, true, true, true⟩
def fileAll : FileAns := ⟨true, true, true, some 4096, coarseAll, true, true, true⟩
def devdaxAll : DevdaxAns := ⟨true, coarseAll, true, true, .sync, addAll, true⟩

/-- A private provider split over the nodes 0 and 1. -/
def splitIn : OsIn := ⟨true, false, none, ⟨.split, [0, 1], [], 0⟩⟩
/-- A shared provider with a named file. -/
def sharedIn : OsIn := ⟨true, true, some "umf".toList, ⟨.default, [], [], 0⟩⟩

/-- The requests of the theorems exist. -/
theorem good_split : (Req.os 4096 splitIn osAll).Good := by
  simp [Req.Good, splitIn, osAll, translate, validMode, dedicated]
theorem good_shared : (Req.os 4096 sharedIn osAll).Good := by
  simp [Req.Good, sharedIn, osAll, translate, validMode, dedicated]
theorem good_file : (Req.file ⟨some "/mnt/f".toList, true, false⟩ fileAll).Good := by
  simp [Req.Good, fileAll, coarseAll]
theorem good_devdax : (Req.devdax ⟨some "/dev/dax0.0".toList, 4096, true⟩ devdaxAll).Good := by
  refine ⟨⟨"0.0".toList, by decide, by decide⟩, ?_⟩
  simp [devdaxAll, coarseAll, addAll]
theorem good_fixed : (Req.fixed ⟨true, coarseAll, addAll⟩).Good := by
  simp [Req.Good, coarseAll, addAll]

/-- A history: two providers are created, a third cannot be created, a file provider maps two regions, and both are destroyed. -/
theorem ex_hist : ∃ st ds, Hist st [] ds ∧ ds.length = 2 ∧ ∀ n s, st n s = false := by
  obtain ⟨e1, s1⟩ := C68_good (n := 0) good_split
  obtain ⟨e2, s2⟩ := C68_good (n := 1) good_file
  have h0 := Hist.init
  rcases C68_create_partial (st := fun _ _ => false) (n := 0) (mem := true) (fun _ => rfl) s1 with
    ⟨e, _⟩ | ⟨p1, _, c1, w1, _, a1⟩
  · exact absurd e1 e
  have h1 := Hist.create h0 (by simp) (by simp) s1 c1 a1
  rcases C68_create_partial (n := 1) (mem := true) ((hist_inv h1).none 1 (by simp) (by simp)) s2 with
    ⟨e, _⟩ | ⟨p2, _, c2, w2, _, a2⟩
  · exact absurd e2 e
  have h2 := Hist.create h1 (by simp) (by simp) s2 c2 a2
  have hp2 : p2 = .file ⟨[], [], []⟩ [] := by
    have : (create 1 true (Req.file ⟨some "/mnt/f".toList, true, false⟩ fileAll)).2.2 =
      some ⟨1, some (.file ⟨[], [], []⟩ [])⟩ := by decide
    rw [this] at c2; simp at c2; exact c2.symm
  have hp1 : p1 = .os .split 2 true true none false := by
    have : (create 0 true (Req.os 4096 splitIn osAll)).2.2 =
      some ⟨0, some (.os .split 2 true true none false)⟩ := by decide
    rw [this] at c1; simp at c1; exact c1.symm
  subst hp2
  have hs3 : (Req.fixed ⟨true, coarseAll, ⟨true, true, false, true, true⟩⟩).Sound := rfl
  rcases C68_create_partial (n := 2) (mem := true) ((hist_inv h2).none 2 (by simp) (by simp)) hs3 with
    ⟨_, c3, a3⟩ | ⟨_, e3, _⟩
  swap
  · exact absurd e3 (by decide)
  have h3 := Hist.createFail h2 (by simp) (by simp) hs3 c3 a3
  have h4 := Hist.use h3 (p' := .file ⟨[3, 4], [4], [7]⟩ [8192, 4096]) (.file (by simp [CoarseSt.Ok]) (by simp) (by simp))
  obtain ⟨st5, a5⟩ := Option.isSome_iff_exists.1 ((C68_defined_partial h4).2 _ List.mem_cons_self).2
  have h5 := Hist.destroy h4 rfl a5
  obtain ⟨st6, a6⟩ := Option.isSome_iff_exists.1 ((C68_defined_partial h5).2 _ List.mem_cons_self).2
  have h6 := Hist.destroy h5 rfl a6
  refine ⟨st6, _, h6, rfl, C68_nothing_partial h6 ?_⟩
  intro d hd m l p s f sh he
  simp only [List.mem_cons, List.not_mem_nil, or_false] at hd
  rcases hd with rfl | rfl
  · rw [hp1] at he; simp at he; exact he.2.2.2.2.1.symm
  · simp at he

/-! ## The excluded cases -/

/-- `umfMemoryProviderCreate` of a file or devdax provider with a path of 4096 characters or more returns success when the host
memory suffices, with a handle whose private pointer was never written; destroying it uses that pointer. -/
theorem C68_longPath_violated (path : List Char) (h : 4096 ≤ path.length) (n : Nat) :
    (create n true (.file ⟨some path, true, false⟩ fileAll)).1 = .success ∧
    (create n true (.file ⟨some path, true, false⟩ fileAll)).2.2 = some ⟨n, none⟩ ∧
    (create n true (.devdax ⟨some path, 4096, true⟩ devdaxAll)).1 = .success ∧
    (create n true (.devdax ⟨some path, 4096, true⟩ devdaxAll)).2.2 = some ⟨n, none⟩ ∧
    ∀ st, apply st (destroy ⟨n, none⟩) = none := by
  have hp : pathOk path = false := decide_eq_false (by show ¬ path.length ≤ 4096 - 1; omega)
  refine ⟨?_, ?_, ?_, ?_, fun _ => rfl⟩ <;>
    simp [create, init, fileInit, devdaxInit, fileAll, devdaxAll, coarseAll, coarseNew, hp]

/-- The descriptor and the named file of a shared OS provider outlive it. -/
theorem C68_sharedFd_violated : ∃ st, Hist st [] [(0, .os .default 1 false true (some 5) true)] ∧ st 0 .fd = true ∧
    st 0 .shmFile = true := by
  obtain ⟨e1, s1⟩ := C68_good (n := 0) good_shared
  rcases C68_create_partial (st := fun _ _ => false) (n := 0) (mem := true) (fun _ => rfl) s1 with
    ⟨e, _⟩ | ⟨p1, _, c1, w1, _, a1⟩
  · exact absurd e1 e
  have h1 := Hist.create Hist.init (by simp) (by simp) s1 c1 a1
  have hp1 : p1 = .os .default 1 false true (some 5) true := by
    have : (create 0 true (Req.os 4096 sharedIn osAll)).2.2 =
      some ⟨0, some (.os .default 1 false true (some 5) true)⟩ := by decide
    rw [this] at c1; simp at c1; exact c1.symm
  subst hp1
  obtain ⟨st5, a5⟩ := Option.isSome_iff_exists.1 ((C68_defined_partial h1).2 _ List.mem_cons_self).2
  have h5 := Hist.destroy h1 rfl a5
  refine ⟨st5, h5, (C68_live_partial h5 0 .fd).2 (Or.inr ⟨_, List.mem_cons_self, rfl, rfl⟩),
    (C68_live_partial h5 0 .shmFile).2 (Or.inr ⟨_, List.mem_cons_self, rfl, rfl⟩)⟩

/-- A bitmap that cannot be made: the array of bitmaps is leaked if it is the first, and otherwise a released bitmap is freed again. -/
theorem C68_nodeset_violated :
    (∃ st, apply (fun _ _ => false) (create 0 true (.os 4096 splitIn { osAll with bitmap := fun i => decide (i ≠ 0) })).2.1 =
      some st ∧ (create 0 true (.os 4096 splitIn { osAll with bitmap := fun i => decide (i ≠ 0) })).2.2 = none ∧
      st 0 .nodeArr = true) ∧
    apply (fun _ _ => false) (create 0 true (.os 4096 splitIn { osAll with bitmap := fun i => decide (i ≠ 1) })).2.1 = none := by
  refine ⟨?_, by decide +kernel⟩
  have h1 : (apply (fun _ _ => false)
    (create 0 true (.os 4096 splitIn { osAll with bitmap := fun i => decide (i ≠ 0) })).2.1).map (· 0 .nodeArr) = some true := by
    decide +kernel
  obtain ⟨st, e1, e2⟩ := Option.map_eq_some_iff.1 h1
  exact ⟨st, e1, by decide +kernel, e2⟩

/-- Without host memory for the partitions the provider is created all the same, and its first allocation uses a null pointer. -/
theorem C68_partitions_violated :
    (create 0 true (.os 4096 splitIn { osAll with partitions := false })).1 = .success ∧
    ∃ p, (create 0 true (.os 4096 splitIn { osAll with partitions := false })).2.2 = some ⟨0, some p⟩ ∧
      osFirstBind p = [.crash] :=
  ⟨by decide +kernel, .os .split 2 false true none false, by decide +kernel, by decide⟩

/-- A failed creation leaves the descriptor: the mutex cannot be made, or the descriptor is 0. -/
theorem C68_fd_violated :
    (∃ st, apply (fun _ _ => false) (create 0 true (.os 4096 sharedIn { osAll with lock := false })).2.1 = some st ∧
      (create 0 true (.os 4096 sharedIn { osAll with lock := false })).2.2 = none ∧ st 0 .fd = true) ∧
    ∃ st, apply (fun _ _ => false) (create 0 true (.os 4096 { sharedIn with shmName := none } { osAll with fd := some 0 })).2.1 =
      some st ∧
      (create 0 true (.os 4096 { sharedIn with shmName := none } { osAll with fd := some 0 })).2.2 = none ∧ st 0 .fd = true := by
  have h1 : (apply (fun _ _ => false) (create 0 true (.os 4096 sharedIn { osAll with lock := false })).2.1).map (· 0 .fd) =
    some true := by decide +kernel
  have h2 : (apply (fun _ _ => false)
    (create 0 true (.os 4096 { sharedIn with shmName := none } { osAll with fd := some 0 })).2.1).map (· 0 .fd) =
    some true := by decide +kernel
  obtain ⟨st, e1, e2⟩ := Option.map_eq_some_iff.1 h1
  obtain ⟨st', e1', e2'⟩ := Option.map_eq_some_iff.1 h2
  exact ⟨⟨st, e1, by decide +kernel, e2⟩, st', e1', by decide +kernel, e2'⟩

/-- A failed creation leaves the head of an empty list of free blocks. -/
theorem C68_head_violated :
    ∃ st, apply (fun _ _ => false) (create 0 true (.fixed ⟨true, coarseAll, { addAll with elem := false }⟩)).2.1 = some st ∧
      (create 0 true (.fixed ⟨true, coarseAll, { addAll with elem := false }⟩)).2.2 = none ∧ st 0 (.head 0) = true := by
  have h1 : (apply (fun _ _ => false)
    (create 0 true (.fixed ⟨true, coarseAll, { addAll with elem := false }⟩)).2.1).map (· 0 (.head 0)) = some true := by
    decide +kernel
  obtain ⟨st, e1, e2⟩ := Option.map_eq_some_iff.1 h1
  exact ⟨st, e1, by decide +kernel, e2⟩

/-- Every name with a slash makes `umfMemoryProviderCreate` return -1, which is no `umf_result_t`. -/
theorem C68_shmName_violated (name : List Char) (h : '/' ∈ name) (n : Nat) :
    (create n true (.os 4096 { sharedIn with shmName := some name } osAll)).1 = .minusOne := by
  have hn : shmNameOk name = false := by simp [shmNameOk, h]
  have hc : createFd n { sharedIn with shmName := some name } osAll = (.minusOne, [], none, false) := by
    simp [createFd, sharedIn, hn]
  have ht : (osTranslate n 4096 { sharedIn with shmName := some name } osAll).1 = .success := by
    simp [osTranslate, sharedIn, osAll, translate, validMode, initNodeset]
  have hi : (osInit n 4096 { sharedIn with shmName := some name } osAll).1 = .minusOne := by
    unfold osInit
    dsimp only
    rw [if_neg (by simp [sharedIn]), if_neg (by simp [osAll]), if_neg (by simp [osAll]), if_neg (by simp [osAll]),
      if_neg (by simp [osAll]), if_neg (by simp [ht]), if_pos (by simp [hc])]
    rw [hc]
  unfold create
  simp [init, hi]

end Verif.CpuProv
