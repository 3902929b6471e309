import Verif.Proxy.Theorems
/-! # Concrete histories of the malloc replacement, and counterexamples (C43, C53) -/
set_option linter.unusedSimpArgs false
namespace Verif.Proxy
open BaseAlloc Mem
open Linear (CfgOk OsOk pools region)

/-- Page size 4096; the metadata has 72 bytes on 64-bit Linux. -/
def cfg0 : Linear.Cfg := ⟨4096, 72⟩
theorem cfgOk0 : CfgOk cfg0 := ⟨by decide, by decide, by decide, by decide, by decide⟩

/-- The OS puts the linear allocator at 2^20; the pool has the page at 2^30; the system answers with 2^40. -/
def ans0 : Ans := ⟨some 1048576, fun _ => none, 2 ^ 40, 16, fun p => decide (2 ^ 30 ≤ p ∧ p < 2 ^ 30 + 4096)⟩
def ansE : Ans := ⟨some 1048576, fun _ => none, 2 ^ 40, 16, fun _ => false⟩

def leak0 : Linear.Pool := ⟨⟨1048576, 4198400, 80, 0⟩, [], 1048656, 4198320⟩

theorem create0 : Linear.create cfg0 (4 * 1024 * 1024) (some 1048576) true = some leak0 := by
  simp [Linear.create, cfg0, leak0, Fixed.word, Fixed.alignUpSafe, Fixed.alignPtrUpSizeDown]

theorem disj (a b : Nat × Nat) (h : a.1 + a.2 ≤ b.1 ∨ b.1 + b.2 ≤ a.1) : Disjoint a b := disjoint_of h

/-- Before the first use. -/
theorem ansOk_start {s : State} (hs : s.leak = none) : AnsOk cfg0 s [] [] ansE where
  create := fun _ => ⟨1048576, leak0, rfl, create0, ⟨⟨by decide, by decide, by decide, by unfold leakMem; rw [hs]; simp⟩,
    by simp, by simp⟩, (by intro n b h; cases h), fun _ => by rintro ⟨_, h2⟩; revert h2; decide⟩
  os := by intro n b h; cases h
  system := fun _ => ⟨(by rintro ⟨r, hr, _⟩; cases hr), by unfold leakMem; rw [hs]; rintro ⟨r, hr, _⟩; cases hr⟩
  byPtr := fun p => ⟨(fun h => by cases h), by rintro ⟨r, hr, _⟩; cases hr⟩

/-- The linear allocator after allocations. -/
theorem ansOk_later {s : State} {live : List Blk} {l : Linear.Pool} (ho : s.once = true) (hs : s.leak = some l)
    (hl : (pools l).map region = [(1048576, 4198400)]) : AnsOk cfg0 s live [] ansE where
  create := fun h => by rw [ho] at h; cases h
  os := by intro n b h; cases h
  system := fun _ => ⟨(by rintro ⟨r, hr, _⟩; cases hr), by
    rw [leakMem_some hs, hl]
    rintro ⟨r, hr, h1, h2⟩
    rw [List.mem_singleton] at hr
    subst hr
    revert h2; decide⟩
  byPtr := fun p => ⟨(fun h => by cases h), by rintro ⟨r, hr, _⟩; cases hr⟩

theorem ansOk_pool {s : State} {live : List Blk} {l : Linear.Pool} (ho : s.once = true) (hs : s.leak = some l)
    (hl : (pools l).map region = [(1048576, 4198400)]) : AnsOk cfg0 s live [(2 ^ 30, 4096)] ans0 where
  create := fun h => by rw [ho] at h; cases h
  os := by intro n b h; cases h
  system := fun _ => ⟨by
      rintro ⟨r, hr, h1, h2⟩
      rw [List.mem_singleton] at hr
      subst hr
      revert h2; decide, by
    rw [leakMem_some hs, hl]
    rintro ⟨r, hr, h1, h2⟩
    rw [List.mem_singleton] at hr
    subst hr
    revert h2; decide⟩
  byPtr := fun p => by
    unfold ans0
    simp [InAny, Has]

/-- `malloc(100)` at the start-up. -/
def s1 : State := { State.init with once := true, leak := some ⟨⟨1048576, 4198400, 80, 1⟩, [], 1048760, 4198216⟩ }

theorem leakInit_init : leakInit cfg0 State.init ansE = { State.init with once := true, leak := some leak0 } := by
  unfold leakInit
  rw [if_neg (by decide)]
  show ({ State.init with once := true, leak := Linear.create cfg0 (4 * 1024 * 1024) (some 1048576) true } : State) = _
  rw [create0]

theorem call1 : call cfg0 State.init 0 (.alloc 100) ansE = some (s1, some 1048656, [.sent 0 .leak (.alloc 100)]) := by
  unfold call malloc allocate
  dsimp only
  rw [if_neg (by decide), if_neg (by decide)]
  unfold leakAligned
  dsimp only
  rw [leakInit_init, if_neg (by decide)]
  simp [Linear.alloc, Linear.bump, leak0, cfg0, Fixed.word, Fixed.alignUpSafe, alignUp, s1, ansE]

theorem reach1 : Reach cfg0 s1 [⟨.leak, 1048656, 100⟩] (fun _ => []) [] :=
  Reach.call Reach.init (ansOk_start rfl) (by show 100 ≤ _; decide) call1

/-- A second `malloc(100)`. -/
def s2 : State := { State.init with once := true, leak := some ⟨⟨1048576, 4198400, 80, 2⟩, [], 1048864, 4198112⟩ }

theorem call2 : call cfg0 s1 0 (.alloc 100) ansE = some (s2, some 1048760, [.sent 0 .leak (.alloc 100)]) := by
  unfold call malloc allocate
  dsimp only
  rw [if_neg (by decide), if_neg (by decide)]
  unfold leakAligned
  dsimp only
  rw [leakInit_once rfl, if_neg (by decide)]
  simp [Linear.alloc, Linear.bump, cfg0, Fixed.word, Fixed.alignUpSafe, alignUp, s1, s2, State.init]

theorem reach2 : Reach cfg0 s2 [⟨.leak, 1048760, 100⟩, ⟨.leak, 1048656, 100⟩] (fun _ => []) [] :=
  Reach.call reach1 (ansOk_later rfl rfl rfl) (by show 100 ≤ _; decide) call2

/-- C53 is false for alignments: memory of `malloc` in the start-up phase is not aligned for all types (16 on 64-bit Linux). -/
theorem C53_alignment_violated : ∃ cfg s live busy regs b, CfgOk cfg ∧ Reach cfg s live busy regs ∧ b ∈ live ∧ 16 ≤ b.size ∧
    b.ptr % 16 ≠ 0 :=
  ⟨cfg0, s2, _, _, _, ⟨.leak, 1048760, 100⟩, cfgOk0, reach2, by simp, by decide, by decide⟩

/-- C53 is false for `realloc` in the start-up phase: source and target of the `memcpy` overlap. -/
theorem C53_overlap_violated : ∃ cfg s live busy regs a b s' v x y m, CfgOk cfg ∧ Reach cfg s live busy regs ∧
    AnsOk cfg s live regs a ∧ b ∈ live ∧
    call cfg s 0 (.realloc b.ptr 200) a = some (s', some v, [.sent 0 .leak (.realloc b.ptr 200), .copied x y m]) ∧
    ¬ Disjoint (x, m) (y, m) := by
  refine ⟨cfg0, s1, _, _, _, ansE, ⟨.leak, 1048656, 100⟩,
    { s1 with leak := some ⟨⟨1048576, 4198400, 80, 1⟩, [], 1048960, 4198016⟩ }, 1048760, 1048656, 1048760, 200,
    cfgOk0, reach1, ansOk_later rfl rfl rfl, by simp, ?_, ?_⟩
  · unfold call realloc
    dsimp only
    rw [if_neg (by decide), if_neg (by decide), leakInit_once rfl]
    simp [Linear.alloc, Linear.bump, Linear.free, Linear.containsPointer, Linear.Sub.contains, cfg0, Fixed.word, Fixed.alignUpSafe, s1, State.init]
  · intro h
    exact h 1048760 ⟨⟨by decide, by decide⟩, by decide, by decide⟩

/-- C43 and C53 are false for `calloc` with a product above 2^64: the block is smaller than requested. -/
theorem C43_calloc_violated : ∃ cfg a s' v, CfgOk cfg ∧ Reach cfg State.init [] (fun _ => []) [] ∧ AnsOk cfg State.init [] [] a ∧
    call cfg State.init 0 (.calloc (2 ^ 61 + 1) 8) a = some (s', some v, [.sent 0 .leak (.calloc (2 ^ 61 + 1) 8)]) ∧ v ≠ 0 ∧
    ¬ ∃ g ∈ leakMem s', Inside (v, (2 ^ 61 + 1) * 8) g := by
  refine ⟨cfg0, ansE, { State.init with once := true, leak := some ⟨⟨1048576, 4198400, 80, 1⟩, [], 1048664, 4198312⟩ }, 1048656,
    cfgOk0, Reach.init, ansOk_start rfl, ?_, by decide, ?_⟩
  · unfold call allocate
    dsimp only
    rw [if_neg (by decide), if_neg (by decide)]
    unfold leakAligned
    dsimp only
    rw [leakInit_init, if_neg (by decide)]
    simp [Linear.alloc, Linear.bump, leak0, cfg0, Fixed.word, Fixed.alignUpSafe, alignUp, ansE]
  · rintro ⟨g, hg, hin⟩
    rw [leakMem_some rfl] at hg
    simp [pools, region] at hg
    subst hg
    have := (hin (1048656 + 2 ^ 40) ⟨by decide, by decide⟩).2
    revert this; decide

/-- C53 is false for `aligned_alloc` if size and alignment add up to more than 2^64: the pointer is outside of all memory. -/
theorem C53_aligned_violated : ∃ cfg a s' v, CfgOk cfg ∧ Reach cfg State.init [] (fun _ => []) [] ∧ AnsOk cfg State.init [] [] a ∧
    call cfg State.init 0 (.aligned (2 ^ 63) (2 ^ 63 + 8)) a = some (s', some v, [.sent 0 .leak (.aligned (2 ^ 63) (2 ^ 63 + 8))]) ∧
    v ≠ 0 ∧ ¬ InAny (leakMem s') v := by
  refine ⟨cfg0, ansE, { State.init with once := true, leak := some ⟨⟨1048576, 4198400, 80, 1⟩, [], 1048664, 4198312⟩ }, 2 ^ 63,
    cfgOk0, Reach.init, ansOk_start rfl, ?_, by decide, ?_⟩
  · unfold call allocate
    dsimp only
    rw [if_neg (by decide), if_neg (by decide)]
    unfold leakAligned
    dsimp only
    rw [leakInit_init, if_neg (by decide)]
    simp [Linear.alloc, Linear.bump, leak0, cfg0, Fixed.word, Fixed.alignUpSafe, alignUp, ansE]
  · rintro ⟨g, hg, hin⟩
    rw [leakMem_some rfl] at hg
    simp [pools, region] at hg
    subst hg
    have := hin.2
    revert this; decide

/-- After the start-up: threshold 64, and the pool with one page. Then `malloc(200)` from the pool and `malloc(10)` from the system. -/
def s3 : State := poolMade (setThreshold s2 64)
def live3 : List Blk := [⟨.system, 2 ^ 40, 10⟩, ⟨.pool, 2 ^ 30, 200⟩, ⟨.leak, 1048760, 100⟩, ⟨.leak, 1048656, 100⟩]

theorem s3_fields : s3.once = true ∧ s3.leak = some ⟨⟨1048576, 4198400, 80, 2⟩, [], 1048864, 4198112⟩ ∧ s3.threshold = 64 ∧
    s3.pool = true ∧ s3.flag = fun _ => false := ⟨rfl, rfl, rfl, rfl, rfl⟩

theorem ite_self_fun {α : Type} (f : Nat → α) (t : Nat) (x : α) (h : f t = x) : (fun u => if u = t then x else f u) = f := by
  funext u
  split
  · rename_i h1; rw [h1, h]
  · rfl

theorem reach3 : Reach cfg0 s3 live3 (fun _ => []) [(2 ^ 30, 4096)] := by
  have h1 : Reach cfg0 s3 [⟨.leak, 1048760, 100⟩, ⟨.leak, 1048656, 100⟩] (fun _ => []) [(2 ^ 30, 4096)] := by
    refine Reach.memory (Reach.poolMade (Reach.threshold reach2)) ⟨by simp, by simp, ?_⟩
    intro g hg r hr
    rw [List.mem_singleton] at hr
    subst hr
    have hg' : g ∈ [(1048576, 4198400)] := hg
    rw [List.mem_singleton] at hg'
    subst hg'
    exact disjoint_of (.inl (by decide))
  have h2 : Reach cfg0 (s3.enter 0 (.alloc 200) true) [⟨.leak, 1048760, 100⟩, ⟨.leak, 1048656, 100⟩]
      (fun u => if u = 0 then [none] else []) [(2 ^ 30, 4096)] :=
    Reach.enter (t := 0) (r := .alloc 200) (evs := [.sent 0 .pool (.alloc 200)]) h1 (ansOk_pool rfl rfl rfl)
      (by show 200 ≤ _; decide) rfl
  have h3 : Reach cfg0 s3 [⟨.pool, 2 ^ 30, 200⟩, ⟨.leak, 1048760, 100⟩, ⟨.leak, 1048656, 100⟩] (fun _ => []) [(2 ^ 30, 4096)] := by
    have h := Reach.ret (t := 0) (r := .alloc 200) (v := 2 ^ 30) (s' := s3) h2 (by
      unfold ret
      show some (({ s3 with flag := _, pending := _ } : State), Req.alloc 200) = some (s3, _)
      congr 2
      show ({ s3 with flag := fun u => if u = 0 then false else if u = 0 then true else s3.flag u
                      pending := fun u => if u = 0 then [] else if u = 0 then _ else s3.pending u } : State) = s3
      have f1 : (fun u => if u = 0 then false else if u = 0 then true else s3.flag u) = s3.flag := by
        funext u; split <;> rfl
      have f2 : (fun u => if u = 0 then ([] : List Req) else if u = 0 then Req.alloc 200 :: s3.pending 0 else s3.pending u) =
          s3.pending := by
        funext u; split <;> rfl
      rw [f1, f2]) (b := none) (bs := []) rfl (fun _ => ⟨(2 ^ 30, 4096), by simp, by decide, by decide⟩)
    have f3 : (fun u => if u = 0 then ([] : List (Option Blk)) else if u = 0 then [none] else []) = fun _ => [] := by
      funext u; by_cases hu : u = 0 <;> simp [hu]
    rw [f3] at h
    exact h
  exact Reach.call (t := 0) (r := .alloc 10) (a := ans0) (v := 2 ^ 40) (evs := [.sent 0 .system (.alloc 10)]) h3
    (ansOk_pool rfl rfl rfl) (by show 10 ≤ _; decide) rfl

/-- The hypotheses of the theorems hold: a state with blocks of all three allocators. -/
example : CfgOk cfg0 ∧ Reach cfg0 s3 live3 (fun _ => []) [(2 ^ 30, 4096)] ∧ AnsOk cfg0 s3 live3 [(2 ^ 30, 4096)] ans0 ∧
    (∀ o : Origin, ∃ b ∈ live3, b.org = o) :=
  ⟨cfgOk0, reach3, ansOk_pool rfl rfl rfl, fun o => by cases o <;> simp [live3]⟩

/-- `C43_nested_partial`: a thread enters the pool. -/
example : call cfg0 s3 0 (.alloc 200) ans0 = some (s3.enter 0 (.alloc 200) true, none, [.sent 0 .pool (.alloc 200)]) := rfl

/-- C43 is false for a program that is linked with the library (not preloaded): after the destructor of the library, memory of the
pool goes to the system. -/
theorem C43_linked_violated : ∃ cfg s live busy regs a b s', CfgOk cfg ∧ Reach cfg s live busy regs ∧ AnsOk cfg s live regs a ∧
    b ∈ live ∧ b.org = .pool ∧
    call cfg (destroy s false) 0 (.free b.ptr) a = some (s', some 0, [.sent 0 .system (.free b.ptr)]) := by
  refine ⟨cfg0, s3, live3, _, _, ans0, ⟨.pool, 2 ^ 30, 200⟩, destroy s3 false, cfgOk0, reach3, ansOk_pool rfl rfl rfl,
    by simp [live3], rfl, ?_⟩
  unfold call free
  dsimp only
  rw [if_neg (by decide), leakInit_once rfl]
  rfl

/-- Recursion is possible: memory that the pool requests while it frees goes to the pool. -/
theorem C43_recursion_violated : ∃ cfg s live busy regs a b s1 s2 evs, CfgOk cfg ∧ Reach cfg s live busy regs ∧
    AnsOk cfg s live regs a ∧ b ∈ live ∧ call cfg s 0 (.free b.ptr) a = some (s1, none, evs) ∧
    call cfg s1 0 (.alloc 100) a = some (s2, none, [.sent 0 .pool (.alloc 100)]) := by
  refine ⟨cfg0, s3, live3, _, _, ans0, ⟨.pool, 2 ^ 30, 200⟩, s3.enter 0 (.free (2 ^ 30)) false,
    (s3.enter 0 (.free (2 ^ 30)) false).enter 0 (.alloc 100) true, [.sent 0 .pool (.free (2 ^ 30))], cfgOk0, reach3,
    ansOk_pool rfl rfl rfl, by simp [live3], ?_, rfl⟩
  unfold call free
  dsimp only
  rw [if_neg (by decide), leakInit_once rfl]
  rfl

/-- Recursion is possible: the mark of a thread that is in the pool is lost when a nested call returns. -/
theorem C43_flagLost_violated : ∃ cfg s live busy regs a b s1 s2 s3 s4 evs1 evs2 r, CfgOk cfg ∧ Reach cfg s live busy regs ∧
    AnsOk cfg s live regs a ∧ b ∈ live ∧ call cfg s 0 (.alloc 200) a = some (s1, none, evs1) ∧
    call cfg s1 0 (.usable b.ptr) a = some (s2, none, evs2) ∧ ret s2 0 = some (s3, r) ∧ s3.pending 0 = [.alloc 200] ∧
    call cfg s3 0 (.alloc 100) a = some (s4, none, [.sent 0 .pool (.alloc 100)]) := by
  refine ⟨cfg0, s3, live3, _, _, ans0, ⟨.pool, 2 ^ 30, 200⟩, s3.enter 0 (.alloc 200) true,
    (s3.enter 0 (.alloc 200) true).enter 0 (.usable (2 ^ 30)) true, _, _, [.sent 0 .pool (.alloc 200)],
    [.sent 0 .pool (.usable (2 ^ 30))], .usable (2 ^ 30), cfgOk0, reach3, ansOk_pool rfl rfl rfl, by simp [live3], rfl, ?_, rfl, rfl, rfl⟩
  unfold call usable
  dsimp only
  rw [if_neg (by decide), leakInit_once rfl]
  rfl

end Verif.Proxy
