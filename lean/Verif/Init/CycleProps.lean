import Verif.Init.Props
/-!
# Overlapping calls, failures and repeated initialisation (C44, C52)
-/
namespace Verif.Init

/-- C44 is false for overlapping calls: a second `umfInit` returns success before the tracker and the cache exist. -/
theorem C44_race_violated {cfg : Cfg} {t u : Nat} (h : u ≠ t) :
    ∃ s evs, run cfg State.init [] [(t, .init), (u, .init)] = some (s, evs) ∧ Ev.initRet u 0 ∈ evs ∧
      s.tracker = none ∧ s.ipc = none := by
  have h1 : (0 + 1) % wrap = 1 := add_wrap (by decide)
  have hp : (if u = t then Pc.tracker else Pc.idle) = .idle := if_neg h
  simp only [run, step, State.init, callInit, State.setPc, h1, hp, if_pos, Nat.one_ne_zero, if_false]
  exact ⟨_, _, rfl, by simp, rfl, rfl⟩

/-- The state after a whole call of `umfInit` that initialises the library. -/
def started (s : State) : State :=
  { s with count := 1, tracker := some s.next, ipc := some (s.next + 1), objs := (s.next + 1) :: s.next :: s.objs,
           next := s.next + 2, ctl := s.ctl + 1 }

theorem run_cons {cfg : Cfg} {s s' : State} {evs es : List Ev} {t : Nat} {a : Act} {rest : List (Nat × Act)}
    (h : step cfg s t a = some (s', es)) : run cfg s evs ((t, a) :: rest) = run cfg s' (es.reverse ++ evs) rest := by
  rw [run, h]

theorem setPc_setPc (s : State) (t : Nat) (p q : Pc) : (s.setPc t p).setPc t q = s.setPc t q := by
  unfold State.setPc
  congr 1
  funext u
  dsimp only
  split <;> rfl

theorem setPc_idle {s : State} {t : Nat} (hq : s.pc t = .idle) : s.setPc t .idle = s := by
  unfold State.setPc
  have : (fun u => if u = t then Pc.idle else s.pc u) = s.pc := by
    funext u
    split
    · rename_i e
      rw [e, hq]
    · rfl
  rw [this]

/-- The state before the last step of such a call. -/
def starting (s : State) : State :=
  { s with count := 1, tracker := some s.next, ipc := some (s.next + 1), objs := (s.next + 1) :: s.next :: s.objs,
           next := s.next + 2 }

theorem run_start3 {cfg : Cfg} {s : State} {evs : List Ev} {t : Nat} {rest : List (Nat × Act)} (hq : s.pc t = .idle)
    (h0 : s.count = 0) :
    run cfg s evs (start t ++ rest) =
      run cfg ((starting s).setPc t .ctl) (.initCall t :: evs) ((t, .go true) :: rest) := by
  have h1 : (0 + 1) % wrap = 1 := add_wrap (by decide)
  have e1 : step cfg s t .init = some (({ s with count := 1 } : State).setPc t .tracker, [.initCall t]) := by
    unfold step callInit
    dsimp only
    rw [if_pos hq, if_pos h0, h0, h1]
  have e2 : ∀ s : State, step cfg (s.setPc t .tracker) t (.go true) =
      some (({ s with tracker := some s.next, objs := s.next :: s.objs, next := s.next + 1 } : State).setPc t .ipc, []) := by
    intro s
    unfold step go
    simp only [setPc_self, if_true]
    exact congrArg (fun x => some (x, []))
      (setPc_setPc { s with tracker := some s.next, objs := s.next :: s.objs, next := s.next + 1 } t .tracker .ipc)
  have e3 : ∀ s : State, step cfg (s.setPc t .ipc) t (.go true) =
      some (({ s with ipc := some s.next, objs := s.next :: s.objs, next := s.next + 1 } : State).setPc t .ctl, []) := by
    intro s
    unfold step go
    simp only [setPc_self, if_true]
    exact congrArg (fun x => some (x, []))
      (setPc_setPc { s with ipc := some s.next, objs := s.next :: s.objs, next := s.next + 1 } t .ipc .ctl)
  show run cfg s evs ((t, .init) :: (t, .go true) :: (t, .go true) :: (t, .go true) :: rest) = _
  rw [run_cons e1, run_cons (e2 _), run_cons (e3 _)]
  rfl

theorem run_start {cfg : Cfg} {s : State} {evs : List Ev} {t : Nat} {rest : List (Nat × Act)} (hq : s.pc t = .idle)
    (h0 : s.count = 0) (hc : s.ctl < 100) :
    run cfg s evs (start t ++ rest) = run cfg (started s) (.initRet t 0 :: .initCall t :: evs) rest := by
  have e4 : ∀ s : State, s.ctl < 100 → step cfg (s.setPc t .ctl) t (.go true) =
      some (({ s with ctl := s.ctl + 1 } : State).setPc t .idle, [.initRet t 0]) := by
    intro s hc
    unfold step go
    simp only [setPc_self]
    rw [if_pos (show (s.setPc t .ctl).ctl < ctlMax from hc)]
    exact congrArg (fun x => some (x, [_])) (setPc_setPc { s with ctl := s.ctl + 1 } t .ctl .idle)
  rw [run_start3 hq h0, run_cons (e4 (starting s) hc)]
  exact congrArg (fun x => run cfg x _ rest) (setPc_idle (s := started s) hq)

/-- Without room for another control node. -/
theorem run_start_full {cfg : Cfg} {s : State} {evs : List Ev} {t : Nat} {rest : List (Nat × Act)} (hq : s.pc t = .idle)
    (h0 : s.count = 0) (hc : s.ctl = 100) : run cfg s evs (start t ++ rest) = none := by
  have e4 : ∀ s : State, s.ctl = 100 → step cfg (s.setPc t .ctl) t (.go true) = none := by
    intro s hc
    unfold step go
    simp only [setPc_self]
    refine if_neg ?_
    show ¬ s.ctl < 100
    omega
  rw [run_start3 hq h0, run, e4 (starting s) hc]

/-- The state after a whole call of `umfTearDown` that shuts the library down. -/
def stopped (s : State) : State :=
  { s with count := 0, tracker := none, ipc := none, objs := [], mem := [], destroyed := true, epoch := s.epoch + 1,
           tbbLoaded := false }

theorem run_stop {s : State} {evs : List Ev} {t i j : Nat} {rest : List (Nat × Act)} (hq : s.pc t = .idle)
    (h1 : s.count = 1) (hi : s.tracker = some i) (hj : s.ipc = some j) (ho : s.objs = [j, i]) :
    run ⟨false, false⟩ s evs (stop t ++ rest) = run ⟨false, false⟩ (stopped s) (.downRet t :: .downCall t :: evs) rest := by
  have hd : dec 1 = 0 := sub_wrap (by decide)
  have e1 : step ⟨false, false⟩ s t .down = some (({ s with count := 0 } : State).setPc t .downIpc, [.downCall t]) := by
    unfold step callDown
    dsimp only
    rw [if_pos hq, if_pos h1, h1, hd]
  have e2 : ∀ s : State, step ⟨false, false⟩ (s.setPc t .downIpc) t (.go true) =
      some (({ s with ipc := none } : State).setPc t (.downFree s.ipc), []) := by
    intro s
    unfold step go
    simp only [setPc_self]
    exact congrArg (fun x => some (x, [])) (setPc_setPc { s with ipc := none } t .downIpc (.downFree s.ipc))
  have e3 : ∀ s : State, j ∈ s.objs → step ⟨false, false⟩ (s.setPc t (.downFree (some j))) t (.go true) =
      some (({ s with objs := s.objs.erase j } : State).setPc t .downTracker, []) := by
    intro s hc
    unfold step go
    simp only [setPc_self]
    rw [if_pos (show j ∈ (s.setPc t (.downFree (some j))).objs from hc)]
    exact congrArg (fun x => some (x, [])) (setPc_setPc { s with objs := s.objs.erase j } t (.downFree (some j)) .downTracker)
  have e4 : ∀ s : State, step ⟨false, false⟩ (s.setPc t .downTracker) t (.go true) =
      some (({ s with tracker := none } : State).setPc t (.downDestroy s.tracker), []) := by
    intro s
    unfold step go
    simp only [setPc_self]
    exact congrArg (fun x => some (x, [])) (setPc_setPc { s with tracker := none } t .downTracker (.downDestroy s.tracker))
  have e5 : ∀ s : State, i ∈ s.objs → step ⟨false, false⟩ (s.setPc t (.downDestroy (some i))) t (.go true) =
      some (({ s with objs := s.objs.erase i } : State).setPc t .downBa, []) := by
    intro s hc
    unfold step go
    simp only [setPc_self, Bool.false_eq_true, if_false]
    rw [if_pos (show i ∈ (s.setPc t (.downDestroy (some i))).objs from hc)]
    exact congrArg (fun x => some (x, [])) (setPc_setPc { s with objs := s.objs.erase i } t (.downDestroy (some i)) .downBa)
  have e6 : ∀ s : State, step ⟨false, false⟩ (s.setPc t .downBa) t (.go true) =
      some (({ s with destroyed := true, objs := [], mem := [], epoch := s.epoch + 1 } : State).setPc t .downLibs, []) := by
    intro s
    unfold step go
    simp only [setPc_self, Bool.false_eq_true, if_false]
    exact congrArg (fun x => some (x, []))
      (setPc_setPc { s with destroyed := true, objs := [], mem := [], epoch := s.epoch + 1 } t .downBa .downLibs)
  have e7 : ∀ s : State, step ⟨false, false⟩ (s.setPc t .downLibs) t (.go true) =
      some (({ s with tbbLoaded := false } : State).setPc t .idle, [.downRet t]) := by
    intro s
    unfold step go
    simp only [setPc_self]
    exact congrArg (fun x => some (x, [_])) (setPc_setPc { s with tbbLoaded := false } t .downLibs .idle)
  show run _ s evs ((t, .down) :: (t, .go true) :: (t, .go true) :: (t, .go true) :: (t, .go true) :: (t, .go true) ::
    (t, .go true) :: rest) = _
  rw [run_cons e1, run_cons (e2 _)]
  dsimp only
  rw [hj, run_cons (e3 _ (by simp [ho])), run_cons (e4 _)]
  dsimp only
  rw [hi, run_cons (e5 _ (by simp [ho])), run_cons (e6 _), run_cons (e7 _)]
  exact congrArg (fun x => run _ x _ rest) (setPc_idle (s := stopped s) hq)

/-- The library is initialised and shut down. -/
theorem run_cycle {s : State} {evs : List Ev} {t : Nat} {rest : List (Nat × Act)} (hq : s.pc t = .idle)
    (h0 : s.count = 0) (ho : s.objs = []) (hc : s.ctl < 100) :
    run ⟨false, false⟩ s evs (start t ++ stop t ++ rest) =
      run ⟨false, false⟩ (stopped (started s)) (.downRet t :: .downCall t :: .initRet t 0 :: .initCall t :: evs) rest := by
  rw [List.append_assoc, run_start hq h0 hc]
  exact run_stop (s := started s) hq rfl rfl rfl (by simp [started, ho])

theorem run_append {cfg : Cfg} {s : State} {evs : List Ev} {a b : List (Nat × Act)} :
    run cfg s evs (a ++ b) = (run cfg s evs a).bind fun r => run cfg r.1 r.2 b := by
  induction a generalizing s evs with
  | nil => rfl
  | cons x a ih =>
    obtain ⟨t, ac⟩ := x
    rw [List.cons_append, run, run]
    cases step cfg s t ac with
    | none => rfl
    | some r => exact ih

theorem run_cycles {s : State} {evs : List Ev} {t n : Nat} (hq : s.pc t = .idle) (h0 : s.count = 0) (ho : s.objs = [])
    (hc : s.ctl + n ≤ 100) : ∃ s' evs', run ⟨false, false⟩ s evs (cycles t n) = some (s', evs') ∧ s'.pc t = .idle ∧
      s'.count = 0 ∧ s'.objs = [] ∧ s'.ctl = s.ctl + n := by
  induction n generalizing s evs with
  | zero => exact ⟨s, evs, rfl, hq, h0, ho, rfl⟩
  | succ n ih =>
    unfold cycles
    rw [List.replicate_succ, List.flatten_cons, run_cycle hq h0 ho (by omega)]
    obtain ⟨s', evs', h1, h2, h3, h4, h5⟩ := ih (s := stopped (started s))
      (evs := .downRet t :: .downCall t :: .initRet t 0 :: .initCall t :: evs) hq rfl rfl (by
        show s.ctl + 1 + n ≤ 100
        omega)
    refine ⟨s', evs', h1, h2, h3, h4, ?_⟩
    rw [h5]
    show s.ctl + 1 + n = _
    omega

/-! ## C44 -/

/-- C44 is false if the last shut-down overlaps with an initialisation: `umfInit` returned success, one user is left, and the
tracker and the cache of this user are destroyed. -/
theorem C44_lastFirst_violated :
    ∃ s evs, run ⟨false, false⟩ State.init []
        (start 0 ++ ((0, .down) :: (start 1 ++ List.replicate 6 (0, .go true)))) = some (s, evs) ∧
      users evs = 1 ∧ Ev.initRet 1 0 ∈ evs ∧ s.pc 0 = .idle ∧ s.pc 1 = .idle ∧ s.tracker = none ∧ s.ipc = none ∧
      s.objs = [] := by
  with_unfolding_all exact ⟨_, _, rfl, rfl, by simp, rfl, rfl, rfl, rfl, rfl⟩

/-- C44 is false after an initialisation that failed: the next `umfInit` returns success, and there is no tracker. -/
theorem C44_retry_violated {cfg : Cfg} :
    ∃ s evs, run cfg State.init [] [(0, .init), (0, .go false), (0, .init)] = some (s, evs) ∧
      evs.head? = some (.initRet 0 0) ∧ users evs = 1 ∧ s.pc 0 = .idle ∧ s.tracker = none ∧ s.ipc = none := by
  with_unfolding_all exact ⟨_, _, rfl, rfl, rfl, rfl, rfl, rfl⟩

/-! ## C52 -/

/-- C52. The library can be initialised and shut down up to 100 times, by any thread. -/
theorem C52_cycles_partial {t n : Nat} (hn : n ≤ 100) : ∃ s evs, run ⟨false, false⟩ State.init [] (cycles t n) = some (s, evs) ∧
    s.pc t = .idle ∧ s.objs = [] ∧ (n < 100 → ∃ s' evs', run ⟨false, false⟩ s evs (start t) = some (s', evs') ∧
      Ready s' ∧ Ev.initRet t 0 ∈ evs') := by
  obtain ⟨s, evs, h1, h2, h3, h4, h5⟩ := run_cycles (s := State.init) (evs := []) (t := t) (n := n) rfl rfl rfl (by
    show 0 + n ≤ 100
    omega)
  refine ⟨s, evs, h1, h2, h4, ?_⟩
  intro hlt
  have := run_start (cfg := ⟨false, false⟩) (evs := evs) (rest := []) h2 h3 (by
    rw [h5]
    show 0 + n < 100
    omega)
  rw [List.append_nil] at this
  refine ⟨_, _, this, ⟨s.next, s.next + 1, rfl, rfl, ?_, ?_, ?_⟩, ?_⟩
  · simp [started]
  · simp [started]
  · omega
  · simp

/-- C52 is false for more: the 101st initialisation writes behind the array of control nodes. -/
theorem C52_ctl_violated (t : Nat) : run ⟨false, false⟩ State.init [] (cycles t 100 ++ start t) = none := by
  obtain ⟨s, evs, h1, h2, h3, h4, h5⟩ := run_cycles (s := State.init) (evs := []) (t := t) (n := 100) rfl rfl rfl (by decide)
  rw [run_append, h1]
  have := run_start_full (cfg := ⟨false, false⟩) (evs := evs) (rest := []) h2 h3 h5
  rw [List.append_nil] at this
  exact this

/-- A schedule that allocates and frees `n` times; `i` is the next number of an object. -/
def churn (t : Nat) : Nat → Nat → List (Nat × Act)
  | _, 0 => []
  | i, n + 1 => (t, .alloc) :: (t, .free i) :: churn t (i + 1) n

theorem run_churn {cfg : Cfg} {s : State} {evs : List Ev} (t n : Nat) (hd : s.destroyed = true) :
    ∃ s' evs', run cfg s evs (churn t s.next n) = some (s', evs') ∧ s'.mem.length = s.mem.length + n := by
  induction n generalizing s evs with
  | zero => exact ⟨s, evs, rfl, rfl⟩
  | succ n ih =>
    have e1 : step cfg s t .alloc = some ({ s with mem := s.next :: s.mem, next := s.next + 1 }, [.allocRet s.next]) := rfl
    have e2 : ∀ s : State, s.destroyed = true → ∀ i, step cfg s t (.free i) = some (s, []) := by
      intro s h i
      unfold step
      dsimp only
      rw [if_pos h]
    rw [churn, run_cons e1, run_cons (e2 _ (by exact hd) _)]
    obtain ⟨s', evs', h1, h2⟩ := ih (s := { s with mem := s.next :: s.mem, next := s.next + 1 })
      (evs := [].reverse ++ ([Ev.allocRet s.next].reverse ++ evs)) hd
    refine ⟨s', evs', h1, ?_⟩
    rw [h2]
    simp
    omega

/-- C52. Before the first shut-down, memory that is freed is given back. -/
theorem C52_free {cfg : Cfg} {s : State} {evs : List Ev} {t : Nat} (hd : s.destroyed = false) :
    ∃ s' evs', run cfg s evs [(t, .alloc), (t, .free s.next)] = some (s', evs') ∧ s'.mem = s.mem := by
  have e1 : step cfg s t .alloc = some ({ s with mem := s.next :: s.mem, next := s.next + 1 }, [.allocRet s.next]) := rfl
  have e2 : ∀ s : State, s.destroyed = false → ∀ i, step cfg s t (.free i) = some ({ s with mem := s.mem.erase i }, []) := by
    intro s h i
    unfold step
    dsimp only
    rw [if_neg (by simp [h])]
  rw [run_cons e1, run_cons (e2 _ (by exact hd) _)]
  exact ⟨_, _, rfl, by simp⟩

/-- C52 is false for memory: after the library was shut down once and initialised again, freed host memory is never given back,
so a program that allocates and frees again and again needs more and more. -/
theorem C52_free_violated (t n : Nat) : ∃ i s evs,
    run ⟨false, false⟩ State.init [] (start t ++ stop t ++ (start t ++ churn t i n)) = some (s, evs) ∧ s.mem.length = n := by
  refine ⟨(started (stopped (started State.init))).next, ?_⟩
  rw [run_cycle rfl rfl rfl (by decide)]
  rw [run_start rfl rfl (by decide)]
  obtain ⟨s', evs', h1, h2⟩ := run_churn (cfg := ⟨false, false⟩) (s := started (stopped (started State.init)))
    (evs := .initRet t 0 :: .initCall t :: .downRet t :: .downCall t :: .initRet t 0 :: .initCall t :: []) t n rfl
  refine ⟨s', evs', h1, ?_⟩
  rw [h2]
  show 0 + n = n
  omega

/-- C52 is false for control functions: an OS provider's tree is made once, from memory that the shut-down gives back. Used
before and after, it is read after it was freed. -/
theorem C52_osCtl_violated (t : Nat) :
    run ⟨false, false⟩ State.init [] (start t ++ ((t, .osCtl) :: (stop t ++ (start t ++ [(t, .osCtl)])))) = none := by
  rw [run_start rfl rfl (by decide)]
  have e1 : step ⟨false, false⟩ (started State.init) t .osCtl = some ({ started State.init with osRoot := some 0 }, []) := rfl
  rw [run_cons e1, run_stop (i := 0) (j := 1) rfl rfl rfl rfl rfl, run_start rfl rfl (by decide)]
  rfl

/-- C52 is false for scalable pools: their library is unloaded by the shut-down and never loaded again. A pool that is created
afterwards calls functions that are not there. -/
theorem C52_scalable_violated (t : Nat) :
    run ⟨false, false⟩ State.init [] (start t ++ ((t, .scalable) :: (stop t ++ (start t ++ [(t, .scalable)])))) = none := by
  rw [run_start rfl rfl (by decide)]
  have e1 : step ⟨false, false⟩ (started State.init) t .scalable =
    some ({ started State.init with tbbOnce := true, tbbLoaded := true }, []) := rfl
  rw [run_cons e1, run_stop (i := 0) (j := 1) rfl rfl rfl rfl rfl, run_start rfl rfl (by decide)]
  rfl

/-! ## Concrete cases -/

/-- Both can be used any number of times before the shut-down. -/
example (t : Nat) : ∃ s evs, run ⟨false, false⟩ State.init []
    (start t ++ [(t, .osCtl), (t, .osCtl), (t, .scalable), (t, .scalable)]) = some (s, evs) := by
  rw [run_start rfl rfl (by decide)]
  exact ⟨_, _, rfl⟩

/-- An orderly schedule: thread 1 initialises the library a second time while thread 0 uses it, then both shut it down, and thread
1 initialises it again. -/
example : ∃ s evs, run ⟨false, false⟩ State.init [] (start 0 ++ ([(1, .init), (0, .down)] ++ (stop 1 ++ start 1))) = some (s, evs) ∧
    users evs = 1 ∧ starts evs = 2 ∧ Ready s := by
  with_unfolding_all exact ⟨_, _, rfl, rfl, rfl, 2, 3, rfl, rfl, by decide, by decide, by decide⟩

/-- The hypothesis of `C44_orderly_partial` is met. -/
example : Orderly ⟨false, false⟩ State.init [] (start 0 ++ [(1, .init), (0, .down), (1, .alloc)]) := by
  have h1 : (0 + 1) % wrap = 1 := add_wrap (by decide)
  have h2 : (1 + 1) % wrap = 2 := add_wrap (by decide)
  have h3 : dec 2 = 1 := sub_wrap (by decide)
  simp [Orderly, start, State.init, step, callInit, callDown, go, h1, h2, h3, State.setPc, users, starts, ctlMax]
  refine ⟨?_, ?_, ?_, ?_, ?_⟩ <;> intros <;> simp [*]

/-- The hypotheses of `C44_inUse` are met by any number of threads that initialise and shut down in turn. -/
example : AlwaysUsed 1 [(1, .init), (2, .init), (1, .down), (3, .init), (3, .down), (2, .down)] := by
  simp [AlwaysUsed]

end Verif.Init
