import Verif.Init.Spec
/-!
# Initialisation and shut-down (C44, C52)
-/
namespace Verif.Init

theorem add_wrap {n : Nat} (h : n < 2 ^ 64 - 1) : (n + 1) % wrap = n + 1 := by
  rw [wrap]
  omega

theorem sub_wrap {n : Nat} (h : 0 < n) : dec n = n - 1 := by
  rw [dec, if_neg (by omega)]

/-- What holds when the only thread that may be in a call is at `p`. -/
def Phase (p : Pc) (s : State) (evs : List Ev) : Prop :=
  match p with
  | .idle => s.count = users evs ∧ starts evs = s.ctl ∧
      (users evs = 0 → s.tracker = none ∧ s.ipc = none ∧ s.objs = []) ∧
      (0 < users evs → ∃ i j, s.tracker = some i ∧ s.ipc = some j ∧ s.objs = [j, i] ∧ i ≠ j)
  | .tracker => users evs = 0 ∧ s.count = 1 ∧ starts evs = s.ctl + 1 ∧ s.tracker = none ∧ s.ipc = none ∧ s.objs = []
  | .ipc => users evs = 0 ∧ s.count = 1 ∧ starts evs = s.ctl + 1 ∧ ∃ i, s.tracker = some i ∧ s.ipc = none ∧ s.objs = [i] ∧
      i < s.next
  | .ctl => users evs = 0 ∧ s.count = 1 ∧ starts evs = s.ctl + 1 ∧
      ∃ i j, s.tracker = some i ∧ s.ipc = some j ∧ s.objs = [j, i] ∧ i ≠ j
  | .downIpc => users evs = 0 ∧ s.count = 0 ∧ starts evs = s.ctl ∧
      ∃ i j, s.tracker = some i ∧ s.ipc = some j ∧ s.objs = [j, i] ∧ i ≠ j
  | .downFree c => users evs = 0 ∧ s.count = 0 ∧ starts evs = s.ctl ∧
      ∃ i j, s.tracker = some i ∧ c = some j ∧ s.ipc = none ∧ s.objs = [j, i] ∧ i ≠ j
  | .downTracker => users evs = 0 ∧ s.count = 0 ∧ starts evs = s.ctl ∧
      ∃ i, s.tracker = some i ∧ s.ipc = none ∧ s.objs = [i]
  | .downDestroy c => users evs = 0 ∧ s.count = 0 ∧ starts evs = s.ctl ∧
      ∃ i, s.tracker = none ∧ s.ipc = none ∧ c = some i ∧ s.objs = [i]
  | .downBa | .downLibs => users evs = 0 ∧ s.count = 0 ∧ starts evs = s.ctl ∧ s.tracker = none ∧ s.ipc = none ∧ s.objs = []

/-- The invariant of orderly schedules. -/
structure Inv (s : State) (evs : List Ev) : Prop where
  starts_le : starts evs ≤ 100
  phase : ∀ t, (∀ u, u ≠ t → s.pc u = .idle) → Phase (s.pc t) s evs
  rets : ∀ t r, Ev.initRet t r ∈ evs → r = 0

theorem setPc_self (s : State) (t : Nat) (p : Pc) : (s.setPc t p).pc t = p := by simp [State.setPc]

theorem setPc_other (s : State) {t u : Nat} (p : Pc) (h : u ≠ t) : (s.setPc t p).pc u = s.pc u := by simp [State.setPc, h]

theorem phase_setPc (s : State) (t : Nat) (q p : Pc) (evs : List Ev) : Phase p (s.setPc t q) evs ↔ Phase p s evs := by
  cases p <;> exact Iff.rfl

/-- After a step that leaves the thread at `p`. -/
theorem Inv.of_phase {s' : State} {evs : List Ev} {t : Nat} {p : Pc} (h1 : starts evs ≤ 100)
    (hr : ∀ t r, Ev.initRet t r ∈ evs → r = 0) (ho : ∀ u, u ≠ t → s'.pc u = .idle)
    (hp : Phase p s' evs) : Inv (s'.setPc t p) evs where
  starts_le := h1
  rets := hr
  phase := by
    intro u hu
    rw [phase_setPc]
    by_cases h : u = t
    · subst h
      rw [setPc_self]
      exact hp
    · have := hu t (fun e => h e.symm)
      rw [setPc_self] at this
      subst this
      rw [setPc_other _ _ h, ho u h]
      exact hp

theorem Inv.of_idle {s' : State} {evs : List Ev} {t : Nat} (h1 : starts evs ≤ 100)
    (hr : ∀ t r, Ev.initRet t r ∈ evs → r = 0) (ho : ∀ u, u ≠ t → s'.pc u = .idle) (ht : s'.pc t = .idle)
    (hp : Phase .idle s' evs) : Inv s' evs where
  starts_le := h1
  rets := hr
  phase := by
    intro u hu
    have : s'.pc u = .idle := by
      by_cases h : u = t
      · rw [h, ht]
      · exact ho u h
    rw [this]
    exact hp

theorem go_inv {cfg : Cfg} (hp : cfg.proxy = false) (hth : cfg.threshold = false) {s : State} {evs : List Ev} (h : Inv s evs)
    {t : Nat} (ho : ∀ u, u ≠ t → s.pc u = .idle) :
    ∃ s' es, go cfg s t true = some (s', es) ∧ Inv s' (es.reverse ++ evs) := by
  have hph := h.phase t ho
  unfold go
  cases hpc : s.pc t with
  | idle => exact ⟨s, [], rfl, h⟩
  | tracker =>
    rw [hpc] at hph
    obtain ⟨a, b, c, d, e, f⟩ := hph
    refine ⟨_, [], rfl, .of_phase h.starts_le h.rets ho ⟨a, b, c, s.next, rfl, e, ?_, Nat.lt_succ_self _⟩⟩
    rw [f]
  | ipc =>
    rw [hpc] at hph
    obtain ⟨a, b, c, i, d, e, f, g⟩ := hph
    refine ⟨_, [], rfl, .of_phase h.starts_le h.rets ho ⟨a, b, c, i, s.next, d, rfl, ?_, by omega⟩⟩
    rw [f]
  | ctl =>
    rw [hpc] at hph
    obtain ⟨a, b, c, i, j, d, e, f, g⟩ := hph
    have hlt : s.ctl < ctlMax := by
      have := h.starts_le
      unfold ctlMax
      omega
    refine ⟨_, _, if_pos hlt, .of_phase (p := .idle) h.starts_le ?_ ho ⟨?_, c, ?_, ?_⟩⟩
    · intro u r hr
      rcases List.mem_cons.1 hr with e | hr
      · cases e
        rfl
      · exact h.rets u r hr
    · simp [users, a, b]
    · simp [users]
    · intro _
      exact ⟨i, j, d, e, f, g⟩
  | downIpc =>
    rw [hpc] at hph
    obtain ⟨a, b, c, i, j, d, e, f, g⟩ := hph
    exact ⟨_, [], rfl, .of_phase h.starts_le h.rets ho ⟨a, b, c, i, j, d, e, rfl, f, g⟩⟩
  | downFree x =>
    rw [hpc] at hph
    obtain ⟨a, b, c, i, j, d, rfl, e, f, g⟩ := hph
    simp only [hth]
    refine ⟨_, [], if_pos (by simp [f]), .of_phase h.starts_le h.rets ho ⟨a, b, c, i, d, e, ?_⟩⟩
    simp [f]
  | downTracker =>
    rw [hpc] at hph
    obtain ⟨a, b, c, i, d, e, f⟩ := hph
    exact ⟨_, [], rfl, .of_phase h.starts_le h.rets ho ⟨a, b, c, i, rfl, e, d, f⟩⟩
  | downDestroy x =>
    rw [hpc] at hph
    obtain ⟨a, b, c, i, d, e, rfl, f⟩ := hph
    simp only [hp, Bool.false_eq_true, if_false]
    refine ⟨_, [], if_pos (by simp [f]), .of_phase h.starts_le h.rets ho ⟨a, b, c, d, e, ?_⟩⟩
    simp [f]
  | downBa =>
    rw [hpc] at hph
    obtain ⟨a, b, c, d, e, f⟩ := hph
    simp only [hp, Bool.false_eq_true, if_false]
    exact ⟨_, [], rfl, .of_phase h.starts_le h.rets ho ⟨a, b, c, d, e, rfl⟩⟩
  | downLibs =>
    rw [hpc] at hph
    obtain ⟨a, b, c, d, e, f⟩ := hph
    refine ⟨_, _, rfl, .of_phase (p := .idle) h.starts_le ?_ ho ⟨?_, c, ?_, ?_⟩⟩
    · intro u r hr
      rcases List.mem_cons.1 hr with e | hr
      · cases e
      · exact h.rets u r hr
    · simp [users, a, b]
    · exact fun _ => ⟨d, e, f⟩
    · intro hh
      simp [users, a] at hh

theorem step_inv {cfg : Cfg} (hp : cfg.proxy = false) (hth : cfg.threshold = false) {s : State} {evs : List Ev} (h : Inv s evs)
    {t : Nat} {a : Act} (ho : ∀ u, u ≠ t → s.pc u = .idle) (hd : a = .down → 0 < users evs) (hok : a ≠ .go false)
    (hu : users evs < 2 ^ 64 - 1) (hs : a = .init → users evs = 0 → starts evs < 100) (h1 : a ≠ .osCtl) (h2 : a ≠ .scalable) :
    ∃ s' es, step cfg s t a = some (s', es) ∧ Inv s' (es.reverse ++ evs) := by
  have hph := h.phase t ho
  unfold step
  cases a with
  | go ok =>
    cases ok with
    | false => exact absurd rfl hok
    | true => exact go_inv hp hth h ho
  | osCtl => exact absurd rfl h1
  | scalable => exact absurd rfl h2
  | alloc =>
    refine ⟨_, _, rfl, h.starts_le, ?_, ?_⟩
    · intro u hu'
      have := h.phase u hu'
      change Phase (s.pc u) _ _
      revert this
      cases s.pc u <;> simp only [Phase, users, starts, List.reverse_singleton, List.singleton_append] <;> try exact id
      rintro ⟨a, b, c, i, d, e, f, g⟩
      exact ⟨a, b, c, i, d, e, f, by omega⟩
    · intro u r hr
      rcases List.mem_cons.1 hr with e | hr
      · cases e
      · exact h.rets u r hr
  | free i =>
    dsimp only
    split
    · exact ⟨_, _, rfl, h⟩
    · refine ⟨_, _, rfl, h.starts_le, ?_, h.rets⟩
      intro u hu'
      have := h.phase u hu'
      change Phase (s.pc u) _ _
      revert this
      cases s.pc u <;> exact id
  | init =>
    dsimp only
    by_cases hi : s.pc t = .idle
    · rw [if_pos hi]
      rw [hi] at hph
      obtain ⟨a, b, c, d⟩ := hph
      refine ⟨(callInit s t).1, (callInit s t).2, rfl, ?_⟩
      unfold callInit
      by_cases h0 : s.count = 0
      · rw [if_pos h0]
        obtain ⟨c1, c2, c3⟩ := c (by omega)
        refine .of_phase ?_ ?_ ho ⟨?_, ?_, ?_, c1, c2, c3⟩
        · have := hs rfl (by omega)
          simp only [List.reverse_singleton, List.singleton_append, starts]
          split <;> omega
        · intro u r hr
          rcases List.mem_cons.1 hr with e | hr
          · cases e
          · exact h.rets u r hr
        · simp [users]
          omega
        · exact (add_wrap (n := s.count) (by omega)).trans (by omega)
        · simp [starts, ← a, h0, b]
      · rw [if_neg h0]
        obtain ⟨i, j, d1, d2, d3, d4⟩ := d (by omega)
        have hn : users evs ≠ 0 := by omega
        refine .of_idle (t := t) ?_ ?_ ho hi ⟨?_, ?_, ?_, ?_⟩
        · have := h.starts_le
          simp [starts, hn]
          exact this
        · intro u r hr
          rcases List.mem_cons.1 hr with e | hr
          · cases e
            rfl
          · rcases List.mem_cons.1 hr with e | hr
            · cases e
            · exact h.rets u r hr
        · refine (add_wrap (n := s.count) (by omega)).trans ?_
          simp [users, a]
        · simp [starts, hn, b]
        · simp [users]
        · exact fun _ => ⟨i, j, d1, d2, d3, d4⟩
    · rw [if_neg hi]
      exact ⟨_, [], rfl, h⟩
  | down =>
    dsimp only
    by_cases hi : s.pc t = .idle
    · rw [if_pos hi]
      rw [hi] at hph
      obtain ⟨a, b, c, d⟩ := hph
      refine ⟨(callDown s t).1, (callDown s t).2, rfl, ?_⟩
      obtain ⟨i, j, d1, d2, d3, d4⟩ := d (hd rfl)
      have hpos := hd rfl
      unfold callDown
      by_cases h0 : s.count = 1
      · rw [if_pos h0]
        have hcount : dec s.count = 0 := by
          rw [sub_wrap (by omega)]
          omega
        refine .of_phase (p := .downIpc) h.starts_le ?_ ho ⟨?_, hcount, b, i, j, d1, d2, d3, d4⟩
        · intro u r hr
          rcases List.mem_cons.1 hr with e | hr
          · cases e
          · exact h.rets u r hr
        · show users evs - 1 = 0
          omega
      · rw [if_neg h0]
        have hcount : dec s.count = users evs - 1 := by
          rw [sub_wrap (by omega), a]
        refine .of_idle (t := t) h.starts_le ?_ ho hi ⟨hcount, b, ?_, ?_⟩
        · intro u r hr
          rcases List.mem_cons.1 hr with e | hr
          · cases e
          · rcases List.mem_cons.1 hr with e | hr
            · cases e
            · exact h.rets u r hr
        · show users evs - 1 = 0 → _
          omega
        · exact fun _ => ⟨i, j, d1, d2, d3, d4⟩
    · rw [if_neg hi]
      exact ⟨_, [], rfl, h⟩

theorem run_inv {cfg : Cfg} (hp : cfg.proxy = false) (hth : cfg.threshold = false) {s : State} {evs : List Ev} (h : Inv s evs)
    {sched : List (Nat × Act)} (ho : Orderly cfg s evs sched) :
    ∃ s' evs', run cfg s evs sched = some (s', evs') ∧ Inv s' evs' := by
  induction sched generalizing s evs with
  | nil => exact ⟨s, evs, rfl, h⟩
  | cons x rest ih =>
    obtain ⟨t, a⟩ := x
    obtain ⟨o1, o2, o3, o4, o5, o6, o7, o8⟩ := ho
    obtain ⟨s', es, e1, e2⟩ := step_inv hp hth h o1 o2 o3 o4 o5 o6 o7
    obtain ⟨s'', evs'', e3, e4⟩ := ih e2 (o8 s' es e1)
    refine ⟨s'', evs'', ?_, e4⟩
    rw [run, e1]
    exact e3

theorem init_inv : Inv State.init [] where
  starts_le := by simp [starts]
  rets := by simp
  phase := by
    intro t _
    exact ⟨rfl, rfl, fun _ => ⟨rfl, rfl, rfl⟩, fun h => absurd h (Nat.lt_irrefl 0)⟩

/-- C44. If no call overlaps with one that initialises or shuts down the library, every `umfInit` succeeds; whenever no call
is running, the tracker and the cache exist if somebody uses the library, and nothing exists if nobody does. Missing: calls
that overlap, and creations that fail. -/
theorem C44_orderly_partial {sched : List (Nat × Act)} (ho : Orderly ⟨false, false⟩ State.init [] sched) :
    ∃ s evs, run ⟨false, false⟩ State.init [] sched = some (s, evs) ∧
      (∀ t r, Ev.initRet t r ∈ evs → r = 0) ∧
      (Quiet s → (0 < users evs → Ready s) ∧ (users evs = 0 → s.tracker = none ∧ s.ipc = none ∧ s.objs = [])) := by
  obtain ⟨s, evs, h1, h2⟩ := run_inv rfl rfl init_inv ho
  refine ⟨s, evs, h1, h2.rets, ?_⟩
  intro hq
  have := h2.phase 0 (fun u _ => hq u)
  rw [hq 0] at this
  obtain ⟨_, _, c, d⟩ := this
  refine ⟨fun hu => ?_, c⟩
  obtain ⟨i, j, d1, d2, d3, d4⟩ := d hu
  exact ⟨i, j, d1, d2, by simp [d3], by simp [d3], d4⟩

/-- C44. While somebody uses the library (for example since it was loaded), any number of threads may initialise it and shut
it down, under every schedule: `umfInit` succeeds with everything ready, and the tracker and the cache stay the same. -/
theorem C44_inUse {cfg : Cfg} {s : State} {evs : List Ev} (hr : Ready s) (hq : Quiet s) {sched : List (Nat × Act)}
    (hn : 0 < s.count ∧ s.count < 2 ^ 64) (hu : AlwaysUsed s.count sched) (ha : ∀ x ∈ sched, x.2 ≠ .osCtl ∧ x.2 ≠ .scalable) :
    ∃ s' evs', run cfg s evs sched = some (s', evs') ∧ Ready s' ∧ Quiet s' ∧ s'.tracker = s.tracker ∧ s'.ipc = s.ipc ∧
      s'.objs = s.objs ∧ ∀ t r, Ev.initRet t r ∈ evs' → r = 0 ∨ Ev.initRet t r ∈ evs := by
  induction sched generalizing s evs with
  | nil => exact ⟨s, evs, rfl, hr, hq, rfl, rfl, rfl, fun _ _ h => .inr h⟩
  | cons x rest ih =>
    obtain ⟨t, a⟩ := x
    have key : ∃ s' es, step cfg s t a = some (s', es) ∧ Ready s' ∧ Quiet s' ∧ (0 < s'.count ∧ s'.count < 2 ^ 64) ∧ AlwaysUsed s'.count rest ∧
        s'.tracker = s.tracker ∧ s'.ipc = s.ipc ∧ s'.objs = s.objs ∧ ∀ u r, Ev.initRet u r ∈ es → r = 0 := by
      unfold step
      cases a with
      | init =>
        obtain ⟨h1, h2⟩ := hu
        dsimp only
        rw [if_pos (hq t)]
        refine ⟨(callInit s t).1, (callInit s t).2, rfl, ?_⟩
        unfold callInit
        rw [if_neg (by omega)]
        dsimp only
        refine ⟨hr, hq, ?_, ?_, rfl, rfl, rfl, ?_⟩
        · show 0 < (s.count + 1) % wrap ∧ (s.count + 1) % wrap < 2 ^ 64
          rw [add_wrap h1]
          omega
        · show AlwaysUsed ((s.count + 1) % wrap) rest
          rw [add_wrap h1]
          exact h2
        · intro u r h
          simp at h
          exact h.2
      | down =>
        obtain ⟨h1, h2⟩ := hu
        dsimp only
        rw [if_pos (hq t)]
        refine ⟨(callDown s t).1, (callDown s t).2, rfl, ?_⟩
        unfold callDown
        rw [if_neg (by omega)]
        dsimp only
        refine ⟨hr, hq, ?_, ?_, rfl, rfl, rfl, ?_⟩
        · show 0 < dec s.count ∧ dec s.count < 2 ^ 64
          rw [sub_wrap (by omega)]
          omega
        · show AlwaysUsed (dec s.count) rest
          rw [sub_wrap (by omega)]
          exact h2
        · intro u r h
          simp at h
      | go ok =>
        unfold go
        rw [hq t]
        exact ⟨s, [], rfl, hr, hq, hn, hu, rfl, rfl, rfl, by simp⟩
      | osCtl => exact absurd rfl (ha _ List.mem_cons_self).1
      | scalable => exact absurd rfl (ha _ List.mem_cons_self).2
      | alloc => exact ⟨_, _, rfl, hr, hq, hn, hu, rfl, rfl, rfl, by simp⟩
      | free i =>
        dsimp only
        split
        · exact ⟨_, _, rfl, hr, hq, hn, hu, rfl, rfl, rfl, by simp⟩
        · exact ⟨_, _, rfl, hr, hq, hn, hu, rfl, rfl, rfl, by simp⟩
    obtain ⟨s', es, e1, e2, e3, e3', e4, e5, e6, e7, e8⟩ := key
    obtain ⟨s'', evs'', f1, f2, f3, f4, f5, f6, f7⟩ := ih (evs := es.reverse ++ evs) e2 e3 e3' e4
      (fun x hx => ha x (List.mem_cons_of_mem _ hx))
    refine ⟨s'', evs'', ?_, f2, f3, f4.trans e5, f5.trans e6, f6.trans e7, ?_⟩
    · rw [run, e1]
      exact f1
    · intro u r h
      rcases f7 u r h with h | h
      · exact .inl h
      · rcases List.mem_append.1 h with h | h
        · exact .inl (e8 u r (by simpa using h))
        · exact .inr h

end Verif.Init
