import Verif.TrkConc.Rank
/-!
# C45: the tracker used by several threads

The theorems are about any number of threads that register, remove, split, merge and look up regions, with one step per access
to shared memory, in any order of the steps. What is missing: regions inside other regions, and histories in which the base
allocator hands out an entry again between the moment a registering thread finds it and the moment it reads it; for the
latter the claim is false, see `Witness.lean`.
-/
namespace Verif.TrkConc

variable {s : Sys} {t : Nat} {op : Op} {pc : Pc} {res : Res}

/-- No assertion fails: every step of every thread is defined. -/
theorem C45_conc_defined_partial (h : Reach Careful s) (ht : s.thr t = some (op, pc)) {v : Ans} (hv : Careful s t v) :
    ∃ st' pc', next t op s.st pc v = some (st', pc') := by
  obtain ⟨st', pc', h1, _⟩ := step (reach_inv h) ht hv
  exact ⟨st', pc', h1⟩

/-- Whatever the other threads do meanwhile: a removal succeeds, a lookup finds exactly the region, the others fail only for
lack of memory or when the upstream provider fails. -/
theorem C45_conc_answer_partial (h : Reach Careful s) (ht : s.thr t = some (op, .fin res)) : Answered op res := by
  have := (reach_inv h).loc t op _ ht
  cases op <;> exact this

/-- At every moment, while other threads are anywhere in their operations: for each address of a registered region that no
thread is changing, the map leads to an entry with the base, the size and the pool of the region, and without children. -/
theorem C45_conc_tracked_partial (h : Reach Careful s) {r : Rec} (hr : r ∈ s.live) {x : Nat} (hx : r.has x) :
    ∃ a, findLe (s.st.lv 0) x = some (r.ptr, a) ∧ s.st.heap a = ⟨r.pool, r.size, 0⟩ ∧ s.st.used a = true := by
  obtain ⟨a, h1, h2⟩ := find_live (reach_inv h) hr hx
  exact ⟨a, h2, (reach_inv h).core.info (Or.inl hr) h1, (reach_inv h).core.usedE _ h1⟩

/-- When no operation is going on, the map has one entry for each registered region and nothing else, every allocated block is
such an entry, and the mutex is free. -/
theorem C45_conc_idle_partial (h : Reach Careful s) (hi : ∀ t, s.thr t = none) :
    (∀ r ∈ s.live, ∃ a, (r.ptr, a) ∈ s.st.lv 0 ∧ s.st.heap a = ⟨r.pool, r.size, 0⟩) ∧
    (∀ k a, (k, a) ∈ s.st.lv 0 → ∃ r ∈ s.live, r.ptr = k ∧ s.st.heap a = ⟨r.pool, r.size, 0⟩) ∧
    (∀ k a b, (k, a) ∈ s.st.lv 0 → (k, b) ∈ s.st.lv 0 → a = b) ∧
    (∀ n, s.st.lv (n + 1) = []) ∧
    (∀ a, s.st.used a = true ↔ ∃ k, (k, a) ∈ s.st.lv 0) ∧
    s.st.lock = none := by
  have hv := reach_inv h
  have hC : ∀ t, s.C t = [] := fun t => by simp only [Sys.C, hi t]
  have hB : ∀ t, s.B t = [] := fun t => by simp only [Sys.B, hi t]
  have hR : ∀ r, Reg s.live s.C r → r ∈ s.live := by
    rintro r (h | ⟨t, h⟩)
    · exact h
    · rw [hC t] at h
      cases h
  refine ⟨fun r hr => ?_, fun k a ha => ?_, fun k a b ha hb => ?_, hv.up, fun a => ?_, ?_⟩
  · obtain ⟨a, h1, h2⟩ := hv.core.reg r (Or.inl hr)
    exact ⟨a, h1, h2⟩
  · obtain ⟨r, h1, h2⟩ := hv.core.key _ ha
    refine ⟨r, hR r h1, h2, hv.core.info h1 ?_⟩
    rw [h2]
    exact ha
  · have h1 := look_some hv.core.uniq ha
    rw [look_some hv.core.uniq hb] at h1
    exact (Option.some.inj h1).symm
  · constructor
    · intro ha
      rcases hv.core.all a ha with ⟨e, h1, rfl⟩ | ⟨t, h1⟩
      · exact ⟨e.1, h1⟩
      · rw [hB t] at h1
        cases h1
    · rintro ⟨k, hk⟩
      exact hv.core.usedE _ hk
  · cases e : s.st.lock with
    | none => rfl
    | some t =>
      obtain ⟨_, _, h1, _⟩ := (hv.lock t).1 e
      rw [hi t] at h1
      cases h1

/-- An entry that a thread still uses is never handed out or freed by another: the entries in the map are allocated, each is
in the map once. -/
theorem C45_conc_entries_partial (h : Reach Careful s) {k k' : Nat} {a : Addr} (h1 : (k, a) ∈ s.st.lv 0) :
    s.st.used a = true ∧ ((k', a) ∈ s.st.lv 0 → k' = k) := by
  have hv := reach_inv h
  refine ⟨hv.core.usedE _ h1, fun h2 => ?_⟩
  have := hv.core.inj _ h2 _ h1 rfl
  exact congrArg Prod.fst this

/-- The mutex excludes: at most one thread is between locking and unlocking it. -/
theorem C45_conc_mutex_partial (h : Reach Careful s) {t' : Nat} {op' : Op} {pc' : Pc} (h1 : s.thr t = some (op, pc))
    (h2 : s.thr t' = some (op', pc')) (g1 : inLock op pc = true) (g2 : inLock op' pc' = true) : t = t' := by
  have hv := reach_inv h
  have e1 := (hv.lock t).2 ⟨_, _, h1, g1⟩
  have e2 := (hv.lock t').2 ⟨_, _, h2, g2⟩
  rw [e1] at e2
  exact Option.some.inj e2

/-- Every operation ends: there is a bound of 40 on the steps that are left, which each step lowers unless the operation has
returned or waits for the mutex that another thread holds. -/
theorem C45_conc_bounded_partial : ∃ left : Pc → Nat, (∀ pc, left pc ≤ 40) ∧
    ∀ s t op pc v st' pc', Reach Careful s → s.thr t = some (op, pc) → Careful s t v → next t op s.st pc v = some (st', pc') →
      left pc' < left pc ∨ (∃ res, pc = .fin res) ∨ ((∃ x, pc = .lockWait x) ∧ ∃ t', t' ≠ t ∧ s.st.lock = some t') := by
  refine ⟨rank, rank_le, ?_⟩
  intro s t op pc v st' pc' h ht hv hn
  have hi := reach_inv h
  obtain ⟨st2, pc2, h1, h2⟩ := step hi ht hv
  rw [h1] at hn
  cases hn
  rcases rank_step h1 (hi.loc t op pc ht) h2.loc with g | ⟨_, g | ⟨⟨x, rfl⟩, g⟩⟩
  · exact Or.inl g
  · exact Or.inr (Or.inl g)
  · refine Or.inr (Or.inr ⟨⟨x, rfl⟩, ?_⟩)
    cases e : s.st.lock with
    | none => exact absurd e g
    | some t' =>
      refine ⟨t', ?_, rfl⟩
      rintro rfl
      obtain ⟨op2, pc2, g1, g2⟩ := (hi.lock _).1 e
      rw [ht] at g1
      cases g1
      cases op <;> cases g2

/-- No deadlock: whoever holds the mutex is not waiting for it. -/
theorem C45_conc_no_deadlock_partial (h : Reach Careful s) (hl : s.st.lock = some t) :
    ∃ op pc, s.thr t = some (op, pc) ∧ (∀ x, pc ≠ .lockWait x) ∧ ∀ res, pc ≠ .fin res := by
  obtain ⟨op, pc, h1, h2⟩ := ((reach_inv h).lock t).1 hl
  refine ⟨op, pc, h1, ?_, ?_⟩
  · rintro x rfl
    cases op <;> cases h2
  · rintro x rfl
    cases op <;> cases h2

end Verif.TrkConc
