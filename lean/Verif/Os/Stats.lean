import Verif.Os.StatsModel
/-!
# C30: the statistics of the OS memory provider
-/
namespace Verif.Os.Stats
open Verif.Os (W)

/-- Histories with the sizes of the live allocations and all values that the allocated memory
had since creation or the last reset. No sum exceeds 64 bits. A reset happens while no
other operation is running. -/
inductive Reach : S → List Nat → List Nat → Prop where
  | init : Reach init [] [0]
  | alloc {s live vals size} (t : Nat) : Reach s live vals → s.pc t = .idle →
      s.allocated + size < 2 ^ 64 → Reach (add s t size) (size :: live) ((add s t size).allocated :: vals)
  | tick {s live vals} (t : Nat) : Reach s live vals → Reach (tick s t) live vals
  | free {s l1 size l2 vals} (t : Nat) : Reach s (l1 ++ size :: l2) vals → s.pc t = .idle →
      Reach (sub s size) (l1 ++ l2) ((sub s size).allocated :: vals)
  | reset {s live vals} (t : Nat) : Reach s live vals → (∀ u, s.pc u = .idle) →
      Reach (Stats.tick (resetLoad s t) t) live [(Stats.tick (resetLoad s t) t).allocated]

/-- `v` is the largest of the values. -/
def IsMax (vals : List Nat) (v : Nat) : Prop := v ∈ vals ∧ ∀ u ∈ vals, u ≤ v

structure Inv (s : S) (live vals : List Nat) : Prop where
  sum : s.allocated = live.sum
  fits : s.allocated < W
  mem : s.peak ∈ vals
  added : ∀ t v, s.pc t = .added v → v ∈ vals
  loop : ∀ t v p, s.pc t = .loop v p → v ∈ vals ∧ p ≤ s.peak
  noReset : ∀ t v, s.pc t ≠ .resetting v
  max : ∀ u ∈ vals, u ≤ s.peak ∨ ∃ t v, u ≤ v ∧ (s.pc t = .added v ∨ ∃ p, s.pc t = .loop v p)

theorem at_self (s : S) (t : Nat) (p : Pc) : s.at t p t = p := by simp [S.at]
theorem at_ne (s : S) {t u : Nat} (p : Pc) (h : u ≠ t) : s.at t p u = s.pc u := by simp [S.at, h]

/-- A thread leaves the loop or takes another turn. -/
theorem tick_inv {s : S} {live vals : List Nat} (h : Inv s live vals) (t : Nat) :
    Inv (tick s t) live vals := by
  unfold tick
  cases hpc : s.pc t with
  | idle => exact h
  | resetting v => exact absurd hpc (h.noReset t v)
  | added v =>
    simp only
    refine ⟨h.sum, h.fits, h.mem, ?_, ?_, ?_, ?_⟩
    · intro u w hu
      by_cases e : u = t
      · subst e; simp only [at_self] at hu; cases hu
      · simp only [at_ne _ _ e] at hu; exact h.added u w hu
    · intro u w p hu
      by_cases e : u = t
      · subst e; simp only [at_self] at hu; cases hu; exact ⟨h.added _ _ hpc, Nat.le_refl _⟩
      · simp only [at_ne _ _ e] at hu; exact h.loop u w p hu
    · intro u w hu
      by_cases e : u = t
      · subst e; simp only [at_self] at hu; cases hu
      · simp only [at_ne _ _ e] at hu; exact h.noReset u w hu
    · intro u hu
      rcases h.max u hu with h1 | ⟨r, w, h1, h2⟩
      · exact Or.inl h1
      · right
        by_cases e : r = t
        · subst e
          refine ⟨r, w, h1, Or.inr ⟨s.peak, ?_⟩⟩
          simp only [at_self]
          rcases h2 with h2 | ⟨p, h2⟩
          · rw [hpc] at h2; cases h2; rfl
          · rw [hpc] at h2; cases h2
        · exact ⟨r, w, h1, by simpa only [at_ne _ _ e] using h2⟩
  | loop v p =>
    simp only
    obtain ⟨hv, hp⟩ := h.loop t v p hpc
    by_cases hlt : p < v
    · rw [if_pos hlt]
      by_cases hpk : s.peak = p
      · rw [if_pos hpk]
        refine ⟨h.sum, h.fits, hv, ?_, ?_, ?_, ?_⟩
        · intro u w hu
          by_cases e : u = t
          · subst e; simp only [at_self] at hu; cases hu
          · simp only [at_ne _ _ e] at hu; exact h.added u w hu
        · intro u w q hu
          by_cases e : u = t
          · subst e; simp only [at_self] at hu; cases hu
          · simp only [at_ne _ _ e] at hu
            obtain ⟨a, b⟩ := h.loop u w q hu
            exact ⟨a, by simp only; omega⟩
        · intro u w hu
          by_cases e : u = t
          · subst e; simp only [at_self] at hu; cases hu
          · simp only [at_ne _ _ e] at hu; exact h.noReset u w hu
        · intro u hu
          rcases h.max u hu with h1 | ⟨r, w, h1, h2⟩
          · left; simp only; omega
          · by_cases e : r = t
            · subst e
              left
              rcases h2 with h2 | ⟨q, h2⟩
              · rw [hpc] at h2; cases h2
              · rw [hpc] at h2; cases h2; exact h1
            · exact Or.inr ⟨r, w, h1, by simpa only [at_ne _ _ e] using h2⟩
      · rw [if_neg hpk]
        refine ⟨h.sum, h.fits, h.mem, ?_, ?_, ?_, ?_⟩
        · intro u w hu
          by_cases e : u = t
          · subst e; simp only [at_self] at hu; cases hu
          · simp only [at_ne _ _ e] at hu; exact h.added u w hu
        · intro u w q hu
          by_cases e : u = t
          · subst e; simp only [at_self] at hu; cases hu; exact ⟨hv, Nat.le_refl _⟩
          · simp only [at_ne _ _ e] at hu; exact h.loop u w q hu
        · intro u w hu
          by_cases e : u = t
          · subst e; simp only [at_self] at hu; cases hu
          · simp only [at_ne _ _ e] at hu; exact h.noReset u w hu
        · intro u hu
          rcases h.max u hu with h1 | ⟨r, w, h1, h2⟩
          · exact Or.inl h1
          · right
            by_cases e : r = t
            · subst e
              refine ⟨r, w, h1, Or.inr ⟨s.peak, ?_⟩⟩
              simp only [at_self]
              rcases h2 with h2 | ⟨q, h2⟩
              · rw [hpc] at h2; cases h2
              · rw [hpc] at h2; cases h2; rfl
            · exact ⟨r, w, h1, by simpa only [at_ne _ _ e] using h2⟩
    · rw [if_neg hlt]
      refine ⟨h.sum, h.fits, h.mem, ?_, ?_, ?_, ?_⟩
      · intro u w hu
        by_cases e : u = t
        · subst e; simp only [at_self] at hu; cases hu
        · simp only [at_ne _ _ e] at hu; exact h.added u w hu
      · intro u w q hu
        by_cases e : u = t
        · subst e; simp only [at_self] at hu; cases hu
        · simp only [at_ne _ _ e] at hu; exact h.loop u w q hu
      · intro u w hu
        by_cases e : u = t
        · subst e; simp only [at_self] at hu; cases hu
        · simp only [at_ne _ _ e] at hu; exact h.noReset u w hu
      · intro u hu
        rcases h.max u hu with h1 | ⟨r, w, h1, h2⟩
        · exact Or.inl h1
        · by_cases e : r = t
          · subst e
            left
            rcases h2 with h2 | ⟨q, h2⟩
            · rw [hpc] at h2; cases h2
            · rw [hpc] at h2; cases h2
              simp only
              omega
          · exact Or.inr ⟨r, w, h1, by simpa only [at_ne _ _ e] using h2⟩

theorem reach_inv {s : S} {live vals : List Nat} (h : Reach s live vals) : Inv s live vals := by
  have hW : W = 2 ^ 64 := rfl
  induction h with
  | init =>
    refine ⟨rfl, by decide, by simp [init], ?_, ?_, ?_, ?_⟩
    · intro t v h; cases h
    · intro t v p h; cases h
    · intro t v h; cases h
    · intro u hu
      left
      simp at hu
      simp [init, hu]
  | tick t h ih => exact tick_inv ih t
  | @alloc s live vals size t h hpc hfit ih =>
    have hv : (s.allocated + size) % W = s.allocated + size := Nat.mod_eq_of_lt hfit
    unfold add
    simp only [hv]
    refine ⟨by simp [ih.sum]; omega, by simp only; omega, by simp [ih.mem], ?_, ?_, ?_, ?_⟩
    · intro u w hu
      by_cases e : u = t
      · subst e; simp only [at_self] at hu; cases hu; exact List.mem_cons_self
      · simp only [at_ne _ _ e] at hu; exact List.mem_cons_of_mem _ (ih.added u w hu)
    · intro u w q hu
      by_cases e : u = t
      · subst e; simp only [at_self] at hu; cases hu
      · simp only [at_ne _ _ e] at hu
        exact ⟨List.mem_cons_of_mem _ (ih.loop u w q hu).1, (ih.loop u w q hu).2⟩
    · intro u w hu
      by_cases e : u = t
      · subst e; simp only [at_self] at hu; cases hu
      · simp only [at_ne _ _ e] at hu; exact ih.noReset u w hu
    · intro u hu
      rcases List.mem_cons.1 hu with rfl | hu
      · exact Or.inr ⟨t, _, Nat.le_refl _, Or.inl (by simp only [at_self])⟩
      · rcases ih.max u hu with h1 | ⟨r, w, h1, h2⟩
        · exact Or.inl h1
        · by_cases e : r = t
          · subst e
            rw [hpc] at h2
            rcases h2 with h2 | ⟨q, h2⟩ <;> cases h2
          · exact Or.inr ⟨r, w, h1, by simpa only [at_ne _ _ e] using h2⟩
  | @free s l1 size l2 vals t h hpc ih =>
    have hs := ih.sum
    have hf := ih.fits
    rw [List.sum_append, List.sum_cons] at hs
    have hv : (s.allocated + (W - size % W)) % W = s.allocated - size := by
      rw [Nat.mod_eq_of_lt (by omega : size < W),
        show s.allocated + (W - size) = s.allocated - size + W by omega, Nat.add_mod_right,
        Nat.mod_eq_of_lt (by omega)]
    unfold sub
    simp only [hv]
    refine ⟨by simp only [List.sum_append]; omega, by simp only; omega, List.mem_cons_of_mem _ ih.mem,
      fun u w hu => List.mem_cons_of_mem _ (ih.added u w hu),
      fun u w q hu => ⟨List.mem_cons_of_mem _ (ih.loop u w q hu).1, (ih.loop u w q hu).2⟩,
      ih.noReset, ?_⟩
    -- the value before the subtraction had been recorded
    have hrec : s.allocated ≤ s.peak ∨ ∃ t v, s.allocated ≤ v ∧
        (s.pc t = .added v ∨ ∃ p, s.pc t = .loop v p) := ih.max _ (cur h)
    intro u hu
    rcases List.mem_cons.1 hu with rfl | hu
    · rcases hrec with h1 | ⟨r, w, h1, h2⟩
      · left; simp only; omega
      · exact Or.inr ⟨r, w, by omega, h2⟩
    · exact ih.max u hu
  | @reset s live vals t h hidle ih =>
    have e : Stats.tick (resetLoad s t) t = { s with peak := s.allocated, pc := (resetLoad s t).at t .idle } := by
      unfold Stats.tick
      simp only [resetLoad, at_self]
    rw [e]
    have hpc : ∀ u, (resetLoad s t).at t .idle u = .idle := by
      intro u
      by_cases hu : u = t
      · subst hu; simp [at_self]
      · rw [at_ne _ _ hu]
        simp only [resetLoad, at_ne _ _ hu]
        exact hidle u
    refine ⟨ih.sum, ih.fits, List.mem_cons_self, ?_, ?_, ?_, ?_⟩
    · intro u w hu; simp only [hpc] at hu; cases hu
    · intro u w q hu; simp only [hpc] at hu; cases hu
    · intro u w hu; simp only [hpc] at hu; cases hu
    · intro u hu
      rw [List.mem_singleton] at hu
      left; simp only [hu]; exact Nat.le_refl _
where
  /-- The current value is one of the values. -/
  cur {s : S} {live vals : List Nat} (h : Reach s live vals) : s.allocated ∈ vals := by
    induction h with
    | init => simp [init]
    | alloc t h hpc hfit ih => exact List.mem_cons_self
    | @tick s live vals t h ih =>
      have : (Stats.tick s t).allocated = s.allocated := by
        unfold Stats.tick
        split <;> try rfl
        split <;> try rfl
        split <;> rfl
      rw [this]; exact ih
    | free t h hpc ih => exact List.mem_cons_self
    | reset t h hidle ih => exact List.mem_cons_self

/-- **C30** (missing: resets that overlap with other operations, for which it is false, see
`C30_reset_violated`). For every number of threads and every interleaving of allocations, frees and
resets: the allocated memory is always the sum of the sizes of the live allocations; and when no
operation is running, the peak is the largest value that the allocated memory had since creation or the
last reset. -/
theorem C30_stats_partial {s : S} {live vals : List Nat} (h : Reach s live vals) :
    s.allocated = live.sum ∧ s.peak ∈ vals ∧ ((∀ t, s.pc t = .idle) → IsMax vals s.peak) := by
  have hI := reach_inv h
  refine ⟨hI.sum, hI.mem, fun hidle => ⟨hI.mem, fun u hu => ?_⟩⟩
  rcases hI.max u hu with h1 | ⟨r, w, -, h2⟩
  · exact h1
  · rw [hidle] at h2
    rcases h2 with h2 | ⟨q, h2⟩ <;> cases h2

theorem tick_ne (s : S) {t u : Nat} (h : u ≠ t) : (tick s t).pc u = s.pc u := by
  unfold tick
  split
  · rfl
  · exact at_ne _ _ h
  · split
    · split <;> exact at_ne _ _ h
    · exact at_ne _ _ h
  · exact at_ne _ _ h

theorem add_ne (s : S) {t u : Nat} (n : Nat) (h : u ≠ t) : (add s t n).pc u = s.pc u := at_ne _ _ h

theorem sub_pc (s : S) (n : Nat) : (sub s n).pc = s.pc := rfl

/-- Two threads, the second overtakes the first in the loop; then a free. -/
example : ∃ s vals, Reach s [20] vals ∧ vals = [20, 30, 10, 0] ∧ (∀ t, s.pc t = .idle) ∧
    s.peak = 30 := by
  have r := Reach.alloc (s := add init 0 10) (size := 20) 1
    (Reach.alloc 0 Reach.init rfl (by decide)) (by decide +kernel) (by decide +kernel)
  -- both read the peak, the second raises it, the first fails and looks again
  have r2 := Reach.tick 0 (Reach.tick 0 (Reach.tick 1 (Reach.tick 1 (Reach.tick 0 r))))
  have r3 := Reach.free (l1 := [20]) (l2 := []) 0 r2 (by decide +kernel)
  refine ⟨_, _, r3, by decide +kernel, ?_, by decide +kernel⟩
  intro t
  by_cases h0 : t = 0
  · subst h0; decide +kernel
  · by_cases h1 : t = 1
    · subst h1; decide +kernel
    · rw [sub_pc, tick_ne _ h0, tick_ne _ h0, tick_ne _ h1, tick_ne _ h1, tick_ne _ h0, add_ne _ _ h1,
        add_ne _ _ h0]
      rfl

/-- **C30** fails when a reset overlaps with an allocation: the reset reads the allocated memory,
then an allocation of 100 bytes runs to its end, then the reset stores the old value. At
quiescence the peak is smaller than the memory allocated now. -/
theorem C30_reset_violated : ∃ s : S,
    s = tick (tick (tick (add (resetLoad init 1) 0 100) 0) 0) 1 ∧ (∀ t, s.pc t = .idle) ∧
      s.allocated = 100 ∧ s.peak = 0 := by
  refine ⟨_, rfl, ?_, by decide +kernel, by decide +kernel⟩
  intro t
  by_cases h0 : t = 0
  · subst h0; decide +kernel
  · by_cases h1 : t = 1
    · subst h1; decide +kernel
    · rw [tick_ne _ h1, tick_ne _ h0, tick_ne _ h0, add_ne _ _ h0]
      exact at_ne _ _ h1

end Verif.Os.Stats
