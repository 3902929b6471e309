import Verif.Critnib.ConcRun
import Verif.Critnib.ConcWitness
/-! # C13: lookups concurrent with updates -/
namespace Verif.Critnib.Conc
open Verif.Critnib
open Verif.Critnib.Conc.Spec

variable {V : Type}

/-- C13. In every run of any number of lock-free readers with any sequence of inserts and removes,
whatever unused memory contains, there is a history of the map in which every update takes effect
at one instant between its call and its return, and every `get` returns what the map held for its
key at some instant during the call. -/
theorem C13_get (nodes : Nat → Node) (leaves : Nat → Leaf V) (sched : Nat → Act V) :
    ∃ M, UpdatesAtomic (event (Sys.init nodes leaves) sched) M ∧
      GetAtomic (event (Sys.init nodes leaves) sched) M :=
  ⟨mapAt _ sched, updates_atomic (new_ok nodes leaves) sched rfl (new_map nodes leaves sched),
    get_atomic (new_ok nodes leaves)⟩

/-- C13, what holds of `find_le`: with the same history, what it returns was in the map during
the call and is not above the query; and if one key is the greatest not above the query during the
whole call, that key is returned, whatever happens to other keys. Missing: the answer of a sorted
map at one instant, which the code does not give (`C13_findLe_violated`). -/
theorem C13_findLe_partial (nodes : Nat → Node) (leaves : Nat → Leaf V) (sched : Nat → Act V) :
    ∃ M, UpdatesAtomic (event (Sys.init nodes leaves) sched) M ∧
      GetAtomic (event (Sys.init nodes leaves) sched) M ∧
      FindSound (event (Sys.init nodes leaves) sched) M ∧
      FindStable (event (Sys.init nodes leaves) sched) M :=
  ⟨mapAt _ sched, updates_atomic (new_ok nodes leaves) sched rfl (new_map nodes leaves sched),
    get_atomic (new_ok nodes leaves), find_sound (new_ok nodes leaves),
    find_stable (new_ok nodes leaves)⟩

/-- C13. No update goes astray in memory or searches for ever. -/
theorem C13_safe (nodes : Nat → Node) (leaves : Nat → Leaf V) (sched : Nat → Act V) (t : Nat) :
    (run (Sys.init nodes leaves) sched t).broken = false :=
  not_broken (new_ok nodes leaves) sched t

/-- The code does not meet C13 for `find_le`: there is a run that no history of the map
explains. -/
theorem C13_findLe_violated : ∃ (nodes : Nat → Node) (leaves : Nat → Leaf Nat)
    (sched : Nat → Act Nat), ∀ M, UpdatesAtomic (event (Sys.init nodes leaves) sched) M →
      ¬ FindAtomic (event (Sys.init nodes leaves) sched) M := by
  refine ⟨Witness.nodes0, Witness.leaves0, Witness.sched, fun M h hf => ?_⟩
  obtain ⟨t, ans, h1, h2, h3, h4⟩ := hf _ _ _ _ _ Witness.looked
  have hp := Witness.present h t h1 h2
  cases ans with
  | some a => cases h4
  | none =>
    have := h3 0x10#64 (by show (0x10#64 : W) ≤ 0x20#64; decide)
    rw [hp] at this; cases this

/-- In that run `find_le` returns nothing although one key not above the query is in the map
during the whole call. -/
theorem C13_findLe_present_violated : ∃ (nodes : Nat → Node) (leaves : Nat → Leaf Nat)
    (sched : Nat → Act Nat) (r : Nat) (q k : W) (i j : Nat), k ≤ q ∧
      Lookup (event (Sys.init nodes leaves) sched) r (.findLe q) i j none ∧
      ∀ M, UpdatesAtomic (event (Sys.init nodes leaves) sched) M →
        ∀ t, i < t → t ≤ j → M t k ≠ none :=
  ⟨Witness.nodes0, Witness.leaves0, Witness.sched, 0, 0x20#64, 0x10#64, 33, 64, by decide, Witness.looked,
    fun M h t h1 h2 => by rw [Witness.present h t h1 h2]; simp⟩

/-! ## Non-vacuity: a run with two updates completed, a `get` and a `find_le` that return while a
removal is under way -/

example : Lookup (event Witness.s0 Witness.sched2) 0 (.get 0x11#64) 33 48 none :=
  Witness.looked2 (by decide) (by decide) rfl rfl (by decide +kernel)

example : Lookup (event Witness.s0 Witness.sched2) 1 (.findLe 0x10#64) 34 61
    (some (0x10#64, .user 7)) :=
  Witness.looked2 (by decide) (by decide) rfl rfl (by decide +kernel)

/-- The hypothesis of `FindStable` holds of that lookup. -/
example (M : Nat → Spec.Map Nat) (h : UpdatesAtomic (event Witness.s0 Witness.sched2) M) :
    ∀ t, 34 < t → t ≤ 61 → M t 0x10#64 ≠ none ∧ ∀ k, 0x10#64 < k → k ≤ 0x10#64 → M t k = none :=
  fun t h1 h2 => ⟨by rw [Witness.present2 h t h1 h2]; simp,
    fun k h3 h4 => absurd h4 (BitVec.not_le.2 h3)⟩

example : event Witness.s0 Witness.sched2 41 = .updCall (.remove 0x11#64) ∧
    event Witness.s0 Witness.sched2 69 = .updRet (.value (some 8)) :=
  ⟨Witness.events2 41 (by decide), Witness.events2 69 (by decide)⟩

end Verif.Critnib.Conc
