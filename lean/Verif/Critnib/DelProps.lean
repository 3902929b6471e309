import Verif.Critnib.DelBound
import Verif.Critnib.ConcWitness
/-! # C78: the radix tree's own memory -/
namespace Verif.Critnib.Conc
open Verif.Critnib
open Verif.Critnib.Conc.Spec

variable {V : Type}

theorem rinv_run (nodes : Nat → Node) (leaves : Nat → Leaf V) (sched : Nat → Act V) (t : Nat) : RInv (run (Sys.init nodes leaves) sched t) := by
  induction t with
  | zero => exact rinv_init nodes leaves
  | succ t ih => exact rinv_step (ghost _ _ (new_ok nodes leaves) sched t).2 ih (sched t)

/-- C78. Whatever was done with the tree by any number of threads: when no update is under way, `critnib_delete` reads nothing that it has
freed, frees nothing twice, and gives back all nodes and leaves that were ever obtained. -/
theorem C78_delete (nodes : Nat → Node) (leaves : Nat → Leaf V) (sched : Nat → Act V) (t : Nat) (hw : (run (Sys.init nodes leaves) sched t).writer = none)
    (fuel : Nat) (hf : 17 + (run (Sys.init nodes leaves) sched t).mem.nextN + (run (Sys.init nodes leaves) sched t).mem.nextL ≤ fuel) :
    ∃ h, delete (run (Sys.init nodes leaves) sched t).mem fuel (obtained (run (Sys.init nodes leaves) sched t).mem) = some h ∧ Empty h := by
  have h := (ghost _ _ (new_ok nodes leaves) sched t).2
  have := delete_idle (h.idle hw) (fuel := fuel) (by rw [h.mem]; exact hf)
  rw [h.mem] at this
  exact this

/-- C78. At all times, every node and leaf that a lock-free reader has a pointer to was obtained from the base allocator, whatever is being
inserted, removed or reused meanwhile. -/
theorem C78_readers (nodes : Nat → Node) (leaves : Nat → Leaf V) (sched : Nat → Act V) (t r : Nat) :
    ∀ p ∈ held ((run (Sys.init nodes leaves) sched t).readers r).2, Obtained (run (Sys.init nodes leaves) sched t).mem p := by
  obtain ⟨E, -, h⟩ := rinv_run nodes leaves sched t
  exact fun p hp => (h r p hp).1

/-- C78. A reader reads from nothing else: what it does next is the same in any memory that agrees on what it holds. -/
theorem C78_reads {m m' : Mem V} (q : Query) (pc : Pc V) (h : SameAt (held pc) m m') : readStep m' q pc = readStep m q pc := read_same q pc h

/-- C78. At all times, the next store of an update goes to memory that was obtained. -/
theorem C78_writes (nodes : Nat → Node) (leaves : Nat → Leaf V) (sched : Nat → Act V) (t : Nat) (a : Store V) (ss : List (Store V)) (out : Spec.Out V)
    (hw : (run (Sys.init nodes leaves) sched t).writer = some (a :: ss, out)) : Within (run (Sys.init nodes leaves) sched t).mem a := by
  obtain ⟨E, h, -⟩ := rinv_run nodes leaves sched t
  rw [hw] at h
  exact h.2.1

/-- C78. There is a history of the map that explains all updates and all `get`s, and while the map has at most `N` keys the tree obtains at
most `N + 17` leaves and `N + 17` nodes, however many updates are made. -/
theorem C78_bounded (nodes : Nat → Node) (leaves : Nat → Leaf V) (sched : Nat → Act V) :
    ∃ M, UpdatesAtomic (event (Sys.init nodes leaves) sched) M ∧ GetAtomic (event (Sys.init nodes leaves) sched) M ∧
      ∀ N t, (∀ u, u ≤ t → AtMost (M u) N) →
        (run (Sys.init nodes leaves) sched t).mem.nextL ≤ N + 17 ∧ (run (Sys.init nodes leaves) sched t).mem.nextN ≤ N + 17 := by
  refine ⟨mapAt _ sched, updates_atomic (new_ok nodes leaves) sched rfl (new_map nodes leaves sched), get_atomic (new_ok nodes leaves), fun N t hN => ?_⟩
  have : BInv N (run (Sys.init nodes leaves) sched t) := by
    induction t with
    | zero => exact ⟨Nat.zero_le _, Nat.zero_le _⟩
    | succ t ih =>
      exact binv_step (ghost _ _ (new_ok nodes leaves) sched t).2 (hN t (Nat.le_succ t)) (ih fun u hu => hN u (Nat.le_succ_of_le hu)) (sched t)
  exact ⟨Nat.le_trans (Nat.le_add_right _ _) this.1, Nat.le_trans (Nat.le_add_right _ _) this.2⟩

/-! ## Non-vacuity -/

namespace Witness

/-- After two insertions and a removal: a leaf in the tree, a leaf and a node waiting to be reused. -/
example : (run s0 sched 62).writer = none ∧ (run s0 sched 62).mem.nextL = 2 ∧ (run s0 sched 62).mem.nextN = 1 ∧ (run s0 sched 62).mem.root = .leaf 0 ∧
    (run s0 sched 62).mem.pendL 0 = some 1 ∧ (run s0 sched 62).mem.pendN 0 = some 0 :=
  ⟨by decide +kernel, by decide +kernel, by decide +kernel, by decide +kernel, by decide +kernel, by decide +kernel⟩

/-- A reader that holds a node while it is being taken out of the tree, and a store that is about to be made. -/
example : held ((run s0 sched 56).readers 0).2 = [.node 0] ∧ ((run s0 sched 56).writer.map (·.1.length)) = some 5 := by
  constructor <;> decide +kernel

/-- There the map never has more than two keys. -/
example (M : Nat → Spec.Map Nat) (h : UpdatesAtomic (event s0 sched) M) : ∀ t, t ≤ 64 → AtMost (M t) 2 := by
  have e0 : ev 0 = .updCall (.insert 0x10#64 7 false true true) := events 0 (by decide)
  have e5 : ev 5 = .updRet (.inserted .ok) := events 5 (by decide)
  have e6 : ev 6 = .updCall (.insert 0x11#64 8 false true true) := events 6 (by decide)
  have e32 : ev 32 = .updRet (.inserted .ok) := events 32 (by decide)
  have e53 : ev 53 = .updCall (.remove 0x11#64) := events 53 (by decide)
  have e61 : ev 61 = .updRet (.value (some 8)) := events 61 (by decide)
  have key : ∀ k : W, k ≠ 0x10#64 → k ≠ 0x11#64 → ∀ t, t ≤ 64 → M t k = none := by
    intro k k1 k2
    have i1 : ∀ (m : Spec.Map Nat), Verif.Critnib.Spec.after m (.insert 0x10#64 7 false true true) (.inserted .ok) k = m k := fun m =>
      if_neg k1
    have i2 : ∀ (m : Spec.Map Nat), Verif.Critnib.Spec.after m (.insert 0x11#64 8 false true true) (.inserted .ok) k = m k := fun m =>
      if_neg k2
    have i3 : ∀ (m : Spec.Map Nat), Verif.Critnib.Spec.after m (.remove 0x11#64) (.value (some 8)) k = m k := fun m =>
      if_neg k2
    have m0 : M 0 k = none := by rw [h.1]; rfl
    have a1 : ∀ t, 0 ≤ t → t ≤ 5 → M t k = none := fun t h1 h2 => by
      rw [kept h (by decide) e0 e5 (not_ret (by decide +kernel) (by decide)) i1 t h1 h2]; exact m0
    have a2 : M 6 k = none := by
      rw [resting h e5 (j := 6) (fun t h1 h2 => by omega) 6 (by decide) (by decide)]; exact a1 5 (by decide) (by decide)
    have a3 : ∀ t, 6 ≤ t → t ≤ 32 → M t k = none := fun t h1 h2 => by
      rw [kept h (by decide) e6 e32 (not_ret (by decide +kernel) (by decide)) i2 t h1 h2]; exact a2
    have a4 : ∀ t, 32 ≤ t → t ≤ 53 → M t k = none := by
      intro t h1 h2
      rw [resting h e32 (j := 53) ?_ t h1 h2]
      · exact a3 32 (by decide) (by decide)
      · intro u h3 h4 op e
        rw [events u (by omega)] at e
        have : ∀ u, u < 65 → 32 < u → u < 53 → (seen.getD u .tau : Ev Nat) = .tau ∨
          (seen.getD u .tau : Ev Nat) = .call 0 (.findLe 0x20#64) := by decide +kernel
        rcases this u (by omega) h3 h4 with h5 | h5 <;> rw [h5] at e <;> cases e
    have a5 : ∀ t, 53 ≤ t → t ≤ 61 → M t k = none := fun t h1 h2 => by
      rw [kept h (by decide) e53 e61 (not_ret (by decide +kernel) (by decide)) i3 t h1 h2]; exact a4 53 (by decide) (by decide)
    intro t ht
    rcases Nat.le_total t 5 with h1 | h1
    · exact a1 t (Nat.zero_le t) h1
    · rcases Nat.le_total t 32 with h2 | h2
      · rcases Nat.eq_or_lt_of_le h1 with rfl | h1
        · exact a1 5 (by decide) (by decide)
        · exact a3 t h1 h2
      · rcases Nat.le_total t 53 with h3 | h3
        · exact a4 t h2 h3
        · rcases Nat.le_total t 61 with h4 | h4
          · exact a5 t h3 h4
          · rw [resting h e61 (j := 64) ?_ t h4 ht]
            · exact a5 61 (by decide) (by decide)
            · intro u h5 h6 op e
              rw [events u (by omega)] at e
              have : ∀ u, u < 65 → 61 < u → u < 64 → (seen.getD u .tau : Ev Nat) = .tau := by
                decide +kernel
              rw [this u (by omega) h5 h6] at e; cases e
  intro t ht ks hnd hks
  have : ks ⊆ [0x10#64, 0x11#64] := by
    intro k hk
    by_cases k1 : k = 0x10#64
    · simp [k1]
    · by_cases k2 : k = 0x11#64
      · simp [k2]
      · exact absurd (key k k1 k2 t ht) (hks k hk)
  exact (List.Nodup.subperm hnd this).length_le

end Witness

end Verif.Critnib.Conc
