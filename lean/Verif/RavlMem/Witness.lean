import Verif.RavlMem.Props
/-!
# Examples for C74
-/
namespace Verif.RavlMem
open Spec

instance (s : St Nat) (n : Nat) : Decidable (s.h n ≠ none) :=
  match h : s.h n with
  | none => .isFalse (fun f => f rfl)
  | some c => .isTrue (fun f => nomatch f)

/-- The check of `Legal`. -/
def legal (s : St Nat) : Op Nat → Bool
  | .remove n => decide (s.h n ≠ none)
  | .next n => decide (s.h n ≠ none)
  | .prev n => decide (s.h n ≠ none)
  | .find _ fl => decide (fl ∈ kinds)
  | _ => true

theorem legal_ok {s : St Nat} {op : Op Nat} (h : legal s op = true) : Legal (fun n => s.h n ≠ none) op := by
  cases op with
  | remove n => exact of_decide_eq_true (p := s.h n ≠ none) h
  | next n => exact of_decide_eq_true (p := s.h n ≠ none) h
  | prev n => exact of_decide_eq_true (p := s.h n ≠ none) h
  | find q fl => exact of_decide_eq_true (p := fl ∈ kinds) h
  | _ => trivial

/-- Calls one after the other, with a number of rounds that is large enough. -/
def go : List (Op Nat) → St Nat → Option (List (Op Nat × Out Nat) × St Nat)
  | [], s => some ([], s)
  | op :: ops, s =>
    if legal s op = true then
      match exec id op s 60 with
      | none => none
      | some (s', out) => (go ops s').map fun r => ((op, out) :: r.1, r.2)
    else none

theorem step_length {L L' : List (Nat × Nat)} {op : Op Nat} {out : Out Nat} (h : Step id L op out L') : L'.length ≤ L.length + 1 := by
  cases h <;> simp <;> omega

theorem go_run : ∀ {ops : List (Op Nat)} {h : List (Op Nat × Out Nat)} {s : St Nat} {L : List (Nat × Nat)} {r : List (Op Nat × Out Nat) × St Nat},
    Run id h s → Inv id s L → 2 * (L.length + ops.length) + 2 ≤ 60 → go ops s = some r → Run id (h ++ r.1) r.2 := by
  intro ops
  induction ops with
  | nil =>
    intro h s L r hr _ _ hg
    cases hg
    rw [List.append_nil]
    exact hr
  | cons op ops ih =>
    intro h s L r hr hi hb hg
    unfold go at hg
    by_cases hl : legal s op = true
    · rw [if_pos hl] at hg
      obtain ⟨s', out, L', h1, h2, h3⟩ := exec_bound hi (legal_ok hl)
      simp only [List.length_cons] at hb
      rw [h1 60 (by omega)] at hg
      dsimp only at hg
      cases hg2 : go ops s' with
      | none => rw [hg2] at hg; cases hg
      | some r' =>
        rw [hg2] at hg
        cases hg
        have := step_length h2
        have := ih (h := h ++ [(op, out)]) (Run.step hr (legal_ok hl) ⟨_, h1⟩) h3 (by omega) hg2
        rw [List.append_assoc] at this
        exact this
    · rw [if_neg hl] at hg
      cases hg

/-- Nine insertions, with rotations of both kinds, a duplicate and a failed allocation; two removals of nodes with two children; lookups and steps. -/
def wops : List (Op Nat) :=
  [.insert 5 100, .insert 3 101, .insert 4 102, .insert 9 103, .insert 5 104, .insert 7 0, .insert 10 105, .insert 1 106, .insert 8 107,
    .next 102, .prev 102, .remove 102, .find 4 ⟨true, false, false⟩, .find 4 ⟨false, true, false⟩, .first, .last, .foreach, .insert 6 100]

def wrun : Option (List (Op Nat × Out Nat) × St Nat) := go wops init

/-- The answers. Node 102 held 4 and was removed: it now holds 5, whose node 100 was freed and is used again for 6. -/
theorem wrun_eq : (wrun.map fun r => r.1.map (·.2)) =
    some [.ok true, .ok true, .ok true, .ok true, .ok false, .ok false, .ok true, .ok true, .ok true,
      .node 100, .node 101, .done, .node 0, .node 102, .node 106, .node 105, .elems [1, 3, 5, 8, 9, 10], .ok true] := by decide +kernel

theorem wrun_some : wrun.isSome = true := by decide +kernel

/-- The history is an execution, so the theorems apply to it. -/
example : Run id (wrun.get wrun_some).1 (wrun.get wrun_some).2 := by
  have h := go_run (ops := wops) (h := []) (s := init) (L := []) (r := wrun.get wrun_some) Run.nil (init_inv id) (by decide) (Option.some_get wrun_some).symm
  exact h

/-- The memory at the end: the nodes 100 to 107 except 104, with their elements. -/
example : (List.range 110).filterMap (fun a => ((wrun.get wrun_some).2.h a).map fun c => (a, c.data)) =
    [(100, 6), (101, 3), (102, 5), (103, 9), (105, 10), (106, 1), (107, 8)] := by decide +kernel

def vrun : Option (List (Op Nat × Out Nat) × St Nat) := go [.insert 2 100, .insert 1 101, .insert 3 102] init

theorem vrun_some : vrun.isSome = true := by decide +kernel

/-- **C74, violated:** a node does not stay valid as long as its element is in the tree. With the elements 1, 2, 3 in three nodes, the removal of the
node of 2 frees the node of 3, though 3 stays. -/
theorem C74_node_stays_valid_violated :
    ¬ ∀ (h : List (Op Nat × Out Nat)) (s s' : St Nat) (n m : Nat), Run id h s → s.h n ≠ none → s.h m ≠ none → m ≠ n →
      Ends (exec id (.remove n) s) (s', .done) → s'.h m ≠ none := by
  intro hall
  have hr := go_run (ops := [.insert 2 100, .insert 1 101, .insert 3 102]) (h := []) (s := init) (L := []) (r := vrun.get vrun_some) Run.nil (init_inv id)
    (by decide) (Option.some_get vrun_some).symm
  obtain ⟨L, hh, hi⟩ := run_inv hr
  have h1 : (vrun.get vrun_some).2.h 100 ≠ none := by decide +kernel
  have h2 : (vrun.get vrun_some).2.h 102 ≠ none := by decide +kernel
  obtain ⟨s', out, L', e, st, -⟩ := exec_bound hi (op := .remove 100) h1
  have hlen : L.length ≤ 20 := by
    have hl : ∀ {h : List (Op Nat × Out Nat)} {L : List (Nat × Nat)}, Hist id h L → L.length ≤ h.length := by
      intro h L hh
      induction hh with
      | nil => exact Nat.le_refl _
      | step _ st ih =>
        have := step_length st
        simp only [List.length_append, List.length_cons, List.length_nil]
        omega
    have := hl hh
    have h3 : (vrun.get vrun_some).1.length = 3 := by decide +kernel
    simp only [List.nil_append] at this
    omega
  have e60 := e 60 (by omega)
  have hd : ((exec id (.remove 100) (vrun.get vrun_some).2 60).map fun r => (r.1.h 102).isNone) = some true := by decide +kernel
  rw [e60] at hd
  have ho : out = .done := by
    have : ((exec id (.remove 100) (vrun.get vrun_some).2 60).map fun r => r.2) = some .done := by decide +kernel
    rw [e60] at this
    exact Option.some.inj this
  subst ho
  have := hall _ _ s' 100 102 hr h1 h2 (by decide) ⟨_, e⟩
  cases hc : s'.h 102 with
  | none => exact this hc
  | some c =>
    simp only [Option.map_some, Option.some.injEq, hc] at hd
    cases hd

end Verif.RavlMem
