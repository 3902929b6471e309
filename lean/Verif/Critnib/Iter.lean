import Verif.Critnib.Lemmas2
/-! # Iteration -/
set_option linter.unusedSimpArgs false
namespace Verif.Critnib
variable {V : Type}

/-- All pairs, left to right. -/
def toList : T V → List (W × V)
  | .nil => []
  | .leaf k v => [(k, v)]
  | .node _ _ ch => (List.finRange 16).flatMap fun i => toList (ch i)

theorem mem_toList (t : T V) (k : W) (v : V) : (k, v) ∈ toList t ↔ Has t k v := by
  induction t with
  | nil => simp [toList, Has]
  | leaf k0 v0 =>
    simp only [toList, Has, List.mem_singleton, Prod.mk.injEq]
    constructor
    · rintro ⟨h1, h2⟩; exact ⟨h1.symm, h2.symm⟩
    · rintro ⟨h1, h2⟩; exact ⟨h1.symm, h2.symm⟩
  | node sh path ch ih =>
    simp only [toList, Has, List.mem_flatMap, List.mem_finRange, true_and]
    exact exists_congr fun i => ih i

theorem toList_sorted (t : T V) (h : WF t) : (toList t).Pairwise fun a b => a.1 < b.1 := by
  induction t with
  | nil => simp [toList]
  | leaf k0 v0 => simp [toList]
  | node sh path ch ih =>
    simp only [toList]
    rw [List.pairwise_flatMap]
    refine ⟨fun i _ => ih i (h.2.2.2.2 i).1, ?_⟩
    refine List.Pairwise.imp ?_ finRange_lt
    rintro i j hij ⟨k, v⟩ hk ⟨k', v'⟩ hk'
    exact child_lt h hij ((mem_toList _ _ _).1 hk) ((mem_toList _ _ _).1 hk')

/-- Calls up to and including the first that asks to stop. -/
def cut (stop : W → V → Bool) : List (W × V) → List (W × V)
  | [] => []
  | (k, v) :: l => if stop k v then [(k, v)] else (k, v) :: cut stop l

theorem cut_append (stop : W → V → Bool) (a b : List (W × V)) :
    cut stop (a ++ b) = if a.any (fun x => stop x.1 x.2) then cut stop a else a ++ cut stop b := by
  induction a with
  | nil => rfl
  | cons x a ih =>
    obtain ⟨k, v⟩ := x
    by_cases hs : stop k v = true
    · simp [cut, hs]
    · have hs' : stop k v = false := by simpa using hs
      by_cases ha : a.any (fun x => stop x.1 x.2) = true
      · rw [if_pos ha] at ih
        have hc : ((k, v) :: a).any (fun x => stop x.1 x.2) = true := by simp [ha]
        rw [if_pos hc]
        simp only [List.cons_append, cut, hs', ih]
      · rw [if_neg ha] at ih
        have hc : ¬ ((k, v) :: a).any (fun x => stop x.1 x.2) = true := by
          rw [List.any_cons]; simp only [hs', Bool.false_or]; exact ha
        rw [if_neg hc]
        simp only [List.cons_append, cut, hs', ih]
        rfl

theorem cut_none (stop : W → V → Bool) (a : List (W × V))
    (h : a.any (fun x => stop x.1 x.2) = false) : cut stop a = a := by
  induction a with
  | nil => rfl
  | cons x a ih =>
    obtain ⟨k, v⟩ := x
    simp only [List.any_cons, Bool.or_eq_false_iff] at h
    simp [cut, h.1, ih h.2]

theorem cut_sublist (stop : W → V → Bool) (a : List (W × V)) : (cut stop a).Sublist a := by
  induction a with
  | nil => exact List.Sublist.refl _
  | cons x a ih =>
    obtain ⟨k, v⟩ := x
    simp only [cut]
    split
    · exact List.Sublist.cons_cons _ (List.nil_sublist _)
    · exact List.Sublist.cons_cons _ ih

def inRange (min max : W) (x : W × V) : Bool := decide (min ≤ x.1) && decide (x.1 ≤ max)

/-- The pairs of a tree in range, in order. -/
def ranged (min max : W) (t : T V) : List (W × V) := (toList t).filter (inRange min max)

theorem iter_sublist (min max : W) (stop : W → V → Bool) (t : T V) :
    (iter min max stop t).1.Sublist (ranged min max t) := by
  induction t with
  | nil => exact List.Sublist.refl _
  | leaf k v =>
    simp only [iter, ranged, toList]
    split
    · rename_i h
      have : inRange min max (k, v) = true := by simp [inRange]; exact h
      simp [List.filter_cons, this]
    · exact List.nil_sublist _
  | node sh path ch ih =>
    simp only [iter]
    split
    · exact List.nil_sublist _
    · split
      · exact List.nil_sublist _
      · simp only [ranged, toList]
        have : ∀ l : List (Fin 16),
            (l.foldr (fun i acc => andThen (iter min max stop (ch i)) acc) ([], false)).1.Sublist
              ((l.flatMap fun i => toList (ch i)).filter (inRange min max)) := by
          intro l
          induction l with
          | nil => exact List.Sublist.refl _
          | cons i l ihl =>
            simp only [List.foldr_cons, List.flatMap_cons, List.filter_append, andThen]
            split
            · have h1 := ih i
              exact h1.trans (List.sublist_append_left _ _)
            · exact List.Sublist.append (ih i) ihl
        exact this _

/-- No node of the tree is skipped by the range test. -/
def NoPrune (min : W) : T V → Prop
  | .nil => True
  | .leaf _ _ => True
  | .node sh path ch => ¬ (path ||| pathMask sh) < min ∧ ∀ i, NoPrune min (ch i)

theorem path_le_key {sh : Nat} {path : W} {ch : Fin 16 → T V} (h : WF (.node sh path ch)) {k : W}
    {v : V} (hk : Has (.node sh path ch) k v) : path ≤ k := by
  have hp := node_path_of_has h hk
  have hpm : path.toNat / 2 ^ (sh + 4) * 2 ^ (sh + 4) = path.toNat :=
    Nat.div_mul_cancel (Nat.dvd_of_mod_eq_zero h.2.2.1)
  rw [BitVec.le_def, ← hpm, ← hp]
  exact Nat.div_mul_le_self _ _

theorem ranged_nil_of_gt (min max : W) (t : T V) (h : ∀ k v, Has t k v → max < k) :
    ranged min max t = [] := by
  unfold ranged
  rw [List.filter_eq_nil_iff]
  rintro ⟨k, v⟩ hm
  have := h k v ((mem_toList t k v).1 hm)
  simp only [inRange, Bool.and_eq_true, decide_eq_true_eq, not_and]
  intro _ hle
  exact absurd this (BitVec.not_lt.2 hle)

theorem iter_complete (min max : W) (stop : W → V → Bool) (t : T V) (h : WF t)
    (hp : NoPrune min t) :
    (iter min max stop t).1 = cut stop (ranged min max t) ∧
    ((iter min max stop t).2 = true →
      (ranged min max t).any (fun x => stop x.1 x.2) = true ∨ ∃ k v, Has t k v ∧ max < k) ∧
    ((iter min max stop t).2 = false → (ranged min max t).any (fun x => stop x.1 x.2) = false) := by
  induction t with
  | nil => simp [iter, ranged, toList, cut]
  | leaf k v =>
    by_cases hr : k ≥ min ∧ k ≤ max
    · have h1 : inRange min max (k, v) = true := by simp [inRange]; exact hr
      have h2 : ranged min max (.leaf k v) = [(k, v)] := by
        simp [ranged, toList, List.filter_cons, h1]
      have h3 : iter min max stop (.leaf k v) = ([(k, v)], stop k v) := by simp [iter, hr]
      rw [h2, h3]
      simp only [cut, List.any_cons, List.any_nil, Bool.or_false]
      refine ⟨by split <;> rfl, fun h => Or.inl h, fun h => h⟩
    · have h1 : inRange min max (k, v) = false := by
        simp only [inRange, Bool.and_eq_false_iff, decide_eq_false_iff_not]
        apply Classical.byContradiction
        intro hh
        rw [not_or, Classical.not_not, Classical.not_not] at hh
        exact hr hh
      have h2 : ranged min max (.leaf k v) = [] := by
        simp [ranged, toList, List.filter_cons, h1]
      have h3 : iter min max stop (.leaf k v) = ([], false) := by
        simp only [iter]; rw [if_neg hr]
      rw [h2, h3]; simp [cut]
  | node sh path ch ih =>
    by_cases hmax : path > max
    · have h3 : iter min max stop (.node sh path ch) = ([], true) := by
        simp only [iter]; rw [if_pos hmax]
      have hgt : ∀ k v, Has (.node sh path ch) k v → max < k := fun k v hk =>
        BitVec.lt_def.2 (Nat.lt_of_lt_of_le (BitVec.lt_def.1 hmax) (BitVec.le_def.1 (path_le_key h hk)))
      rw [h3, ranged_nil_of_gt min max _ hgt]
      refine ⟨rfl, fun _ => Or.inr ?_, fun h => by cases h⟩
      obtain ⟨k, v, hk⟩ := exists_has _ h rfl
      exact ⟨k, v, hk, hgt k v hk⟩
    · have h3 : iter min max stop (.node sh path ch) = (List.finRange 16).foldr
          (fun i acc => andThen (iter min max stop (ch i)) acc) ([], false) := by
        simp only [iter]; rw [if_neg hmax, if_neg hp.1]
      rw [h3]
      have key : ∀ l : List (Fin 16), l.Pairwise (· < ·) →
          let r := l.foldr (fun i acc => andThen (iter min max stop (ch i)) acc) ([], false)
          let L := (l.flatMap fun i => toList (ch i)).filter (inRange min max)
          r.1 = cut stop L ∧
          (r.2 = true → L.any (fun x => stop x.1 x.2) = true ∨ ∃ i ∈ l, ∃ k v, Has (ch i) k v ∧ max < k) ∧
          (r.2 = false → L.any (fun x => stop x.1 x.2) = false) := by
        intro l hl
        induction l with
        | nil => simp [cut]
        | cons i l ihl =>
          rw [List.pairwise_cons] at hl
          obtain ⟨e1, e2, e3⟩ := ih i (h.2.2.2.2 i).1 (hp.2 i)
          obtain ⟨f1, f2, f3⟩ := ihl hl.2
          simp only [List.foldr_cons, List.flatMap_cons, List.filter_append]
          rw [cut_append, List.any_append]
          change (iter min max stop (ch i)).1 = cut stop ((toList (ch i)).filter (inRange min max)) at e1
          change _ → ((toList (ch i)).filter (inRange min max)).any _ = true ∨ _ at e2
          change _ → ((toList (ch i)).filter (inRange min max)).any _ = false at e3
          generalize hA : (toList (ch i)).filter (inRange min max) = A at *
          generalize hB : (l.flatMap fun i => toList (ch i)).filter (inRange min max) = B at *
          generalize hR : l.foldr (fun i acc => andThen (iter min max stop (ch i)) acc) ([], false) = R at *
          cases hab : (iter min max stop (ch i)).2 with
          | true =>
            have : andThen (iter min max stop (ch i)) R = iter min max stop (ch i) := by
              simp [andThen, hab]
            rw [this, hab, e1]
            rcases e2 hab with h1 | ⟨k, v, hk, hkm⟩
            · rw [h1]; simp
            · -- everything later is above `max`
              have hBnil : B = [] := by
                rw [← hB, List.filter_eq_nil_iff]
                rintro ⟨k', v'⟩ hm
                rw [List.mem_flatMap] at hm
                obtain ⟨j, hj, hjm⟩ := hm
                have hlt := child_lt h (hl.1 j hj) hk ((mem_toList _ _ _).1 hjm)
                simp only [inRange, Bool.and_eq_true, decide_eq_true_eq, not_and]
                intro _ hle
                exact absurd (BitVec.lt_trans hkm hlt) (BitVec.not_lt.2 hle)
              refine ⟨?_, fun _ => Or.inr ⟨i, by simp, k, v, hk, hkm⟩, fun h => by cases h⟩
              subst hBnil
              cases hany : A.any (fun x => stop x.1 x.2) with
              | true => rfl
              | false => simp [cut, cut_none stop A hany]
          | false =>
            have hA0 := e3 hab
            have : andThen (iter min max stop (ch i)) R = ((iter min max stop (ch i)).1 ++ R.1, R.2) := by
              simp [andThen, hab]
            rw [this, hA0, e1, cut_none stop A hA0, f1]
            refine ⟨rfl, ?_, ?_⟩
            · intro hr
              rcases f2 hr with h1 | ⟨j, hj, k, v, hk⟩
              · left; rw [h1]; rfl
              · right; exact ⟨j, List.mem_cons_of_mem _ hj, k, v, hk⟩
            · intro hr
              rw [f3 hr]; rfl
      obtain ⟨g1, g2, g3⟩ := key _ finRange_lt
      refine ⟨g1, ?_, g3⟩
      intro hr
      rcases g2 hr with h1 | ⟨i, _, k, v, hk, hkm⟩
      · exact Or.inl h1
      · exact Or.inr ⟨k, v, ⟨i, hk⟩, hkm⟩

theorem noPrune_zero (t : T V) : NoPrune 0#64 t := by
  induction t with
  | nil => trivial
  | leaf _ _ => trivial
  | node sh path ch ih =>
    refine ⟨?_, ih⟩
    rw [BitVec.lt_def]; simp

theorem pathMask_toNat_ge {sh : Nat} (h : sh ≤ 56) (path : W) :
    2 ^ 60 ≤ (path ||| pathMask sh).toNat := by
  apply Nat.ge_two_pow_of_testBit
  rw [BitVec.testBit_toNat, BitVec.getLsbD_or, getLsbD_pathMask]
  have : sh + 4 ≤ 60 := by omega
  simp [this]

/-- If all keys are below 2^60 nothing is skipped for bounds below 2^60. -/
theorem noPrune_small (t : T V) (h : WF t) (min : W) (hm : min.toNat < 2 ^ 60)
    (hk : ∀ k v, Has t k v → k.toNat < 2 ^ 60) : NoPrune min t := by
  induction t with
  | nil => trivial
  | leaf _ _ => trivial
  | node sh path ch ih =>
    refine ⟨?_, fun i => ih i (h.2.2.2.2 i).1 fun k v hh => hk k v ⟨i, hh⟩⟩
    have h4 := h.1
    have h60 := h.2.1
    have hsh : sh ≤ 56 := by
      rcases Nat.lt_or_ge 56 sh with h1 | h1
      · have h2 : sh = 60 := by omega
        subst h2
        exfalso
        obtain ⟨i, j, hij, hi, hj⟩ := h.2.2.2.1
        have hz : ∀ i, (ch i).isNil = false → i.val = 0 := by
          intro i hi
          obtain ⟨k, v, hkv⟩ := exists_has _ (h.2.2.2.2 i).1 hi
          have h3 := (node_prefix h hkv).2
          have h4 := hk k v ⟨i, hkv⟩
          rw [← h3, idx_val, Nat.div_eq_of_lt h4]
        exact hij (Fin.ext ((hz i hi).trans (hz j hj).symm))
      · exact h1
    rw [BitVec.lt_def]
    have := pathMask_toNat_ge hsh path
    omega

end Verif.Critnib
