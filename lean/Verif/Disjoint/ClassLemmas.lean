import Verif.Disjoint.Classes
import Verif.Utils.NatBits
import Mathlib.Tactic.Ring
import Mathlib.Tactic.Linarith
/-! # Size classes: proofs -/
namespace Verif.Disjoint

/-- The size of class number `i` when the first class is `2^e`. -/
def classAt (e i : Nat) : Nat := if i % 2 = 0 then 2 ^ (e + i / 2) else 3 * 2 ^ (e + i / 2 - 1)

theorem three_half {e : Nat} (he : 1 ≤ e) : 2 ^ e + 2 ^ e / 2 = 3 * 2 ^ (e - 1) := by
  obtain ⟨k, rfl⟩ : ∃ k, e = k + 1 := ⟨e - 1, by omega⟩
  have : 2 ^ (k + 1) = 2 * 2 ^ k := by ring
  simp only [Nat.add_sub_cancel]; omega

theorem bucketLoop_length : ∀ (fuel e : Nat), 1 ≤ e → e ≤ 31 → 31 - e ≤ fuel →
    (bucketLoop fuel (2 ^ e) (3 * 2 ^ (e - 1))).length = 2 * (31 - e) + 1 := by
  intro fuel
  induction fuel with
  | zero => intro e _ h2 h3; have : e = 31 := by omega
            subst this; rfl
  | succ fuel ih =>
    intro e h1 h2 h3
    unfold bucketLoop
    by_cases he : e = 31
    · subst he; rfl
    · have hlt : 3 * 2 ^ (e - 1) < cutOff := by
        have : 2 ^ (e - 1) ≤ 2 ^ 29 := Nat.pow_le_pow_right (by omega) (by omega)
        unfold cutOff; omega
      rw [if_pos hlt]
      have e1 : 2 ^ e * 2 = 2 ^ (e + 1) := by ring
      have e2 : 3 * 2 ^ (e - 1) * 2 = 3 * 2 ^ (e + 1 - 1) := by
        obtain ⟨k, rfl⟩ : ∃ k, e = k + 1 := ⟨e - 1, by omega⟩
        simp only [Nat.add_sub_cancel]; ring
      rw [e1, e2]
      simp only [List.length_cons]
      rw [ih (e + 1) (by omega) (by omega) (by omega)]
      omega

theorem bucketLoop_get : ∀ (fuel e i : Nat), 1 ≤ e → e ≤ 31 → 31 - e ≤ fuel →
    i < 2 * (31 - e) + 1 →
    (bucketLoop fuel (2 ^ e) (3 * 2 ^ (e - 1)))[i]? = some (classAt e i) := by
  intro fuel
  induction fuel with
  | zero => intro e i _ h2 h3 hi; have : e = 31 := by omega
            subst this
            have : i = 0 := by omega
            subst this; rfl
  | succ fuel ih =>
    intro e i h1 h2 h3 hi
    unfold bucketLoop
    by_cases he : e = 31
    · subst he
      have : i = 0 := by omega
      subst this; rfl
    · have hlt : 3 * 2 ^ (e - 1) < cutOff := by
        have : 2 ^ (e - 1) ≤ 2 ^ 29 := Nat.pow_le_pow_right (by omega) (by omega)
        unfold cutOff; omega
      rw [if_pos hlt]
      have e1 : 2 ^ e * 2 = 2 ^ (e + 1) := by ring
      have e2 : 3 * 2 ^ (e - 1) * 2 = 3 * 2 ^ (e + 1 - 1) := by
        obtain ⟨k, rfl⟩ : ∃ k, e = k + 1 := ⟨e - 1, by omega⟩
        simp only [Nat.add_sub_cancel]; ring
      rw [e1, e2]
      match i, hi with
      | 0, _ => simp [classAt]
      | 1, _ => simp [classAt]
      | i + 2, hi =>
        simp only [List.getElem?_cons_succ]
        rw [ih (e + 1) i (by omega) (by omega) (by omega) (by omega)]
        unfold classAt
        have m2 : (i + 2) % 2 = i % 2 := by omega
        have d2 : (i + 2) / 2 = i / 2 + 1 := by omega
        rw [m2, d2]
        have a1 : e + 1 + i / 2 = e + (i / 2 + 1) := by omega
        rw [a1]

theorem firstSize_pow {k : Nat} : firstSize (2 ^ k) = 2 ^ (max (min k 31) 3) := by
  unfold firstSize cutOff
  rcases Nat.lt_or_ge k 3 with h | h
  · have : 2 ^ k ≤ 2 ^ 2 := Nat.pow_le_pow_right (by omega) (by omega)
    have e3 : max (min k 31) 3 = 3 := by omega
    rw [e3]; omega
  · rcases Nat.lt_or_ge 31 k with h' | h'
    · have : 2 ^ 31 < 2 ^ k := Nat.pow_lt_pow_right (by omega) (by omega)
      have e3 : max (min k 31) 3 = 31 := by omega
      rw [e3]; omega
    · have : 2 ^ k ≤ 2 ^ 31 := Nat.pow_le_pow_right (by omega) (by omega)
      have : 2 ^ 3 ≤ 2 ^ k := Nat.pow_le_pow_right (by omega) (by omega)
      have e3 : max (min k 31) 3 = k := by omega
      rw [e3]; omega

theorem minExp_pow {k : Nat} : minExp (2 ^ k) = max (min k 31) 3 := by
  unfold minExp; rw [firstSize_pow, Nat.log2_two_pow]

theorem minExp_bounds {k : Nat} : 3 ≤ minExp (2 ^ k) ∧ minExp (2 ^ k) ≤ 31 := by
  rw [minExp_pow]; omega

theorem classes_eq {k : Nat} :
    classes (2 ^ k) = bucketLoop 64 (2 ^ minExp (2 ^ k)) (3 * 2 ^ (minExp (2 ^ k) - 1)) := by
  unfold classes
  rw [firstSize_pow, minExp_pow, three_half (by omega)]

theorem classes_length {k : Nat} : (classes (2 ^ k)).length = 2 * (31 - minExp (2 ^ k)) + 1 := by
  obtain ⟨h1, h2⟩ := @minExp_bounds k
  rw [classes_eq, bucketLoop_length _ _ (by omega) h2 (by omega)]

theorem classes_get {k i : Nat} (hi : i < 2 * (31 - minExp (2 ^ k)) + 1) :
    (classes (2 ^ k))[i]? = some (classAt (minExp (2 ^ k)) i) := by
  obtain ⟨h1, h2⟩ := @minExp_bounds k
  rw [classes_eq, bucketLoop_get _ _ _ (by omega) h2 (by omega) hi]

theorem isPow2_iff {x : Nat} : isPow2 x = true ↔ ∃ k, x = 2 ^ k := by
  unfold isPow2
  by_cases hx : x = 0
  · subst hx
    constructor
    · intro h; simp at h
    · rintro ⟨k, hk⟩; have := Nat.two_pow_pos k; omega
  · rw [← Utils.nat_pow2_iff hx]; simp [hx]

theorem classAt_even (e j : Nat) : classAt e (2 * j) = 2 ^ (e + j) := by
  unfold classAt
  rw [if_pos (by omega), show 2 * j / 2 = j by omega]

theorem classAt_odd (e j : Nat) : classAt e (2 * j + 1) = 3 * 2 ^ (e + j - 1) := by
  unfold classAt
  rw [if_neg (by omega), show (2 * j + 1) / 2 = j by omega]

/-- Consecutive classes grow. -/
theorem classAt_succ_lt {e : Nat} (he : 1 ≤ e) (i : Nat) : classAt e i < classAt e (i + 1) := by
  rcases Nat.even_or_odd' i with ⟨j, rfl | rfl⟩
  · rw [classAt_even, classAt_odd]
    obtain ⟨m, hm⟩ : ∃ m, e + j = m + 1 := ⟨e + j - 1, by omega⟩
    rw [hm]
    have := Nat.two_pow_pos m
    have : 2 ^ (m + 1) = 2 * 2 ^ m := by ring
    simp only [Nat.add_sub_cancel]; omega
  · rw [show 2 * j + 1 + 1 = 2 * (j + 1) by omega, classAt_even, classAt_odd]
    obtain ⟨m, hm⟩ : ∃ m, e + j = m + 1 := ⟨e + j - 1, by omega⟩
    rw [show e + (j + 1) = m + 2 by omega, hm]
    have := Nat.two_pow_pos m
    have : 2 ^ (m + 2) = 4 * 2 ^ m := by ring
    simp only [Nat.add_sub_cancel]; omega

theorem classAt_mono {e : Nat} (he : 1 ≤ e) {i j : Nat} (h : i ≤ j) :
    classAt e i ≤ classAt e j := by
  induction j, h using Nat.le_induction with
  | base => exact Nat.le_refl _
  | succ j _ ih => exact Nat.le_trans ih (Nat.le_of_lt (classAt_succ_lt he j))

theorem classAt_pos (e i : Nat) : 0 < classAt e i := by
  unfold classAt
  have := Nat.two_pow_pos (e + i / 2)
  have := Nat.two_pow_pos (e + i / 2 - 1)
  split <;> omega

/-- Bit `p` of a number below `2^(p+1)`. -/
theorem testBit_top {x p : Nat} (h : x < 2 ^ (p + 1)) : x.testBit p = decide (2 ^ p ≤ x) := by
  by_cases hp : 2 ^ p ≤ x
  · rw [Nat.testBit_eq_decide_div_mod_eq]
    have : x / 2 ^ p = 1 := by
      apply Nat.div_eq_of_lt_le
      · omega
      · rw [Nat.pow_succ] at h; omega
    simp [hp, this]
  · rw [Nat.testBit_lt_two_pow (by omega)]; simp [hp]

theorem testBit_second {x p : Nat} (h1 : 2 ^ (p + 1) ≤ x) (h2 : x < 2 ^ (p + 2)) :
    x.testBit p = decide (2 ^ (p + 1) + 2 ^ p ≤ x) := by
  have e1 : 2 ^ (p + 1) = 2 * 2 ^ p := by ring
  have e2 : 2 ^ (p + 2) = 4 * 2 ^ p := by ring
  obtain ⟨y, rfl⟩ : ∃ y, x = y + 2 ^ (p + 1) := ⟨x - 2 ^ (p + 1), by omega⟩
  have hy : y < 2 ^ (p + 1) := by omega
  have : (y + 2 ^ (p + 1)).testBit p = y.testBit p := by
    rw [Nat.add_comm, Nat.testBit_two_pow_add_gt (by omega)]
  rw [this, testBit_top hy]
  simp only [decide_eq_decide]; omega

/-- What `size_to_idx` computes, by cases. -/
theorem sizeToIdx_cases {e size : Nat} (he : 1 ≤ e) (hs : 2 ^ e ≤ size) :
    ∃ p, e ≤ p ∧ 2 ^ p ≤ size ∧ size < 2 ^ (p + 1) ∧
      ((size = 2 ^ p ∧ sizeToIdx e size = 2 * (p - e)) ∨
       (2 ^ p < size ∧ size ≤ 3 * 2 ^ (p - 1) ∧ sizeToIdx e size = 2 * (p - e) + 1) ∨
       (3 * 2 ^ (p - 1) < size ∧ sizeToIdx e size = 2 * (p - e) + 2)) := by
  have hpos : size ≠ 0 := by have := Nat.two_pow_pos e; omega
  have hlo : 2 ^ size.log2 ≤ size := Nat.log2_self_le hpos
  have hhi : size < 2 ^ (size.log2 + 1) := Nat.lt_log2_self
  have hep : e ≤ size.log2 := (Nat.le_log2 hpos).2 hs
  refine ⟨size.log2, hep, hlo, hhi, ?_⟩
  generalize hp : size.log2 = p at *
  obtain ⟨q, rfl⟩ : ∃ q, p = q + 1 := ⟨p - 1, by omega⟩
  have e1 : 2 ^ (q + 1) = 2 * 2 ^ q := by ring
  have e2 : 2 ^ (q + 1 + 1) = 4 * 2 ^ q := by ring
  have hq := Nat.two_pow_pos q
  unfold sizeToIdx
  rw [if_neg (by omega)]
  simp only [hp, Nat.add_sub_cancel]
  cases hb : isPow2 size with
  | true =>
    left
    obtain ⟨k, hk⟩ := isPow2_iff.1 hb
    have : k = q + 1 := by rw [← hp, hk, Nat.log2_two_pow]
    subst this
    refine ⟨hk, ?_⟩
    simp; omega
  | false =>
    right
    have hne : size ≠ 2 ^ (q + 1) := by
      intro h
      have := isPow2_iff.2 ⟨_, h⟩
      rw [hb] at this; exact absurd this (by simp)
    have hbit := @testBit_second (size - 1) q (by omega) (by rw [show q + 2 = q + 1 + 1 by omega]; omega)
    by_cases hh : 2 ^ (q + 1) + 2 ^ q ≤ size - 1
    · right
      refine ⟨by omega, ?_⟩
      rw [hbit]; simp [hh]; omega
    · left
      refine ⟨by omega, by omega, ?_⟩
      rw [hbit]; simp [hh]; omega

/-- `size_to_idx` gives the least class that holds the request. -/
theorem sizeToIdx_spec {e size : Nat} (he : 1 ≤ e) :
    size ≤ classAt e (sizeToIdx e size) ∧
      (∀ i, size ≤ classAt e i → sizeToIdx e size ≤ i) := by
  by_cases hs : size < 2 ^ e
  · have h0 : sizeToIdx e size = 0 := by unfold sizeToIdx; rw [if_pos hs]
    rw [h0]
    refine ⟨?_, fun i _ => Nat.zero_le _⟩
    have := classAt_even e 0
    simp only [Nat.mul_zero, Nat.add_zero] at this
    omega
  · obtain ⟨p, hep, h1, h2, hc⟩ := sizeToIdx_cases he (Nat.not_lt.1 hs)
    have key : ∀ n, (∀ m, n = m + 1 → classAt e m < size) →
        ∀ i, size ≤ classAt e i → n ≤ i := by
      intro n hn i hi
      by_contra hlt
      have : classAt e (n - 1) < size := hn (n - 1) (by omega)
      have := @classAt_mono e he i (n - 1) (by omega)
      omega
    rcases hc with ⟨h3, h4⟩ | ⟨h3, h4, h5⟩ | ⟨h3, h4⟩
    · rw [h4]
      refine ⟨?_, key _ ?_⟩
      · rw [classAt_even, show e + (p - e) = p by omega]; omega
      · intro m hm
        have hs' := classAt_succ_lt he m
        rw [← hm, classAt_even, show e + (p - e) = p by omega] at hs'
        omega
    · rw [h5]
      refine ⟨?_, key _ ?_⟩
      · rw [classAt_odd, show e + (p - e) - 1 = p - 1 by omega]; exact h4
      · intro m hm
        have : m = 2 * (p - e) := by omega
        subst this
        rw [classAt_even, show e + (p - e) = p by omega]; exact h3
    · rw [h4]
      refine ⟨?_, key _ ?_⟩
      · rw [show 2 * (p - e) + 2 = 2 * (p - e + 1) by omega, classAt_even,
          show e + (p - e + 1) = p + 1 by omega]; omega
      · intro m hm
        have : m = 2 * (p - e) + 1 := by omega
        subst this
        rw [classAt_odd, show e + (p - e) - 1 = p - 1 by omega]; exact h3

/-- The index is inside the bucket array for every request up to `CutOff`. -/
theorem sizeToIdx_lt {e size : Nat} (he : 1 ≤ e) (he' : e ≤ 31) (hs : size ≤ cutOff) :
    sizeToIdx e size < 2 * (31 - e) + 1 := by
  have := (@sizeToIdx_spec e size he).2 (2 * (31 - e)) (by
    rw [classAt_even, show e + (31 - e) = 31 by omega]; exact hs)
  omega

/-- The class serving a request rounded up to a multiple of `2^a` is a multiple of `2^a`. -/
theorem class_dvd {e size a : Nat} (he : 1 ≤ e) (h0 : 0 < size) (hd : 2 ^ a ∣ size) :
    2 ^ a ∣ classAt e (sizeToIdx e size) := by
  have ha : 2 ^ a ≤ size := Nat.le_of_dvd h0 hd
  by_cases hs : size < 2 ^ e
  · have h0 : sizeToIdx e size = 0 := by unfold sizeToIdx; rw [if_pos hs]
    rw [h0]
    have := classAt_even e 0
    simp only [Nat.mul_zero, Nat.add_zero] at this
    rw [this]
    exact Utils.pow2_dvd_of_le (by omega)
  · obtain ⟨p, hep, h1, h2, hc⟩ := sizeToIdx_cases he (Nat.not_lt.1 hs)
    have hap : 2 ^ a < 2 ^ (p + 1) := by omega
    have hap' : a ≤ p := by
      have := (Nat.pow_lt_pow_iff_right (a := 2) (by omega)).1 hap; omega
    rcases hc with ⟨h3, h4⟩ | ⟨h3, h4, h5⟩ | ⟨h3, h4⟩
    · rw [h4, classAt_even, show e + (p - e) = p by omega]
      exact Nat.pow_dvd_pow _ hap'
    · rw [h5, classAt_odd, show e + (p - e) - 1 = p - 1 by omega]
      have hd2 : 2 ^ a ∣ size - 2 ^ p := Nat.dvd_sub hd (Nat.pow_dvd_pow _ hap')
      have hle : 2 ^ a ≤ size - 2 ^ p := Nat.le_of_dvd (by omega) hd2
      obtain ⟨q, rfl⟩ : ∃ q, p = q + 1 := ⟨p - 1, by omega⟩
      have e1 : 2 ^ (q + 1) = 2 * 2 ^ q := by ring
      simp only [Nat.add_sub_cancel] at h4 ⊢
      exact Dvd.dvd.mul_left (Utils.pow2_dvd_of_le (by omega)) 3
    · rw [h4, show 2 * (p - e) + 2 = 2 * (p - e + 1) by omega, classAt_even,
          show e + (p - e + 1) = p + 1 by omega]
      exact Nat.pow_dvd_pow _ (by omega)

end Verif.Disjoint
