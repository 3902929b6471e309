import Verif.Utils.Lemmas
import Verif.Utils.Spec
/-! # Properties C41 (alignment arithmetic) and C42 (flag translation) -/
namespace Verif.Utils
open Spec

private theorem least_of_div {a v : Nat} (ha : 0 < a) :
    LeastMultipleGE a v ((v + (a - 1)) / a * a) := by
  have hm := Nat.div_add_mod (v + (a - 1)) a
  have hl := Nat.mod_lt (v + (a - 1)) ha
  refine ⟨⟨_, Nat.mul_comm _ _⟩, ?_, ?_⟩
  · have : (v + (a - 1)) / a * a = a * ((v + (a - 1)) / a) := Nat.mul_comm _ _
    omega
  · rintro m ⟨c, rfl⟩ hv
    rw [Nat.mul_comm a c]
    apply Nat.mul_le_mul_right
    have h1 : v + (a - 1) < a * (c + 1) := by rw [Nat.mul_add]; omega
    exact Nat.le_of_lt_succ ((Nat.div_lt_iff_lt_mul ha).2 (by rw [Nat.mul_comm]; exact h1))

private theorem greatest_of_div {a v : Nat} (ha : 0 < a) :
    GreatestMultipleLE a v (v / a * a) := by
  refine ⟨⟨_, Nat.mul_comm _ _⟩, Nat.div_mul_le_self v a, ?_⟩
  rintro m ⟨c, rfl⟩ hv
  rw [Nat.mul_comm a c]
  apply Nat.mul_le_mul_right
  exact (Nat.le_div_iff_mul_le ha).2 (by rw [Nat.mul_comm]; exact hv)

/-- **C41.** For every 64-bit value and every power-of-two alignment, `ALIGN_UP_SAFE`
returns the least multiple of the alignment that is not below the value whenever that
multiple is below 2^64, and 0 exactly when it is not (or when the value is 0). -/
theorem C41_alignUpSafe (v : W) (k : Nat) (hk : k < 64) :
    (∀ r, LeastMultipleGE (2 ^ k) v.toNat r → r < 2 ^ 64 →
        (alignUpSafe v (pow2 k)).toNat = r) ∧
    ((alignUpSafe v (pow2 k)).toNat = 0 ↔
        v.toNat = 0 ∨ ∀ r, LeastMultipleGE (2 ^ k) v.toNat r → 2 ^ 64 ≤ r) := by
  have h2 : 0 < 2 ^ k := Nat.two_pow_pos k
  have h1 : 2 ^ k < 2 ^ 64 := Nat.pow_lt_pow_right (by decide) hk
  have hL := least_of_div (v := v.toNat) h2
  have huniq : ∀ r, LeastMultipleGE (2 ^ k) v.toNat r →
      r = (v.toNat + (2 ^ k - 1)) / 2 ^ k * 2 ^ k := fun r hr =>
    Nat.le_antisymm (hr.2.2 _ hL.1 hL.2.1) (hL.2.2 _ hr.1 hr.2.1)
  have hdvd : 2 ^ k ∣ 2 ^ 64 := Nat.pow_dvd_pow 2 (by omega)
  have hmod := Nat.div_add_mod (v.toNat + (2 ^ k - 1)) (2 ^ k)
  have hlt := Nat.mod_lt (v.toNat + (2 ^ k - 1)) h2
  have hcm : (v.toNat + (2 ^ k - 1)) / 2 ^ k * 2 ^ k
      = 2 ^ k * ((v.toNat + (2 ^ k - 1)) / 2 ^ k) := Nat.mul_comm _ _
  unfold alignUpSafe
  rw [if_neg (pow2_ne_zero hk)]
  by_cases ho : v + pow2 k - 1#64 < v
  · rw [if_pos ho]
    have ho' := (add_sub_one_lt_iff hk v).1 ho
    have hbig : 2 ^ 64 ≤ (v.toNat + (2 ^ k - 1)) / 2 ^ k * 2 ^ k := by
      obtain ⟨c, hc⟩ := hdvd
      rw [hc, hcm]
      apply Nat.mul_le_mul_left
      exact (Nat.le_div_iff_mul_le h2).2 (by rw [Nat.mul_comm, ← hc]; exact ho')
    refine ⟨fun r hr hlt => ?_, ?_⟩
    · have := huniq r hr; omega
    · simp only [BitVec.toNat_ofNat, Nat.zero_mod, true_iff]
      right
      intro r hr
      rw [huniq r hr]; exact hbig
  · rw [if_neg ho]
    have ho' : v.toNat + (2 ^ k - 1) < 2 ^ 64 :=
      Nat.lt_of_not_le fun hle => ho ((add_sub_one_lt_iff hk v).2 hle)
    rw [alignUp_toNat hk v ho']
    refine ⟨fun r hr _ => (huniq r hr).symm, ?_⟩
    constructor
    · intro h0
      left
      have := hL.2.1
      omega
    · rintro (h0 | hall)
      · rw [h0, Nat.zero_add, Nat.div_eq_of_lt (by omega), Nat.zero_mul]
      · have := hall _ hL
        omega

example : (alignUpSafe 5#64 (pow2 3)).toNat = 8 ∧
    (alignUpSafe (BitVec.ofNat 64 (2^64 - 3)) (pow2 3)).toNat = 0 := by decide

/-- **C41.** `ALIGN_DOWN` returns the greatest multiple of the alignment not above the value. -/
theorem C41_alignDown (v : W) (k : Nat) (hk : k < 64) :
    GreatestMultipleLE (2 ^ k) v.toNat (alignDown v (pow2 k)).toNat := by
  rw [alignDown_toNat hk]
  exact greatest_of_div (Nat.two_pow_pos k)

example : (alignDown 13#64 (pow2 3)).toNat = 8 := by decide

/-- **C41.** `IS_ALIGNED` with a power of two decides divisibility; `IS_POWER_OF_2`
accepts exactly the 64 powers of two. -/
theorem C41_isAligned (v : W) (k : Nat) (hk : k < 64) :
    isAligned v (pow2 k) = true ↔ 2 ^ k ∣ v.toNat := by
  simp only [isAligned, Bool.or_eq_true, beq_iff_eq, pow2_ne_zero hk, false_or]
  rw [Nat.dvd_iff_mod_eq_zero, ← and_mask_toNat hk]
  constructor
  · intro h; rw [h]; rfl
  · intro h; exact BitVec.eq_of_toNat_eq (by rw [h]; rfl)

theorem C41_isPowerOf2 (v : W) :
    isPowerOf2 v = true ↔ ∃ k, k < 64 ∧ v.toNat = 2 ^ k := by
  rw [isPowerOf2_iff]
  constructor
  · rintro ⟨k, hk, rfl⟩; exact ⟨k, hk, toNat_pow2 hk⟩
  · rintro ⟨k, hk, h⟩; exact ⟨k, hk, BitVec.eq_of_toNat_eq (by rw [h, toNat_pow2 hk])⟩

/-- **C41.** `utils_align_ptr_up_size_down` yields the largest aligned-start
sub-range: the start is the least aligned address not below `p`, the end is unchanged —
provided the least aligned address is not past the end of the range and fits 64 bits
(otherwise the size wraps, see `C41_sizeDown_wraps`). -/
theorem C41_alignPtrUpSizeDown (p s : W) (k : Nat) (hk : k < 64) (r : Nat)
    (hr : LeastMultipleGE (2 ^ k) p.toNat r) (hfit : r ≤ p.toNat + s.toNat) (h64 : r < 2 ^ 64) :
    (alignPtrUpSizeDown p s (pow2 k)).1.toNat = r ∧
    (alignPtrUpSizeDown p s (pow2 k)).1.toNat + (alignPtrUpSizeDown p s (pow2 k)).2.toNat
      = p.toNat + s.toNat := by
  have h2 : 0 < 2 ^ k := Nat.two_pow_pos k
  have h1 : 2 ^ k < 2 ^ 64 := Nat.pow_lt_pow_right (by decide) hk
  have hL := least_of_div (v := p.toNat) h2
  have hruniq : r = (p.toNat + (2 ^ k - 1)) / 2 ^ k * 2 ^ k :=
    Nat.le_antisymm (hr.2.2 _ hL.1 hL.2.1) (hL.2.2 _ hr.1 hr.2.1)
  have hdm := Nat.div_add_mod p.toNat (2 ^ k)
  have hml := Nat.mod_lt p.toNat h2
  unfold alignPtrUpSizeDown
  by_cases hrest : p &&& (pow2 k - 1#64) = 0#64
  · have hz : p.toNat % 2 ^ k = 0 := by rw [← and_mask_toNat hk, hrest]; rfl
    have hpr : r = p.toNat :=
      Nat.le_antisymm (hr.2.2 _ (Nat.dvd_of_mod_eq_zero hz) (Nat.le_refl _)) hr.2.1
    simp [hrest, hpr]
  · have hnz : p.toNat % 2 ^ k ≠ 0 := by
      intro h; apply hrest; apply BitVec.eq_of_toNat_eq; rw [and_mask_toNat hk, h]; rfl
    simp only [ne_eq, hrest, not_false_eq_true, if_true]
    have hq : (p.toNat + (2 ^ k - 1)) / 2 ^ k = p.toNat / 2 ^ k + 1 := by
      apply Nat.div_eq_of_lt_le
      · rw [Nat.add_mul, Nat.mul_comm]; omega
      · rw [Nat.add_mul, Nat.add_mul, Nat.mul_comm (p.toNat / 2 ^ k)]; omega
    have hr2 : r = p.toNat - p.toNat % 2 ^ k + 2 ^ k := by
      rw [hruniq, hq, Nat.add_mul, Nat.mul_comm]; omega
    have hno : p.toNat + (2 ^ k - 1) < 2 ^ 64 := by
      have hdvd : 2 ^ k ∣ 2 ^ 64 := Nat.pow_dvd_pow 2 (by omega)
      have hrd := hr.1
      have : r + 2 ^ k ≤ 2 ^ 64 := by
        obtain ⟨c, hc⟩ := hrd
        obtain ⟨d, hd⟩ := hdvd
        rw [hc, hd] at h64
        have hcd : c < d := Nat.lt_of_mul_lt_mul_left h64
        calc r + 2 ^ k = 2 ^ k * (c + 1) := by rw [hc, Nat.mul_add, Nat.mul_one]
          _ ≤ 2 ^ k * d := Nat.mul_le_mul_left _ hcd
          _ = 2 ^ 64 := hd.symm
      omega
    have hup : (alignUp p (pow2 k)).toNat = r := by rw [alignUp_toNat hk p hno, ← hruniq]
    refine ⟨hup, ?_⟩
    rw [hup, BitVec.toNat_sub, BitVec.toNat_sub, toNat_pow2 hk, and_mask_toNat hk]
    have := s.isLt
    omega

example : alignPtrUpSizeDown 5#64 100#64 (pow2 3) = (8#64, 97#64) := by decide

/-- The subtraction in `utils_align_ptr_up_size_down` wraps when the range holds no aligned
address: a 1-byte range turns into a huge one. Callers must exclude this. -/
theorem C41_sizeDown_wraps :
    ∃ p s : W, (alignPtrUpSizeDown p s (pow2 3)).2.toNat > s.toNat := ⟨5#64, 1#64, by decide⟩

/-- **C41.** `utils_align_ptr_down_size_up` yields the smallest aligned range around
`[p, p+s)`, provided its end fits 64 bits: the start is the greatest aligned address not above
`p` and the new size is the least multiple of the alignment that covers the old end. -/
theorem C41_alignPtrDownSizeUp (p s : W) (k : Nat) (hk : k < 64)
    (hfit : p.toNat + s.toNat + (2 ^ k - 1) < 2 ^ 64) :
    GreatestMultipleLE (2 ^ k) p.toNat (alignPtrDownSizeUp p s (pow2 k)).1.toNat ∧
    LeastMultipleGE (2 ^ k) (p.toNat + s.toNat)
      ((alignPtrDownSizeUp p s (pow2 k)).1.toNat + (alignPtrDownSizeUp p s (pow2 k)).2.toNat) := by
  have h2 : 0 < 2 ^ k := Nat.two_pow_pos k
  have hdm := Nat.div_add_mod p.toNat (2 ^ k)
  have hml := Nat.mod_lt p.toNat h2
  -- both branches compute the same thing
  have key : (alignPtrDownSizeUp p s (pow2 k)).1.toNat = p.toNat / 2 ^ k * 2 ^ k ∧
      (alignPtrDownSizeUp p s (pow2 k)).2.toNat
        = (s.toNat + p.toNat % 2 ^ k + (2 ^ k - 1)) / 2 ^ k * 2 ^ k := by
    unfold alignPtrDownSizeUp
    by_cases hrest : p &&& (pow2 k - 1#64) = 0#64
    · have hz : p.toNat % 2 ^ k = 0 := by rw [← and_mask_toNat hk, hrest]; rfl
      simp only [hrest, ne_eq, not_true_eq_false, if_false]
      refine ⟨by rw [Nat.mul_comm]; omega, ?_⟩
      rw [alignUp_toNat hk s (by omega), hz, Nat.add_zero]
    · simp only [ne_eq, hrest, not_false_eq_true, if_true]
      have hs : (s + (p &&& (pow2 k - 1#64))).toNat = s.toNat + p.toNat % 2 ^ k := by
        rw [BitVec.toNat_add, and_mask_toNat hk, Nat.mod_eq_of_lt]
        omega
      refine ⟨alignDown_toNat hk p, ?_⟩
      rw [alignUp_toNat hk _ (by rw [hs]; omega), hs]
  rw [key.1, key.2]
  refine ⟨greatest_of_div h2, ?_⟩
  have hL := least_of_div (v := s.toNat + p.toNat % 2 ^ k) h2
  have hcm : p.toNat / 2 ^ k * 2 ^ k = 2 ^ k * (p.toNat / 2 ^ k) := Nat.mul_comm _ _
  refine ⟨Nat.dvd_add ⟨_, Nat.mul_comm _ _⟩ hL.1, ?_, ?_⟩
  · have := hL.2.1; omega
  · intro m hm hv
    have h3 := hL.2.2 (m - p.toNat / 2 ^ k * 2 ^ k)
      (Nat.dvd_sub hm ⟨_, Nat.mul_comm _ _⟩) (by omega)
    omega

example : alignPtrDownSizeUp 13#64 10#64 (pow2 3) = (8#64, 16#64) := by decide

/-! ## C42: flag translation -/

private theorem and_twoPow_ne_zero (x : BitVec 32) (i : Nat) (hi : i < 32) :
    x &&& BitVec.twoPow 32 i ≠ 0#32 ↔ x.getLsbD i = true := by
  rw [BitVec.and_twoPow]
  cases h : x.getLsbD i
  · simp
  · simp only [if_true, iff_true]
    intro h0
    have := congrArg (fun b : BitVec 32 => b.getLsbD i) h0
    simp [hi] at this

private theorem twoPow_shift (i : Nat) (hi : i + 1 < 32) :
    (BitVec.twoPow 32 i) <<< 1 = BitVec.twoPow 32 (i + 1) := by
  ext j hj
  simp only [BitVec.getElem_shiftLeft, BitVec.getElem_twoPow]
  by_cases h : j < 1
  · simp [h]; omega
  · simp only [h, decide_false, Bool.not_false, Bool.true_and]
    by_cases h2 : j = i + 1 <;> simp [h2] <;> omega

private theorem twoPow_lt_iff (max : BitVec 32) (i : Nat) (hi : i < 32) :
    BitVec.twoPow 32 i < max ↔ 2 ^ i < max.toNat := by
  rw [BitVec.lt_def, BitVec.toNat_twoPow, Nat.mod_eq_of_lt]
  exact Nat.pow_lt_pow_right (by decide) hi

private theorem loop_none (tr : BitVec 32 → Option (BitVec 32)) (max : BitVec 32) :
    ∀ (fuel i : Nat) (inF out : BitVec 32), i + fuel = 32 →
      (translateLoop tr max fuel (if i < 32 then BitVec.twoPow 32 i else 0#32) inF out = none ↔
        ∃ j, i ≤ j ∧ j < 32 ∧ inF.getLsbD j = true ∧ 2 ^ j < max.toNat ∧
          tr (BitVec.twoPow 32 j) = none) := by
  intro fuel
  induction fuel with
  | zero => intro i inF out h; simp [translateLoop]; intro j h1 h2; omega
  | succ f ih =>
    intro i inF out h
    have hi : i < 32 := by omega
    have hnext : (BitVec.twoPow 32 i) <<< 1
        = if i + 1 < 32 then BitVec.twoPow 32 (i + 1) else 0#32 := by
      split
      · exact twoPow_shift i (by assumption)
      · have : i = 31 := by omega
        subst this; rfl
    rw [if_pos hi, translateLoop]
    by_cases hlt : BitVec.twoPow 32 i < max
    · have hlt' := (twoPow_lt_iff max i hi).1 hlt
      rw [if_pos hlt]
      by_cases hb : inF &&& BitVec.twoPow 32 i ≠ 0#32
      · rw [if_pos hb]
        have hb' := (and_twoPow_ne_zero inF i hi).1 hb
        cases htr : tr (BitVec.twoPow 32 i) with
        | none => simp only [true_iff]; exact ⟨i, Nat.le_refl _, hi, hb', hlt', htr⟩
        | some flag =>
          simp only
          rw [hnext, ih (i + 1) _ _ (by omega)]
          constructor
          · rintro ⟨j, h1, h2, h3, h4, h5⟩
            refine ⟨j, by omega, h2, ?_, h4, h5⟩
            rw [BitVec.getLsbD_and] at h3
            exact (Bool.and_eq_true _ _ ▸ h3).1
          · rintro ⟨j, h1, h2, h3, h4, h5⟩
            have hne : j ≠ i := by rintro rfl; rw [htr] at h5; cases h5
            refine ⟨j, by omega, h2, ?_, h4, h5⟩
            simp [h3, h2]
            omega
      · rw [if_neg hb, hnext, ih (i + 1) _ _ (by omega)]
        constructor
        · rintro ⟨j, h1, h2, h3, h4, h5⟩; exact ⟨j, by omega, h2, h3, h4, h5⟩
        · rintro ⟨j, h1, h2, h3, h4, h5⟩
          have hne : j ≠ i := by
            rintro rfl; exact hb ((and_twoPow_ne_zero inF j hi).2 h3)
          exact ⟨j, by omega, h2, h3, h4, h5⟩
    · rw [if_neg hlt]
      simp only [reduceCtorEq, false_iff]
      rintro ⟨j, h1, h2, h3, h4, h5⟩
      apply hlt
      rw [twoPow_lt_iff max i hi]
      exact Nat.lt_of_le_of_lt (Nat.pow_le_pow_right (by decide) h1) h4

private theorem loop_some (tr : BitVec 32 → Option (BitVec 32)) (max : BitVec 32) :
    ∀ (fuel i : Nat) (inF out rest out' : BitVec 32), i + fuel = 32 →
      translateLoop tr max fuel (if i < 32 then BitVec.twoPow 32 i else 0#32) inF out
        = some (rest, out') →
      (∀ b, b < 32 → (rest.getLsbD b = true ↔
          inF.getLsbD b = true ∧ ¬ (i ≤ b ∧ 2 ^ b < max.toNat))) ∧
      (∀ b, out'.getLsbD b = true ↔ out.getLsbD b = true ∨
        ∃ j, i ≤ j ∧ j < 32 ∧ inF.getLsbD j = true ∧ 2 ^ j < max.toNat ∧
          ∃ f, tr (BitVec.twoPow 32 j) = some f ∧ f.getLsbD b = true) := by
  intro fuel
  induction fuel with
  | zero =>
    intro i inF out rest out' h heq
    simp only [translateLoop, Option.some.injEq, Prod.mk.injEq] at heq
    obtain ⟨rfl, rfl⟩ := heq
    refine ⟨fun b hb => ⟨fun h1 => ⟨h1, by omega⟩, fun h1 => h1.1⟩,
      fun b => ⟨Or.inl, ?_⟩⟩
    rintro (h1 | ⟨j, h1, h2, _⟩)
    · exact h1
    · omega
  | succ f ih =>
    intro i inF out rest out' h heq
    have hi : i < 32 := by omega
    have hnext : (BitVec.twoPow 32 i) <<< 1
        = if i + 1 < 32 then BitVec.twoPow 32 (i + 1) else 0#32 := by
      split
      · exact twoPow_shift i (by assumption)
      · have : i = 31 := by omega
        subst this; rfl
    rw [if_pos hi, translateLoop] at heq
    by_cases hlt : BitVec.twoPow 32 i < max
    · have hlt' := (twoPow_lt_iff max i hi).1 hlt
      rw [if_pos hlt] at heq
      by_cases hb : inF &&& BitVec.twoPow 32 i ≠ 0#32
      · rw [if_pos hb] at heq
        have hb' := (and_twoPow_ne_zero inF i hi).1 hb
        cases htr : tr (BitVec.twoPow 32 i) with
        | none => rw [htr] at heq; cases heq
        | some flag =>
          rw [htr] at heq
          simp only at heq
          rw [hnext] at heq
          obtain ⟨h1, h2⟩ := ih (i + 1) _ _ _ _ (by omega) heq
          have hclr : ∀ b, b < 32 → ((inF &&& ~~~BitVec.twoPow 32 i).getLsbD b = true ↔
              inF.getLsbD b = true ∧ b ≠ i) := by
            intro b hb32
            simp [hb32]
          refine ⟨fun b hb32 => ?_, fun b => ?_⟩
          · rw [h1 b hb32, hclr b hb32]
            constructor
            · rintro ⟨⟨ha, hc⟩, hd⟩; exact ⟨ha, fun hh => hd ⟨by omega, hh.2⟩⟩
            · rintro ⟨ha, hd⟩
              refine ⟨⟨ha, fun hbi => hd ⟨by omega, by rw [hbi]; exact hlt'⟩⟩, fun hh => hd ⟨by omega, hh.2⟩⟩
          · rw [h2 b]
            simp only [BitVec.getLsbD_or, Bool.or_eq_true]
            constructor
            · rintro ((ha | ha) | ⟨j, q1, q2, q3, q4, q5⟩)
              · exact Or.inl ha
              · exact Or.inr ⟨i, Nat.le_refl _, hi, hb', hlt', flag, htr, ha⟩
              · exact Or.inr ⟨j, by omega, q2, ((hclr j q2).1 q3).1, q4, q5⟩
            · rintro (ha | ⟨j, q1, q2, q3, q4, g, q5, q6⟩)
              · exact Or.inl (Or.inl ha)
              · by_cases hji : j = i
                · subst hji
                  rw [htr] at q5; cases q5
                  exact Or.inl (Or.inr q6)
                · exact Or.inr ⟨j, by omega, q2, (hclr j q2).2 ⟨q3, hji⟩, q4, g, q5, q6⟩
      · rw [if_neg hb, hnext] at heq
        obtain ⟨h1, h2⟩ := ih (i + 1) _ _ _ _ (by omega) heq
        have hbi : ¬ inF.getLsbD i = true := fun hh => hb ((and_twoPow_ne_zero inF i hi).2 hh)
        refine ⟨fun b hb32 => ?_, fun b => ?_⟩
        · rw [h1 b hb32]
          constructor
          · rintro ⟨ha, hd⟩
            refine ⟨ha, fun hh => hd ⟨?_, hh.2⟩⟩
            rcases Nat.lt_or_eq_of_le hh.1 with h' | h'
            · exact h'
            · rw [h'] at hbi; exact absurd ha hbi
          · rintro ⟨ha, hd⟩; exact ⟨ha, fun hh => hd ⟨by omega, hh.2⟩⟩
        · rw [h2 b]
          constructor
          · rintro (ha | ⟨j, q1, q2, q3⟩)
            · exact Or.inl ha
            · exact Or.inr ⟨j, by omega, q2, q3⟩
          · rintro (ha | ⟨j, q1, q2, q3, q4⟩)
            · exact Or.inl ha
            · have : j ≠ i := by rintro rfl; exact hbi q3
              exact Or.inr ⟨j, by omega, q2, q3, q4⟩
    · rw [if_neg hlt] at heq
      simp only [Option.some.injEq, Prod.mk.injEq] at heq
      obtain ⟨rfl, rfl⟩ := heq
      have hno : ∀ j, i ≤ j → ¬ 2 ^ j < max.toNat := by
        intro j hj hh
        apply hlt
        rw [twoPow_lt_iff max i hi]
        exact Nat.lt_of_le_of_lt (Nat.pow_le_pow_right (by decide) hj) hh
      refine ⟨fun b hb => ⟨fun h1 => ⟨h1, fun hh => hno b hh.1 hh.2⟩, fun h1 => h1.1⟩,
        fun b => ⟨Or.inl, ?_⟩⟩
      rintro (h1 | ⟨j, h1, h2, h3, h4, _⟩)
      · exact h1
      · exact absurd h4 (hno j h1)

/-- **C42.** For every 32-bit flag word, every per-flag translation and every bound `max`,
the translation succeeds exactly when every set bit is a flag below `max` with a translation,
and the result is exactly the union (bitwise or) of the translations of the set bits. -/
theorem C42_translateFlags (tr : BitVec 32 → Option (BitVec 32)) (max w : BitVec 32) :
    ((∃ out, translateFlags tr max w = .success out) ↔
      ∀ j, j < 32 → w.getLsbD j = true →
        2 ^ j < max.toNat ∧ (tr (BitVec.twoPow 32 j)).isSome = true) ∧
    (∀ out, translateFlags tr max w = .success out →
      ∀ b, (out.getLsbD b = true ↔
        ∃ j f, j < 32 ∧ w.getLsbD j = true ∧ tr (BitVec.twoPow 32 j) = some f ∧
          f.getLsbD b = true)) := by
  have hstart : (1#32 : BitVec 32) = if 0 < 32 then BitVec.twoPow 32 0 else 0#32 := rfl
  unfold translateFlags
  rw [hstart]
  cases hl : translateLoop tr max 32 (if 0 < 32 then BitVec.twoPow 32 0 else 0#32) w 0#32 with
  | none =>
    obtain ⟨j, _, h2, h3, h4, h5⟩ := (loop_none tr max 32 0 w 0#32 rfl).1 hl
    simp only [reduceCtorEq, exists_false, false_iff, false_imp_iff, implies_true, and_true]
    intro hall
    have := (hall j h2 h3).2
    rw [h5] at this
    cases this
  | some p =>
    obtain ⟨rest, out'⟩ := p
    obtain ⟨hr, ho⟩ := loop_some tr max 32 0 w 0#32 rest out' rfl hl
    have hn : ¬ ∃ j, 0 ≤ j ∧ j < 32 ∧ w.getLsbD j = true ∧ 2 ^ j < max.toNat ∧
          tr (BitVec.twoPow 32 j) = none := fun hh => by
      rw [(loop_none tr max 32 0 w 0#32 rfl).2 hh] at hl; cases hl
    have hzero : rest = 0#32 ↔ ∀ j, j < 32 → w.getLsbD j = true → 2 ^ j < max.toNat := by
      constructor
      · intro h0 j hj hw
        refine Classical.byContradiction fun hc => ?_
        have := (hr j hj).2 ⟨hw, fun hh => hc hh.2⟩
        rw [h0] at this
        simp at this
      · intro hall
        apply BitVec.eq_of_getLsbD_eq
        intro j hj
        rw [BitVec.getLsbD_zero]
        cases hc : rest.getLsbD j
        · rfl
        · have := (hr j hj).1 hc
          exact absurd ⟨Nat.zero_le _, hall j hj this.1⟩ this.2
    by_cases h0 : rest = 0#32
    · have hall := hzero.1 h0
      simp only [h0, ne_eq, not_true_eq_false, if_false, FlagRes.success.injEq, exists_eq', true_iff]
      constructor
      · intro j hj hw
        refine ⟨hall j hj hw, ?_⟩
        cases htr : tr (BitVec.twoPow 32 j) with
        | none => exact absurd ⟨j, Nat.zero_le _, hj, hw, hall j hj hw, htr⟩ hn
        | some _ => rfl
      · rintro out rfl b
        rw [ho b]
        simp only [BitVec.getLsbD_zero, Bool.false_eq_true, false_or]
        constructor
        · rintro ⟨j, _, h2, h3, _, f, h5, h6⟩; exact ⟨j, f, h2, h3, h5, h6⟩
        · rintro ⟨j, f, h2, h3, h5, h6⟩
          exact ⟨j, Nat.zero_le _, h2, h3, hall j h2 h3, f, h5, h6⟩
    · simp only [h0, ne_eq, not_false_eq_true, if_true, reduceCtorEq, exists_false, false_iff,
        false_imp_iff, implies_true, and_true]
      intro hall
      exact h0 (hzero.2 fun j hj hw => (hall j hj hw).1)

/-- `UMF_PROTECTION_MAX` (`include/umf/memory_provider.h:33`) is 9. -/
def protMax : BitVec 32 := 9#32

/-- **C42**, instance for memory protection: exactly the words using bits 0–3 translate, and
READ/WRITE/EXEC (bits 1–3) give `PROT_READ=1`, `PROT_WRITE=2`, `PROT_EXEC=4`. -/
theorem C42_protection (w : BitVec 32) :
    ((∃ out, translateFlags protOneFlag protMax w = .success out) ↔ w.toNat < 16) ∧
    (∀ out, translateFlags protOneFlag protMax w = .success out →
      ∀ b, (out.getLsbD b = true ↔ b < 3 ∧ w.getLsbD (b + 1) = true)) := by
  obtain ⟨h1, h2⟩ := C42_translateFlags protOneFlag protMax w
  have hsmall : (∀ j, j < 32 → w.getLsbD j = true →
        2 ^ j < protMax.toNat ∧ (protOneFlag (BitVec.twoPow 32 j)).isSome = true) ↔
        w.toNat < 16 := by
    constructor
    · intro hall
      refine Nat.lt_of_not_le fun hge => ?_
      have : ∃ j, j ≥ 4 ∧ w.toNat.testBit j = true := Nat.exists_ge_and_testBit_of_ge_two_pow hge
      obtain ⟨j, hj4, hj⟩ := this
      have hj32 : j < 32 := by
        refine Nat.lt_of_not_le fun h32 => ?_
        rw [Nat.testBit_lt_two_pow (Nat.lt_of_lt_of_le w.isLt (Nat.pow_le_pow_right (by decide) h32))] at hj
        cases hj
      have := (hall j hj32 hj).1
      have h16 : 2 ^ 4 ≤ 2 ^ j := Nat.pow_le_pow_right (by decide) hj4
      have : 2 ^ j < 9 := this
      omega
    · intro hlt j hj hw
      have hj4 : j < 4 := by
        refine Nat.lt_of_not_le fun h4 => ?_
        have : w.toNat.testBit j = true := hw
        rw [Nat.testBit_lt_two_pow (Nat.lt_of_lt_of_le hlt (Nat.pow_le_pow_right (n := 2) (by decide) h4))] at this
        cases this
      have : j = 0 ∨ j = 1 ∨ j = 2 ∨ j = 3 := by omega
      rcases this with rfl | rfl | rfl | rfl <;> decide
  refine ⟨h1.trans hsmall, fun out hout b => ?_⟩
  have hw := (h1.trans hsmall).1 ⟨out, hout⟩
  rw [h2 out hout b]
  constructor
  · rintro ⟨j, f, hj, hwj, htr, hfb⟩
    have hj4 : j < 4 := by
      refine Nat.lt_of_not_le fun h4 => ?_
      have : w.toNat.testBit j = true := hwj
      rw [Nat.testBit_lt_two_pow (Nat.lt_of_lt_of_le hw (Nat.pow_le_pow_right (n := 2) (by decide) h4))] at this
      cases this
    have : j = 0 ∨ j = 1 ∨ j = 2 ∨ j = 3 := by omega
    rcases this with rfl | rfl | rfl | rfl
    · have : f = 0#32 := (Option.some.inj htr).symm
      subst this; simp at hfb
    · have : f = BitVec.twoPow 32 0 := (Option.some.inj htr).symm
      subst this
      simp [BitVec.getLsbD_twoPow] at hfb; subst hfb; exact ⟨by decide, hwj⟩
    · have : f = BitVec.twoPow 32 1 := (Option.some.inj htr).symm
      subst this
      simp [BitVec.getLsbD_twoPow] at hfb; subst hfb; exact ⟨by decide, hwj⟩
    · have : f = BitVec.twoPow 32 2 := (Option.some.inj htr).symm
      subst this
      simp [BitVec.getLsbD_twoPow] at hfb; subst hfb; exact ⟨by decide, hwj⟩
  · rintro ⟨hb, hwb⟩
    have : b = 0 ∨ b = 1 ∨ b = 2 := by omega
    rcases this with rfl | rfl | rfl
    · exact ⟨1, 1#32, by decide, hwb, rfl, rfl⟩
    · exact ⟨2, 2#32, by decide, hwb, rfl, rfl⟩
    · exact ⟨3, 4#32, by decide, hwb, rfl, rfl⟩

example : translateFlags protOneFlag protMax 6#32 = .success 3#32 ∧
    translateFlags protOneFlag protMax 16#32 = .invalidArgument := by decide

end Verif.Utils
