import Verif.Utils.Model
/-! Helper lemmas on 64-bit masks. -/
namespace Verif.Utils

/-- The word `2^k`. -/
def pow2 (k : Nat) : W := BitVec.twoPow 64 k

theorem toNat_pow2 {k : Nat} (hk : k < 64) : (pow2 k).toNat = 2 ^ k := by
  unfold pow2
  rw [BitVec.toNat_twoPow, Nat.mod_eq_of_lt]
  exact Nat.pow_lt_pow_right (by decide) hk

theorem mask_eq {k : Nat} (hk : k < 64) : pow2 k - 1#64 = BitVec.ofNat 64 (2 ^ k - 1) := by
  apply BitVec.eq_of_toNat_eq
  have h1 : 2 ^ k < 2 ^ 64 := Nat.pow_lt_pow_right (by decide) hk
  have h2 : 0 < 2 ^ k := Nat.two_pow_pos k
  rw [BitVec.toNat_sub, toNat_pow2 hk, BitVec.toNat_ofNat, BitVec.toNat_ofNat]
  have : (1 : Nat) % 2 ^ 64 = 1 := rfl
  rw [this]
  omega

theorem and_mask_toNat {k : Nat} (hk : k < 64) (x : W) :
    (x &&& (pow2 k - 1#64)).toNat = x.toNat % 2 ^ k := by
  rw [mask_eq hk, BitVec.toNat_and, BitVec.toNat_ofNat]
  have h1 : 2 ^ k < 2 ^ 64 := Nat.pow_lt_pow_right (by decide) hk
  rw [Nat.mod_eq_of_lt (a := 2 ^ k - 1) (by omega), Nat.and_two_pow_sub_one_eq_mod]

theorem and_not_mask_toNat {k : Nat} (hk : k < 64) (x : W) :
    (x &&& ~~~(pow2 k - 1#64)).toNat = x.toNat / 2 ^ k * 2 ^ k := by
  have hsplit : x = (x &&& (pow2 k - 1#64)) + (x &&& ~~~(pow2 k - 1#64)) := by
    rw [BitVec.add_eq_or_of_and_eq_zero]
    · ext i hi
      simp only [BitVec.getElem_or, BitVec.getElem_and, BitVec.getElem_not]
      cases x[i] <;> cases (pow2 k - 1#64)[i] <;> rfl
    · ext i hi
      simp only [BitVec.getElem_and, BitVec.getElem_not, BitVec.getElem_zero]
      cases x[i] <;> cases (pow2 k - 1#64)[i] <;> rfl
  have hle : (x &&& (pow2 k - 1#64)).toNat + (x &&& ~~~(pow2 k - 1#64)).toNat = x.toNat := by
    have hx := congrArg BitVec.toNat hsplit
    have hno : (x &&& (pow2 k - 1#64)).toNat + (x &&& ~~~(pow2 k - 1#64)).toNat < 2 ^ 64 := by
      have hdisj : (x &&& (pow2 k - 1#64)) &&& (x &&& ~~~(pow2 k - 1#64)) = 0#64 := by
        ext i hi
        simp only [BitVec.getElem_and, BitVec.getElem_not, BitVec.getElem_zero]
        cases x[i] <;> cases (pow2 k - 1#64)[i] <;> rfl
      have := BitVec.toNat_add_of_and_eq_zero hdisj
      have h2 := ((x &&& (pow2 k - 1#64)) + (x &&& ~~~(pow2 k - 1#64))).isLt
      omega
    rw [BitVec.toNat_add, Nat.mod_eq_of_lt hno] at hx
    exact hx.symm
  rw [and_mask_toNat hk] at hle
  have := Nat.div_add_mod x.toNat (2 ^ k)
  rw [Nat.mul_comm] at this
  omega

theorem alignDown_toNat {k : Nat} (hk : k < 64) (x : W) :
    (alignDown x (pow2 k)).toNat = x.toNat / 2 ^ k * 2 ^ k := and_not_mask_toNat hk x

theorem add_sub_one_toNat {k : Nat} (hk : k < 64) (v : W) :
    (v + pow2 k - 1#64).toNat = (v.toNat + (2 ^ k - 1)) % 2 ^ 64 := by
  have h1 : 2 ^ k < 2 ^ 64 := Nat.pow_lt_pow_right (by decide) hk
  have h2 : 0 < 2 ^ k := Nat.two_pow_pos k
  have hv := v.isLt
  rw [BitVec.toNat_sub, BitVec.toNat_add, toNat_pow2 hk]
  have : (1#64).toNat = 1 := rfl
  rw [this]
  omega

theorem alignUp_toNat {k : Nat} (hk : k < 64) (v : W)
    (hno : v.toNat + (2 ^ k - 1) < 2 ^ 64) :
    (alignUp v (pow2 k)).toNat = (v.toNat + (2 ^ k - 1)) / 2 ^ k * 2 ^ k := by
  unfold alignUp
  rw [and_not_mask_toNat hk, add_sub_one_toNat hk, Nat.mod_eq_of_lt hno]

theorem add_sub_one_lt_iff {k : Nat} (hk : k < 64) (v : W) :
    v + pow2 k - 1#64 < v ↔ 2 ^ 64 ≤ v.toNat + (2 ^ k - 1) := by
  have h1 : 2 ^ k < 2 ^ 64 := Nat.pow_lt_pow_right (by decide) hk
  have h2 : 0 < 2 ^ k := Nat.two_pow_pos k
  have hv := v.isLt
  rw [BitVec.lt_def, add_sub_one_toNat hk]
  omega

theorem pow2_ne_zero {k : Nat} (hk : k < 64) : pow2 k ≠ 0#64 := by
  intro h
  have := congrArg BitVec.toNat h
  rw [toNat_pow2 hk] at this
  have h2 : 0 < 2 ^ k := Nat.two_pow_pos k
  simp at this

/-- `x &&& (x-1) = 0` on nonzero words characterises powers of two. -/
theorem isPowerOf2_iff (x : W) : isPowerOf2 x = true ↔ ∃ k, k < 64 ∧ x = pow2 k := by
  constructor
  · intro h
    simp only [isPowerOf2, Bool.and_eq_true, bne_iff_ne, ne_eq, beq_iff_eq] at h
    obtain ⟨hne, hand⟩ := h
    have hx0 : x.toNat ≠ 0 := by
      intro h0; apply hne; apply BitVec.eq_of_toNat_eq; simpa using h0
    refine ⟨Nat.log2 x.toNat, ?_, ?_⟩
    · exact (Nat.log2_lt hx0).2 x.isLt
    · have hk : Nat.log2 x.toNat < 64 := (Nat.log2_lt hx0).2 x.isLt
      apply BitVec.eq_of_toNat_eq
      rw [toNat_pow2 hk]
      have hle : 2 ^ Nat.log2 x.toNat ≤ x.toNat := Nat.log2_self_le hx0
      refine Nat.le_antisymm ?_ hle
      refine Nat.le_of_not_lt fun hlt => ?_
      -- if 2^k < x then x and x-1 share bit k
      have hnat : x.toNat &&& (x.toNat - 1) = 0 := by
        have := congrArg BitVec.toNat hand
        rw [BitVec.toNat_and, BitVec.toNat_sub] at this
        have e1 : (1#64).toNat = 1 := rfl
        have e2 : (0#64).toNat = 0 := rfl
        rw [e1, e2] at this
        have : (2 ^ 64 - 1 + x.toNat) % 2 ^ 64 = x.toNat - 1 := by
          have := x.isLt; omega
        simp_all
      have hlt2 : x.toNat < 2 ^ (Nat.log2 x.toNat + 1) := Nat.lt_log2_self
      have b1 : Nat.testBit x.toNat (Nat.log2 x.toNat) = true := by
        rw [Nat.testBit_eq_decide_div_mod_eq]
        have : x.toNat / 2 ^ Nat.log2 x.toNat = 1 := by
          apply Nat.div_eq_of_lt_le
          · omega
          · rw [Nat.pow_succ] at hlt2; omega
        rw [this]; rfl
      have b2 : Nat.testBit (x.toNat - 1) (Nat.log2 x.toNat) = true := by
        rw [Nat.testBit_eq_decide_div_mod_eq]
        have : (x.toNat - 1) / 2 ^ Nat.log2 x.toNat = 1 := by
          apply Nat.div_eq_of_lt_le
          · omega
          · rw [Nat.pow_succ] at hlt2; omega
        rw [this]; rfl
      have := congrArg (fun n => Nat.testBit n (Nat.log2 x.toNat)) hnat
      simp [Nat.testBit_and, b1, b2] at this
  · rintro ⟨k, hk, rfl⟩
    simp only [isPowerOf2, Bool.and_eq_true, bne_iff_ne, ne_eq, beq_iff_eq]
    refine ⟨pow2_ne_zero hk, ?_⟩
    apply BitVec.eq_of_toNat_eq
    rw [and_mask_toNat hk, toNat_pow2 hk]
    simp

end Verif.Utils
