/-! Power-of-two facts on `Nat`, shared by several models. -/
namespace Verif.Utils

/-- `x & (x-1) == 0` characterises powers of two among positive numbers. -/
theorem nat_pow2_of_and {x : Nat} (hx0 : x ≠ 0) (hnat : x &&& (x - 1) = 0) :
    x = 2 ^ Nat.log2 x := by
  have hle : 2 ^ Nat.log2 x ≤ x := Nat.log2_self_le hx0
  refine Nat.le_antisymm (Nat.le_of_not_lt fun hlt => ?_) hle
  have hlt2 : x < 2 ^ (Nat.log2 x + 1) := Nat.lt_log2_self
  have b1 : Nat.testBit x (Nat.log2 x) = true := by
    rw [Nat.testBit_eq_decide_div_mod_eq]
    have : x / 2 ^ Nat.log2 x = 1 := by
      apply Nat.div_eq_of_lt_le
      · omega
      · rw [Nat.pow_succ] at hlt2; omega
    rw [this]; rfl
  have b2 : Nat.testBit (x - 1) (Nat.log2 x) = true := by
    rw [Nat.testBit_eq_decide_div_mod_eq]
    have : (x - 1) / 2 ^ Nat.log2 x = 1 := by
      apply Nat.div_eq_of_lt_le
      · omega
      · rw [Nat.pow_succ] at hlt2; omega
    rw [this]; rfl
  have := congrArg (fun n => Nat.testBit n (Nat.log2 x)) hnat
  simp [Nat.testBit_and, b1, b2] at this

theorem nat_and_pow2 (k : Nat) : 2 ^ k &&& (2 ^ k - 1) = 0 := by
  rw [Nat.and_two_pow_sub_one_eq_mod, Nat.mod_self]

theorem nat_pow2_iff {x : Nat} (hx0 : x ≠ 0) : x &&& (x - 1) = 0 ↔ ∃ k, x = 2 ^ k :=
  ⟨fun h => ⟨_, nat_pow2_of_and hx0 h⟩, by rintro ⟨k, rfl⟩; exact nat_and_pow2 k⟩

/-- Of two powers of two the smaller divides the larger. -/
theorem pow2_dvd_of_le {i j : Nat} (h : 2 ^ i ≤ 2 ^ j) : 2 ^ i ∣ 2 ^ j :=
  Nat.pow_dvd_pow 2 ((Nat.pow_le_pow_iff_right (by decide)).1 h)

end Verif.Utils
