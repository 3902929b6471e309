import Verif.Critnib.Model
/-! # Bit operations of the radix tree as arithmetic -/
namespace Verif.Critnib

theorem xor_eq_zero {a b : Nat} : a ^^^ b = 0 ↔ a = b := by
  constructor
  · intro h
    have h2 : a ^^^ b ^^^ b = 0 ^^^ b := by rw [h]
    rwa [Nat.xor_assoc, Nat.xor_self, Nat.xor_zero, Nat.zero_xor] at h2
  · rintro rfl; exact Nat.xor_self a

theorem idx_val (key : W) (sh : Nat) : (idx key sh).val = key.toNat / 2 ^ sh % 16 := by
  unfold idx
  simp only [Fin.ofNat, BitVec.toNat_and, BitVec.toNat_ushiftRight, BitVec.toNat_ofNat]
  rw [show (15 % 2 ^ 64 : Nat) = 2 ^ 4 - 1 from rfl, Nat.and_two_pow_sub_one_eq_mod,
    Nat.shiftRight_eq_div_pow]
  omega

theorem getLsbD_pathMask (sh i : Nat) :
    (pathMask sh).getLsbD i = (decide (i < 64) && decide (sh + 4 ≤ i)) := by
  unfold pathMask
  rw [BitVec.getLsbD_shiftLeft, BitVec.getLsbD_not]
  have h15 : ∀ j, (15#64).getLsbD j = decide (j < 4) := by
    intro j
    rw [BitVec.getLsbD_ofNat, show (15 : Nat) = 2 ^ 4 - 1 from rfl, Nat.testBit_two_pow_sub_one]
    by_cases h : j < 4
    · simp [h]; omega
    · simp [h]
  rw [h15]
  by_cases h : i < 64 <;> by_cases h2 : sh + 4 ≤ i <;> by_cases h3 : i < sh <;> simp [h, h2, h3] <;> omega

theorem masked_toNat (key : W) (sh : Nat) :
    (key &&& pathMask sh).toNat = key.toNat / 2 ^ (sh + 4) * 2 ^ (sh + 4) := by
  apply Nat.eq_of_testBit_eq
  intro i
  rw [BitVec.testBit_toNat, BitVec.getLsbD_and, getLsbD_pathMask, Nat.testBit_mul_two_pow,
    Nat.testBit_div_two_pow, BitVec.testBit_toNat]
  by_cases h : sh + 4 ≤ i
  · rw [show i - (sh + 4) + (sh + 4) = i from by omega]
    by_cases h64 : i < 64
    · simp [h, h64]
    · simp [h, h64, BitVec.getLsbD_of_ge key i (by omega)]
  · simp [h]

theorem outside_iff (key path : W) (sh : Nat) :
    outside key path sh = true ↔ key.toNat / 2 ^ (sh + 4) ≠ path.toNat / 2 ^ (sh + 4) := by
  unfold outside
  rw [bne_iff_ne]
  apply not_congr
  rw [← BitVec.toNat_inj]
  have hm : (~~~15#64 : W) = pathMask 0 := rfl
  rw [hm, masked_toNat, BitVec.toNat_ushiftRight, BitVec.toNat_xor, Nat.shiftRight_eq_div_pow]
  simp only [BitVec.toNat_ofNat, Nat.zero_mod, Nat.zero_add]
  have hdd : ∀ x : Nat, x / 2 ^ sh / 2 ^ 4 = x / 2 ^ (sh + 4) := by
    intro x; rw [Nat.div_div_eq_div_mul, Nat.pow_add]
  rw [hdd]
  have hx : (key.toNat ^^^ path.toNat) / 2 ^ (sh + 4) =
      key.toNat / 2 ^ (sh + 4) ^^^ path.toNat / 2 ^ (sh + 4) := Nat.xor_div_two_pow
  rw [hx]
  constructor
  · intro h
    exact xor_eq_zero.1 (by omega)
  · intro h
    rw [h, Nat.xor_self]

/-- Prefixes that agree agree further up. -/
theorem prefix_mono {a b m n : Nat} (h : a / 2 ^ m = b / 2 ^ m) (hmn : m ≤ n) :
    a / 2 ^ n = b / 2 ^ n := by
  obtain ⟨d, rfl⟩ := Nat.exists_eq_add_of_le hmn
  rw [Nat.pow_add, ← Nat.div_div_eq_div_mul, ← Nat.div_div_eq_div_mul, h]

/-- The shift chosen for a new branch: above it both words agree, at it they differ. -/
theorem branch_shift (p key : W) (hne : p ≠ key) :
    let sh := msb64 (p ^^^ key) / 4 * 4
    sh ≤ 60 ∧ sh % 4 = 0 ∧ p.toNat / 2 ^ (sh + 4) = key.toNat / 2 ^ (sh + 4) ∧
      p.toNat / 2 ^ sh ≠ key.toNat / 2 ^ sh ∧ idx p sh ≠ idx key sh ∧
      ∀ s, p.toNat / 2 ^ s = key.toNat / 2 ^ s → sh < s := by
  intro sh
  have hne' : p.toNat ≠ key.toNat := fun h => hne (BitVec.toNat_inj.1 h)
  have hx0 : p.toNat ^^^ key.toNat ≠ 0 := fun h => hne' (xor_eq_zero.1 h)
  have hx : (p ^^^ key).toNat = p.toNat ^^^ key.toNat := BitVec.toNat_xor ..
  let m := msb64 (p ^^^ key)
  have hm : m = Nat.log2 (p.toNat ^^^ key.toNat) := by show Nat.log2 _ = _; rw [hx]
  have hlt : p.toNat ^^^ key.toNat < 2 ^ 64 := by rw [← hx]; exact (p ^^^ key).isLt
  have hm64 : m < 64 := by rw [hm]; exact (Nat.log2_lt hx0).2 hlt
  have hsh : sh = m / 4 * 4 := rfl
  have hself : 2 ^ m ≤ p.toNat ^^^ key.toNat := by rw [hm]; exact Nat.log2_self_le hx0
  have hnext : p.toNat ^^^ key.toNat < 2 ^ (m + 1) := by rw [hm]; exact Nat.lt_log2_self
  have agree : ∀ s, p.toNat / 2 ^ s = key.toNat / 2 ^ s ↔ p.toNat ^^^ key.toNat < 2 ^ s := by
    intro s
    rw [← Nat.div_eq_zero_iff_lt (Nat.two_pow_pos s), Nat.xor_div_two_pow, xor_eq_zero]
  have h1 : p.toNat / 2 ^ (sh + 4) = key.toNat / 2 ^ (sh + 4) :=
    (agree _).2 (Nat.lt_of_lt_of_le hnext (Nat.pow_le_pow_right (by omega) (by omega)))
  have h2 : p.toNat / 2 ^ sh ≠ key.toNat / 2 ^ sh := by
    intro h
    have h3 := (agree _).1 h
    have h4 : 2 ^ sh ≤ 2 ^ m := Nat.pow_le_pow_right (by omega) (by omega)
    omega
  refine ⟨by omega, by omega, h1, h2, ?_, ?_⟩
  · intro h
    have h3 := congrArg Fin.val h
    rw [idx_val, idx_val] at h3
    have h4 : p.toNat / 2 ^ sh / 16 = key.toNat / 2 ^ sh / 16 := by
      have hdd : ∀ x : Nat, x / 2 ^ sh / 16 = x / 2 ^ (sh + 4) := by
        intro x; rw [show (16 : Nat) = 2 ^ 4 from rfl, Nat.div_div_eq_div_mul, Nat.pow_add]
      rw [hdd, hdd, h1]
    omega
  · intro s hs
    rcases Nat.lt_or_ge sh s with h | h
    · exact h
    · exact absurd (prefix_mono hs h) h2

/-- A prefix one nibble longer is the prefix and the nibble. -/
theorem prefix_split (a sh : Nat) : a / 2 ^ sh = a / 2 ^ (sh + 4) * 16 + a / 2 ^ sh % 16 := by
  have hdd : a / 2 ^ (sh + 4) = a / 2 ^ sh / 16 := by
    rw [show (16 : Nat) = 2 ^ 4 from rfl, Nat.div_div_eq_div_mul, Nat.pow_add]
  rw [hdd]; omega

end Verif.Critnib
