import Verif.Heap.Wp

/-! # The flags of jemalloc -/
namespace Verif.Heap

theorem ctz_dvd : ∀ fuel n, 2 ^ ctz fuel n ∣ n
  | 0, n => by simp [ctz]
  | f + 1, n => by
    unfold ctz
    split
    · simp
    · next h =>
      have h2 : n = 2 * (n / 2) := by omega
      rw [Nat.add_comm, Nat.pow_succ, Nat.mul_comm]
      conv => rhs; rw [h2]
      exact Nat.mul_dvd_mul_left 2 (ctz_dvd f (n / 2))

theorem ctz_pow : ∀ fuel j, j < fuel → ctz fuel (2 ^ j) = j
  | 0, j, h => by omega
  | f + 1, 0, _ => by simp [ctz]
  | f + 1, j + 1, h => by
    unfold ctz
    rw [if_neg (by rw [Nat.pow_succ]; omega), Nat.pow_succ, Nat.mul_div_cancel _ (by omega),
      ctz_pow f j (by omega)]
    omega

theorem ctz_lt {fuel n b : Nat} (h0 : n ≠ 0) (h : n < 2 ^ b) : ctz fuel n < b := by
  have h1 := Nat.le_of_dvd (Nat.pos_of_ne_zero h0) (ctz_dvd fuel n)
  exact (Nat.pow_lt_pow_iff_right (by omega)).1 (Nat.lt_of_le_of_lt h1 h)

theorem alignBits_lt {a : Nat} (h0 : a ≠ 0) (h : a < 2 ^ 64) : alignBits a < 64 := by
  unfold alignBits
  split
  · next h1 =>
    have := ctz_lt (fuel := 64) h0 (b := 31) (by omega)
    omega
  · split
    · omega
    · next h2 =>
      have := ctz_lt (fuel := 64) h2 (b := 32) (by omega)
      omega

theorem alignBits_pow {j : Nat} (h : j < 64) : alignBits (2 ^ j) = j := by
  unfold alignBits
  have hp : 2 ^ j ≠ 0 := by simp
  by_cases hj : j < 31
  · rw [if_pos, if_neg hp, ctz_pow _ _ h]
    have : (2 : Nat) ^ j ≤ 2 ^ 30 := Nat.pow_le_pow_right (by omega) (by omega)
    omega
  · have h31 : (2 : Nat) ^ 31 ≤ 2 ^ j := Nat.pow_le_pow_right (by omega) (by omega)
    rw [if_neg (by omega)]
    by_cases hj2 : j = 31
    · subst hj2
      rfl
    · have h3 : 2 ^ j = 2 ^ (j - 32) * 2 ^ 32 := by rw [← Nat.pow_add]; congr 1; omega
      rw [h3, Nat.mul_div_cancel _ (by omega), if_neg (by simp), ctz_pow _ _ (by omega)]
      omega

theorem flags_eq {x a : Nat} (hx : x < 64) (ha : a < 4095) :
    x ||| arenaBits a ||| tcacheNone = (a + 1) * 2 ^ 20 + 2 ^ 8 + x := by
  have h1 : arenaBits a = (a + 1) <<< 20 := by
    unfold arenaBits
    rw [Nat.shiftLeft_eq]
    apply Nat.mod_eq_of_lt
    omega
  have h2 : tcacheNone = 1 <<< 8 := rfl
  have h3 : x ||| (a + 1) <<< 20 = (a + 1) <<< 20 + x := by
    rw [Nat.or_comm, Nat.shiftLeft_add_eq_or_of_lt (by omega)]
  have h4 : x ||| (a + 1) <<< 20 ||| 1 <<< 8 = (a + 1) <<< 20 ||| (1 <<< 8 ||| x) := by
    rw [Nat.or_comm x, Nat.or_assoc, Nat.or_comm x]
  have h5 : 1 <<< 8 ||| x = 1 <<< 8 + x := (Nat.shiftLeft_add_eq_or_of_lt (by omega) _).symm
  rw [h1, h2, h4, h5, ← Nat.shiftLeft_add_eq_or_of_lt (by simp [Nat.shiftLeft_eq]; omega)]
  simp only [Nat.shiftLeft_eq]
  omega

theorem flags0 {a : Nat} (ha : a < 4095) : arenaBits a ||| tcacheNone = (a + 1) * 2 ^ 20 + 2 ^ 8 := by
  have := flags_eq (x := 0) (by omega) ha
  simpa using this

theorem flagsArena_eq {x a : Nat} (hx : x < 64) : flagsArena ((a + 1) * 2 ^ 20 + 2 ^ 8 + x) = a := by
  unfold flagsArena
  omega

theorem flagsAlign_eq {x a : Nat} (hx : x < 64) : flagsAlign ((a + 1) * 2 ^ 20 + 2 ^ 8 + x) = 2 ^ x := by
  unfold flagsAlign
  congr 1
  omega

theorem flagsPlain_eq {x a : Nat} (hx : x < 64) : flagsPlain ((a + 1) * 2 ^ 20 + 2 ^ 8 + x) := by
  unfold flagsPlain
  omega

theorem flagsPlain_none : flagsPlain tcacheNone := by
  unfold flagsPlain tcacheNone
  omega

end Verif.Heap
