import Verif.Disjoint.ConcInv
/-! # The class chosen for a request can serve it -/
set_option linter.unusedSimpArgs false
namespace Verif.Disjoint.Conc
open Mem

theorem start_fit {c : Cfg} (hc : CfgOk c) {r : Req} (h0 : 0 < r.size) (hr : ReqOk c r)
    (hle : lookupSize c r ≤ c.maxPoolable) :
    Fit c (sizeToIdx (minExp c.minBucket) (lookupSize c r)) r := by
  have hle' := hle
  obtain ⟨size, al⟩ := r
  simp only at h0
  by_cases h1 : al ≤ 1
  · have e : lookupSize c ⟨size, al⟩ = size := by unfold lookupSize; rw [if_pos h1]
    rw [e] at hle ⊢
    have hidx := idx_lt hc (size := size) (by omega)
    have hsz := idx_size hc (size := size) (by omega)
    generalize sizeToIdx (minExp c.minBucket) size = i at *
    refine ⟨hidx, h0, hle', fun base k hk hb hpg => ?_⟩
    have e2 : result ⟨size, al⟩ (base + k * csize c i) = base + k * csize c i := by
      unfold result; rw [if_pos h1]
    rw [e2]
    have := route_ok hc hk (d := 0) (by omega) hc.slabMin
    refine ⟨fun hn => ?_, Nat.le_refl _, by show base + k * csize c i + size ≤ _; omega, by omega⟩
    have hal : al = 1 := by simp only at hn; omega
    show al ∣ _
    rw [hal]; exact Nat.one_dvd _
  · rcases hr with h | ⟨q, hq', ha⟩
    · exact absurd h h1
    simp only at hq' ha
    subst hq'
    have hq := Nat.two_pow_pos q
    have e : lookupSize c ⟨size, 2 ^ q⟩ = alignedSize c size (2 ^ q) := by
      unfold lookupSize; rw [if_neg h1]
    rw [e] at hle ⊢
    have hq64 : q < 64 := by
      have h2 : 2 ^ q < 2 ^ 64 := by have := ha.nowrap; omega
      exact (Nat.pow_lt_pow_iff_right (by decide)).1 h2
    have hal : size ≤ alignedSize c size (2 ^ q) ∧ 0 < alignedSize c size (2 ^ q) ∧
        (2 ^ q ≤ c.page → 2 ^ q ∣ alignedSize c size (2 ^ q)) ∧
        (¬ 2 ^ q ≤ c.page → alignedSize c size (2 ^ q) = size + (2 ^ q - 1)) := by
      unfold alignedSize
      by_cases hp : 2 ^ q ≤ c.page
      · rw [if_pos hp]
        by_cases hs1 : 1 < size
        · rw [if_pos hs1]
          obtain ⟨a1, a2, a3⟩ := alignUpSafe_nat hq64 (v := size) (by have := ha.nowrap; omega)
          exact ⟨a2, by omega, fun _ => a1, fun h => absurd hp h⟩
        · rw [if_neg hs1]
          exact ⟨by omega, hq, fun _ => Nat.dvd_refl _, fun h => absurd hp h⟩
      · rw [if_neg hp, Nat.mod_eq_of_lt ha.nowrap]
        exact ⟨by omega, by omega, fun h => absurd h hp, fun _ => by omega⟩
    obtain ⟨hal1, hal2, hal3, hal4⟩ := hal
    have hroute := ha.route
    generalize alignedSize c size (2 ^ q) = asz at *
    have hidx := idx_lt hc (size := asz) (by omega)
    have hsz := idx_size hc (size := asz) (by omega)
    have hdv : 2 ^ q ∣ asz → 2 ^ q ∣ csize c (sizeToIdx (minExp c.minBucket) asz) :=
      fun h => idx_dvd hc (by omega) hal2 h
    generalize sizeToIdx (minExp c.minBucket) asz = i at *
    refine ⟨hidx, h0, hle', fun base k h4 hb h5 => ?_⟩
    have e2 : result ⟨size, 2 ^ q⟩ (base + k * csize c i) =
        alignUpSafe (base + k * csize c i) (2 ^ q) := by
      unfold result; rw [if_neg h1]
    rw [e2]
    show (2 ^ q ≠ 0 → 2 ^ q ∣ _) ∧ _ ∧ _ + size ≤ _ ∧ _
    have hcb := chunk_bound h4
    by_cases hp : 2 ^ q ≤ c.page
    · have hpd : 2 ^ q ∣ c.page := by
        rcases hc.page with h | ⟨m, h⟩
        · omega
        · rw [h] at hp ⊢; exact Utils.pow2_dvd_of_le hp
      have hbase : 2 ^ q ∣ base := Nat.dvd_trans hpd (h5 (by omega))
      have hch : 2 ^ q ∣ base + k * csize c i :=
        Nat.dvd_add hbase (Dvd.dvd.mul_left (hdv (hal3 hp)) k)
      have hno : base + k * csize c i + (2 ^ q - 1) < 2 ^ 64 := by
        have hle : base + k * csize c i < 2 ^ 64 := by omega
        obtain ⟨m, hm⟩ := hch
        have h64 : 2 ^ 64 = 2 ^ q * 2 ^ (64 - q) := by
          rw [← Nat.pow_add]; congr 1; omega
        rw [hm, h64] at hle
        have : m < 2 ^ (64 - q) := Nat.lt_of_mul_lt_mul_left hle
        have : 2 ^ q * (m + 1) ≤ 2 ^ q * 2 ^ (64 - q) := Nat.mul_le_mul_left _ this
        rw [Nat.mul_add, Nat.mul_one] at this
        omega
      obtain ⟨a1, a2, a3⟩ := alignUpSafe_nat hq64 hno
      have heq := mult_between hq hch a1 a2 a3
      rw [heq]
      have := route_ok hc h4 (d := 0) (by omega) hc.slabMin
      exact ⟨fun _ => hch, Nat.le_refl _, by omega, by omega⟩
    · have hasz := hal4 hp
      obtain ⟨a1, a2, a3⟩ := alignUpSafe_nat hq64 (v := base + k * csize c i) (by omega)
      have := route_ok hc h4 (d := alignUpSafe (base + k * csize c i) (2 ^ q) -
            (base + k * csize c i)) (by omega) (by omega)
      exact ⟨fun _ => a1, a2, by omega, by omega⟩

theorem start_ok {c : Cfg} (hc : CfgOk c) {s : St} {home} {t : Nat} {r : Req} (h0 : 0 < r.size)
    (hr : ReqOk c r) : PcOk c s home t (start c r) := by
  unfold start
  by_cases h : c.maxPoolable < lookupSize c r
  · rw [if_pos h]
    refine ⟨h0, ?_, h⟩
    unfold upAl
    by_cases h1 : r.al ≤ 1
    · exact Or.inl h1
    · rw [if_neg h1]; exact Or.inr rfl
  · rw [if_neg h]; exact start_fit hc h0 hr (by omega)

theorem start_sec {c : Cfg} {r : Req} : sec (start c r) = none := by
  unfold start
  split <;> rfl

end Verif.Disjoint.Conc
