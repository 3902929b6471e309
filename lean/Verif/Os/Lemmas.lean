import Verif.Os.Spec
import Mathlib.Data.Nat.ModEq
/-! # Page arithmetic and the effect of the mapping functions -/
namespace Verif.Os

theorem roundUp_spec {P : Nat} (hP : 0 < P) (x : Nat) : IsPageEnd P x (roundUp P x) := by
  unfold roundUp IsPageEnd
  refine ⟨Nat.dvd_mul_left _ _, ?_, ?_⟩
  · have h1 := Nat.div_add_mod (x + P - 1) P
    have h2 := Nat.mod_lt (x + P - 1) hP
    rw [Nat.mul_comm] at h1
    omega
  · have h1 := Nat.div_mul_le_self (x + P - 1) P
    omega

theorem pageEnd_unique {P x e f : Nat} (he : IsPageEnd P x e) (hf : IsPageEnd P x f) : e = f := by
  obtain ⟨⟨a, rfl⟩, h1, h2⟩ := he
  obtain ⟨⟨b, rfl⟩, h3, h4⟩ := hf
  rcases Nat.lt_trichotomy a b with h | h | h
  · have : P * a + P ≤ P * b := by
      calc P * a + P = P * (a + 1) := by rw [Nat.mul_add, Nat.mul_one]
        _ ≤ P * b := Nat.mul_le_mul_left _ h
    omega
  · rw [h]
  · have : P * b + P ≤ P * a := by
      calc P * b + P = P * (b + 1) := by rw [Nat.mul_add, Nat.mul_one]
        _ ≤ P * a := Nat.mul_le_mul_left _ h
    omega

theorem roundUp_eq {P x e : Nat} (hP : 0 < P) (h : IsPageEnd P x e) : roundUp P x = e :=
  pageEnd_unique (roundUp_spec hP x) h

theorem roundUp_add {P b x : Nat} (hP : 0 < P) (hb : P ∣ b) :
    roundUp P (b + x) = b + roundUp P x := by
  apply roundUp_eq hP
  obtain ⟨h1, h2, h3⟩ := roundUp_spec hP x
  exact ⟨Nat.dvd_add hb h1, by omega, by omega⟩

theorem roundUp_dvd {P x : Nat} (hP : 0 < P) (hx : P ∣ x) : roundUp P x = x :=
  roundUp_eq hP ⟨hx, Nat.le_refl _, by omega⟩

theorem roundUp_le {P x : Nat} (hP : 0 < P) : x ≤ roundUp P x := (roundUp_spec hP x).2.1

theorem roundUp_mono {P x y : Nat} (h : x ≤ y) : roundUp P x ≤ roundUp P y := by
  unfold roundUp
  exact Nat.mul_le_mul_right _ (Nat.div_le_div_right (by omega))

theorem tailOf_eq {c : Cfg} (hP : 0 < c.P) {a len : Nat} (h : a + len + c.P < W) :
    tailOf c a len = roundUp c.P (a + len) := by
  unfold tailOf pageRest pageBase
  rw [Nat.mod_eq_of_lt (a := a + len) (by omega)]
  simp only
  symm
  apply roundUp_eq hP
  split
  · rename_i h0
    rw [Nat.mod_eq_of_lt (a := a + len + c.P) (by omega)]
    have h1 := Nat.mod_lt (a + len) hP
    have h2 : (a + len + c.P) % c.P = (a + len) % c.P := Nat.add_mod_right _ _
    rw [h2]
    have h3 : (a + len) % c.P ≤ a + len := Nat.mod_le _ _
    refine ⟨?_, by omega, by omega⟩
    rw [show a + len + c.P - (a + len) % c.P = (a + len - (a + len) % c.P) + c.P by omega]
    exact Nat.dvd_add (Nat.dvd_sub_mod _) (Nat.dvd_refl _)
  · rename_i h0
    exact ⟨Nat.dvd_of_mod_eq_zero (by omega), Nat.le_refl _, by omega⟩

/-- Where the aligned part begins. -/
theorem alignedAddr_spec {P addr al : Nat} (hP : 0 < P) (ha : P ∣ addr) (hl : P < al) (hd : P ∣ al)
    (hw : addr + al < W) :
    addr ≤ alignedAddr addr al ∧ alignedAddr addr al + P ≤ addr + al ∧ al ∣ alignedAddr addr al ∧
      P ∣ alignedAddr addr al ∧ (al ∣ addr → alignedAddr addr al = addr) := by
  unfold alignedAddr
  have hlt := Nat.mod_lt addr (show 0 < al by omega)
  by_cases h : addr % al ≠ 0
  · rw [if_pos h, Nat.mod_eq_of_lt (by omega)]
    have hr : P ∣ addr % al := (Nat.dvd_mod_iff hd).2 ha
    have hrl := Nat.le_of_dvd (by omega) hr
    have hal : al ∣ addr + (al - addr % al) := by
      have h3 : addr % al ≤ addr := Nat.mod_le _ _
      rw [show addr + (al - addr % al) = (addr - addr % al) + al by omega]
      exact Nat.dvd_add (Nat.dvd_sub_mod _) (Nat.dvd_refl _)
    refine ⟨by omega, by omega, hal, Nat.dvd_trans hd hal, fun h' => ?_⟩
    exact absurd (Nat.mod_eq_zero_of_dvd h') h
  · rw [if_neg h]
    exact ⟨Nat.le_refl _, by omega, Nat.dvd_of_mod_eq_zero (by omega), ha, fun _ => rfl⟩

/-- The address space after a successful `utils_mmap_aligned`: exactly the pages of the request are
new; the file offset of the first byte is `off` plus the length of the part that was cut off. -/
theorem mmapAligned_ok {c : Cfg} (hP : 0 < c.P) {st : St} {len al : Nat} {env : Env}
    (hk : EnvOk c st.mem env) (hw : len + al < W) (hd : c.P < al → c.P ∣ al)
    {st1 : St} {a off : Nat} (h : mmapAligned c st len al env = (st1, some (a, off))) :
    c.P ∣ a ∧ 0 < a ∧ a + roundUp c.P len ≤ 2 ^ 63 ∧ (c.P < al → al ∣ a) ∧
      (∀ x, a ≤ x → x < a + roundUp c.P len → st.mem x = .unmapped) ∧
      (c.fd = true → c.P ∣ off) ∧ (c.P < al ∨ 0 < len) ∧
      st1.offMap = st.offMap ∧
      (c.fd = true → off = st.sizeFd ∧ st1.sizeFd = (st.sizeFd + extLen c len al) % W ∧
        st1.sizeFd ≤ c.maxFd) ∧
      (c.fd = false → st1.sizeFd = st.sizeFd) ∧
      ∃ cut, (c.P < al ∨ cut = 0) ∧
        ((∀ len off b, env.addr len off = some b → al ∣ b) → cut = 0) ∧
        cut + len ≤ extLen c len al ∧
        ∀ x, st1.mem x =
          if a ≤ x ∧ x < a + roundUp c.P len then
            (if c.fd then .file (off + cut + (x - a)) else .anon)
          else st.mem x := by
  unfold mmapAligned at h
  simp only at h
  split at h
  · cases h
  · rename_i hfd
    have hoff : (if c.fd then ({ st with sizeFd := (st.sizeFd + extLen c len al) % W } : St) else st).mem = st.mem := by
      split <;> rfl
    rw [hoff] at h
    cases hka : env.addr (extLen c len al) (if c.fd then st.sizeFd else 0) with
    | none => rw [hka] at h; cases h
    | some addr =>
      rw [hka] at h
      obtain ⟨k1, k2, k3, k4, k5, k6⟩ := hk _ _ _ hka
      have hW : W = 2 ^ 64 := rfl
      have hsz : ∀ s : St, s = (if c.fd then ({ st with sizeFd := (st.sizeFd + extLen c len al) % W } : St) else st) →
          s.offMap = st.offMap ∧
          (c.fd = true → (if c.fd then st.sizeFd else 0) = st.sizeFd ∧
            s.sizeFd = (st.sizeFd + extLen c len al) % W ∧ s.sizeFd ≤ c.maxFd) ∧
          (c.fd = false → s.sizeFd = st.sizeFd) := by
        rintro s rfl
        cases hf : c.fd with
        | true =>
          simp only [hf, true_and, Nat.not_lt] at hfd
          exact ⟨rfl, fun _ => ⟨rfl, rfl, hfd⟩, fun h => absurd h (by simp)⟩
        | false => exact ⟨rfl, fun h => absurd h (by simp), fun _ => rfl⟩
      by_cases hal : c.P < al
      · have hPal := hd hal
        simp only [if_pos hal] at h
        cases h
        have hext : extLen c len al = len + al := by
          unfold extLen; rw [if_pos hal, Nat.mod_eq_of_lt hw]
        rw [hext] at k5 k6
        have hrl := @roundUp_le c.P (len + al) hP
        obtain ⟨a1, a2, a3, a4, a5⟩ := alignedAddr_spec (addr := addr) hP k3 hal hPal (by omega)
        obtain ⟨s1, s2, s3⟩ := hsz _ rfl
        rw [hext] at s1 s2 s3
        generalize alignedAddr addr al = a at *
        have hrlen := roundUp_spec hP len
        obtain ⟨_, r2, r3⟩ := hrlen
        have htail : tailOf c a len = a + roundUp c.P len := by
          rw [tailOf_eq hP (by omega), roundUp_add hP a4]
        rw [htail, hext]
        have hhead : (a + (W - addr)) % W = a - addr := by
          rw [show a + (W - addr) = (a - addr) + W by omega, Nat.add_mod_right,
            Nat.mod_eq_of_lt (by omega)]
        have htl : ((addr + (len + al)) % W + (W - (a + roundUp c.P len))) % W =
            addr + (len + al) - (a + roundUp c.P len) := by
          rw [Nat.mod_eq_of_lt (a := addr + (len + al)) (by omega),
            show addr + (len + al) + (W - (a + roundUp c.P len)) =
              (addr + (len + al) - (a + roundUp c.P len)) + W by omega, Nat.add_mod_right,
            Nat.mod_eq_of_lt (by omega)]
        rw [hhead, htl]
        have htd : c.P ∣ a + roundUp c.P len := Nat.dvd_add a4 (roundUp_spec hP len).1
        have htend : a + roundUp c.P len + roundUp c.P (addr + (len + al) - (a + roundUp c.P len)) =
            addr + roundUp c.P (len + al) := by
          rw [← roundUp_add hP htd, ← roundUp_add hP k3]
          congr 1
          omega
        have hhd : c.P ∣ a - addr := Nat.dvd_sub a4 k3
        refine ⟨a4, by omega, by omega, fun _ => a3, fun x h1 h2 => k6 x (by omega) (by omega), k2,
          Or.inl hal, s1, s2, s3, a - addr, Or.inl hal, ?_, by omega, ?_⟩
        · intro hz
          rw [a5 (hz _ _ _ hka)]; omega
        · intro x
          simp only
          rw [if_pos (by omega : 0 < addr + (len + al) - (a + roundUp c.P len))]
          have hm1 : ∀ x, (if 0 < a - addr then unmapped c (mapped c st.mem addr (len + al)
                (if c.fd then st.sizeFd else 0)) addr (a - addr)
              else mapped c st.mem addr (len + al) (if c.fd then st.sizeFd else 0)) x =
              if addr ≤ x ∧ x < a then .unmapped
              else mapped c st.mem addr (len + al) (if c.fd then st.sizeFd else 0) x := by
            intro x
            by_cases h0 : 0 < a - addr
            · rw [if_pos h0]
              unfold unmapped
              rw [roundUp_dvd hP hhd, if_pos ⟨Nat.mod_eq_zero_of_dvd k3, by omega, by omega⟩]
              by_cases hx : addr ≤ x ∧ x < a
              · rw [if_pos hx, if_pos (by omega)]
              · rw [if_neg hx, if_neg (by omega)]
            · have hx : ¬ (addr ≤ x ∧ x < a) := by omega
              rw [if_neg h0, if_neg hx]
          unfold unmapped at hm1 ⊢
          rw [if_pos ⟨Nat.mod_eq_zero_of_dvd htd, by omega, by omega⟩, htend]
          rw [hm1 x]
          by_cases hx : a ≤ x ∧ x < a + roundUp c.P len
          · rw [if_pos hx, if_neg (by omega), if_neg (by omega)]
            unfold mapped
            rw [if_pos (by omega)]
            split
            · congr 1; omega
            · rfl
          · rw [if_neg hx]
            by_cases hy : addr ≤ x ∧ x < addr + roundUp c.P (len + al)
            · rw [k6 x hy.1 hy.2]
              by_cases hz : a + roundUp c.P len ≤ x
              · rw [if_pos ⟨hz, hy.2⟩]
              · rw [if_neg (by omega), if_pos (by omega)]
            · rw [if_neg (by omega), if_neg (by omega)]
              unfold mapped
              rw [if_neg hy]
      · simp only [if_neg hal] at h
        cases h
        have hext : extLen c len al = len := by unfold extLen; rw [if_neg hal]
        obtain ⟨s1, s2, s3⟩ := hsz _ rfl
        rw [hext] at k1 k5 k6
        refine ⟨k3, k4, k5, fun h => absurd h hal, k6, k2, Or.inr k1, s1, s2, s3, 0, Or.inr rfl,
          fun _ => rfl, by omega, fun x => ?_⟩
        simp only
        unfold mapped
        rw [hext]
        rfl

end Verif.Os
