import Verif.FileProv.Spec
import Verif.Os.FileLemmas
/-! # The invariant of the file provider -/
namespace Verif.FileProv
open Verif.Os (Cell W roundUp mapInsert mapGet mapRemove FileRange roundUp_spec roundUp_dvd roundUp_le G
  perm_pick mapGet_some mapGet_cons mapGet_remove)

theorem pageUp_some {P x min y : Nat} (hP : 0 < P) (hPW : P ∣ W) (hx : x < W)
    (h : pageUp P x min = some y) (hmin : x % P ≠ 0 → 0 < min) :
    P ∣ y ∧ x ≤ y ∧ y < x + P ∧ min ≤ y ∧ (P ∣ x → y = x) := by
  have hm := Nat.mod_lt x hP
  have hd := Nat.div_add_mod x P
  unfold pageUp at h
  simp only at h
  by_cases h0 : x % P ≠ 0
  · rw [if_pos h0] at h
    have hnd : ¬ P ∣ x := fun hd => h0 (Nat.mod_eq_zero_of_dvd hd)
    have hdv : P ∣ x + (P - x % P) := by
      refine ⟨x / P + 1, ?_⟩
      rw [Nat.mul_add]; omega
    by_cases hw : x + (P - x % P) < W
    · rw [Nat.mod_eq_of_lt hw] at h
      split at h
      · cases h
      · cases h
        exact ⟨hdv, by omega, by omega, by omega, fun h => absurd h hnd⟩
    · exfalso
      have he : x + (P - x % P) = W := by
        obtain ⟨k, hk⟩ := hPW
        obtain ⟨j, hj⟩ := hdv
        have h1 : k ≤ j := by
          by_contra hc
          have : P * (j + 1) ≤ P * k := Nat.mul_le_mul_left _ (by omega)
          rw [Nat.mul_add] at this
          omega
        have h2 : j ≤ k := by
          by_contra hc
          have : P * (k + 1) ≤ P * j := Nat.mul_le_mul_left _ (by omega)
          rw [Nat.mul_add] at this
          omega
        have : j = k := by omega
        rw [hj, hk, this]
      rw [he, Nat.mod_self, if_pos (hmin h0)] at h
      cases h
  · rw [if_neg h0] at h
    have h0 : x % P = 0 := by omega
    split at h
    · cases h
    · cases h
      exact ⟨Nat.dvd_of_mod_eq_zero h0, Nat.le_refl _, by omega, by omega, fun _ => rfl⟩

/-- A new mapping, for an alignment that is 0 or the page size. -/
theorem mmapAligned_ok {P : Nat} (hP : 0 < P) (hPW : P ∣ W) {st st' : St} {size al : Nat} {env : Env}
    (hk : EnvOk P st.mem env) (h0 : 0 < size) (hal : al = 0 ∨ al = P)
    (hfd : st.offFd < W) (h : mmapAligned P st size al env = (st', true)) :
    ∃ ptr ext off, P ∣ ptr ∧ 0 < ptr ∧ ptr + ext ≤ 2 ^ 63 ∧ P ∣ ext ∧ size ≤ ext ∧ st.offFd ≤ off ∧
      off + ext ≤ 2 ^ 63 ∧ (∀ x, ptr ≤ x → x < ptr + ext → st.mem x = .unmapped) ∧
      st'.base = ptr ∧ st'.sizeM = ext ∧ st'.offM = 0 ∧ st'.offFd = off ∧ P ∣ off ∧
      off + ext ≤ st'.sizeFd ∧ st.sizeFd ≤ st'.sizeFd ∧ st'.offMap = st.offMap ∧
      (st'.sizeFd = st.sizeFd ∨ st'.sizeFd < W) ∧
      st'.mmaps = mapInsert st.mmaps ptr ext env.insM ∧
      ∀ x, st'.mem x = if ptr ≤ x ∧ x < ptr + ext then .file (off + (x - ptr)) else st.mem x := by
  have hW : W = 2 ^ 64 := rfl
  unfold mmapAligned at h
  simp only at h
  split at h
  · cases h
  · rename_i hext
    split at h
    · cases h
    · rename_i ext he
      split at h
      · cases h
      · rename_i off ho
        obtain ⟨e1, e2, e3, e4, e5⟩ := pageUp_some hP hPW (Nat.mod_lt _ (by omega)) he (fun _ => h0)
        obtain ⟨o1, o2, o3, o4, o5⟩ := pageUp_some hP hPW hfd ho (fun h => by
          apply Nat.pos_of_ne_zero
          intro hz
          rw [hz] at h
          simp at h)
        split at h
        · cases h
        · rename_i hgrow
          split at h
          · cases h
          · rename_i ptr hp
            cases h
            obtain ⟨k1, k2, k3, k4, k5, k6, k7⟩ := hk _ _ _ hp
            have hap : alignPtr ptr al = ptr := by
              unfold alignPtr
              rcases hal with rfl | rfl
              · simp
              · have hne : al ≠ 0 := by omega
                rw [if_neg hne]
                have : al ≤ W := Nat.le_of_dvd (by omega) hPW
                obtain ⟨j, hj⟩ := k4
                have hle : al ≤ ptr := Nat.le_of_dvd k5 ⟨j, hj⟩
                rw [if_neg (by omega), roundUp_dvd hP ⟨j, hj⟩]
            have hnew : (off + ext) % W = off + ext := Nat.mod_eq_of_lt (by omega)
            refine ⟨ptr, ext, off, k4, k5, k6, e1, e4, o2, k3, k7, hap, ?_, rfl, ?_, o1, ?_, ?_, ?_, ?_, ?_, ?_⟩
            · simp only [hap]
              rw [show ptr + (W - ptr) = W by omega, Nat.mod_self, Nat.sub_zero, Nat.add_mod_right,
                Nat.mod_eq_of_lt (by omega)]
            · by_cases g1 : st.sizeFd < (off + ext) % W <;> by_cases g2 : st.offFd < off <;>
                simp [g1, g2]
              all_goals omega
            · rw [hnew]
              by_cases g1 : st.sizeFd < off + ext <;> by_cases g2 : st.offFd < off <;> simp [g1, g2]
              all_goals omega
            · rw [hnew]
              by_cases g1 : st.sizeFd < off + ext <;> by_cases g2 : st.offFd < off <;> simp [g1, g2]
              all_goals omega
            · by_cases g1 : st.sizeFd < (off + ext) % W <;> by_cases g2 : st.offFd < off <;>
                simp [g1, g2]
            · rw [hnew]
              by_cases g1 : st.sizeFd < off + ext <;> by_cases g2 : st.offFd < off <;> simp [g1, g2]
              all_goals omega
            · by_cases g1 : st.sizeFd < (off + ext) % W <;> by_cases g2 : st.offFd < off <;>
                simp [g1, g2]
            · intro x
              by_cases g1 : st.sizeFd < (off + ext) % W <;> by_cases g2 : st.offFd < off <;>
                simp [g1, g2]

/-- A mapping that fails. -/
theorem mmapAligned_fail {P : Nat} (hP : 0 < P) (hPW : P ∣ W) {st st' : St} {size al : Nat} {env : Env}
    (hfd : st.offFd < W) (hal : P ∣ st.offFd)
    (h : mmapAligned P st size al env = (st', false)) :
    st'.mem = st.mem ∧ st'.base = st.base ∧ st'.sizeM = st.sizeM ∧ st'.offM = st.offM ∧
      st'.offFd = st.offFd ∧ st.sizeFd ≤ st'.sizeFd ∧ (st'.sizeFd = st.sizeFd ∨ st'.sizeFd < W) ∧
      st'.offMap = st.offMap ∧ st'.mmaps = st.mmaps := by
  have hW : W = 2 ^ 64 := rfl
  have same : st'= st → st'.mem = st.mem ∧ st'.base = st.base ∧ st'.sizeM = st.sizeM ∧ st'.offM = st.offM ∧
      st'.offFd = st.offFd ∧ st.sizeFd ≤ st'.sizeFd ∧ (st'.sizeFd = st.sizeFd ∨ st'.sizeFd < W) ∧
      st'.offMap = st.offMap ∧ st'.mmaps = st.mmaps := by
    rintro rfl
    exact ⟨rfl, rfl, rfl, rfl, rfl, Nat.le_refl _, Or.inl rfl, rfl, rfl⟩
  unfold mmapAligned at h
  simp only at h
  split at h
  · cases h; exact same rfl
  · split at h
    · cases h; exact same rfl
    · rename_i ext he
      split at h
      · cases h; exact same rfl
      · rename_i off ho
        obtain ⟨o1, o2, o3, o4, o5⟩ := pageUp_some hP hPW hfd ho (fun h => by
          apply Nat.pos_of_ne_zero
          intro hz
          rw [hz] at h
          simp at h)
        have := o5 hal
        subst this
        split at h
        · cases h; exact same rfl
        · split at h
          · cases h
            have hlt := Nat.mod_lt (st.offFd + ext) (show 0 < W by omega)
            by_cases g1 : st.sizeFd < (st.offFd + ext) % W <;> simp [g1]
            omega
          · cases h

theorem subW {a b : Nat} (h : b ≤ a) (ha : a < W) : (a + (W - b)) % W = a - b := by
  have hW : W = 2 ^ 64 := rfl
  rw [show a + (W - b) = a - b + W by omega, Nat.add_mod_right, Nat.mod_eq_of_lt (by omega)]

theorem up_le {P p t : Nat} (hP : 0 < P) (ht : P ∣ t) (hp : p ≤ t) (h : p % P ≠ 0) :
    p + (P - p % P) ≤ t ∧ P ∣ p + (P - p % P) := by
  have hm := Nat.mod_lt p hP
  have hd := Nat.div_add_mod p P
  have he : p + (P - p % P) = P * (p / P + 1) := by rw [Nat.mul_add]; omega
  refine ⟨?_, ⟨_, he⟩⟩
  obtain ⟨k, rfl⟩ := ht
  rw [he]
  apply Nat.mul_le_mul_left
  by_contra hc
  have h1 : P * k ≤ P * (p / P) := Nat.mul_le_mul_left _ (by omega)
  omega

/-- The current mapping. -/
structure Cur (P : Nat) (odd : Bool) (st : St) : Prop where
  base : P ∣ st.base
  size : P ∣ st.sizeM
  off : st.offM ≤ st.sizeM
  top : st.base + st.sizeM ≤ 2 ^ 63
  pos : 0 < st.sizeM → 0 < st.base
  file : FileRange st.mem (st.base + st.offM) (st.sizeM - st.offM) st.offFd
  fits : st.offFd + (st.sizeM - st.offM) ≤ st.sizeFd
  low : st.offFd + (st.sizeM - st.offM) ≤ 2 ^ 63
  even : odd = false → P ∣ st.offM ∧ P ∣ st.offFd

/-- What a successful call does: the memory `[a, a + size)`, which holds the file from `o` on. -/
structure Took (P : Nat) (odd : Bool) (st st' : St) (size al a o : Nat) (env : Env) : Prop where
  cur : Cur P odd st'
  file : FileRange st'.mem a size o
  offo : st.offFd ≤ o
  offFd : st'.offFd = o + size
  pos : 0 < a
  top : a + size ≤ 2 ^ 63
  rest : a + size = st'.base + st'.offM
  other : ∀ b s f, 0 < s → FileRange st.mem b s f →
    (b + s ≤ st.base + st.offM ∨ st.base + st.sizeM ≤ b ∨ st.offM = st.sizeM) →
    (b + s ≤ a ∨ a + size ≤ b) ∧ (b + s ≤ st'.base + st'.offM ∨ st'.base + st'.sizeM ≤ b)
  offMap : st'.offMap = st.offMap
  sizeFd : st.sizeFd ≤ st'.sizeFd
  aligned : al = P → P ∣ a
  maps : (st'.mmaps = st.mmaps ∧ st'.mem = st.mem) ∨ ∃ ptr ext off, 0 < ext ∧
    st'.mmaps = mapInsert st.mmaps ptr ext env.insM ∧
    (∀ x, ptr ≤ x → x < ptr + ext → st.mem x = .unmapped) ∧
    ∀ x, st'.mem x = if ptr ≤ x ∧ x < ptr + ext then .file (off + (x - ptr)) else st.mem x

theorem took_new {P : Nat} (hP : 0 < P) (hPW : P ∣ W) {odd : Bool} {st st1 : St} {size al : Nat}
    {env : Env} (hc : Cur P odd st) (hk : EnvOk P st.mem env) (h0 : 0 < size)
    (hal : al = 0 ∨ al = P) (hodd : odd = false → P ∣ size)
    (h : mmapAligned P st size al env = (st1, true)) :
    st1.offM = 0 ∧ st1.offFd < 2 ^ 63 ∧ st1.base + st1.sizeM ≤ 2 ^ 63 ∧ P ∣ st1.base ∧ size ≤ st1.sizeM ∧
    size + st1.offFd ≤ 2 ^ 63 ∧
    Took P odd st { st1 with offFd := st1.offFd + size, offM := size } size al st1.base st1.offFd env := by
  have hW : W = 2 ^ 64 := rfl
  have := hc.low
  have := hc.off
  obtain ⟨ptr, ext, off, a1, a2, a3, a4, a5, a6, a7, a8, b1, b2, b3, b4, b5, b6, b7, b8, b9, b10, b11⟩ :=
    mmapAligned_ok hP hPW hk h0 hal (by omega) h
  refine ⟨b3, by omega, by omega, by rw [b1]; exact a1, by omega, by omega, ?_⟩
  constructor
  · constructor
    · simp only [b1]; exact a1
    · simp only [b2]; exact a4
    · simp only [b2]; exact a5
    · simp only [b1, b2]; exact a3
    · simp only [b1]; intro; exact a2
    · simp only [b1, b2, b4]
      intro i hi
      rw [b11, if_pos (by omega)]
      congr 1; omega
    · simp only [b2, b4]; omega
    · simp only [b2, b4]; omega
    · intro ho
      simp only [b4]
      exact ⟨hodd ho, Nat.dvd_add b5 (hodd ho)⟩
  · simp only [b1, b4]
    intro i hi
    rw [b11, if_pos (by omega)]
    congr 1; omega
  · omega
  · rfl
  · omega
  · omega
  · rfl
  · intro b s f hs hf hap
    simp only [b1, b2]
    have hsep : b + s ≤ ptr ∨ ptr + ext ≤ b := by
      by_contra hn
      by_cases hx : b ≤ ptr
      · have h1 := hf (ptr - b) (by omega)
        rw [show b + (ptr - b) = ptr by omega, a8 ptr (by omega) (by omega)] at h1
        cases h1
      · have h1 := hf 0 hs
        rw [Nat.add_zero, a8 b (by omega) (by omega)] at h1
        cases h1
    omega
  · exact b8
  · exact b7
  · intro _; rw [b1]; exact a1
  · exact Or.inr ⟨ptr, ext, off, by omega, b10, a8, b11⟩

theorem allocAligned_ok {P : Nat} (hP : 0 < P) (hPW : P ∣ W) {odd : Bool} {st st' : St} {size al a o : Nat}
    {env : Env} (hc : Cur P odd st) (hk : EnvOk P st.mem env) (h0 : 0 < size) (hsz : size < W)
    (hal : al = 0 ∨ al = P) (hodd : odd = false → P ∣ size)
    (h : allocAligned P st size al env = (st', some (a, o))) :
    Took P odd st st' size al a o env := by
  have hW : W = 2 ^ 64 := rfl
  have c1 := hc.low
  have c2 := hc.off
  have c3 := hc.top
  have c4 := hc.fits
  unfold allocAligned at h
  simp only at h
  by_cases hfit : (st.sizeM + (W - st.offM)) % W < size
  · rw [if_pos hfit] at h
    rcases hr : mmapAligned P st size al env with ⟨st1, b⟩
    rw [hr] at h
    cases b with
    | false => simp at h
    | true =>
      obtain ⟨d1, d2, d3, d4, d5, d6, dt⟩ := took_new hP hPW hc hk h0 hal hodd hr
      simp only [Bool.true_eq_false, if_false] at h
      have hn : nextPtr st1 al = st1.base := by
        unfold nextPtr
        simp only [d1, Nat.add_zero]
        have hb : st1.base % W = st1.base := Nat.mod_eq_of_lt (by omega)
        rw [hb]
        rcases hal with rfl | rfl
        · simp
        · rw [if_neg]
          intro hh
          exact hh.2 (Nat.mod_eq_zero_of_dvd d4)
      rw [hn, subW (Nat.le_refl _) (by omega), Nat.sub_self, d1, subW (Nat.zero_le _) (by omega),
        Nat.sub_zero, if_neg (by omega)] at h
      unfold take at h
      simp only [Nat.zero_add, Nat.add_zero] at h
      rw [subW (Nat.zero_le _) (by omega), Nat.sub_zero, Nat.mod_eq_of_lt (by omega),
        Nat.mod_eq_of_lt (by omega)] at h
      cases h
      exact dt
  · rw [if_neg hfit] at h
    simp only [Bool.true_eq_false, if_false] at h
    rw [subW c2 (by omega)] at hfit
    have hn : ∃ d, nextPtr st al = st.base + (st.offM + d) ∧ st.offM + d ≤ st.sizeM ∧
        (al = P → P ∣ st.base + (st.offM + d)) ∧ (P ∣ st.offM → d = 0) := by
      unfold nextPtr
      simp only
      have hb : (st.base + st.offM) % W = st.base + st.offM := Nat.mod_eq_of_lt (by omega)
      rw [hb]
      by_cases hx : al ≠ 0 ∧ (st.base + st.offM) % al ≠ 0
      · have he : al = P := hal.resolve_left hx.1
        subst he
        rw [if_pos hx]
        obtain ⟨u1, u2⟩ := up_le hP (Nat.dvd_add hc.base hc.size) (by omega) hx.2
        refine ⟨al - (st.base + st.offM) % al, ?_, by omega, ?_, ?_⟩
        · rw [Nat.mod_eq_of_lt (by omega)]; omega
        · intro _
          rw [← Nat.add_assoc]; exact u2
        · intro hd
          exact absurd (Nat.mod_eq_zero_of_dvd (Nat.dvd_add hc.base hd)) hx.2
      · rw [if_neg hx]
        refine ⟨0, rfl, by omega, ?_, fun _ => rfl⟩
        rintro rfl
        rw [Nat.add_zero]
        by_contra hd
        exact hx ⟨by omega, fun h => hd (Nat.dvd_of_mod_eq_zero h)⟩
    obtain ⟨d, n1, n2, n3, n4⟩ := hn
    rw [n1, subW (Nat.le_add_right _ _) (by omega), Nat.add_sub_cancel_left, subW n2 (by omega)] at h
    have hfd : (st.offFd + (st.offM + d) + (W - st.offM)) % W = st.offFd + d := by
      rw [subW (by omega) (by omega)]; omega
    rw [hfd] at h
    by_cases hfit2 : st.sizeM - (st.offM + d) < size
    · rw [if_pos hfit2] at h
      rcases hr : mmapAligned P st size al env with ⟨st1, b⟩
      rw [hr] at h
      cases b with
      | false => simp at h
      | true =>
        obtain ⟨d1, d2, d3, d4, d5, d6, dt⟩ := took_new hP hPW hc hk h0 hal hodd hr
        simp only [Bool.true_eq_false, if_false] at h
        unfold take at h
        simp only [Nat.zero_add] at h
        rw [Nat.mod_eq_of_lt (by omega), Nat.mod_eq_of_lt (by omega)] at h
        cases h
        exact dt
    · rw [if_neg hfit2] at h
      unfold take at h
      rw [Nat.mod_eq_of_lt (by omega), Nat.mod_eq_of_lt (by omega)] at h
      cases h
      have hb : 0 < st.base := hc.pos (by omega)
      constructor
      · constructor
        · exact hc.base
        · exact hc.size
        · simp only; omega
        · exact hc.top
        · exact hc.pos
        · intro i hi
          simp only at hi ⊢
          have := hc.file (d + size + i) (by omega)
          rw [show st.base + (st.offM + d + size) + i = st.base + st.offM + (d + size + i) by omega, this]
          congr 1; omega
        · simp only; omega
        · simp only; omega
        · intro ho
          obtain ⟨e1, e2⟩ := hc.even ho
          have hd := n4 e1
          subst hd
          exact ⟨Nat.dvd_add e1 (hodd ho), Nat.dvd_add e2 (hodd ho)⟩
      · intro i hi
        have := hc.file (d + i) (by omega)
        rw [show st.base + (st.offM + d) + i = st.base + st.offM + (d + i) by omega]
        simp only
        rw [this]
        congr 1; omega
      · omega
      · rfl
      · omega
      · omega
      · simp only; omega
      · intro b s f hs hf hap
        simp only
        omega
      · rfl
      · exact Nat.le_refl _
      · exact n3
      · exact Or.inl ⟨rfl, rfl⟩

theorem allocAligned_fail {P : Nat} (hP : 0 < P) (hPW : P ∣ W) {st st' : St} {size al : Nat}
    {env : Env} (hc : Cur P false st) (hk : EnvOk P st.mem env) (h0 : 0 < size)
    (hal : al = 0 ∨ al = P) (hodd : P ∣ size) (h : allocAligned P st size al env = (st', none)) :
    Cur P false st' ∧ st'.mem = st.mem ∧ st'.base = st.base ∧ st'.sizeM = st.sizeM ∧
      st'.offM = st.offM ∧ st'.offFd = st.offFd ∧ st'.offMap = st.offMap ∧ st'.mmaps = st.mmaps ∧
      st.sizeFd ≤ st'.sizeFd := by
  have hW : W = 2 ^ 64 := rfl
  have c1 := hc.low
  have c2 := hc.off
  have c3 := hc.top
  have c4 := hc.fits
  have key : ∀ st1, mmapAligned P st size al env = (st1, false) → st1 = st' →
      Cur P false st' ∧ st'.mem = st.mem ∧ st'.base = st.base ∧ st'.sizeM = st.sizeM ∧
      st'.offM = st.offM ∧ st'.offFd = st.offFd ∧ st'.offMap = st.offMap ∧ st'.mmaps = st.mmaps ∧
      st.sizeFd ≤ st'.sizeFd := by
    rintro st1 hm rfl
    obtain ⟨f1, f2, f3, f4, f5, f6, f7, f8, f9⟩ :=
      mmapAligned_fail hP hPW (by omega) (hc.even rfl).2 hm
    refine ⟨⟨?_, ?_, ?_, ?_, ?_, ?_, ?_, ?_, ?_⟩, f1, f2, f3, f4, f5, f8, f9, f6⟩
    · rw [f2]; exact hc.base
    · rw [f3]; exact hc.size
    · rw [f3, f4]; exact hc.off
    · rw [f2, f3]; exact hc.top
    · rw [f2, f3]; exact hc.pos
    · rw [f1, f2, f3, f4, f5]; exact hc.file
    · rw [f3, f4, f5]; omega
    · rw [f3, f4, f5]; exact hc.low
    · rw [f4, f5]; exact hc.even
  unfold allocAligned at h
  simp only at h
  by_cases hfit : (st.sizeM + (W - st.offM)) % W < size
  · rw [if_pos hfit] at h
    rcases hr : mmapAligned P st size al env with ⟨st1, b⟩
    rw [hr] at h
    cases b with
    | false =>
      simp only [if_true] at h
      exact key st1 hr (Prod.ext_iff.1 h).1
    | true =>
      exfalso
      obtain ⟨d1, d2, d3, d4, d5, d6, dt⟩ := took_new hP hPW hc hk h0 hal (fun _ => hodd) hr
      simp only [Bool.true_eq_false, if_false] at h
      have hn : nextPtr st1 al = st1.base := by
        unfold nextPtr
        simp only [d1, Nat.add_zero]
        have hb : st1.base % W = st1.base := Nat.mod_eq_of_lt (by omega)
        rw [hb]
        rcases hal with rfl | rfl
        · simp
        · rw [if_neg]
          intro hh
          exact hh.2 (Nat.mod_eq_zero_of_dvd d4)
      rw [hn, subW (Nat.le_refl _) (by omega), Nat.sub_self, d1, subW (Nat.zero_le _) (by omega),
        Nat.sub_zero, if_neg (by omega)] at h
      cases h
  · rw [if_neg hfit] at h
    simp only [Bool.true_eq_false, if_false] at h
    split at h
    · rcases hr : mmapAligned P st size al env with ⟨st1, b⟩
      rw [hr] at h
      cases b with
      | false =>
        simp only [if_true] at h
        exact key st1 hr (Prod.ext_iff.1 h).1
      | true => cases h
    · cases h

/-- The live allocation `g` of the file provider. -/
structure Ok (st : St) (g : G) : Prop where
  pos : 0 < g.s
  addr : 0 < g.a
  top : g.a + g.s ≤ 2 ^ 63
  file : FileRange st.mem g.a g.s g.o
  fits : g.o + g.s ≤ st.offFd
  rest : g.a + g.s ≤ st.base + st.offM ∨ st.base + st.sizeM ≤ g.a ∨ st.offM = st.sizeM
  entry : mapGet st.offMap g.a = some (g.o + 1)

/-- Disjoint addresses and disjoint file ranges. -/
def Apart (g h : G) : Prop :=
  (g.a + g.s ≤ h.a ∨ h.a + h.s ≤ g.a) ∧ (g.o + g.s ≤ h.o ∨ h.o + h.s ≤ g.o)

theorem Apart.symm {g h : G} (x : Apart g h) : Apart h g := ⟨x.1.symm, x.2.symm⟩

/-- The address space against the one before: what the provider maps was free. -/
structure Space (full : Bool) (mem0 : Nat → Cell) (st : St) : Prop where
  ext : ∀ x, st.mem x = mem0 x ∨ (mem0 x = .unmapped ∧ ∃ o, st.mem x = .file o)
  maps : ∀ e ∈ st.mmaps, 0 < e.2 ∧ ∀ x, e.1 ≤ x → x < e.1 + e.2 →
    mem0 x = .unmapped ∧ ∃ o, st.mem x = .file o
  all : full = true → ∀ x, st.mem x ≠ mem0 x → ∃ e ∈ st.mmaps, e.1 ≤ x ∧ x < e.1 + e.2

structure Inv (P : Nat) (m : Mode) (mem0 : Nat → Cell) (st : St) (L : List G) : Prop where
  cur : Cur P m.odd st
  ok : ∀ g ∈ L, Ok st g
  apart : L.Pairwise Apart
  keys : ∀ e ∈ st.offMap, ∃ g ∈ L, g.a = e.1
  space : Space m.full mem0 st

theorem Inv.perm {P : Nat} {m : Mode} {mem0 : Nat → Cell} {st : St} {L M : List G}
    (h : Inv P m mem0 st L) (hp : L.Perm M) : Inv P m mem0 st M :=
  ⟨h.cur, fun g hg => h.ok g (hp.mem_iff.2 hg), (hp.pairwise_iff fun x => x.symm).1 h.apart,
    fun e he => by obtain ⟨g, hg, e⟩ := h.keys e he; exact ⟨g, hp.mem_iff.1 hg, e⟩, h.space⟩

theorem space_took {P : Nat} {m : Mode} {mem0 : Nat → Cell} {st st' : St} {size al a o : Nat}
    {env : Env} (hs : Space m.full mem0 st) (ht : Took P m.odd st st' size al a o env)
    (hf : m.full = true → env.insM = true) : Space m.full mem0 st' := by
  rcases ht.maps with ⟨h1, h2⟩ | ⟨ptr, ext, off, h0, h1, h2, h3⟩
  · refine ⟨?_, ?_, ?_⟩
    · rw [h2]; exact hs.ext
    · rw [h1, h2]; exact hs.maps
    · rw [h1, h2]; exact hs.all
  · have hfree : ∀ x, ptr ≤ x → x < ptr + ext → mem0 x = .unmapped := by
      intro x hx1 hx2
      rcases hs.ext x with h | ⟨h, _⟩
      · rw [← h]; exact h2 x hx1 hx2
      · exact h
    refine ⟨?_, ?_, ?_⟩
    · intro x
      rw [h3]
      split
      · rename_i hx
        exact Or.inr ⟨hfree x hx.1 hx.2, _, rfl⟩
      · exact hs.ext x
    · intro e he
      have hcase : e = (ptr, ext) ∨ e ∈ st.mmaps := by
        rw [h1] at he
        unfold mapInsert at he
        split at he
        · exact Or.inr he
        · simpa using he
      rcases hcase with rfl | he
      · refine ⟨h0, fun x hx1 hx2 => ⟨hfree x hx1 hx2, ?_⟩⟩
        rw [h3, if_pos ⟨hx1, hx2⟩]
        exact ⟨_, rfl⟩
      · obtain ⟨e1, e2⟩ := hs.maps e he
        refine ⟨e1, fun x hx1 hx2 => ?_⟩
        obtain ⟨e3, o, e4⟩ := e2 x hx1 hx2
        refine ⟨e3, ?_⟩
        rw [h3]
        split
        · exact ⟨_, rfl⟩
        · exact ⟨o, e4⟩
    · intro hfull x hx
      have hins : st'.mmaps = (ptr, ext) :: st.mmaps := by
        rw [h1]
        unfold mapInsert
        rw [if_neg]
        rintro (hn | hn)
        · rw [hf hfull] at hn; cases hn
        · rw [List.any_eq_true] at hn
          obtain ⟨e, he, hk⟩ := hn
          have hk : e.1 = ptr := by simpa using hk
          obtain ⟨e1, e2⟩ := hs.maps e he
          obtain ⟨_, o, e4⟩ := e2 ptr (by omega) (by omega)
          rw [h2 ptr (by omega) (by omega)] at e4
          cases e4
      rw [hins]
      by_cases hin : ptr ≤ x ∧ x < ptr + ext
      · exact ⟨_, List.mem_cons_self, hin⟩
      · rw [h3, if_neg hin] at hx
        obtain ⟨e, he, hh⟩ := hs.all hfull x hx
        exact ⟨e, List.mem_cons_of_mem _ he, hh⟩

theorem mem_took {P : Nat} {odd : Bool} {st st' : St} {size al a o : Nat} {env : Env}
    (ht : Took P odd st st' size al a o env) {b s f : Nat} (h : FileRange st.mem b s f) :
    FileRange st'.mem b s f := by
  rcases ht.maps with ⟨h1, h2⟩ | ⟨ptr, ext, off, h0, h1, h2, h3⟩
  · rw [h2]; exact h
  · intro i hi
    rw [h3, if_neg]
    · exact h i hi
    · intro hx
      have := h2 _ hx.1 hx.2
      rw [h i hi] at this
      cases this

/-- The alignment after `file_alloc_cb` has looked at it. -/
theorem align_case {P al : Nat} (hP : 0 < P) (h : al ≤ P) :
    (al = 0 ∧ (if al % P ≠ 0 then roundUp P al else al) = 0) ∨
      (0 < al ∧ (if al % P ≠ 0 then roundUp P al else al) = P) := by
  by_cases h0 : al = 0
  · left; subst h0; simp
  · right
    refine ⟨by omega, ?_⟩
    by_cases he : al = P
    · subst he; simp
    · rw [Nat.mod_eq_of_lt (by omega), if_pos h0]
      unfold roundUp
      rw [show al + P - 1 = (al - 1) + P by omega, Nat.add_div_right _ hP,
        Nat.div_eq_of_lt (by omega), Nat.one_mul]

theorem alloc_inv {P : Nat} (hP : 0 < P) (hPW : P ∣ W) {m : Mode} {mem0 : Nat → Cell} {st st' : St}
    {L : List G} (hI : Inv P m mem0 st L) {size al p : Nat} {env : Env} (hk : EnvOk P st.mem env)
    (h0 : 0 < size) (hsz : size < 2 ^ 64) (hal : al ≤ P) (hodd : m.odd = false → P ∣ size)
    (hf : m.full = true → env.insM = true) (h : alloc P st size al env = (st', some p)) :
    (∃ o, Inv P m mem0 st' (⟨p, size, o⟩ :: L)) ∧ (0 < al → P ∣ p) ∧ (0 < al → al ∣ p) ∧
      ∀ x, st.mem x ≠ .unmapped → st'.mem x = st.mem x := by
  have hW : W = 2 ^ 64 := rfl
  have hca := align_case hP hal
  unfold alloc at h
  split at h
  · cases h
  · rename_i hcheck
    simp only at h
    generalize hA : (if al % P ≠ 0 then roundUp P al else al) = A at h hca
    split at h
    · cases h
    · rename_i st1 a o hr
      have ht := allocAligned_ok hP hPW hI.cur hk h0 (by omega) (by omega) hodd hr
      split at h
      · cases h
      · rename_i hins
        cases h
        have hPp : 0 < al → P ∣ p := fun hp => ht.aligned (by omega)
        refine ⟨⟨o, ?_⟩, hPp, ?_, ?_⟩
        · have hap : ∀ g ∈ L, Apart ⟨p, size, o⟩ g ∧
              (g.a + g.s ≤ st1.base + st1.offM ∨ st1.base + st1.sizeM ≤ g.a) := by
            intro g hg
            have hg := hI.ok g hg
            obtain ⟨x1, x2⟩ := ht.other _ _ _ hg.pos hg.file hg.rest
            have := hg.fits
            have := ht.offo
            exact ⟨⟨by simp only; omega, by simp only; omega⟩, x2⟩
          refine ⟨?_, ?_, ?_, ?_, ?_⟩
          · obtain ⟨c1, c2, c3, c4, c5, c6, c7, c8, c9⟩ := ht.cur
            exact ⟨c1, c2, c3, c4, c5, c6, c7, c8, c9⟩
          · intro g hg
            have hlow := ht.cur.low
            have hfd := ht.offFd
            rcases List.mem_cons.1 hg with rfl | hg
            · refine ⟨h0, ht.pos, ht.top, ht.file, ?_, ?_, ?_⟩
              · simp only; omega
              · simp only; have := ht.rest; omega
              · simp only
                rw [mapGet_cons, if_pos rfl, Nat.mod_eq_of_lt (by omega)]
            · have hap := hap g hg
              have ho := hI.ok g hg
              refine ⟨ho.pos, ho.addr, ho.top, mem_took ht ho.file, ?_, by have := hap.2; simp only; omega, ?_⟩
              · have := ho.fits; have := ht.offo; simp only; omega
              · simp only
                have hne : p ≠ g.a := by
                  have := hap.1.1
                  have := ho.pos
                  simp only at *
                  omega
                rw [mapGet_cons, if_neg hne, ht.offMap]
                exact ho.entry
          · exact List.pairwise_cons.2 ⟨fun g hg => (hap g hg).1, hI.apart⟩
          · intro e he
            rcases List.mem_cons.1 he with rfl | he
            · exact ⟨_, List.mem_cons_self, rfl⟩
            · rw [ht.offMap] at he
              obtain ⟨g, hg, hh⟩ := hI.keys e he
              exact ⟨g, List.mem_cons_of_mem _ hg, hh⟩
          · obtain ⟨s1, s2, s3⟩ := space_took hI.space ht hf
            exact ⟨s1, s2, s3⟩
        · intro hp
          refine Nat.dvd_trans ?_ (hPp hp)
          by_contra hd
          refine hcheck ⟨by omega, Or.inr ⟨fun h => ?_, fun h => hd (Nat.dvd_of_mod_eq_zero h)⟩⟩
          have : al = P := Nat.le_antisymm hal (Nat.le_of_dvd hp (Nat.dvd_of_mod_eq_zero h))
          subst this
          exact hd (Nat.dvd_refl _)
        · intro x hx
          rcases ht.maps with ⟨_, h2⟩ | ⟨ptr, ext, off, _, _, h2, h3⟩
          · exact congrFun h2 x
          · show st1.mem x = _
            rw [h3, if_neg]
            intro hin
            exact hx (h2 x hin.1 hin.2)

theorem allocFail_inv {P : Nat} (hP : 0 < P) (hPW : P ∣ W) {m : Mode} {mem0 : Nat → Cell} {st st' : St}
    {L : List G} (hI : Inv P m mem0 st L) {size al : Nat} {env : Env} (hk : EnvOk P st.mem env)
    (h0 : 0 < size) (hsz : size < 2 ^ 64) (hal : al ≤ P) (hm : m.odd = false) (hodd : P ∣ size)
    (hf : m.full = true → env.insM = true) (h : alloc P st size al env = (st', none)) :
    Inv P m mem0 st' L := by
  have hW : W = 2 ^ 64 := rfl
  have hca := align_case hP hal
  have hc := hI.cur
  unfold alloc at h
  split at h
  · cases h; exact hI
  · simp only at h
    generalize hA : (if al % P ≠ 0 then roundUp P al else al) = A at h hca
    split at h
    · rename_i st1 hr
      cases h
      rw [hm] at hc
      obtain ⟨f0, f1, f2, f3, f4, f5, f6, f7, f8⟩ :=
        allocAligned_fail hP hPW hc hk h0 (by omega) hodd hr
      refine ⟨by rw [hm]; exact f0, ?_, hI.apart, ?_, ?_⟩
      · intro g hg
        obtain ⟨o1, o2, o3, o4, o5, o6, o7⟩ := hI.ok g hg
        exact ⟨o1, o2, o3, by rw [f1]; exact o4, by rw [f5]; exact o5, by rw [f2, f3, f4]; exact o6,
          by rw [f6]; exact o7⟩
      · rw [f6]; exact hI.keys
      · obtain ⟨s1, s2, s3⟩ := hI.space
        exact ⟨by rw [f1]; exact s1, by rw [f1, f7]; exact s2, by rw [f1, f7]; exact s3⟩
    · rename_i st1 a o hr
      have ht := allocAligned_ok hP hPW hc hk h0 (by omega) (by omega) (fun _ => hodd) hr
      split at h
      · cases h
        refine ⟨ht.cur, ?_, hI.apart, ?_, space_took hI.space ht hf⟩
        · intro g hg
          have ho := hI.ok g hg
          obtain ⟨x1, x2⟩ := ht.other _ _ _ ho.pos ho.file ho.rest
          refine ⟨ho.pos, ho.addr, ho.top, mem_took ht ho.file, ?_, by omega, ?_⟩
          · have := ho.fits; have := ht.offo; have := ht.offFd; omega
          · rw [ht.offMap]; exact ho.entry
        · rw [ht.offMap]; exact hI.keys
      · cases h

theorem split_inv {P : Nat} {m : Mode} {mem0 : Nat → Cell} {st st' : St} {L : List G} {g : G}
    (hI : Inv P m mem0 st (g :: L)) {first : Nat} (h0 : 0 < first) (h1 : first < g.s) {host : Bool}
    (h : split st g.a first host = (st', true)) :
    Inv P m mem0 st' (⟨g.a, first, g.o⟩ :: ⟨g.a + first, g.s - first, g.o + first⟩ :: L) := by
  obtain ⟨g1, g2, g3, g4, g5, g6, g7⟩ := hI.ok g List.mem_cons_self
  have hap := (List.pairwise_cons.1 hI.apart)
  have hW : W = 2 ^ 64 := rfl
  have hlow := hI.cur.low
  unfold split at h
  rw [g7] at h
  simp only at h
  split at h
  · cases h
  · cases h
    rename_i hnew
    rw [Nat.mod_eq_of_lt (by omega), Nat.mod_eq_of_lt (by omega)]
    have hn : ∀ k ∈ L, k.a ≠ g.a + first := by
      intro k hk e
      have := (hap.1 k hk).1
      have := (hI.ok k (List.mem_cons_of_mem _ hk)).pos
      omega
    refine ⟨?_, ?_, ?_, ?_, ?_⟩
    · obtain ⟨c1, c2, c3, c4, c5, c6, c7, c8, c9⟩ := hI.cur
      exact ⟨c1, c2, c3, c4, c5, c6, c7, c8, c9⟩
    · intro k hk
      rcases List.mem_cons.1 hk with rfl | hk
      · refine ⟨h0, g2, by simp only; omega, ?_, by simp only; omega, by simp only; omega, ?_⟩
        · intro i hi; exact g4 i (by simp only at hi; omega)
        · simp only
          rw [mapGet_cons, if_neg (by omega)]
          exact g7
      rcases List.mem_cons.1 hk with rfl | hk
      · refine ⟨by simp only; omega, by simp only; omega, by simp only; omega, ?_,
          by simp only; omega, by simp only; omega, ?_⟩
        · intro i hi
          simp only at hi ⊢
          have := g4 (first + i) (by omega)
          rw [show g.a + first + i = g.a + (first + i) by omega, this]
          congr 1
          omega
        · simp only
          rw [mapGet_cons, if_pos rfl]
          congr 1
          omega
      · obtain ⟨k1, k2, k3, k4, k5, k6, k7⟩ := hI.ok k (List.mem_cons_of_mem _ hk)
        refine ⟨k1, k2, k3, k4, k5, k6, ?_⟩
        simp only
        rw [mapGet_cons, if_neg (fun e => hn k hk e.symm)]
        exact k7
    · refine List.Pairwise.cons ?_ (List.Pairwise.cons ?_ hap.2)
      · intro k hk
        rcases List.mem_cons.1 hk with rfl | hk
        · exact ⟨Or.inl (by simp only; omega), Or.inl (by simp only; omega)⟩
        · obtain ⟨x1, x2⟩ := hap.1 k hk
          unfold Apart
          simp only
          constructor <;> omega
      · intro k hk
        obtain ⟨x1, x2⟩ := hap.1 k hk
        unfold Apart
        simp only
        constructor <;> omega
    · intro e he
      simp only at he
      rcases List.mem_cons.1 he with rfl | he
      · exact ⟨⟨g.a + first, g.s - first, g.o + first⟩, by simp, rfl⟩
      · obtain ⟨k, hk, e1⟩ := hI.keys e he
        rcases List.mem_cons.1 hk with rfl | hk
        · exact ⟨_, List.mem_cons_self, e1⟩
        · exact ⟨k, List.mem_cons_of_mem _ (List.mem_cons_of_mem _ hk), e1⟩
    · obtain ⟨s1, s2, s3⟩ := hI.space
      exact ⟨s1, s2, s3⟩

theorem file_eq {mem : Nat → Cell} {a s o p : Nat} (hs : 0 < s) (h1 : FileRange mem a s o)
    (h2 : FileRange mem a s p) : o = p := by
  have e1 := h1 0 hs
  have e2 := h2 0 hs
  have := Cell.file.inj (e1.symm.trans e2); omega

theorem merge_inv {P : Nat} {m : Mode} {mem0 : Nat → Cell} {st st' : St} {L : List G} {g k : G}
    (hI : Inv P m mem0 st (g :: k :: L)) (hq : k.a = g.a + g.s) {o : Nat}
    (hf1 : FileRange st.mem g.a g.s o) (hf2 : FileRange st.mem k.a k.s (o + g.s))
    (h : merge st k.a = (st', true)) : Inv P m mem0 st' (⟨g.a, g.s + k.s, g.o⟩ :: L) := by
  obtain ⟨g1, g2, g3, g4, g5, g6, g7⟩ := hI.ok g List.mem_cons_self
  obtain ⟨k1, k2, k3, k4, k5, k6, k7⟩ := hI.ok k (List.mem_cons_of_mem _ List.mem_cons_self)
  have hap := (List.pairwise_cons.1 hI.apart)
  have hap2 := (List.pairwise_cons.1 hap.2)
  have e1 := file_eq g1 g4 hf1
  have e2 := file_eq k1 k4 hf2
  have c3 := hI.cur.off
  unfold merge at h
  rw [k7] at h
  cases h
  refine ⟨?_, ?_, ?_, ?_, ?_⟩
  · obtain ⟨c1, c2, c3, c4, c5, c6, c7, c8, c9⟩ := hI.cur
    exact ⟨c1, c2, c3, c4, c5, c6, c7, c8, c9⟩
  · intro x hx
    rcases List.mem_cons.1 hx with rfl | hx
    · refine ⟨by simp only; omega, g2, by simp only; omega, ?_, by simp only; omega, ?_, ?_⟩
      · intro i hi
        simp only at hi ⊢
        by_cases hlt : i < g.s
        · exact g4 i hlt
        · have := k4 (i - g.s) (by omega)
          rw [hq] at this
          rw [show g.a + i = g.a + g.s + (i - g.s) by omega, this]
          congr 1
          omega
      · simp only; omega
      · simp only
        rw [mapGet_remove, if_neg (by omega)]
        exact g7
    · obtain ⟨x1, x2, x3, x4, x5, x6, x7⟩ :=
        hI.ok x (List.mem_cons_of_mem _ (List.mem_cons_of_mem _ hx))
      refine ⟨x1, x2, x3, x4, x5, x6, ?_⟩
      have hne : x.a ≠ k.a := by
        have := (hap2.1 x hx).1
        omega
      simp only
      rw [mapGet_remove, if_neg hne]
      exact x7
  · refine List.Pairwise.cons ?_ hap2.2
    intro x hx
    obtain ⟨x1, x2⟩ := hap.1 x (List.mem_cons_of_mem _ hx)
    obtain ⟨y1, y2⟩ := hap2.1 x hx
    have := (hI.ok x (List.mem_cons_of_mem _ (List.mem_cons_of_mem _ hx))).pos
    unfold Apart
    simp only
    constructor <;> omega
  · intro e he
    unfold mapRemove at he
    obtain ⟨he, hne⟩ := List.mem_filter.1 he
    obtain ⟨x, hx, h1⟩ := hI.keys e he
    rcases List.mem_cons.1 hx with rfl | hx
    · exact ⟨_, List.mem_cons_self, h1⟩
    rcases List.mem_cons.1 hx with rfl | hx
    · exfalso; simp [h1] at hne
    · exact ⟨x, List.mem_cons_of_mem _ hx, h1⟩
  · obtain ⟨s1, s2, s3⟩ := hI.space
    exact ⟨s1, s2, s3⟩

theorem reach_inv {P : Nat} (hP : 0 < P) (hPW : P ∣ W) {m : Mode} {mem0 : Nat → Cell} {st : St}
    {live : List (Nat × Nat)} (h : Reach P m mem0 st live) :
    ∃ L : List G, (L.map G.live).Perm live ∧ Inv P m mem0 st L := by
  induction h with
  | init hm =>
    refine ⟨[], List.Perm.refl _, ⟨⟨?_, ?_, ?_, ?_, ?_, ?_, ?_, ?_, ?_⟩, ?_, List.Pairwise.nil, ?_, ?_⟩⟩
    · exact Nat.dvd_zero _
    · exact Nat.dvd_zero _
    · exact Nat.le_refl _
    · simp [initSt]
    · intro h; exact absurd h (by simp [initSt])
    · intro i hi; exact absurd hi (by simp [initSt])
    · simp [initSt]
    · simp [initSt]
    · exact fun _ => ⟨Nat.dvd_zero _, Nat.dvd_zero _⟩
    · intro g hg; cases hg
    · intro e he; cases he
    · refine ⟨fun x => Or.inl rfl, fun e he => ?_, fun _ x hx => absurd rfl hx⟩
      cases he
  | alloc _ hk h0 hsz hal hodd hf h ih =>
    obtain ⟨L, hL, hI⟩ := ih
    obtain ⟨⟨o, hI'⟩, -⟩ := alloc_inv hP hPW hI hk h0 hsz hal hodd hf h
    exact ⟨⟨_, _, o⟩ :: L, hL.cons _, hI'⟩
  | allocFail _ hk h0 hsz hal hm hodd hf h ih =>
    obtain ⟨L, hL, hI⟩ := ih
    exact ⟨L, hL, allocFail_inv hP hPW hI hk h0 hsz hal hm hodd hf h⟩
  | split _ h0 h1 h ih =>
    obtain ⟨L, hL, hI⟩ := ih
    obtain ⟨g, M, p1, p2, p3⟩ := perm_pick (hL.trans List.perm_middle)
    cases p2
    have hI' := split_inv (hI.perm p1) h0 h1 h
    refine ⟨_, ?_, hI'⟩
    refine List.Perm.trans ?_ (List.perm_middle.symm)
    refine List.Perm.cons _ ?_
    refine List.Perm.trans ?_ (List.perm_middle.symm)
    exact List.Perm.cons _ p3
  | @splitFail st live p first host st' _ h ih =>
    obtain ⟨L, hL, hI⟩ := ih
    have : st' = st := by
      unfold split at h
      split at h
      · cases h; rfl
      · split at h
        · cases h; rfl
        · cases h
    subst this
    exact ⟨L, hL, hI⟩
  | merge _ hq hf1 hf2 h ih =>
    obtain ⟨L, hL, hI⟩ := ih
    obtain ⟨g, M, p1, p2, p3⟩ := perm_pick (hL.trans List.perm_middle)
    obtain ⟨k, N, q1, q2, q3⟩ := perm_pick (p3.trans List.perm_middle)
    cases p2
    cases q2
    have hI' := merge_inv ((hI.perm p1).perm (q1.cons g)) hq hf1 hf2 h
    refine ⟨_, ?_, hI'⟩
    exact List.Perm.trans (List.Perm.cons _ q3) (List.perm_middle.symm)
  | perm _ hp ih =>
    obtain ⟨L, hL, hI⟩ := ih
    exact ⟨L, hL.trans hp, hI⟩

end Verif.FileProv
