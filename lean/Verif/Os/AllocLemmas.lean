import Verif.Os.Lemmas
/-! # The effect of `os_alloc` and `os_free` on the address space -/
namespace Verif.Os

theorem mmapAligned_none {c : Cfg} {st st1 : St} {len al : Nat} {env : Env}
    (h : mmapAligned c st len al env = (st1, none)) :
    st1.mem = st.mem ∧ st1.offMap = st.offMap ∧
      (st1.sizeFd = st.sizeFd ∨ st1.sizeFd = (st.sizeFd + extLen c len al) % W) := by
  unfold mmapAligned at h
  simp only at h
  split at h
  · cases h; exact ⟨rfl, rfl, Or.inl rfl⟩
  · split at h
    · cases h
      cases c.fd
      · exact ⟨rfl, rfl, Or.inl rfl⟩
      · exact ⟨rfl, rfl, Or.inr rfl⟩
    · split at h <;> cases h

theorem align_dvd {P al : Nat} (hP0 : 0 < P) (h : ¬ (al ≠ 0 ∧ al % P ≠ 0 ∧ P % al ≠ 0)) (hl : P < al) : P ∣ al := by
  by_cases h0 : al % P = 0
  · exact Nat.dvd_of_mod_eq_zero h0
  · exfalso
    apply h
    refine ⟨by omega, h0, ?_⟩
    rw [Nat.mod_eq_of_lt hl]
    intro hP
    subst hP
    simp at h0
    omega

/-- Unmapping what was just mapped restores the address space. -/
theorem unmapped_restore {c : Cfg} (hP : 0 < c.P) {mem mem1 : Nat → Cell} {a len : Nat}
    (ha : c.P ∣ a) (hw : a + roundUp c.P len ≤ 2 ^ 63)
    (h0 : ∀ x, a ≤ x → x < a + roundUp c.P len → mem x = .unmapped)
    (h1 : ∀ x, ¬ (a ≤ x ∧ x < a + roundUp c.P len) → mem1 x = mem x) :
    unmapped c mem1 a len = mem := by
  funext x
  unfold unmapped
  by_cases hl : len ≠ 0
  · rw [if_pos ⟨Nat.mod_eq_zero_of_dvd ha, hl, by unfold W; omega⟩]
    by_cases hx : a ≤ x ∧ x < a + roundUp c.P len
    · rw [if_pos hx, h0 x hx.1 hx.2]
    · rw [if_neg hx, h1 x hx]
  · have hl : len = 0 := by simpa using hl
    subst hl
    rw [if_neg (by simp)]
    apply h1
    rw [roundUp_dvd hP (Nat.dvd_zero _)]
    omega

/-- A successful `os_alloc`. -/
theorem alloc_ok {c : Cfg} (hP : 0 < c.P) {st : St} {size al : Nat} {env : Env}
    (hk : EnvOk c st.mem env) (hw : size + al < W) {st' : St} {a : Nat}
    (h : alloc c st size al env = (st', some a)) :
    c.P ∣ a ∧ 0 < a ∧ a + roundUp c.P size ≤ 2 ^ 63 ∧ (al ≠ 0 → al ∣ a) ∧
      (∀ x, a ≤ x → x < a + roundUp c.P size → st.mem x = .unmapped) ∧
      (c.fd = true → c.P ∣ st.sizeFd ∧ st'.sizeFd = (st.sizeFd + extLen c size al) % W ∧
        st'.offMap = mapInsert st.offMap a (st.sizeFd + 1) env.ins) ∧
      ∃ cut, (c.P < al ∨ cut = 0) ∧
        ((∀ len off b, env.addr len off = some b → al ∣ b) → cut = 0) ∧
        cut + size ≤ extLen c size al ∧
        ∀ x, st'.mem x =
          if a ≤ x ∧ x < a + roundUp c.P size then
            (if c.fd then .file (st.sizeFd + cut + (x - a)) else .anon)
          else st.mem x := by
  unfold alloc at h
  split at h
  · cases h
  · rename_i hal
    cases hm : mmapAligned c st size al env with
    | mk st1 r =>
      rw [hm] at h
      cases r with
      | none => cases h
      | some r =>
        obtain ⟨b, off⟩ := r
        simp only at h
        obtain ⟨m1, m2, m3, m4, m5, m6, m7, m8, m9, m10, cut, m11, m12, m12', m13⟩ :=
          mmapAligned_ok hP hk hw (fun hl => align_dvd hP hal hl) hm
        split at h
        · cases h
        · rename_i hali
          have hdv : al ≠ 0 → al ∣ b := by
            intro h0
            by_contra hn
            exact hali ⟨by omega, fun h => hn (Nat.dvd_of_mod_eq_zero h)⟩
          split at h
          · cases h
          · split at h
            · rename_i hfd
              cases h
              obtain ⟨n1, n2, n3⟩ := m9 hfd
              refine ⟨m1, m2, m3, hdv, m5, fun _ => ⟨n1 ▸ m6 hfd, n2, ?_⟩, cut, m11, m12, m12', ?_⟩
              · simp only; rw [m8, n1]
              · intro x; rw [m13 x, n1]
            · rename_i hfd
              cases h
              refine ⟨m1, m2, m3, hdv, m5, fun h => absurd h hfd, cut, m11, m12, m12', fun x => ?_⟩
              rw [m13 x]
              simp only [hfd]
              rfl

/-- A failing `os_alloc` leaves the address space as it was. -/
theorem alloc_none {c : Cfg} (hP : 0 < c.P) {st : St} {size al : Nat} {env : Env}
    (hk : EnvOk c st.mem env) (hw : size + al < W) {st' : St}
    (h : alloc c st size al env = (st', none)) :
    st'.mem = st.mem ∧ st'.offMap = st.offMap ∧
      (st'.sizeFd = st.sizeFd ∨ st'.sizeFd = (st.sizeFd + extLen c size al) % W) := by
  unfold alloc at h
  split at h
  · cases h; exact ⟨rfl, rfl, Or.inl rfl⟩
  · rename_i hal
    cases hm : mmapAligned c st size al env with
    | mk st1 r =>
      rw [hm] at h
      cases r with
      | none => cases h; exact mmapAligned_none hm
      | some r =>
        obtain ⟨b, off⟩ := r
        simp only at h
        obtain ⟨m1, m2, m3, m4, m5, m6, m7, m8, m9, m10, cut, m11, m12, m12', m13⟩ :=
          mmapAligned_ok hP hk hw (fun hl => align_dvd hP hal hl) hm
        have hres : unmapped c st1.mem b size = st.mem :=
          unmapped_restore hP m1 m3 m5 fun x hx => by rw [m13 x, if_neg hx]
        have hsz : st1.sizeFd = st.sizeFd ∨ st1.sizeFd = (st.sizeFd + extLen c size al) % W := by
          cases hfd : c.fd with
          | true => exact Or.inr (m9 hfd).2.1
          | false => exact Or.inl (m10 hfd)
        split at h
        · cases h; exact ⟨hres, m8, hsz⟩
        · split at h
          · cases h; exact ⟨hres, m8, hsz⟩
          · split at h <;> cases h

end Verif.Os
