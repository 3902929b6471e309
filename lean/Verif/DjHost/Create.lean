import Verif.DjHost.Final
import Verif.Utils.NatBits
/-!
# Lemmas for the disjoint pool's own memory: a pool is made
-/
namespace Verif.DjHost

/-! ## The number of buckets -/

theorem count_ok {s : St} : ∀ (j k n fuel : Nat), k + j = 30 → j < fuel →
    countLoop fuel (3 * 2 ^ k) n s = some (n + 2 * j, s) := by
  intro j
  induction j with
  | zero =>
    intro k n fuel hk hf
    have : k = 30 := by omega
    subst this
    cases fuel with
    | zero => omega
    | succ fuel => rfl
  | succ j ih =>
    intro k n fuel hk hf
    cases fuel with
    | zero => omega
    | succ fuel =>
    have h1 : 2 ^ k ≤ 2 ^ 29 := Nat.pow_le_pow_right (by omega) (by omega)
    unfold countLoop
    rw [if_pos (by unfold CutOff; omega), show 3 * 2 ^ k * 2 = 3 * 2 ^ (k + 1) by rw [Nat.pow_succ]; omega,
      ih (k + 1) (n + 2) fuel (by omega) (by omega)]
    congr 2
    omega

/-- The smallest bucket is a power of two, from 8 to 2 GB. -/
theorem size1_pow (j : Nat) : ∃ k, k ≤ 28 ∧ max (min (2 ^ j) CutOff) 8 = 2 ^ (k + 3) ∧ classesOf (2 ^ j) = 2 * (28 - k) + 1 := by
  have key : ∀ k, k ≤ 28 → max (min (2 ^ j) (2 ^ 31)) 8 = 2 ^ (k + 3) → classesOf (2 ^ j) = 2 * (28 - k) + 1 := by
    intro k hk h
    unfold classesOf
    rw [h, Nat.log2_two_pow]
    omega
  have key2 : ∀ k, k ≤ 28 → max (min (2 ^ j) (2 ^ 31)) 8 = 2 ^ (k + 3) → ∃ k, k ≤ 28 ∧
      max (min (2 ^ j) CutOff) 8 = 2 ^ (k + 3) ∧ classesOf (2 ^ j) = 2 * (28 - k) + 1 := fun k h1 h2 => ⟨k, h1, h2, key k h1 h2⟩
  by_cases h1 : j ≤ 3
  · refine key2 0 (by omega) ?_
    have : 2 ^ j ≤ 2 ^ 3 := Nat.pow_le_pow_right (by omega) h1
    omega
  · by_cases h2 : 31 ≤ j
    · refine key2 28 (by omega) ?_
      have : 2 ^ 31 ≤ 2 ^ j := Nat.pow_le_pow_right (by omega) h2
      rw [Nat.min_eq_right this]
      rfl
    · refine key2 (j - 3) (by omega) ?_
      have a : 2 ^ 3 ≤ 2 ^ j := Nat.pow_le_pow_right (by omega) (by omega)
      have b : 2 ^ j ≤ 2 ^ 31 := Nat.pow_le_pow_right (by omega) (by omega)
      rw [show j - 3 + 3 = j by omega, Nat.min_eq_left b, Nat.max_eq_left (by omega)]

/-! ## The buckets -/

/-- The buckets `done` were made (0: could not be made), and written to the array, which has room for `r` more. -/
structure Made (s0 s : St) (arr p lim : Addr) (done : List Addr) (r : Nat) : Prop where
  pools : s.pools = s0.pools
  crits : s.crits = s0.crits
  lims : s.lims = s0.lims
  slabs : s.slabs = s0.slabs
  prov : s.prov = s0.prov
  arrs : s.arrs = upd s0.arrs arr (some (done.map some ++ List.replicate r none))
  made : ∀ b ∈ done, b ≠ 0 → s0.bucks b = none ∧ ∃ size, 0 < size ∧ s.bucks b = some ⟨size, 0, 0, 0, p, lim, 0⟩
  other : ∀ b, b ∉ done ∨ b = 0 → s.bucks b = s0.bucks b
  nodup : (done.filter fun b => b ≠ 0).Nodup

theorem made_one {s0 s : St} {arr p lim size : Addr} {done : List Addr} {r : Nat} (h : Made s0 s arr p lim done (r + 1))
    (hsz : 0 < size) :
    ∃ b s', (∀ (α : Type) (k : M α), (do
      let b ← createBucket size p lim
      setArr arr done.length b
      k : M α) s = k s') ∧ Made s0 s' arr p lim (done ++ [b]) r := by
  have harr : ∀ b : Addr, (done.map some ++ List.replicate (r + 1) none : List (Option Addr)).set done.length (some b) =
      ((done ++ [b]).map some ++ List.replicate r none : List (Option Addr)) := by
    intro b
    rw [List.set_append_right _ _ (by simp)]
    simp [List.replicate_succ]
  have hset : ∀ (s1 : St) b, s1.arrs = s.arrs → setArr arr done.length b s1 =
      some ((), { s1 with arrs := upd s0.arrs arr (some ((done ++ [b]).map some ++ List.replicate r none)) }) := by
    intro s1 b h1
    unfold setArr
    rw [h1, h.arrs, upd_same]
    dsimp only
    rw [if_pos (by simp), harr, upd_upd]
  unfold createBucket
  rcases hostAlloc_app s with ⟨e1, e2⟩ | ⟨b, hb0, hbf, e1⟩
  · refine ⟨0, { s with host := s.host.tail, arrs := upd s0.arrs arr (some ((done ++ [0]).map some ++ List.replicate r none)) }, ?_, ?_⟩
    · intro α k
      simp only [bind_app]
      rw [e1]
      dsimp only
      rw [if_pos rfl]
      dsimp only [pure_app]
      rw [hset { s with host := s.host.tail } 0 rfl]
    · refine ⟨h.pools, h.crits, h.lims, h.slabs, h.prov, rfl, ?_, ?_, ?_⟩
      · intro b hb hb0
        rcases List.mem_append.1 hb with h1 | h1
        · exact h.made b h1 hb0
        · exact absurd (by simpa using h1) hb0
      · intro b hb
        refine h.other b ?_
        rcases hb with h1 | h1
        · exact Or.inl fun hm => h1 (by simp [hm])
        · exact Or.inr h1
      · rw [List.filter_append]
        simpa using h.nodup
  · rw [fresh_iff] at hbf
    have hnew : b ∉ done := by
      intro hm
      obtain ⟨_, size, _, h1⟩ := h.made b hm hb0
      rw [hbf.2.2.2.2.1] at h1
      cases h1
    refine ⟨b, { s with host := s.host.tail, bucks := upd s.bucks b (some ⟨size, 0, 0, 0, p, lim, 0⟩), arrs := upd s0.arrs arr (some ((done ++ [b]).map some ++ List.replicate r none)) }, ?_, ?_⟩
    · intro α k
      simp only [bind_app]
      rw [e1]
      dsimp only
      rw [if_neg hb0]
      simp only [bind_app, newBucket, pure_app]
      rw [hset { s with host := s.host.tail, bucks := upd s.bucks b (some ⟨size, 0, 0, 0, p, lim, 0⟩) } b rfl]
    · refine ⟨h.pools, h.crits, h.lims, h.slabs, h.prov, rfl, ?_, ?_, ?_⟩
      · intro x hx hx0
        by_cases e : x = b
        · rw [e]
          refine ⟨?_, size, hsz, upd_same _ _ _⟩
          rw [← h.other b (Or.inl hnew)]
          exact hbf.2.2.2.2.1
        · rcases List.mem_append.1 hx with h1 | h1
          · obtain ⟨g1, sz, g2, g3⟩ := h.made x h1 hx0
            exact ⟨g1, sz, g2, by dsimp only; rw [upd_ne _ _ e]; exact g3⟩
          · exact absurd (by simpa using h1) e
      · intro x hx
        have e : x ≠ b := by
          rintro rfl
          rcases hx with h1 | h1
          · exact h1 (by simp)
          · exact hb0 h1
        dsimp only
        rw [upd_ne _ _ e]
        refine h.other x ?_
        rcases hx with h1 | h1
        · exact Or.inl fun hm => h1 (by simp [hm])
        · exact Or.inr h1
      · rw [List.filter_append, List.nodup_append]
        refine ⟨h.nodup, by simp [hb0], ?_⟩
        intro x hx y hy
        rw [List.mem_filter] at hx hy
        have : y = b := by simpa using hy.1
        rw [this]
        rintro rfl
        exact hnew hx.1

theorem fill_ok {s0 : St} {arr p lim : Addr} : ∀ (j k : Nat) {s : St} {done : List Addr}, k + j = 28 →
    Made s0 s arr p lim done (2 * j + 1) →
    ∃ s' done', (∀ fuel, j < fuel →
        fillLoop fuel arr p lim (2 ^ (k + 3)) (3 * 2 ^ (k + 2)) done.length s = some (done'.length, s')) ∧
      Made s0 s' arr p lim done' 1 ∧ done'.length = done.length + 2 * j := by
  intro j
  induction j with
  | zero =>
    intro k s done hk h
    have : k = 28 := by omega
    subst this
    refine ⟨s, done, ?_, h, by omega⟩
    intro fuel hf
    cases fuel with
    | zero => omega
    | succ fuel => rfl
  | succ j ih =>
    intro k s done hk h
    have hp : 2 ^ (k + 2) ≤ 2 ^ 29 := Nat.pow_le_pow_right (by omega) (by omega)
    have hp0 : 0 < 2 ^ (k + 2) := Nat.pow_pos (by omega)
    obtain ⟨b1, s1, e1, e2⟩ := made_one (size := 2 ^ (k + 3)) h (Nat.pow_pos (by omega))
    obtain ⟨b2, s2, f1, f2⟩ := made_one (size := 3 * 2 ^ (k + 2)) e2 (Nat.mul_pos (by omega) hp0)
    rw [List.length_append] at f1
    obtain ⟨s3, d3, g1, g2, g3⟩ := ih (k + 1) (by omega) f2
    refine ⟨s3, d3, ?_, g2, ?_⟩
    · intro fuel hf
      cases fuel with
      | zero => omega
      | succ fuel =>
      unfold fillLoop
      rw [if_pos (by unfold CutOff; omega), e1, show (done.length + 1) = done.length + [b1].length from rfl, f1]
      rw [show 2 ^ (k + 3) * 2 = 2 ^ (k + 1 + 3) from (Nat.pow_succ 2 (k + 3)).symm,
        show 3 * 2 ^ (k + 2) * 2 = 3 * 2 ^ (k + 1 + 2) by rw [show 2 ^ (k + 1 + 2) = 2 ^ (k + 2) * 2 from Nat.pow_succ 2 (k + 2), Nat.mul_assoc]]
      rw [show done.length + 2 = (done ++ [b1] ++ [b2]).length by simp]
      exact g1 fuel (by omega)
    · rw [g3]
      simp
      omega

theorem check_ok {s : St} {arr : Addr} {L : List Addr} (harr : s.arrs arr = some (L.map some)) : ∀ (k i : Nat), i + k = L.length →
    checkLoop arr k i s = some (decide (0 ∉ L.drop i), s) := by
  intro k
  induction k with
  | zero =>
    intro i hi
    rw [List.drop_eq_nil_of_le (by omega)]
    rfl
  | succ k ih =>
    intro i hi
    have hil : i < L.length := by omega
    unfold checkLoop
    rw [bind_app, getArr_app (b := L[i]) harr (by simp [hil])]
    dsimp only
    rw [List.drop_eq_getElem_cons hil]
    by_cases h : L[i] = 0
    · rw [if_pos h, h, pure_app]
      simp
    · rw [if_neg h, ih (i + 1) (by omega)]
      congr 3
      rw [List.mem_cons, eq_iff_iff]
      exact ⟨fun h1 h2 => h2.elim (fun h3 => h h3.symm) h1, fun h1 h2 => h1 (Or.inr h2)⟩

theorem ite_iff {α : Type} {p q : Prop} [Decidable p] [Decidable q] {a b : α} (h : p ↔ q) :
    (if p then a else b) = if q then a else b := by
  by_cases hp : p
  · rw [if_pos hp, if_pos (h.1 hp)]
  · rw [if_neg hp, if_neg fun hq => hp (h.2 hq)]

/-- The buckets that were made are destroyed. -/
theorem undo_ok {arr p lim : Addr} {L : List Addr} {fuel : Nat} : ∀ (k i : Nat) {s : St}, 0 < fuel → s.arrs arr = some (L.map some) → i + k = L.length →
    (∀ b ∈ L.drop i, b ≠ 0 → ∃ size, s.bucks b = some ⟨size, 0, 0, 0, p, lim, 0⟩) → ((L.drop i).filter fun b => b ≠ 0).Nodup →
    undoLoop fuel arr k i s = some ((), { s with bucks := fun b => if b ∈ L.drop i ∧ b ≠ 0 then none else s.bucks b }) := by
  intro k
  induction k with
  | zero =>
    intro i s hf harr hi _ _
    rw [List.drop_eq_nil_of_le (by omega)]
    simp only [List.not_mem_nil, false_and, if_false]
    rfl
  | succ k ih =>
    intro i s hf harr hi hb hnd
    have hil : i < L.length := by omega
    rw [List.drop_eq_getElem_cons hil] at hb hnd ⊢
    unfold undoLoop
    rw [bind_app, getArr_app (b := L[i]) harr (by simp [hil])]
    dsimp only
    by_cases h : L[i] = 0
    · rw [if_neg (by simp [h])]
      have hnd' : ((L.drop (i + 1)).filter fun b => b ≠ 0).Nodup := by
        rw [List.filter_cons_of_neg (by simp [h])] at hnd
        exact hnd
      have := ih (i + 1) (s := s) hf harr (by omega) (fun b hm => hb b (List.mem_cons_of_mem _ hm)) hnd'
      refine (show _ = undoLoop fuel arr k (i + 1) s from rfl).trans (this.trans ?_)
      congr 3
      funext b
      refine ite_iff ?_
      rw [List.mem_cons, h]
      constructor
      · exact fun h1 => ⟨Or.inr h1.1, h1.2⟩
      · rintro ⟨h1 | h1, h2⟩
        · exact absurd h1 h2
        · exact ⟨h1, h2⟩
    · rw [if_pos h]
      obtain ⟨size, hc⟩ := hb L[i] List.mem_cons_self h
      rw [List.filter_cons_of_pos (by simp [h])] at hnd
      obtain ⟨n1, n2⟩ := List.nodup_cons.1 hnd
      have hd : destroyBucket fuel L[i] s = some ((), { s with bucks := upd s.bucks L[i] none }) := by
        cases fuel with
        | zero => omega
        | succ fuel =>
        unfold destroyBucket
        rw [bind_app, getB_app hc]
        dsimp only
        rw [bind_app, show destroyAvail (fuel + 1) L[i] 0 s = some ((), s) from rfl]
        dsimp only
        rw [bind_app, getB_app hc]
        dsimp only
        rw [bind_app, show destroyUnavail (fuel + 1) L[i] 0 s = some ((), s) from rfl]
        dsimp only
        rw [freeBucket_app hc]
      rw [bind_app, hd]
      dsimp only
      rw [ih (i + 1) (s := { s with bucks := upd s.bucks L[i] none }) hf harr (by omega) ?_ n2]
      · congr 3
        funext b
        dsimp only
        by_cases e : b = L[i]
        · subst e
          rw [upd_same, if_pos (c := L[i] ∈ L[i] :: L.drop (i + 1) ∧ L[i] ≠ 0) ⟨List.mem_cons_self, h⟩]
          split <;> rfl
        · rw [upd_ne _ _ e]
          refine ite_iff ?_
          rw [List.mem_cons]
          constructor
          · exact fun h1 => ⟨Or.inr h1.1, h1.2⟩
          · rintro ⟨h1 | h1, h2⟩
            · exact absurd h1 e
            · exact ⟨h1, h2⟩
      · intro b hm hb0
        obtain ⟨sz, g⟩ := hb b (List.mem_cons_of_mem _ hm) hb0
        refine ⟨sz, ?_⟩
        dsimp only
        rw [upd_ne]
        · exact g
        · rintro rfl
          exact n1 (List.mem_filter.2 ⟨hm, by simp [h]⟩)

end Verif.DjHost
