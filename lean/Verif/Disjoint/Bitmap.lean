import Verif.Disjoint.BitmapModel
import Verif.Disjoint.Model
/-!
# The words of a slab's bitmap represent the list of flags of `Verif.Disjoint.Model`

`flags n ws` are the first `n` bits. `Valid n ws`: there are as many words as `create_slab`
allocates and the bits past the last chunk are clear, which the scan for a free chunk relies on.
-/
namespace Verif.Disjoint.Bitmap

/-- Bit `i` of the bitmap. -/
def bit (ws : List Word) (i : Nat) : Bool := ((ws[i / 64]?).getD 0#64).getLsbD (i % 64)

/-- The flags of `n` chunks. -/
def flags (n : Nat) (ws : List Word) : List Bool := (List.range n).map (bit ws)

def Valid (n : Nat) (ws : List Word) : Prop :=
  ws.length = numWords n ∧ ∀ i, n ≤ i → bit ws i = false

theorem read_eq (ws : List Word) (i : Nat) : readBit ws i = bit ws i := by
  unfold readBit bit
  generalize (ws[i / 64]?).getD 0#64 = w
  have hlt : i % 64 < 64 := Nat.mod_lt _ (by decide)
  have h1 : ((w >>> (i % 64)) &&& 1#64).getLsbD 0 = w.getLsbD (i % 64) := by simp
  by_cases hb : w.getLsbD (i % 64) = true
  · rw [hb]
    rw [beq_iff_eq]
    apply BitVec.eq_of_getLsbD_eq
    intro j hj
    rw [BitVec.getLsbD_and, BitVec.getLsbD_ushiftRight, BitVec.getLsbD_one]
    by_cases h0 : j = 0
    · subst h0; simp [hb]
    · simp [h0]
  · simp only [Bool.not_eq_true] at hb
    rw [hb]
    rw [beq_eq_false_iff_ne]
    intro e
    rw [e] at h1
    rw [hb] at h1
    exact absurd h1 (by decide)

theorem one_shift (k j : Nat) (hk : k < 64) : (1#64 <<< k).getLsbD j = decide (j = k) := by
  rw [BitVec.getLsbD_shiftLeft, BitVec.getLsbD_one]
  by_cases h : j = k
  · subst h; simp [hk]
  · by_cases h2 : j < k
    · simp [h2, h]
    · have : j - k ≠ 0 := by omega
      simp [h, this]

theorem bit_setBit (ws : List Word) (idx : Nat) (v : Bool) (hl : idx / 64 < ws.length) (i : Nat) :
    bit (setBit ws idx v) i = if i = idx then v else bit ws i := by
  unfold bit setBit
  have hk : idx % 64 < 64 := Nat.mod_lt _ (by decide)
  have hk' : i % 64 < 64 := Nat.mod_lt _ (by decide)
  simp only
  by_cases hw : i / 64 = idx / 64
  · rw [hw, List.getElem?_set_self hl]
    have hiff : (i % 64 = idx % 64) ↔ i = idx := by omega
    cases v with
    | true =>
      simp only [if_true, Option.getD_some, BitVec.getLsbD_or, one_shift _ _ hk, hiff]
      by_cases h : i = idx <;> simp [h]
    | false =>
      simp only [Bool.false_eq_true, if_false, Option.getD_some, BitVec.getLsbD_and,
        BitVec.getLsbD_not, one_shift _ _ hk, hiff]
      by_cases h : i = idx
      · simp [h]
      · simp [h, hk']
  · rw [List.getElem?_set_ne (fun h => hw h.symm)]
    rw [if_neg (fun h => hw (by rw [h]))]

/-- `create_slab`: all chunks are free and the bits past the last one are clear. -/
theorem init_ok (n : Nat) (hn : 0 < n) :
    Valid n (init n) ∧ flags n (init n) = List.replicate n true := by
  have hlen : (init n).length = numWords n := by
    unfold init; simp only; split <;> simp
  have hbit : ∀ i, bit (init n) i = decide (i < n) := by
    intro i
    unfold bit init
    have hk : i % 64 < 64 := Nat.mod_lt _ (by decide)
    simp only
    by_cases hr : n % 64 ≠ 0
    · rw [if_pos hr]
      have hnw : numWords n = n / 64 + 1 := by unfold numWords; omega
      by_cases hw : i / 64 = n / 64
      · rw [show numWords n - 1 = i / 64 by omega,
          List.getElem?_set_self (by rw [List.length_replicate]; omega)]
        have hm : n % 64 < 64 := Nat.mod_lt _ (by decide)
        have hmask : (1#64 <<< (n % 64)) - 1#64 = BitVec.ofNat 64 (2 ^ (n % 64) - 1) := by
          have hp : 2 ^ (n % 64) < 2 ^ 64 := Nat.pow_lt_pow_right (by decide) hm
          have hp1 : 0 < 2 ^ (n % 64) := Nat.two_pow_pos _
          apply BitVec.eq_of_toNat_eq
          rw [BitVec.toNat_sub, BitVec.toNat_shiftLeft, BitVec.toNat_ofNat, BitVec.toNat_ofNat,
            Nat.shiftLeft_eq]
          simp only [Nat.reducePow, Nat.reduceMod, Nat.one_mul] at *
          omega
        rw [hmask, Option.getD_some, BitVec.getLsbD_ofNat]
        rw [Nat.testBit_two_pow_sub_one]
        simp only [hk, decide_true, Bool.true_and, decide_eq_decide]
        omega
      · rw [List.getElem?_set_ne (by omega), List.getElem?_replicate]
        split
        · rw [Option.getD_some, BitVec.getLsbD_allOnes]
          exact decide_eq_decide.2 (by omega)
        · simp; omega
    · rw [if_neg hr, List.getElem?_replicate]
      have hnw : numWords n = n / 64 := by unfold numWords; omega
      split
      · rw [Option.getD_some, BitVec.getLsbD_allOnes]
        exact decide_eq_decide.2 (by omega)
      · simp; omega
  refine ⟨⟨hlen, fun i hi => by rw [hbit]; simp; omega⟩, ?_⟩
  unfold flags
  apply List.ext_getElem?
  intro i
  rw [List.getElem?_map, List.getElem?_replicate]
  by_cases hi : i < n
  · rw [List.getElem?_range hi, if_pos hi, Option.map_some, hbit]; simp [hi]
  · rw [List.getElem?_eq_none (by simp; omega), if_neg hi]; rfl

theorem flags_length (n : Nat) (ws : List Word) : (flags n ws).length = n := by simp [flags]

theorem flags_get {n : Nat} {ws : List Word} {i : Nat} (hi : i < n) :
    (flags n ws)[i]? = some (bit ws i) := by
  unfold flags
  rw [List.getElem?_map, List.getElem?_range hi]; rfl

/-- `slab_set_chunk_bit` sets the flag of its chunk and no other. -/
theorem set_ok {n : Nat} {ws : List Word} (hv : Valid n ws) {idx : Nat} (hi : idx < n) (v : Bool) :
    Valid n (setBit ws idx v) ∧ flags n (setBit ws idx v) = (flags n ws).set idx v := by
  have hl : idx / 64 < ws.length := by rw [hv.1]; unfold numWords; omega
  refine ⟨⟨by unfold setBit; simp [hv.1], fun i h => ?_⟩, ?_⟩
  · rw [bit_setBit ws idx v hl, if_neg (by omega)]; exact hv.2 i h
  · apply List.ext_getElem?
    intro i
    by_cases h : i < n
    · rw [flags_get h, bit_setBit ws idx v hl]
      by_cases he : i = idx
      · subst he
        rw [if_pos rfl, List.getElem?_set_self (by rw [flags_length]; exact h)]
      · rw [if_neg he, List.getElem?_set_ne (fun e => he e.symm), flags_get h]
    · rw [List.getElem?_eq_none (by rw [flags_length]; omega),
        List.getElem?_eq_none (by rw [List.length_set, flags_length]; omega)]

/-- `slab_read_chunk_bit` reads the flag of its chunk. -/
theorem read_ok {n : Nat} {ws : List Word} {idx : Nat} (hi : idx < n) :
    (flags n ws)[idx]? = some (readBit ws idx) := by rw [flags_get hi, read_eq]

theorem lsbFrom_spec (w : Word) : ∀ fuel i, (∃ j, i ≤ j ∧ j < i + fuel ∧ w.getLsbD j = true) →
    i ≤ lsbFrom w fuel i ∧ lsbFrom w fuel i < i + fuel ∧ w.getLsbD (lsbFrom w fuel i) = true ∧
      ∀ j, i ≤ j → j < lsbFrom w fuel i → w.getLsbD j = false := by
  intro fuel
  induction fuel with
  | zero => rintro i ⟨j, h1, h2, _⟩; omega
  | succ f ih =>
    rintro i ⟨j, h1, h2, h3⟩
    unfold lsbFrom
    by_cases hb : w.getLsbD i = true
    · rw [if_pos hb]
      exact ⟨Nat.le_refl _, by omega, hb, fun j h4 h5 => by omega⟩
    · rw [if_neg hb]
      have hj : i ≠ j := by rintro rfl; exact hb h3
      obtain ⟨a1, a2, a3, a4⟩ := ih (i + 1) ⟨j, by omega, by omega, h3⟩
      refine ⟨by omega, by omega, a3, fun j h4 h5 => ?_⟩
      by_cases e : j = i
      · subst e; simpa using hb
      · exact a4 j (by omega) h5

theorem lsb_spec {w : Word} (h : w ≠ 0#64) :
    lsb w < 64 ∧ w.getLsbD (lsb w) = true ∧ ∀ j, j < lsb w → w.getLsbD j = false := by
  have hex : ∃ j, 0 ≤ j ∧ j < 0 + 64 ∧ w.getLsbD j = true := by
    by_contra hn
    apply h
    apply BitVec.eq_of_getLsbD_eq
    intro i hi
    rw [BitVec.getLsbD_zero]
    by_contra hc
    exact hn ⟨i, Nat.zero_le _, by omega, by simpa using hc⟩
  obtain ⟨_, h2, h3, h4⟩ := lsbFrom_spec w 64 0 hex
  exact ⟨by unfold lsb; omega, h3, fun j hj => h4 j (Nat.zero_le _) hj⟩

theorem bit_cons (w : Word) (ws : List Word) (i : Nat) :
    bit (w :: ws) i = if i < 64 then w.getLsbD i else bit ws (i - 64) := by
  unfold bit
  split
  · rename_i h
    rw [Nat.div_eq_of_lt h, Nat.mod_eq_of_lt h]; rfl
  · rename_i h
    rw [show i / 64 = (i - 64) / 64 + 1 by omega, show i % 64 = (i - 64) % 64 by omega]; rfl

theorem findFirst_spec (ws : List Word) : ∀ k,
    (findFirst ws k = none ∧ ∀ i, bit ws i = false) ∨
    ∃ i, findFirst ws k = some (k * 64 + i) ∧ bit ws i = true ∧ ∀ j, j < i → bit ws j = false := by
  induction ws with
  | nil => intro k; left; exact ⟨rfl, fun i => by simp [bit]⟩
  | cons w ws ih =>
    intro k
    unfold findFirst
    by_cases h : w ≠ 0#64
    · rw [if_pos h]
      right
      obtain ⟨h1, h2, h3⟩ := lsb_spec h
      refine ⟨lsb w, rfl, by rw [bit_cons, if_pos h1]; exact h2, fun j hj => ?_⟩
      rw [bit_cons, if_pos (by omega)]; exact h3 j hj
    · rw [if_neg h]
      have hz : w = 0#64 := by simpa using h
      rcases ih (k + 1) with ⟨h1, h2⟩ | ⟨i, h1, h2, h3⟩
      · left
        refine ⟨h1, fun i => ?_⟩
        rw [bit_cons]
        split
        · rw [hz]; simp
        · exact h2 _
      · right
        refine ⟨i + 64, by rw [h1]; congr 1; omega, ?_, fun j hj => ?_⟩
        · rw [bit_cons, if_neg (by omega)]; simpa using h2
        · rw [bit_cons]
          split
          · rw [hz]; simp
          · exact h3 _ (by omega)

theorem firstFree_iff (l : List Bool) :
    (firstFree l = none → ∀ b ∈ l, b = false) ∧
    ∀ i, firstFree l = some i → l[i]? = some true ∧ ∀ j, j < i → l[j]? = some false := by
  induction l with
  | nil => simp [firstFree]
  | cons b l ih =>
    cases b with
    | true => simp [firstFree]
    | false =>
      simp only [firstFree]
      refine ⟨fun h b hb => ?_, fun i h => ?_⟩
      · rw [Option.map_eq_none_iff] at h
        rcases List.mem_cons.1 hb with rfl | hb
        · rfl
        · exact ih.1 h b hb
      · rw [Option.map_eq_some_iff] at h
        obtain ⟨k, hk, rfl⟩ := h
        obtain ⟨h1, h2⟩ := ih.2 k hk
        refine ⟨h1, fun j hj => ?_⟩
        cases j with
        | zero => rfl
        | succ j => exact h2 j (by omega)

/-- `slab_find_first_available_chunk_idx` returns the first free chunk, exactly when there is one. -/
theorem find_ok {n : Nat} {ws : List Word} (hv : Valid n ws) :
    findFirst ws 0 = firstFree (flags n ws) := by
  obtain ⟨f1, f2⟩ := firstFree_iff (flags n ws)
  rcases findFirst_spec ws 0 with ⟨h1, h2⟩ | ⟨i, h1, h2, h3⟩
  · rw [h1]
    cases hf : firstFree (flags n ws) with
    | none => rfl
    | some i =>
      have := (f2 i hf).1
      have hi : i < n := by
        by_contra hn
        rw [List.getElem?_eq_none (by rw [flags_length]; omega)] at this
        exact absurd this (by simp)
      rw [flags_get hi, h2] at this
      exact absurd this (by simp)
  · rw [h1, Nat.zero_mul, Nat.zero_add]
    have hi : i < n := by
      by_contra hn
      rw [hv.2 i (by omega)] at h2
      exact absurd h2 (by simp)
    cases hf : firstFree (flags n ws) with
    | none =>
      have := f1 hf (bit ws i) (List.mem_of_getElem? (flags_get hi))
      rw [h2] at this
      exact absurd this (by simp)
    | some j =>
      obtain ⟨g1, g2⟩ := f2 j hf
      congr 1
      rcases Nat.lt_trichotomy i j with h | h | h
      · have := g2 i h
        rw [flags_get hi, h2] at this
        exact absurd this (by simp)
      · exact h
      · rw [flags_get (by omega), h3 j h] at g1
        exact absurd g1 (by simp)

/-- A slab with 70 chunks. -/
example : Valid 70 (init 70) ∧ findFirst (setBit (init 70) 0 false) 0 = some 1 ∧
    readBit (setBit (init 70) 69 false) 69 = false :=
  ⟨(init_ok 70 (by decide)).1, by decide +kernel, by decide +kernel⟩

end Verif.Disjoint.Bitmap
