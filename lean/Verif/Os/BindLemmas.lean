import Verif.Os.BindSpec
import Verif.Os.Lemmas
/-! # The invariants of the binding loops -/
namespace Verif.Os

theorem before_succ {parts : List Part} {j : Nat} (h : j < parts.length) :
    before parts (j + 1) = before parts j + parts[j].weight := by
  unfold before
  rw [List.take_succ_eq_append_getElem h, List.map_append, List.sum_append]
  simp only [List.map_cons, List.map_nil, List.sum_cons, List.sum_nil, Nat.add_zero]

theorem before_zero (parts : List Part) : before parts 0 = 0 := rfl

theorem before_len {parts : List Part} {j : Nat} (h : parts.length ≤ j) :
    before parts j = weightSum parts := by
  unfold before weightSum
  rw [List.take_of_length_le h]

theorem before_mono {parts : List Part} {i j : Nat} (h : i ≤ j) : before parts i ≤ before parts j := by
  induction j with
  | zero => rw [Nat.le_zero.1 h]
  | succ j ih =>
    by_cases he : i = j + 1
    · rw [he]
    · have := ih (by omega)
      by_cases hj : j < parts.length
      · rw [before_succ hj]; omega
      · rw [before_len (j := j + 1) (by omega), ← before_len (j := j) (by omega)]; omega

theorem before_le (parts : List Part) (j : Nat) : before parts j ≤ weightSum parts := by
  by_cases h : j ≤ parts.length
  · rw [← before_len (Nat.le_refl _)]; exact before_mono h
  · rw [before_len (by omega)]

structure Good (parts : List Part) (n : Nat) : Prop where
  pos : ∀ p ∈ parts, 0 < p.weight
  npos : 0 < n
  fits : ∀ p ∈ parts, n * p.weight < W
  sum : 2 * weightSum parts ≤ W
  ne : parts ≠ []

theorem Good.sumPos {parts : List Part} {n : Nat} (h : Good parts n) : 0 < weightSum parts := by
  cases parts with
  | nil => exact absurd rfl h.ne
  | cons p ps =>
    have := h.pos p List.mem_cons_self
    unfold weightSum
    simp
    omega

/-- What the loop of `nextBind` finds. `p` pages have been bound. -/
theorem bindStep_spec {parts : List Part} {n p : Nat} (hg : Good parts n) (hp : p < n) :
    ∀ (l : List Part) (k r : Nat) (acc : List Nat), l = parts.drop k →
      p * weightSum parts + r = n * before parts k → r < weightSum parts →
      ∃ k' bind r' acc', bindStep (weightSum parts) n l k r acc = some (k', bind, r', acc') ∧
        k ≤ k' ∧ k' < parts.length ∧ 0 < bind ∧ r' < weightSum parts ∧
        (p + bind) * weightSum parts + r' = n * before parts (k' + 1) ∧
        p * weightSum parts ≤ n * before parts k' ∧
        n * before parts k' < (p + 1) * weightSum parts ∧
        (∀ i, k ≤ i → i ≤ k' → r = 0 → p * weightSum parts < n * before parts (i + 1)) ∧
        ∀ t, t ∈ acc' ↔ t ∈ acc ∨ ∃ i, k ≤ i ∧ i ≤ k' ∧ (parts[i]?).map Part.target = some t := by
  intro l
  have hs := hg.sumPos
  induction l with
  | nil =>
    intro k r acc hl he hr
    exfalso
    have hk : parts.length ≤ k := List.drop_eq_nil_iff.1 hl.symm
    rw [before_len hk] at he
    have : (p + 1) * weightSum parts ≤ n * weightSum parts := Nat.mul_le_mul_right _ hp
    rw [Nat.add_mul] at this
    omega
  | cons a l ih =>
    intro k r acc hl he hr
    have hk : k < parts.length := by
      by_contra hn
      rw [List.drop_eq_nil_iff.2 (by omega)] at hl
      cases hl
    rw [List.drop_eq_getElem_cons hk] at hl
    obtain ⟨ha, hl'⟩ := List.cons.inj hl
    have hmem : a ∈ parts := ha ▸ List.getElem_mem hk
    have hw := hg.pos a hmem
    have hfit := hg.fits a hmem
    have hsum := hg.sum
    have hb := before_succ hk
    rw [← ha] at hb
    have hget : (parts[k]?).map Part.target = some a.target := by
      rw [List.getElem?_eq_getElem hk, ha]; rfl
    have hnb : n * before parts (k + 1) = n * before parts k + n * a.weight := by
      rw [hb, Nat.mul_add]
    have hdm := Nat.div_add_mod (n * a.weight) (weightSum parts)
    have hml := Nat.mod_lt (n * a.weight) hs
    have hpos : 0 < n * a.weight := Nat.mul_pos hg.npos hw
    unfold bindStep
    simp only
    rw [Nat.mod_eq_of_lt hfit]
    generalize hq : n * a.weight / weightSum parts = q at *
    generalize hm : n * a.weight % weightSum parts = m at *
    rw [Nat.mod_eq_of_lt (by omega)]
    -- the number of pages and the rest
    obtain ⟨bind, rest, hbr, hrl, hval⟩ : ∃ bind rest,
        (if weightSum parts ≤ r + m then (q + 1, r + m - weightSum parts) else (q, r + m)) = (bind, rest) ∧
        rest < weightSum parts ∧ bind * weightSum parts + rest = r + n * a.weight := by
      split
      · refine ⟨_, _, rfl, by omega, ?_⟩
        rw [Nat.add_mul, Nat.mul_comm q]; omega
      · refine ⟨_, _, rfl, by omega, ?_⟩
        rw [Nat.mul_comm q]; omega
    rw [hbr]
    simp only
    by_cases h0 : bind = 0
    · rw [if_pos h0]
      subst h0
      obtain ⟨k', bind', r', acc', e1, e2, e3, e4, e5, e6, e7, e8, e9, e10⟩ :=
        ih (k + 1) rest (acc ++ [a.target]) hl' (by omega) hrl
      refine ⟨k', bind', r', acc', e1, by omega, e3, e4, e5, e6, e7, e8, ?_, ?_⟩
      · intro i h1 h2 hr0
        have : n * before parts (k + 1) ≤ n * before parts (i + 1) :=
          Nat.mul_le_mul_left _ (before_mono (by omega))
        omega
      · intro t
        rw [e10]
        simp only [List.mem_append, List.mem_singleton]
        constructor
        · rintro ((h | h) | ⟨i, h1, h2, h3⟩)
          · exact Or.inl h
          · exact Or.inr ⟨k, by omega, by omega, by rw [hget, h]⟩
          · exact Or.inr ⟨i, by omega, h2, h3⟩
        · rintro (h | ⟨i, h1, h2, h3⟩)
          · exact Or.inl (Or.inl h)
          · by_cases hik : i = k
            · subst hik
              rw [hget] at h3
              exact Or.inl (Or.inr (Option.some.inj h3).symm)
            · exact Or.inr ⟨i, by omega, h2, h3⟩
    · rw [if_neg h0]
      refine ⟨k, bind, rest, acc ++ [a.target], rfl, Nat.le_refl _, hk, by omega, hrl, ?_, by omega, ?_, ?_, ?_⟩
      · rw [Nat.add_mul]; omega
      · rw [Nat.add_mul]; omega
      · intro i h1 h2 hr0
        have : i = k := by omega
        subst this
        omega
      · intro t
        simp only [List.mem_append, List.mem_singleton]
        constructor
        · rintro (h | h)
          · exact Or.inl h
          · exact Or.inr ⟨k, Nat.le_refl _, Nat.le_refl _, by rw [hget, h]⟩
        · rintro (h | ⟨i, h1, h2, h3⟩)
          · exact Or.inl h
          · have : i = k := by omega
            subst this
            rw [hget] at h3
            exact Or.inr (Option.some.inj h3).symm

/-- The state of the iterator when `p` pages have been bound. -/
def Ready (parts : List Part) (n p : Nat) (b : It) : Prop :=
  (b.rest = 0 ∧ b.left = 0 ∧ p * weightSum parts = n * before parts b.node) ∨
  (b.node < parts.length ∧ b.rest < weightSum parts ∧ (b.left ≠ 0 ∨ b.rest ≠ 0) ∧
    (p + b.left) * weightSum parts + b.rest = n * before parts (b.node + 1) ∧
    n * before parts b.node ≤ p * weightSum parts)

/-- The bitmap of the iterator is right for the pages `[p, q)`. -/
def SetOk (parts : List Part) (n p q : Nat) (set : List Nat) : Prop :=
  ∀ x, p ≤ x → x < q → ∀ t, t ∈ set ↔ ∃ j, Overlaps parts n x j ∧ (parts[j]?).map Part.target = some t

/-- A run of pages that lies within the share of one partition. -/
theorem setOk_one {parts : List Part} {n p q j : Nat} (hj : j < parts.length) (hs : 0 < weightSum parts)
    (h1 : n * before parts j ≤ p * weightSum parts)
    (h2 : q * weightSum parts ≤ n * before parts (j + 1)) :
    SetOk parts n p q ((parts[j]?).map Part.target).toList := by
  intro x hx1 hx2 t
  have a1 : p * weightSum parts ≤ x * weightSum parts := Nat.mul_le_mul_right _ hx1
  have a2 : (x + 1) * weightSum parts ≤ q * weightSum parts := Nat.mul_le_mul_right _ hx2
  have a3 : (x + 1) * weightSum parts = x * weightSum parts + weightSum parts := by
    rw [Nat.add_mul]; omega
  rw [Option.mem_toList]
  constructor
  · intro h
    exact ⟨j, ⟨hj, by omega, by omega⟩, h⟩
  · rintro ⟨i, ⟨b1, b2, b3⟩, h⟩
    have : i = j := by
      by_contra hne
      by_cases hlt : i < j
      · have : n * before parts (i + 1) ≤ n * before parts j := Nat.mul_le_mul_left _ (before_mono hlt)
        omega
      · have : n * before parts (j + 1) ≤ n * before parts i :=
          Nat.mul_le_mul_left _ (before_mono (by omega))
        omega
    subst this
    exact h

/-- A page that is shared by the partitions from `j` to `k`. -/
theorem setOk_border {parts : List Part} {n p j k : Nat} {set : List Nat} (hk : k < parts.length)
    (h1 : n * before parts j ≤ p * weightSum parts) (h2 : p * weightSum parts < n * before parts (j + 1))
    (h3 : n * before parts k < (p + 1) * weightSum parts)
    (h4 : (p + 1) * weightSum parts ≤ n * before parts (k + 1))
    (hset : ∀ t, t ∈ set ↔ ∃ i, j ≤ i ∧ i ≤ k ∧ (parts[i]?).map Part.target = some t) :
    SetOk parts n p (p + 1) set := by
  intro x hx1 hx2 t
  have : x = p := by omega
  subst this
  rw [hset]
  constructor
  · rintro ⟨i, a1, a2, a3⟩
    have b1 : n * before parts i ≤ n * before parts k := Nat.mul_le_mul_left _ (before_mono a2)
    have b2 : n * before parts (j + 1) ≤ n * before parts (i + 1) :=
      Nat.mul_le_mul_left _ (before_mono (by omega))
    exact ⟨i, ⟨by omega, by omega, by omega⟩, a3⟩
  · rintro ⟨i, ⟨b1, b2, b3⟩, h⟩
    refine ⟨i, ?_, ?_, h⟩
    · by_contra hn
      have : n * before parts (i + 1) ≤ n * before parts j :=
        Nat.mul_le_mul_left _ (before_mono (by omega))
      omega
    · by_contra hn
      have : n * before parts (k + 1) ≤ n * before parts i :=
        Nat.mul_le_mul_left _ (before_mono (by omega))
      omega

/-- One step of the iterator. -/
theorem nextBind_spec {parts : List Part} {n p P : Nat} (hg : Good parts n) (hp : p < n)
    (hw : n * P < W) {b : It} (hb : Ready parts n p b) :
    ∃ b' c, nextBind parts n P b = some b' ∧ 0 < c ∧ p + c ≤ n ∧ b'.size = c * P ∧
      Ready parts n (p + c) b' ∧ SetOk parts n p (p + c) b'.set := by
  have hs := hg.sumPos
  have hnode : b.node < parts.length := by
    rcases hb with ⟨-, -, h3⟩ | ⟨h, -⟩
    · by_contra hn
      rw [before_len (by omega)] at h3
      have : (p + 1) * weightSum parts ≤ n * weightSum parts := Nat.mul_le_mul_right _ hp
      rw [Nat.add_mul] at this
      omega
    · exact h
  have hcap : ∀ c k, (p + c) * weightSum parts ≤ n * before parts k → p + c ≤ n := by
    intro c k h
    have h2 : n * before parts k ≤ n * weightSum parts := Nat.mul_le_mul_left _ (before_le _ _)
    exact Nat.le_of_mul_le_mul_right (Nat.le_trans h h2) hs
  have hsize : ∀ c, p + c ≤ n → P * c % W = c * P := by
    intro c hc
    have : c * P ≤ n * P := Nat.mul_le_mul_right _ (by omega)
    rw [Nat.mul_comm P c, Nat.mod_eq_of_lt (by omega)]
  unfold nextBind
  rw [if_neg (by omega)]
  by_cases hl : b.left ≠ 0
  · rw [if_pos hl]
    rcases hb with ⟨-, h2, -⟩ | ⟨h1, h2, h3, h4, h5⟩
    · exact absurd h2 hl
    have hc := hcap b.left (b.node + 1) (by omega)
    refine ⟨_, b.left, rfl, by omega, hc, hsize _ hc, ?_, ?_⟩
    · by_cases hr : b.rest = 0
      · left
        refine ⟨hr, rfl, ?_⟩
        simp only [hr, if_true]
        omega
      · right
        simp only [hr, if_false]
        refine ⟨h1, h2, Or.inr hr, by simpa using h4, ?_⟩
        have : p * weightSum parts ≤ (p + b.left) * weightSum parts :=
          Nat.mul_le_mul_right _ (by omega)
        omega
    · exact setOk_one h1 hs h5 (by omega)
  · rw [if_neg hl]
    have hl0 : b.left = 0 := by omega
    simp only
    by_cases hr : b.rest = 0
    · -- a new partition begins at a page
      have he : p * weightSum parts = n * before parts b.node := by
        rcases hb with ⟨-, -, h⟩ | ⟨-, -, h, -⟩
        · exact h
        · omega
      simp only [hr, ne_eq, not_true_eq_false, if_false, false_or]
      obtain ⟨k', bind, r', acc', e1, e2, e3, e4, e5, e6, e7, e8, e9, e10⟩ :=
        bindStep_spec hg hp (parts.drop b.node) b.node 0 [] rfl (by omega) hs
      rw [e1]
      simp only
      by_cases hk : k' = b.node
      · subst hk
        have hc := hcap bind (b.node + 1) (by omega)
        simp only [not_true_eq_false, if_false]
        refine ⟨_, bind, rfl, e4, hc, hsize _ hc, ?_, ?_⟩
        · by_cases hr' : r' = 0
          · left
            refine ⟨hr', rfl, ?_⟩
            simp only [hr', and_self, if_true]
            omega
          · right
            simp only [hr', false_and, if_false]
            refine ⟨hnode, e5, Or.inr hr', by simpa using e6, ?_⟩
            have : p * weightSum parts ≤ (p + bind) * weightSum parts :=
              Nat.mul_le_mul_right _ (by omega)
            omega
        · simp only
          have hset : SetOk parts n p (p + bind) ((parts[b.node]?).map Part.target).toList :=
            setOk_one hnode hs (by omega) (by omega)
          intro x h1 h2 t
          rw [← hset x h1 h2 t, e10]
          simp only [List.not_mem_nil, false_or, Option.mem_toList]
          constructor
          · rintro ⟨i, i1, i2, i3⟩
            have : i = b.node := by omega
            subst this
            exact i3
          · intro h
            exact ⟨b.node, Nat.le_refl _, Nat.le_refl _, h⟩
      · simp only [hk, not_false_eq_true, if_true]
        refine ⟨_, 1, rfl, by omega, by omega, by simp, ?_, ?_⟩
        · by_cases hr' : r' = 0 ∧ bind - 1 = 0
          · left
            refine ⟨hr'.1, hr'.2, ?_⟩
            simp only [hr', and_self, if_true]
            have : bind = 1 := by omega
            subst this
            omega
          · right
            simp only [hr', if_false]
            refine ⟨e3, e5, by omega, ?_, by omega⟩
            rw [show p + 1 + (bind - 1) = p + bind by omega]
            exact e6
        · simp only
          have h1b : (p + 1) * weightSum parts ≤ (p + bind) * weightSum parts :=
            Nat.mul_le_mul_right _ (by omega)
          refine setOk_border (j := b.node) e3 (by omega) (e9 _ (Nat.le_refl _) e2 rfl) e8 (by omega) ?_
          intro t
          rw [e10]
          simp
    · -- the next page is shared with the current partition
      obtain ⟨h1, h2, h3, h4, h5⟩ : b.node < parts.length ∧ b.rest < weightSum parts ∧
          (b.left ≠ 0 ∨ b.rest ≠ 0) ∧
          (p + b.left) * weightSum parts + b.rest = n * before parts (b.node + 1) ∧
          n * before parts b.node ≤ p * weightSum parts := by
        rcases hb with ⟨h, -, -⟩ | h
        · exact absurd h hr
        · exact h
      rw [hl0, Nat.add_zero] at h4
      simp only [hr, ne_eq, not_false_eq_true, if_true, true_or]
      obtain ⟨k', bind, r', acc', e1, e2, e3, e4, e5, e6, e7, e8, e9, e10⟩ :=
        bindStep_spec hg hp (parts.drop (b.node + 1)) (b.node + 1) b.rest
          ((parts[b.node]?).map Part.target).toList rfl h4 h2
      rw [e1]
      simp only
      refine ⟨_, 1, rfl, by omega, by omega, by simp, ?_, ?_⟩
      · by_cases hr' : r' = 0 ∧ bind - 1 = 0
        · left
          refine ⟨hr'.1, hr'.2, ?_⟩
          simp only [hr', and_self, if_true]
          have : bind = 1 := by omega
          subst this
          omega
        · right
          simp only [hr', if_false]
          refine ⟨e3, e5, by omega, ?_, by omega⟩
          rw [show p + 1 + (bind - 1) = p + bind by omega]
          exact e6
      · simp only
        have h1b : (p + 1) * weightSum parts ≤ (p + bind) * weightSum parts :=
          Nat.mul_le_mul_right _ (by omega)
        refine setOk_border (j := b.node) e3 h5 (by omega) e8 (by omega) ?_
        intro t
        rw [e10, Option.mem_toList]
        constructor
        · rintro (h | ⟨i, i1, i2, i3⟩)
          · exact ⟨b.node, Nat.le_refl _, by omega, h⟩
          · exact ⟨i, by omega, i2, i3⟩
        · rintro ⟨i, i1, i2, i3⟩
          by_cases hi : i = b.node
          · subst hi; exact Or.inl i3
          · exact Or.inr ⟨i, by omega, i2, i3⟩

end Verif.Os
