import Verif.Coarse.Model
/-! List-level lemmas for the coarse model: what the tree operations do at a given block. -/
set_option linter.unusedSimpArgs false
namespace Verif.Coarse

/-- Blocks in strictly increasing address order. -/
def SortedD (l : List Block) : Prop := l.Pairwise fun a b => a.data < b.data

theorem sortedD_mid {pre post : List Block} {b : Block} (h : SortedD (pre ++ b :: post)) :
    (∀ x ∈ pre, x.data < b.data) ∧ (∀ x ∈ post, b.data < x.data) ∧ SortedD (pre ++ post) := by
  unfold SortedD at *
  rw [List.pairwise_append, List.pairwise_cons] at h
  refine ⟨fun x hx => h.2.2 x hx b (by simp), h.2.1.1, ?_⟩
  rw [List.pairwise_append]
  exact ⟨h.1, h.2.1.2, fun a ha c hc => h.2.2 a ha c (by simp [hc])⟩

theorem lookup_mid {pre post : List Block} {b : Block} (h : SortedD (pre ++ b :: post)) :
    lookup b.data (pre ++ b :: post) = some b := by
  obtain ⟨h1, _, _⟩ := sortedD_mid h
  unfold lookup
  rw [List.find?_append]
  have : pre.find? (fun x => x.data == b.data) = none := by
    rw [List.find?_eq_none]
    intro x hx
    have := h1 x hx
    simp; omega
  simp [this]

theorem map_unchanged {pre : List Block} {d : Nat} {f : Block → Block}
    (h : ∀ x ∈ pre, x.data ≠ d) : modify d f pre = pre := by
  unfold modify
  conv => rhs; rw [← List.map_id pre]
  apply List.map_congr_left
  intro x hx
  simp [h x hx]

theorem modify_append (d : Nat) (f : Block → Block) (a b : List Block) :
    modify d f (a ++ b) = modify d f a ++ modify d f b := by
  simp [modify]

theorem modify_cons_eq (f : Block → Block) (b : Block) (l : List Block) :
    modify b.data f (b :: l) = f b :: modify b.data f l := by
  simp [modify]

theorem modify_mid {pre post : List Block} {b : Block} (f : Block → Block)
    (h : SortedD (pre ++ b :: post)) :
    modify b.data f (pre ++ b :: post) = pre ++ f b :: post := by
  obtain ⟨h1, h2, _⟩ := sortedD_mid h
  rw [modify_append, modify_cons_eq, map_unchanged, map_unchanged]
  · intro x hx; have := h2 x hx; omega
  · intro x hx; have := h1 x hx; omega

theorem removeBlock_mid {pre post : List Block} {b : Block}
    (h : SortedD (pre ++ b :: post)) :
    removeBlock b.data (pre ++ b :: post) = pre ++ post := by
  obtain ⟨h1, h2, _⟩ := sortedD_mid h
  unfold removeBlock
  rw [List.filter_append, List.filter_cons]
  rw [List.filter_eq_self.2, List.filter_eq_self.2]
  · simp
  · intro x hx; have := h2 x hx; simp; omega
  · intro x hx; have := h1 x hx; simp; omega

theorem prevOf_mid {pre post : List Block} {b : Block} (h : SortedD (pre ++ b :: post)) :
    prevOf b.data (pre ++ b :: post) = pre.getLast? := by
  obtain ⟨h1, h2, _⟩ := sortedD_mid h
  unfold prevOf
  rw [List.filter_append, List.filter_cons]
  rw [List.filter_eq_self.2, List.filter_eq_nil_iff.2]
  · simp
  · intro x hx; have := h2 x hx; simp; omega
  · intro x hx; have := h1 x hx; simp; omega

theorem nextOf_mid {pre post : List Block} {b : Block} (h : SortedD (pre ++ b :: post)) :
    nextOf b.data (pre ++ b :: post) = post.head? := by
  obtain ⟨h1, h2, _⟩ := sortedD_mid h
  unfold nextOf
  rw [List.find?_append]
  have : pre.find? (fun x => b.data < x.data) = none := by
    rw [List.find?_eq_none]
    intro x hx
    have := h1 x hx
    simp; omega
  rw [this]
  cases post with
  | nil => simp
  | cons q post => have := h2 q (by simp); simp [this]

theorem lookup_some {d : Nat} {l : List Block} {b : Block} (h : lookup d l = some b) :
    ∃ pre post, l = pre ++ b :: post ∧ b.data = d := by
  unfold lookup at h
  have h1 := List.find?_some h
  rw [List.find?_eq_some_iff_append] at h
  obtain ⟨_, as, bs, hab, _⟩ := h
  exact ⟨as, bs, hab, by simpa using h1⟩

theorem lookup_none {d : Nat} {l : List Block} (h : lookup d l = none) :
    ∀ b ∈ l, b.data ≠ d := by
  intro b hb
  have := List.find?_eq_none.1 h b hb
  simpa using this

theorem lookup_of_mem {l : List Block} {b : Block} (hs : SortedD l) (hb : b ∈ l) :
    lookup b.data l = some b := by
  obtain ⟨pre, post, rfl⟩ := List.append_of_mem hb
  exact lookup_mid hs

theorem insertBlock_spec (n : Block) (l : List Block) (hs : SortedD l) :
    match insertBlock n l with
    | none => ∃ b ∈ l, b.data = n.data
    | some l' => ∃ pre post, l = pre ++ post ∧ l' = pre ++ n :: post ∧
        (∀ x ∈ pre, x.data < n.data) ∧ (∀ x ∈ post, n.data < x.data) := by
  induction l with
  | nil => exact ⟨[], [], rfl, rfl, by simp, by simp⟩
  | cons b l ih =>
    unfold SortedD at hs
    rw [List.pairwise_cons] at hs
    unfold insertBlock
    by_cases h1 : n.data < b.data
    · rw [if_pos h1]
      refine ⟨[], b :: l, rfl, rfl, by simp, ?_⟩
      intro x hx
      rw [List.mem_cons] at hx
      rcases hx with rfl | hx
      · exact h1
      · have := hs.1 x hx; omega
    · rw [if_neg h1]
      by_cases h2 : n.data = b.data
      · rw [if_pos h2]; exact ⟨b, by simp, h2.symm⟩
      · rw [if_neg h2]
        have := ih hs.2
        cases hi : insertBlock n l with
        | none =>
          rw [hi] at this
          obtain ⟨x, hx, he⟩ := this
          exact ⟨x, by simp [hx], he⟩
        | some l' =>
          rw [hi] at this
          obtain ⟨pre, post, rfl, rfl, h3, h4⟩ := this
          refine ⟨b :: pre, post, rfl, rfl, ?_, h4⟩
          intro x hx
          rw [List.mem_cons] at hx
          rcases hx with rfl | hx
          · omega
          · exact h3 x hx

theorem insertBlock_after {pre post : List Block} {b n : Block}
    (h : SortedD (pre ++ b :: post)) (h1 : b.data < n.data) (h2 : ∀ x ∈ post, n.data < x.data) :
    insertBlock n (pre ++ b :: post) = some (pre ++ b :: n :: post) := by
  induction pre with
  | nil =>
    simp only [List.nil_append, insertBlock]
    rw [if_neg (by omega), if_neg (by omega)]
    cases post with
    | nil => rfl
    | cons q post =>
      have := h2 q (by simp)
      simp only [insertBlock]
      rw [if_pos this]; rfl
  | cons p pre ih =>
    have h' := h
    unfold SortedD at h'
    simp only [List.cons_append, List.pairwise_cons] at h'
    have := h'.1 b (by simp)
    simp only [List.cons_append, insertBlock]
    rw [if_neg (by omega), if_neg (by omega), ih h'.2]
    rfl

theorem sortedD_insert {pre post : List Block} {n : Block} (h : SortedD (pre ++ post))
    (h1 : ∀ x ∈ pre, x.data < n.data) (h2 : ∀ x ∈ post, n.data < x.data) :
    SortedD (pre ++ n :: post) := by
  unfold SortedD at *
  rw [List.pairwise_append] at h
  rw [List.pairwise_append, List.pairwise_cons]
  refine ⟨h.1, ⟨h2, h.2.1⟩, ?_⟩
  intro a ha b hb
  rw [List.mem_cons] at hb
  rcases hb with rfl | hb
  · exact h1 a ha
  · exact h.2.2 a ha b hb

/-- Replacing a block by one at the same address keeps the order. -/
theorem sortedD_replace {pre post : List Block} {b c : Block} (h : SortedD (pre ++ b :: post))
    (hd : c.data = b.data) : SortedD (pre ++ c :: post) := by
  obtain ⟨h1, h2, h3⟩ := sortedD_mid h
  exact sortedD_insert h3 (by simpa [hd] using h1) (by simpa [hd] using h2)

/-- `(size, address)` of the blocks that are on a free list. -/
def keys (l : List Block) : List (Nat × Nat) :=
  (l.filter (·.listed)).map fun b => (b.size, b.data)

/-- `(address, size)` of the blocks in use. -/
def usedOf (l : List Block) : List (Nat × Nat) :=
  (l.filter (·.used)).map fun b => (b.data, b.size)

/-- Sum of all block sizes. -/
def total (l : List Block) : Nat := (l.map (·.size)).sum

/-- Sum of the sizes of the used blocks. -/
def usedTotal (l : List Block) : Nat := ((usedOf l).map (·.2)).sum

/-- Bytes covered by the blocks. -/
def Cover (l : List Block) (x : Nat) : Prop := ∃ b ∈ l, b.data ≤ x ∧ x < b.data + b.size

@[simp] theorem keys_append (a b : List Block) : keys (a ++ b) = keys a ++ keys b := by
  simp [keys]
@[simp] theorem keys_cons (b : Block) (l : List Block) :
    keys (b :: l) = (if b.listed then [(b.size, b.data)] else []) ++ keys l := by
  unfold keys; rw [List.filter_cons]; split <;> simp
@[simp] theorem keys_nil : keys [] = [] := rfl
@[simp] theorem usedOf_append (a b : List Block) : usedOf (a ++ b) = usedOf a ++ usedOf b := by
  simp [usedOf]
@[simp] theorem usedOf_cons (b : Block) (l : List Block) :
    usedOf (b :: l) = (if b.used then [(b.data, b.size)] else []) ++ usedOf l := by
  unfold usedOf; rw [List.filter_cons]; split <;> simp
@[simp] theorem usedOf_nil : usedOf [] = [] := rfl
@[simp] theorem total_append (a b : List Block) : total (a ++ b) = total a + total b := by
  simp [total]
@[simp] theorem total_cons (b : Block) (l : List Block) : total (b :: l) = b.size + total l := by
  simp [total]
@[simp] theorem total_nil : total [] = 0 := rfl
theorem cover_append (a b : List Block) (x : Nat) : Cover (a ++ b) x ↔ Cover a x ∨ Cover b x := by
  simp only [Cover, List.mem_append]
  constructor
  · rintro ⟨c, h | h, h'⟩
    · exact Or.inl ⟨c, h, h'⟩
    · exact Or.inr ⟨c, h, h'⟩
  · rintro (⟨c, h, h'⟩ | ⟨c, h, h'⟩)
    · exact ⟨c, Or.inl h, h'⟩
    · exact ⟨c, Or.inr h, h'⟩
theorem cover_cons (b : Block) (l : List Block) (x : Nat) :
    Cover (b :: l) x ↔ (b.data ≤ x ∧ x < b.data + b.size) ∨ Cover l x := by
  simp [Cover]

/-- Erasing the middle entry. -/
theorem perm_erase_mid {f A B : List (Nat × Nat)} {k : Nat × Nat} (h : f.Perm (A ++ k :: B)) :
    (f.erase k).Perm (A ++ B) := by
  have h1 : f.Perm (k :: (A ++ B)) := h.trans List.perm_middle
  have h2 := h1.erase k
  rwa [List.erase_cons_head] at h2

end Verif.Coarse
