/-! # Byte ranges: the common vocabulary of the specifications -/
namespace Verif.Mem

/-- A byte range: first address and size. -/
abbrev Region := Nat × Nat

/-- Byte `x` is in the range. -/
def Has (r : Region) (x : Nat) : Prop := r.1 ≤ x ∧ x < r.1 + r.2

/-- The ranges share no byte. -/
def Disjoint (r s : Region) : Prop := ∀ x, ¬ (Has r x ∧ Has s x)

/-- Every byte of `r` is a byte of `s`. -/
def Inside (r s : Region) : Prop := ∀ x, Has r x → Has s x

theorem disjoint_of {r s : Region} (h : r.1 + r.2 ≤ s.1 ∨ s.1 + s.2 ≤ r.1) : Disjoint r s := by
  rintro x ⟨⟨h1, h2⟩, h3, h4⟩; omega

theorem Disjoint.symm {r s : Region} (h : Disjoint r s) : Disjoint s r := fun x hx => h x hx.symm

theorem disjoint_cases {r s : Region} (h : Disjoint r s) (hr : 0 < r.2) (hs : 0 < s.2) :
    r.1 + r.2 ≤ s.1 ∨ s.1 + s.2 ≤ r.1 := by
  rcases Nat.lt_or_ge s.1 (r.1 + r.2) with h1 | h1
  · rcases Nat.lt_or_ge r.1 (s.1 + s.2) with h2 | h2
    · exfalso
      rcases Nat.le_total r.1 s.1 with h3 | h3
      · exact h s.1 ⟨⟨h3, h1⟩, Nat.le_refl _, by omega⟩
      · exact h r.1 ⟨⟨Nat.le_refl _, by omega⟩, h3, h2⟩
    · exact Or.inr h2
  · exact Or.inl h1

theorem inside_of {r s : Region} (h1 : s.1 ≤ r.1) (h2 : r.1 + r.2 ≤ s.1 + s.2) : Inside r s := by
  rintro x ⟨h3, h4⟩; exact ⟨by omega, by omega⟩

theorem disjoint_of_inside {r s r' s' : Region} (h : Disjoint r' s') (hr : Inside r r')
    (hs : Inside s s') : Disjoint r s := fun x hx => h x ⟨hr x hx.1, hs x hx.2⟩

end Verif.Mem
