/-! Vocabulary for stating the alignment properties, on plain natural numbers. -/
namespace Verif.Utils.Spec

/-- `r` is the least multiple of `a` that is at least `v`. -/
def LeastMultipleGE (a v r : Nat) : Prop :=
  a ∣ r ∧ v ≤ r ∧ ∀ m, a ∣ m → v ≤ m → r ≤ m

/-- `r` is the greatest multiple of `a` that is at most `v`. -/
def GreatestMultipleLE (a v r : Nat) : Prop :=
  a ∣ r ∧ r ≤ v ∧ ∀ m, a ∣ m → m ≤ v → m ≤ r

/-- The range `[p, p+s)` is inside `[q, q+t)`. -/
def Inside (p s q t : Nat) : Prop := q ≤ p ∧ p + s ≤ q + t

end Verif.Utils.Spec
