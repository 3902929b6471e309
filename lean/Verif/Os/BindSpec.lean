import Verif.Os.BindModel
/-!
# Specification of the NUMA binding
-/
namespace Verif.Os

/-- The bindings follow each other without a gap and without an overlap, from `lo` to `hi`, and none
is empty. -/
def Tiles {α : Type} : List (Bind α) → Nat → Nat → Prop
  | [], lo, hi => lo = hi
  | b :: bs, lo, hi => b.addr = lo ∧ 0 < b.size ∧ Tiles bs (lo + b.size) hi

/-- The sum of the weights of the partitions before number `j`. -/
def before (parts : List Part) (j : Nat) : Nat := ((parts.take j).map Part.weight).sum

/-- Of an allocation of `n` pages, partition `j` is due the bytes from the fraction
`before j / total` to the fraction `before (j + 1) / total`. This says, multiplied out, that this
share has a part of page `q`: it begins before the page ends and ends after the page begins. -/
def Overlaps (parts : List Part) (n q j : Nat) : Prop :=
  j < parts.length ∧ n * before parts j < (q + 1) * weightSum parts ∧
    q * weightSum parts < n * before parts (j + 1)

end Verif.Os
