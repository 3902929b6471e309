import Verif.Gpu.Msg

/-! # What is claimed of the native error messages -/
namespace Verif.Gpu.Msg

/-- The string that a C program reads from a buffer. -/
def Reads (buf s : Bytes) : Prop := (∀ c ∈ s, c ≠ 0) ∧ ∃ rest, buf = s ++ 0 :: rest

/-- A string of C has no zero in it. -/
def IsStr (s : Option Bytes) : Prop := ∀ n, s = some n → ∀ c ∈ n, c ≠ 0

/-- The message for a name and a text of the driver: both, joined, as far as they fit in a buffer of 1024 characters. -/
def Message (name text : Option Bytes) : Bytes :=
  (name.getD (lit "cuGetErrorName() failed") ++ lit " - " ++ text.getD (lit "cuGetErrorString() failed")).take 1023

end Verif.Gpu.Msg
