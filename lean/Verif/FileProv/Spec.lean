import Verif.FileProv.Model
/-!
# Specification for the file memory provider
-/
namespace Verif.FileProv
open Verif.Os (Cell FileRange)

/-- What the kernel guarantees about an `mmap` that succeeds: positive length, offset at a page boundary,
offsets below `2^63`; a page boundary where nothing is mapped, in the lower half of the address space. -/
def EnvOk (P : Nat) (mem : Nat → Cell) (env : Env) : Prop :=
  ∀ len off a, env.addr len off = some a → 0 < len ∧ P ∣ off ∧ off + len ≤ 2 ^ 63 ∧ P ∣ a ∧ 0 < a ∧
    a + len ≤ 2 ^ 63 ∧ ∀ x, a ≤ x → x < a + len → mem x = .unmapped

/-- Which histories are looked at: `odd`, sizes that are not multiples of the page size, but no
failing calls; `full`, host memory for the map of mappings. -/
structure Mode where
  odd : Bool
  full : Bool

/-- Histories of the callbacks of a file provider with the blocks `(address, size)` that `coarse` has
got. The alignments are at most the page size, and merged blocks are adjacent in the file too. The
restrictions are needed, see `Verif.FileProv.Props`. -/
inductive Reach (P : Nat) (m : Mode) (mem0 : Nat → Cell) : St → List (Nat × Nat) → Prop where
  | init : (∀ x o, mem0 x ≠ .file o) → Reach P m mem0 (initSt mem0) []
  | alloc {st live size al env st' p} : Reach P m mem0 st live → EnvOk P st.mem env → 0 < size →
      size < 2 ^ 64 → al ≤ P → (m.odd = false → P ∣ size) → (m.full = true → env.insM = true) →
      alloc P st size al env = (st', some p) → Reach P m mem0 st' ((p, size) :: live)
  | allocFail {st live size al env st'} : Reach P m mem0 st live → EnvOk P st.mem env → 0 < size →
      size < 2 ^ 64 → al ≤ P → m.odd = false → P ∣ size → (m.full = true → env.insM = true) →
      alloc P st size al env = (st', none) → Reach P m mem0 st' live
  | split {st l1 p n l2 first host st'} : Reach P m mem0 st (l1 ++ (p, n) :: l2) → 0 < first →
      first < n → split st p first host = (st', true) →
      Reach P m mem0 st' (l1 ++ (p, first) :: (p + first, n - first) :: l2)
  | splitFail {st live p first host st'} : Reach P m mem0 st live →
      split st p first host = (st', false) → Reach P m mem0 st' live
  | merge {st l1 p n q k l2 o st'} : Reach P m mem0 st (l1 ++ (p, n) :: (q, k) :: l2) → q = p + n →
      FileRange st.mem p n o → FileRange st.mem q k (o + n) → merge st q = (st', true) →
      Reach P m mem0 st' (l1 ++ (p, n + k) :: l2)
  | perm {st l1 l2} : Reach P m mem0 st l1 → l1.Perm l2 → Reach P m mem0 st l2

end Verif.FileProv
