import Verif.Os.Model
/-!
# Specification for the OS memory provider

The kernel is the environment: `EnvOk` is what it guarantees. `Backed` says what a range of
addresses is backed by.
-/
namespace Verif.Os

/-- An `mmap` that succeeds has a positive length and, for a file, an offset at a page boundary; it
returns a page boundary where nothing is mapped, in the lower half of the address space. -/
def EnvOk (c : Cfg) (mem : Nat → Cell) (env : Env) : Prop :=
  ∀ len off a, env.addr len off = some a → 0 < len ∧ (c.fd = true → c.P ∣ off) ∧ c.P ∣ a ∧ 0 < a ∧
    a + roundUp c.P len ≤ 2 ^ 63 ∧ ∀ x, a ≤ x → x < a + roundUp c.P len → mem x = .unmapped

/-- The first page boundary at or after `x`. -/
def IsPageEnd (P x e : Nat) : Prop := P ∣ e ∧ x ≤ e ∧ e < x + P

/-- The bytes `[a, a + size)` are the bytes `[off, off + size)` of the file. -/
def FileRange (mem : Nat → Cell) (a size off : Nat) : Prop :=
  ∀ i, i < size → mem (a + i) = .file (off + i)

/-- The bytes `[a, a + size)` are mapped. -/
def Mapped (mem : Nat → Cell) (a size : Nat) : Prop := ∀ i, i < size → mem (a + i) ≠ .unmapped

/-- Histories of a provider with a file and its live allocations `(address, size)`. The
requests are such that no sum of a request exceeds 64 bits, no part of a new mapping is cut off
(the alignment is at most a page, or the kernel's address is aligned), the parts of a split consist
of whole pages, and merged allocations are adjacent in the file too. The restrictions are needed, see
`Verif.Os.Props`. -/
inductive Reach (c : Cfg) : St → List (Nat × Nat) → Prop where
  | init {mem} : (∀ x o, mem x ≠ .file o) → Reach c (initSt mem) []
  | alloc {st live size al env st' p} : Reach c st live → EnvOk c st.mem env → 0 < size →
      st.sizeFd + size + al < 2 ^ 64 →
      (c.P < al → ∀ len off a, env.addr len off = some a → al ∣ a) →
      alloc c st size al env = (st', some p) → Reach c st' ((p, size) :: live)
  | allocFail {st live size al env st'} : Reach c st live → EnvOk c st.mem env → 0 < size →
      st.sizeFd + size + al < 2 ^ 64 →
      alloc c st size al env = (st', none) → Reach c st' live
  | free {st l1 a l2 st' r} : Reach c st (l1 ++ a :: l2) → free c st a.1 a.2 = (st', r) →
      Reach c st' (l1 ++ l2)
  | split {st l1 p n l2 first host st'} : Reach c st (l1 ++ (p, n) :: l2) → 0 < first → first < n →
      c.P ∣ first → split c st p first host = (st', true) →
      Reach c st' (l1 ++ (p, first) :: (p + first, n - first) :: l2)
  | splitFail {st live p first host st'} : Reach c st live → split c st p first host = (st', false) →
      Reach c st' live
  | merge {st l1 p n q m l2 o st'} : Reach c st (l1 ++ (p, n) :: (q, m) :: l2) → q = p + n →
      FileRange st.mem p n o → FileRange st.mem q m (o + n) → merge c st q = (st', true) →
      Reach c st' (l1 ++ (p, n + m) :: l2)
  | perm {st l1 l2} : Reach c st l1 → l1.Perm l2 → Reach c st l2

end Verif.Os
