import Verif.Coarse.Model
/-!
# What a client of a coarse-backed provider can know

The client keeps two books, updated only from the calls it makes and the answers it gets:
`live`, the allocations it holds, and `grants`, the memory the provider was given (by the
client through `addFixed`, or by upstream during an allocation). The properties C01-C07 relate
these books to what the provider answers.
-/
namespace Verif.Coarse.Spec

/-- A byte range: first address and size. -/
abbrev Region := Nat × Nat

/-- Byte `x` is in the range. -/
def Has (r : Region) (x : Nat) : Prop := r.1 ≤ x ∧ x < r.1 + r.2

/-- Byte `x` is in one of the ranges. -/
def HasAny (rs : List Region) (x : Nat) : Prop := ∃ r ∈ rs, Has r x

/-- The ranges share no byte. -/
def Disjoint (r s : Region) : Prop := ∀ x, ¬ (Has r x ∧ Has s x)

/-- Number of bytes. -/
def bytes (rs : List Region) : Nat := (rs.map (·.2)).sum

/-- The client's allocations after a call: only a successful call changes them. -/
def liveAfter (live : List Region) (op : Op) (o : Out) : List Region :=
  if o.res = .success then
    match op with
    | .alloc size _ => (o.ptr, size) :: live
    | .free p _ => live.filter fun r => r.1 != p
    | .split p total first =>
      (p, first) :: (p + first, total - first) :: live.filter fun r => r.1 != p
    | .merge low high total =>
      (low, total) :: live.filter fun r => r.1 != low && r.1 != high
    | .addFixed _ _ => live
  else live

/-- The memory given to the provider, after a call. -/
def grantsAfter (grants : List Region) (o : Out) : List Region :=
  match o.got with
  | none => grants
  | some r => r :: grants

/-- Memory that may be given to the provider: not null, not empty, in the address space and
apart from what it already has. -/
structure Fresh (grants : List Region) (r : Region) : Prop where
  ptr : 0 < r.1
  size : 0 < r.2
  bound : r.1 + r.2 ≤ 2 ^ 64
  apart : ∀ g ∈ grants, Disjoint g r

/-- What is assumed of the outside world during one call.
* `free1`, `free2`, `reAdd`: the host allocator does not fail for a free-list element (it may
  fail for a block descriptor). See `C01_hostOom_violated` for what happens otherwise.
* `flag`: freshly allocated block descriptors have a zero `used` byte, or the allocation is of
  at least one byte and neither the split callback nor the host allocator fails. See
  `C05_uninit_violated` for what happens otherwise.
* `up`, `upErr`: upstream hands out fresh memory, aligned as requested, or an error code.
* `fixed`: the client adds fresh memory only (the code does not check it).
The merge callback and, up to `flag`, the split callback may answer anything. -/
structure EnvOk (env : Env) (op : Op) (grants : List Region) : Prop where
  free1 : env.host .freeAdd1 = true
  free2 : env.host .freeAdd2 = true
  reAdd : env.host .reAdd = true
  flag : ∀ size align, op = .alloc size align → env.garbage = false ∨
    (0 < size ∧ (∀ a b c, env.splitCb a b c = .success) ∧ env.host .addNew2 = true)
  up : ∀ size align a p, op = .alloc size align → env.upAlloc size a = .ok p →
    Fresh grants (p, size) ∧ p % a = 0
  upErr : ∀ size a r, env.upAlloc size a = .error r → r ≠ .success
  fixed : ∀ addr size, op = .addFixed addr size → addr ≠ 0 → size ≠ 0 →
    Fresh grants (addr, size)

/-- Provider states with the client's books, after any finite history in which every call's
outside world satisfies `EnvOk` and `P`. -/
inductive Reach (cfg : Cfg) (P : Env → Prop) : St → List Region → List Region → Prop where
  | init : Reach cfg P init [] []
  | step {st live grants} (env : Env) (op : Op) :
      Reach cfg P st live grants → EnvOk env op grants → P env →
      Reach cfg P (step cfg env st op).1 (liveAfter live op (step cfg env st op).2)
        (grantsAfter grants (step cfg env st op).2)

/-- No assumption on the callbacks. -/
def Any : Env → Prop := fun _ => True

/-- Memory can always be merged (fixed provider; the merge callback always agrees). -/
def Mergeable (env : Env) : Prop := ∀ a b c, env.mergeCb a b c = .success

end Verif.Coarse.Spec
