import Verif.DjHost.Model
/-!
# The disjoint pool's own memory: what its user knows

The user knows the pools they have made (how many size classes each has, which limits it shares, which allocations are live)
and the shared limits they have made. An allocation is represented by the slab it is in, so that two live allocations of one
slab appear twice.
-/
namespace Verif.DjHost

structure Info where
  classes : Nat
  shared : Addr
  live : List Addr
deriving DecidableEq, Repr

structure World where
  pools : Addr → Option Info
  lims : Addr → Bool

/-- The user has made nothing. -/
def World.empty : World := ⟨fun _ => none, fun _ => false⟩

/-- The number of size classes: two for each power of two from the smallest bucket to 2 GB, and one at 2 GB; the smallest bucket
is at least 8 and at most 2 GB. -/
def classesOf (minBucket : Nat) : Nat := 2 * (31 - Nat.log2 (max (min minBucket (2 ^ 31)) 8)) + 1

/-- What the user may call. -/
def Legal (A : World) : Op → Prop
  | .create _ q => q.shared = 0 ∨ A.lims q.shared = true
  | .malloc p i => ∃ I, A.pools p = some I ∧ i < I.classes
  | .free p x => ∃ I, A.pools p = some I ∧ x ∈ I.live
  | .destroy p => ∃ I, A.pools p = some I
  | .limCreate _ => True
  | .limDestroy l => l = 0 ∨ (A.lims l = true ∧ ∀ p I, A.pools p = some I → I.shared ≠ l)

/-- What the user knows after a call. -/
def World.next (A : World) (op : Op) (out : Out) : World :=
  match op with
  | .create _ q =>
    if out.1 = .success then { A with pools := fun p => if p = out.2 then some ⟨classesOf q.minBucket, q.shared, []⟩ else A.pools p }
    else A
  | .malloc p _ =>
    if out.1 = .success then
      { A with pools := fun p' => if p' = p then (A.pools p).map fun I => { I with live := out.2 :: I.live } else A.pools p' }
    else A
  | .free p x =>
    { A with pools := fun p' => if p' = p then (A.pools p).map fun I => { I with live := I.live.erase x } else A.pools p' }
  | .destroy p => { A with pools := fun p' => if p' = p then none else A.pools p' }
  | .limCreate _ => if out.1 = .success then { A with lims := fun l => if l = out.2 then true else A.lims l } else A
  | .limDestroy l => { A with lims := fun l' => if l' = l then false else A.lims l' }

/-- What a call may return: a creation is refused for bad arguments or for lack of memory, an allocation for lack of memory,
and the other calls succeed. -/
def Answered (A : World) (op : Op) (out : Out) : Prop :=
  match op with
  | .create args q =>
    ((args = true ∧ ∃ k, q.minBucket = 2 ^ k) ∧ (out = (.oom, 0) ∨ (out.1 = .success ∧ out.2 ≠ 0 ∧ A.pools out.2 = none))) ∨
    (¬(args = true ∧ ∃ k, q.minBucket = 2 ^ k) ∧ out = (.invalidArgument, 0))
  | .malloc _ _ => out = (.oom, 0) ∨ (out.1 = .success ∧ out.2 ≠ 0)
  | .limCreate _ => out = (.oom, 0) ∨ (out.1 = .success ∧ out.2 ≠ 0 ∧ A.lims out.2 = false)
  | _ => out = (.success, 0)

/-- A call returns, with the result `out` and the state `s'`: it does the same whenever its loops are allowed enough rounds. -/
def Runs (s : St) (op : Op) (a : Answers) (out : Out) (s' : St) : Prop :=
  ∃ n, ∀ fuel, n ≤ fuel → step fuel s op a = some (out, s')

/-- The states and the knowledge after any history of legal calls, with any answers of the base allocator, the provider and
the radix tree. -/
inductive Reach : St → World → Prop where
  | init : Reach init World.empty
  | step {s s' : St} {A : World} {op : Op} {a : Answers} {out : Out} : Reach s A → Legal A op →
      Runs s op a out s' → Reach s' (A.next op out)

/-- The answers for one slab: the base allocator has a block at an unused address, the provider memory at an unused address,
and the radix tree has memory. -/
def OneSlab (s : St) (a : Answers) : Prop :=
  (∃ x l, a.host = x :: l ∧ x ≠ 0 ∧ fresh s x = true) ∧ (∃ m l, a.give = m :: l ∧ m ≠ 0 ∧ s.prov m = none) ∧ a.room = []

end Verif.DjHost
