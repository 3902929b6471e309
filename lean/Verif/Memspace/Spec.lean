import Verif.Memspace.Model
/-!
# Specification for memspaces
-/
namespace Verif.Memspace

/-- The handles `nodes` stand for the targets `vals`, in this order. -/
def Shows (st : St) (nodes : List Nat) (vals : List Target) : Prop :=
  nodes.map st.live = vals.map some

/-- A set of targets of one type. -/
def IsSet (vals : List Target) : Prop :=
  vals.Nodup ∧ ∀ a ∈ vals, ∀ b ∈ vals, a.kind = b.kind

/-- The memory and the memspaces of a program. -/
structure World where
  st : St
  spaces : Nat → Option (List Nat)

def World.set (w : World) (st : St) (m : Nat) (nodes : Option (List Nat)) : World :=
  ⟨st, fun x => if x = m then nodes else w.spaces x⟩

/-- What is expected of `qsort` with `propertyCmp`: the same entries, in descending order; the order of equal entries is
free. -/
def SortOk (qsort : List (Nat × Nat) → List (Nat × Nat)) : Prop :=
  ∀ l, (qsort l).Perm l ∧ (qsort l).Pairwise fun a b => b.1 ≤ a.1

/-- Histories of calls on memspaces. Targets passed to calls are live. Lists of NUMA nodes have no repetitions. A call
with undefined behaviour has no successor here; `Verif.Memspace.Props` says when that happens. -/
inductive Reach (qsort : List (Nat × Nat) → List (Nat × Nat)) : World → Prop where
  | init {mem} : Reach qsort ⟨⟨fun _ => none, 0, mem⟩, fun _ => none⟩
  | new {w m} : Reach qsort w → w.spaces m = none → (alloc w.st 1).1 = true →
      Reach qsort (w.set (alloc w.st 1).2 m (some []))
  | newFail {w} : Reach qsort w → (alloc w.st 1).1 = false → Reach qsort ⟨(alloc w.st 1).2, w.spaces⟩
  | fromNuma {w m ids nodes st} : Reach qsort w → w.spaces m = none → ids.Nodup →
      fromNuma w.st ids = some (some nodes, st) → Reach qsort (w.set st m (some nodes))
  | fromNumaFail {w ids st} : Reach qsort w → fromNuma w.st ids = some (none, st) → Reach qsort ⟨st, w.spaces⟩
  | clone {w m nodes m' nodes' st} : Reach qsort w → w.spaces m = some nodes → w.spaces m' = none →
      cloneSpace w.st nodes = some (some nodes', st) → Reach qsort (w.set st m' (some nodes'))
  | cloneFail {w m nodes st} : Reach qsort w → w.spaces m = some nodes →
      cloneSpace w.st nodes = some (none, st) → Reach qsort ⟨st, w.spaces⟩
  | best {w m nodes m' nodes' st getTarget} : Reach qsort w → w.spaces m = some nodes → w.spaces m' = none →
      (∀ n ∈ nodes, ∀ t, getTarget n = some t → t ∈ nodes) →
      bestFilter w.st nodes getTarget = some (some nodes', st) → Reach qsort (w.set st m' (some nodes'))
  | bestFail {w m nodes st getTarget} : Reach qsort w → w.spaces m = some nodes →
      (∀ n ∈ nodes, ∀ t, getTarget n = some t → t ∈ nodes) →
      bestFilter w.st nodes getTarget = some (none, st) → Reach qsort ⟨st, w.spaces⟩
  | add {w m nodes h r nodes' st} : Reach qsort w → w.spaces m = some nodes → w.st.live h ≠ none →
      add w.st nodes h = some (r, nodes', st) → Reach qsort (w.set st m (some nodes'))
  | remove {w m nodes h r nodes' st} : Reach qsort w → w.spaces m = some nodes → w.st.live h ≠ none →
      remove w.st nodes h = some (r, nodes', st) → Reach qsort (w.set st m (some nodes'))
  | filter {w m nodes f r nodes' st} : Reach qsort w → w.spaces m = some nodes →
      userFilter w.st nodes f = some (r, nodes', st) → Reach qsort (w.set st m (some nodes'))
  | sort {w m nodes getP r nodes' st} : Reach qsort w → w.spaces m = some nodes →
      sortDesc qsort w.st nodes getP = (r, nodes', st) → Reach qsort (w.set st m (some nodes'))
  | destroy {w m nodes st} : Reach qsort w → w.spaces m = some nodes →
      destroyAll w.st nodes = some st → Reach qsort (w.set st m none)

/-- Every memspace is a set of live targets; a target object belongs to exactly one memspace, so that nothing is leaked
and no change of one memspace shows in another. -/
structure Sound (w : World) : Prop where
  isSet : ∀ m nodes, w.spaces m = some nodes → nodes.Nodup ∧ ∃ vals, Shows w.st nodes vals ∧ IsSet vals
  owner : ∀ h, w.st.live h ≠ none ↔ ∃ m nodes, w.spaces m = some nodes ∧ h ∈ nodes
  unique : ∀ h m m' nodes nodes', w.spaces m = some nodes → w.spaces m' = some nodes' → h ∈ nodes → h ∈ nodes' →
    m = m'

end Verif.Memspace
