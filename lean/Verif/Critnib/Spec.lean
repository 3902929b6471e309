import Verif.Critnib.Model
/-! # What a map with 64-bit keys does (specification for C10, C11, C12)

The specification state is a partial function from keys to values; no tree. -/
namespace Verif.Critnib.Spec
variable {V : Type}

/-- A map. -/
abbrev Map (V : Type) := W → Option V

def empty : Map V := fun _ => none

/-- Requests. `leafOk`, `nodeOk`: the host would grant the (at most two) allocations. -/
inductive Op (V : Type) where
  | insert (key : W) (val : V) (update leafOk nodeOk : Bool)
  | remove (key : W)
  | get (key : W)

/-- Answers. `ub`: the program did something undefined. -/
inductive Out (V : Type) where
  | inserted (r : InsRes)
  | value (v : Option V)
  | ub

/-- The answer a map may give. Memory exhaustion is the only freedom: it may be reported only if
an allocation would be refused, and must be when the first one is. -/
def Allowed (m : Map V) : Op V → Out V → Prop
  | .insert k _ upd lo no, .inserted r =>
    match r with
    | .nomem => lo = false ∨ no = false
    | .exist => lo = true ∧ upd = false ∧ m k ≠ none
    | .ok => lo = true ∧ (upd = true ∨ m k = none)
  | .remove k, .value v => v = m k
  | .get k, .value v => v = m k
  | _, _ => False

/-- The map after the request, given the answer. -/
def after (m : Map V) : Op V → Out V → Map V
  | .insert k v _ _ _, .inserted .ok => fun q => if q = k then some v else m q
  | .remove k, _ => fun q => if q = k then none else m q
  | _, _ => m

/-- The answers `outs` to the requests `ops` are those of a map that starts as `m` and ends
as `m'`. -/
def Explains (m : Map V) : List (Op V) → List (Out V) → Map V → Prop
  | [], [], m' => m' = m
  | op :: ops, o :: outs, m' => Allowed m op o ∧ Explains (after m op o) ops outs m'
  | _, _, _ => False

/-- Keys a directed lookup asks for. -/
def Wanted (dir : Dir) (q k : W) : Prop :=
  match dir with
  | .l => k < q
  | .le => k ≤ q
  | .eq => k = q
  | .ge => q ≤ k
  | .g => q < k

/-- `r` is what a sorted map answers to a directed lookup: the wanted key nearest to `q`. -/
def Answers (m : Map V) (q : W) (dir : Dir) (r : Option (W × V)) : Prop :=
  match r with
  | none => ∀ k, Wanted dir q k → m k = none
  | some (k, v) => m k = some v ∧ Wanted dir q k ∧ ∀ k', m k' ≠ none → Wanted dir q k' →
      (dir = .l ∨ dir = .le → k' ≤ k) ∧ (dir = .g ∨ dir = .ge → k ≤ k')

/-- Calls up to and including the first that asks to stop. -/
def upToStop (stop : W → V → Bool) : List (W × V) → List (W × V)
  | [] => []
  | (k, v) :: l => if stop k v then [(k, v)] else (k, v) :: upToStop stop l

/-- `calls` are the calls an iteration over `[min, max]` must make: the present keys in range,
increasing, until the callback stops it. -/
def Visits (m : Map V) (min max : W) (stop : W → V → Bool) (calls : List (W × V)) : Prop :=
  ∃ L : List (W × V), L.Pairwise (fun a b => a.1 < b.1) ∧
    (∀ k v, (k, v) ∈ L ↔ m k = some v ∧ min ≤ k ∧ k ≤ max) ∧ calls = upToStop stop L

end Verif.Critnib.Spec
