import Verif.Critnib.ConcModel
/-! # What callers of a shared map may observe (specification for C13)

`ev t` is what callers see at time `t`; `M t` is the map just before time `t`. Nothing here
mentions nodes or leaves. -/
namespace Verif.Critnib.Conc.Spec
open Verif.Critnib
open Verif.Critnib.Spec (Map Op Out after Answers empty)

variable {V : Type}

/-- The answer a map may give to an update. Memory exhaustion may be reported only if the host
refuses an allocation. -/
def Allowed (m : Map V) : Op V → Out V → Prop
  | .insert k _ upd leafOk nodeOk, .inserted r =>
    match r with
    | .nomem => leafOk = false ∨ nodeOk = false
    | .exist => upd = false ∧ m k ≠ none
    | .ok => upd = true ∨ m k = none
  | .remove k, .value v => v = m k
  | _, _ => False

/-- At time `t` an update has been called and has not returned. -/
def InUpdate (ev : Nat → Ev V) (t : Nat) : Prop :=
  ∃ i op, i ≤ t ∧ ev i = .updCall op ∧ ∀ u, i < u → u ≤ t → ∀ o, ev u ≠ .updRet o

/-- The map changes only during updates; every update that returned took effect as a whole at
one instant between its call and its return, and its answer is one a map gives at that
instant. -/
def UpdatesAtomic (ev : Nat → Ev V) (M : Nat → Map V) : Prop :=
  M 0 = empty ∧
  (∀ t, ¬ InUpdate ev t → M (t + 1) = M t) ∧
  ∀ i j op out, i < j → ev i = .updCall op → ev j = .updRet out →
    (∀ u, i < u → u < j → ∀ o, ev u ≠ .updRet o) →
    ∃ t, i ≤ t ∧ t < j ∧ Allowed (M t) op out ∧ M (t + 1) = after (M t) op out ∧
      ∀ u, i ≤ u → u < j → u ≠ t → M (u + 1) = M u

/-- Reader `r` called the lookup `q` at time `i` and it returned `res` at time `j`. -/
def Lookup (ev : Nat → Ev V) (r : Nat) (q : Query) (i j : Nat) (res : Option (W × Val V)) : Prop :=
  i < j ∧ ev i = .call r q ∧ ev j = .ret r res ∧ ∀ u, i < u → u < j → ∀ x, ev u ≠ .ret r x

/-- A `get` returns what the map held for the key at some instant during the call. -/
def GetAtomic (ev : Nat → Ev V) (M : Nat → Map V) : Prop :=
  ∀ r key i j res, Lookup ev r (.get key) i j res →
    ∃ t, i < t ∧ t ≤ j ∧ res = (M t key).map fun v => (key, .user v)

/-- A `find_le` returns what a sorted map answers at some instant during the call. -/
def FindAtomic (ev : Nat → Ev V) (M : Nat → Map V) : Prop :=
  ∀ r q i j res, Lookup ev r (.findLe q) i j res →
    ∃ t ans, i < t ∧ t ≤ j ∧ Answers (M t) q .le ans ∧ res = ans.map fun a => (a.1, .user a.2)

/-- What `find_le` returns was in the map at some instant during the call, and is not above the
query. -/
def FindSound (ev : Nat → Ev V) (M : Nat → Map V) : Prop :=
  ∀ r q i j k x, Lookup ev r (.findLe q) i j (some (k, x)) →
    ∃ t v, i < t ∧ t ≤ j ∧ x = .user v ∧ M t k = some v ∧ k ≤ q

/-- If during the whole call `a` is the greatest key not above the query, `find_le` returns it
with a value it had during the call, whatever happens to other keys. -/
def FindStable (ev : Nat → Ev V) (M : Nat → Map V) : Prop :=
  ∀ r q i j res a, Lookup ev r (.findLe q) i j res → a ≤ q →
    (∀ t, i < t → t ≤ j → M t a ≠ none ∧ ∀ k, a < k → k ≤ q → M t k = none) →
    ∃ t v, i < t ∧ t ≤ j ∧ M t a = some v ∧ res = some (a, .user v)

end Verif.Critnib.Conc.Spec
