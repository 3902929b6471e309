import Verif.PoolApi.Model
/-! # What a history of calls says about a pool (C86) -/
namespace Verif.PoolApi
variable {F : Type}

/-- Memory that the library gets for a pool or a tracking provider is not in use. -/
def Ev.Fair (w : World F) : Ev F → Prop
  | .createBegin _ provider _ _ _ _ a =>
    (∀ h, a.mem = some h → h ≠ 0 ∧ w.pools h = none) ∧ (∀ p, a.wrapper = .ok p → w.wrap p = none ∧ p ≠ provider)
  | _ => True

/-- `Run tab es w`: after the events `es`, from a start with the tables `tab`, the memory is `w`. -/
inductive Run (tab : Nat → Ops F) : List (Ev F) → World F → Prop
  | nil : Run tab [] (World.init tab)
  | snoc {es w e r} : Run tab es w → e.Fair w → step w e = some r → Run tab (es ++ [e]) r.1

/-- What was in the caller's table `t` after the events. -/
def tableAt (tab : Nat → Ops F) (t : Nat) : List (Ev F) → Ops F
  | [] => tab t
  | .write t' o :: es => if t' = t then tableAt (fun _ => o) t es else tableAt tab t es
  | _ :: es => tableAt tab t es

/-- What a pool was created with. -/
structure Deed (F : Type) where
  ops : Ops F
  priv : Nat
  provider : Nat
  tracked : Bool
  own : Bool

/-- The event ends the life of the pool `h`, or the creation that is going on. -/
def Ev.Ends (h : Nat) : Ev F → Prop
  | .destroy h' => h' = h
  | .createEnd h' _ => h' = h
  | _ => False

/-- In the history a creation of the pool `h` began with the provider and what the table held at that time; some events later its
`initialize` returned successfully; and the pool was not destroyed since. What comes between is arbitrary: changes of the table,
other pools, calls. -/
def Created (tab : Nat → Ops F) (es : List (Ev F)) (h : Nat) (d : Deed F) : Prop :=
  ∃ es1 es2 es3 t params a, es = es1 ++ [.createBegin t d.provider params d.tracked d.own true a] ++ es2 ++
      [.createEnd h (.ok d.priv)] ++ es3 ∧
    t ≠ 0 ∧ d.provider ≠ 0 ∧ a.mem = some h ∧ a.lock = true ∧ (d.tracked = true → ∃ p, a.wrapper = .ok p) ∧
    d.ops = tableAt tab t es1 ∧ (∀ e ∈ es2, ¬ e.Ends h) ∧ ∀ e ∈ es3, ¬ e.Ends h

end Verif.PoolApi
