import Verif.IpcEnd.Model
/-! # What happens to a pool, and what has to be left of its exported handles (C84) -/
namespace Verif.IpcEnd

/-- The blocks and upstream handles given out are new. -/
def Honest (s : St) (a : Ans) : Prop :=
  (∀ v, a.block = some v → s.heap v = none) ∧ (∀ u, a.handle = some u → s.out u = false)

/-- What happens to a pool, with any arguments. -/
inductive Call where
  | alloc (b sz : Nat)
  | expo (x b : Nat) (a : Ans)
  | free (b sz : Nat) (ok again : Bool)
  | split (b first : Nat)
  | merge (lo hi : Nat)

/-- What it leaves; `none`: not well defined. -/
def Call.run (s : St) : Call → Option St
  | .alloc b sz => some (IpcEnd.alloc s b sz)
  | .expo x b a => (IpcEnd.exportPtr s x b a).map (·.1)
  | .free b sz ok again => IpcEnd.free s b sz ok again
  | .split b first => some (IpcEnd.split s b first)
  | .merge lo hi => some (IpcEnd.merge s lo hi)

/-- The environment is honest. -/
def Call.Fair (s : St) : Call → Prop
  | .expo _ _ a => Honest s a
  | _ => True

/-- No region is merged into the one below it whose handle was exported. -/
def Call.Mild (s : St) : Call → Prop
  | .merge _ hi => s.cache hi = none
  | _ => True

/-- Histories. -/
inductive Any : St → Prop where
  | init : Any init
  | step {s s' : St} {c : Call} : Any s → c.Fair s → c.run s = some s' → Any s'

/-- Histories with such merges left out. -/
inductive Reach : St → Prop where
  | init : Reach init
  | step {s s' : St} {c : Call} : Reach s → c.Fair s → c.Mild s → c.run s = some s' → Reach s'

/-- Nothing is left: no upstream handle is out, and no block is in use. -/
def Nothing (s : St) : Prop := (∀ u, s.out u = false) ∧ ∀ v, s.heap v = none

end Verif.IpcEnd
