import Verif.Disjoint.ConcModel
/-! # Specification vocabulary for the disjoint pool used by several threads (C23–C26, C67) -/
namespace Verif.Disjoint.Conc
open Mem

/-- The bytes the caller asked for. -/
def Own.range (a : Own) : Region := (a.ptr, a.size)

/-- The bytes lie in one range the pool holds from the provider. -/
def InMem (s : St) (r : Region) : Prop := ∃ p z, s.mem p = some z ∧ Inside r (p, z)

/-- A request the pool passes on to the provider: its (padded) size is above the configured largest
pooled size. -/
def Large (c : Cfg) (a : Own) : Prop :=
  c.maxPoolable < if a.al ≤ 1 then a.size else alignedSize c a.size a.al

/-- No thread is in a call. -/
def Quiet (s : St) : Prop := ∀ t, s.pc t = .idle

/-- The slabs of class `i` that are in the list of available slabs and have no chunk in use. -/
def emptySlabs (s : St) (i : Nat) : Nat :=
  (s.bk i).avail.countP fun id => (s.objs id).any fun o => o.free.all (fun b => b)

/-- Some step of the thread is possible. -/
def CanStep (c : Cfg) (s : St) (t : Nat) : Prop := ∃ e s', Step c t s e s'

/-- The thread waits for a bucket lock. -/
def Waiting (s : St) (t i : Nat) : Prop :=
  (∃ r, s.pc t = .wait i r) ∨ ∃ tk ptr id, s.pc t = .fwait tk ptr id i

/-- A run between two states in which thread `t`, inside one call, takes `n` steps; the other threads
take any steps. -/
inductive During (c : Cfg) (t : Nat) : St → Nat → St → Prop where
  | nil {s} : During c t s 0 s
  | own {s n s' e s''} : During c t s n s' → s'.ub = false → s'.pc t ≠ .idle →
      Step c t s' e s'' → During c t s (n + 1) s''
  | other {s n s' u e s''} : During c t s n s' → s'.ub = false → u ≠ t →
      Step c u s' e s'' → During c t s n s''
  | total {s n s'} (x : Nat) : During c t s n s' → During c t s n { s' with total := x }

end Verif.Disjoint.Conc
