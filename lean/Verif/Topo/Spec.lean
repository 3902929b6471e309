import Verif.Topo.Model
/-!
# Specification of the topology and of attributes (C81)
-/
namespace Verif.Topo

/-- `n` is the node of the machine with the physical number `id`. -/
def IsNode (hw : Hw) (id : Nat) (n : Node) : Prop := n ∈ hw.nodes ∧ n.os = id

/-- Physical numbers are numbers of one node each. -/
def Distinct (hw : Hw) : Prop := (hw.nodes.map Node.os).Nodup

/-- Some processor is near both nodes. -/
def Near (s d : Node) : Prop := ∃ c, c ∈ s.cpus ∧ c ∈ d.cpus

/-- The worst bandwidth is 0, the worst latency the largest number. -/
def Worst : Attr → Nat → Prop
  | .bandwidth, v => v = 0
  | .latency, v => v = 18446744073709551615

/-- What a query of an attribute between the nodes with the numbers `src` and `dst` should answer. -/
inductive Right (hw : Hw) (a : Attr) (src dst : Nat) : Res × Option Nat → Prop where
  | value {s d v} : IsNode hw src s → IsNode hw dst d → Near s d → hw.value a s.cpus d = .inl v →
      Right hw a src dst (.ok, some v)
  | far {s d v} : IsNode hw src s → IsNode hw dst d → ¬ Near s d → Worst a v → Right hw a src dst (.ok, some v)
  | einval {s d} : IsNode hw src s → IsNode hw dst d → Near s d → hw.value a s.cpus d = .inr true →
      Right hw a src dst (.notSupported, none)
  | error {s d} : IsNode hw src s → IsNode hw dst d → Near s d → hw.value a s.cpus d = .inr false →
      Right hw a src dst (.unknown, none)
  | noSource : (∀ s, ¬ IsNode hw src s) → Right hw a src dst (.invalidArgument, none)
  | noTarget : (∀ d, ¬ IsNode hw dst d) → Right hw a src dst (.invalidArgument, none)

/-- The logical numbers of the nodes are their physical numbers. -/
def SameNumbers (hw : Hw) : Prop := ∀ (i : Nat) (n : Node), hw.nodes[i]? = some n → n.os = i

/-! ## Histories -/

/-- What happens to the topology: a call that needs it, with the answers of hwloc in case it is loaded now, and the end of a
shut-down. -/
inductive Ev where
  | use (init load : Bool)
  | shutdown
deriving DecidableEq, Repr

/-- A history. `none`: undefined behaviour. -/
def run (s : St) : List Ev → Option St
  | [] => some s
  | .use i l :: es => (use s i l).bind fun r => run r.1 es
  | .shutdown :: es => (destroy s).bind fun s => run s es

/-- Between any two shut-downs something needs the topology. -/
def NoIdleRound (es : List Ev) : Prop := ¬ [Ev.shutdown, Ev.shutdown] <:+: es

end Verif.Topo
