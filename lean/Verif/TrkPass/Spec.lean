import Verif.TrkPass.Model
/-! # Towers of tracking providers (C88) -/
namespace Verif.TrkPass

/-- The providers that a program can have: a tracking provider is created on a provider that exists, and a provider is not destroyed
while a tracking provider is on top of it. -/
inductive Reach : (Nat → Option Prov) → Prop
  | init : Reach fun _ => none
  | other {w h} : Reach w → h ≠ 0 → w h = none → Reach (create w h .other)
  | tracking {w h up p} : Reach w → h ≠ 0 → w h = none → w up = some p → Reach (create w h (.tracking up))
  | destroy {w h} : Reach w → (∀ k, w k ≠ some (.tracking h)) → Reach (destroy w h)

/-- `Bottom w h b`: below `h`, through any number of tracking providers, is the provider `b`, which is not one. -/
inductive Bottom (w : Nat → Option Prov) : Nat → Nat → Prop
  | self {h} : w h = some .other → Bottom w h h
  | down {h up b} : w h = some (.tracking up) → Bottom w up b → Bottom w h b

/-- The calls whose arguments are refused. -/
def Refused : Query → Prop
  | .recommendedPage _ out => out = false
  | .minPage _ out => out = false
  | .purgeLazy p _ => p = 0
  | .purgeForce p _ => p = 0
  | .ipcSize out => out = false
  | _ => False

/-- The calls after which `umfGetLastFailedMemoryProvider` tells who failed. -/
def Reported : Query → Prop
  | .recommendedPage _ _ => True
  | .minPage _ _ => True
  | .purgeLazy _ _ => True
  | .purgeForce _ _ => True
  | _ => False

end Verif.TrkPass
