import Verif.Init.Model
/-!
# Specification of initialisation and shut-down (C44, C52)

Histories are lists of events, the newest first.
-/
namespace Verif.Init

/-- Successful calls of `umfInit` that were not followed by a call of `umfTearDown`. -/
def users : List Ev → Nat
  | [] => 0
  | .initRet _ r :: evs => if r = 0 then users evs + 1 else users evs
  | .downCall _ :: evs => users evs - 1
  | _ :: evs => users evs

/-- How often `umfInit` was called when the library had no users. -/
def starts : List Ev → Nat
  | [] => 0
  | .initCall _ :: evs => if users evs = 0 then starts evs + 1 else starts evs
  | _ :: evs => starts evs

/-- The tracker and the cache of opened handles exist and can be used. -/
def Ready (s : State) : Prop := ∃ i j, s.tracker = some i ∧ s.ipc = some j ∧ i ∈ s.objs ∧ j ∈ s.objs ∧ i ≠ j

/-- No thread is in a call. -/
def Quiet (s : State) : Prop := ∀ t, s.pc t = .idle

/-- Schedules in which, while one thread is in a call that initialises or shuts down the library, no other thread takes a step;
nobody shuts the library down more often than it was initialised; all creations succeed; the library is initialised from
scratch at most 100 times; and no control functions and no scalable pools are used. -/
def Orderly (cfg : Cfg) : State → List Ev → List (Nat × Act) → Prop
  | _, _, [] => True
  | s, evs, (t, a) :: rest =>
    (∀ u, u ≠ t → s.pc u = .idle) ∧ (a = .down → 0 < users evs) ∧ a ≠ .go false ∧ users evs < 2 ^ 64 - 1 ∧
    (a = .init → users evs = 0 → starts evs < 100) ∧ a ≠ .osCtl ∧ a ≠ .scalable ∧
    ∀ s' es, step cfg s t a = some (s', es) → Orderly cfg s' (es.reverse ++ evs) rest

/-- Schedules in which the library has users all the time, `n` of them at the beginning. -/
def AlwaysUsed : Nat → List (Nat × Act) → Prop
  | n, [] => 0 < n
  | n, (_, .init) :: rest => n < 2 ^ 64 - 1 ∧ AlwaysUsed (n + 1) rest
  | n, (_, .down) :: rest => 1 < n ∧ AlwaysUsed (n - 1) rest
  | n, _ :: rest => AlwaysUsed n rest

/-- Thread `t` makes a whole call of `umfInit` that initialises the library, and a whole call of `umfTearDown` that shuts it
down. -/
def start (t : Nat) : List (Nat × Act) := (t, .init) :: List.replicate 3 (t, .go true)
def stop (t : Nat) : List (Nat × Act) := (t, .down) :: List.replicate 6 (t, .go true)

/-- The library is initialised and shut down `n` times. -/
def cycles (t n : Nat) : List (Nat × Act) := (List.replicate n (start t ++ stop t)).flatten

end Verif.Init
