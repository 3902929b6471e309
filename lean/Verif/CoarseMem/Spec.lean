import Verif.CoarseMem.Model
/-!
# The coarse allocator, pointer by pointer: what its users know

The users are the providers that keep their blocks in `coarse.c` (fixed, devdax, file, and those with upstream memory). A user knows the
addresses it got and has not given back. Nothing here mentions trees, lists or links.
-/
namespace Verif.CoarseMem
open Verif.Coarse (Cfg)

/-- The addresses the user holds after a call. -/
def heldAfter (held : List Nat) (op : Op) (r : Ret) : List Nat :=
  match op with
  | .alloc _ _ => if r.res = .success then r.ptr :: held else held
  | .free p _ => if r.res = .invalidArgument then held else held.filter fun q => q ≠ p
  | .split p _ first => if r.res = .success then (p + first) :: held else held
  | .merge _ high _ => if r.res = .success then held.filter fun q => q ≠ high else held
  | _ => held

/-- Two kinds of users: a careful one gives back and splits only what it holds. The other calls with anything, but the base allocator
gives memory whose bytes are 0. -/
inductive User where
  | careful
  | zeroed

/-- What a user may call, with the answers of the base allocator to the requests of the call. -/
def Allowed (u : User) (held : List Nat) (op : Op) (host : List (Addr × Bool)) : Prop :=
  match u with
  | .careful => match op with
    | .free p _ => p = 0 ∨ p ∈ held
    | .split p _ _ => p = 0 ∨ p ∈ held
    | _ => True
  | .zeroed => ∀ x ∈ host, x.2 = false

/-- A call returns `r` and leaves `s'`: it does the same whenever its loops are allowed enough rounds. -/
def Runs (cfg : Cfg) (s : St) (op : Op) (env : Env) (host : List (Addr × Bool)) (r : Ret) (s' : St) : Prop :=
  ∃ n, ∀ fuel, n ≤ fuel → step cfg fuel s op env host = some (r, s')

/-- A call has undefined behaviour, however many rounds its loops are allowed. -/
def Undef (cfg : Cfg) (s : St) (op : Op) (env : Env) (host : List (Addr × Bool)) : Prop :=
  ∃ n, ∀ fuel, n ≤ fuel → step cfg fuel s op env host = none

/-- The states after any history of calls, with any answers of the callbacks and the base allocator. -/
inductive Reach (cfg : Cfg) (u : User) : St → List Nat → Prop where
  | init : Reach cfg u St.init []
  | step {s s' : St} {held : List Nat} {op : Op} {env : Env} {host : List (Addr × Bool)} {r : Ret} : Reach cfg u s held →
      Allowed u held op host → Runs cfg s op env host r s' → Reach cfg u s' (heldAfter held op r)

/-- No list of free blocks is empty. -/
def NoEmpty (s : St) : Prop := ∀ h, s.hd h ≠ some 0

/-- The destruction ends with what was given to `cb.free`, and leaves `s'`. -/
def Destroys (cfg : Cfg) (s : St) (calls : List (Nat × Nat)) (s' : St) : Prop :=
  ∃ n, ∀ fuel, n ≤ fuel → delete cfg fuel s = some (calls, s')

end Verif.CoarseMem
