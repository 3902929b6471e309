import Verif.Os.Model
/-!
# Model of the statistics of the OS memory provider, with any number of threads

One atomic operation is one step; threads interleave arbitrarily (sequential consistency).
-/
namespace Verif.Os.Stats
open Verif.Os (W)

/-- Where a thread is: outside; in `os_alloc` after the addition with the sum `v`, before reading the
peak; in its loop with the last known peak `p`; in `reset` with the value `v` to store. -/
inductive Pc where
  | idle
  | added (v : Nat)
  | loop (v p : Nat)
  | resetting (v : Nat)
deriving Repr, DecidableEq

/-- `stats`, `provider_os_memory_internal.h:70-73`, and the threads. -/
structure S where
  allocated : Nat
  peak : Nat
  pc : Nat → Pc

def init : S := ⟨0, 0, fun _ => .idle⟩

def S.at (s : S) (t : Nat) (p : Pc) : Nat → Pc := fun u => if u = t then p else s.pc u

/-- The addition in `os_alloc`, `provider_os_memory.c:1188-1191`. -/
def add (s : S) (t size : Nat) : S :=
  let v := (s.allocated + size) % W
  { s with allocated := v, pc := s.at t (.added v) }

/-- The subtraction in `os_free`, `provider_os_memory.c:1234-1235`. -/
def sub (s : S) (size : Nat) : S :=
  { s with allocated := (s.allocated + (W - size % W)) % W }

/-- The next step of a thread in `os_alloc` (`provider_os_memory.c:1193-1203`) or `reset`
(`provider_os_memory.c:247-248`). -/
def tick (s : S) (t : Nat) : S :=
  match s.pc t with
  | .idle => s
  | .added v => { s with pc := s.at t (.loop v s.peak) }
  | .loop v p =>
    if p < v then
      if s.peak = p then { s with peak := v, pc := s.at t .idle }
      else { s with pc := s.at t (.loop v s.peak) }
    else { s with pc := s.at t .idle }
  | .resetting v => { s with peak := v, pc := s.at t .idle }

/-- The read in `reset`, `provider_os_memory.c:244-246`. -/
def resetLoad (s : S) (t : Nat) : S := { s with pc := s.at t (.resetting s.allocated) }

end Verif.Os.Stats
