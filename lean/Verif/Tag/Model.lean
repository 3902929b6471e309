import Mathlib.Logic.Function.Basic

/-!
# The tags of pools

`umfPoolSetTag` and `umfPoolGetTag` (src/memory_pool.c:223-242), called by many threads for many pools. A step is one
access to the tag or to the mutex of a pool; threads take steps in any order. The pools exist throughout, with the tag NULL
at first (src/memory_pool.c:85). The mutex is the one of `utils_mutex_lock` and `utils_mutex_unlock`: a thread takes it only
when it is free. A tag is a number, NULL is 0.
-/
namespace Verif.Tag
open Function (update)

abbrev Tid := Nat
abbrev Pool := Nat

/-- The calls: the handle (`none` is NULL), the new tag, whether there is a place for the old one. -/
inductive Op where
  | set (h : Option Pool) (tag : Nat) (place : Bool)
  | get (h : Option Pool) (place : Bool)
deriving DecidableEq, Repr

/-- What a call answers: success, and the value that it stored at the caller's place. -/
structure Out where
  ok : Bool
  stored : Option Nat
deriving DecidableEq, Repr

/-- What callers see: calls and returns. -/
inductive Ev where
  | call (t : Tid) (op : Op)
  | ret (t : Tid) (o : Out)
deriving DecidableEq, Repr

/-- Where a thread is. -/
inductive Pc where
  | idle
  /-- the checks (lines 225, 236-237) -/
  | check (op : Op)
  /-- waiting for the mutex (lines 226, 238) -/
  | lock (p : Pool) (op : Op)
  /-- before the old tag is read (lines 227-229, 239) -/
  | read (p : Pool) (op : Op)
  /-- before the new tag is written (line 230) -/
  | write (p : Pool) (tag : Nat) (stored : Option Nat)
  /-- before the mutex is given back (lines 231, 240) -/
  | unlock (p : Pool) (stored : Option Nat)
  /-- before the return -/
  | ret (o : Out)
deriving DecidableEq, Repr

structure St where
  tag : Pool → Nat
  lock : Pool → Option Tid
  pc : Tid → Pc

def init : St := ⟨fun _ => 0, fun _ => none, fun _ => .idle⟩

/-- `UMF_CHECK` of the handle, and of the place in `umfPoolGetTag` (lines 225, 236-237). -/
def check : Op → Pc
  | .set none _ _ => .ret ⟨false, none⟩
  | .set (some p) tag place => .lock p (.set (some p) tag place)
  | .get none _ => .ret ⟨false, none⟩
  | .get (some _) false => .ret ⟨false, none⟩
  | .get (some p) true => .lock p (.get (some p) true)

/-- Reading the tag (lines 227-229 and 239). -/
def read (p : Pool) (tag : Nat) : Op → Pc
  | .set _ new place => .write p new (if place then some tag else none)
  | .get _ _ => .unlock p (some tag)

/-- A step of a thread, with what callers see of it. -/
inductive Step : St → List Ev → St → Prop where
  | call {s t} (op : Op) : s.pc t = .idle → Step s [.call t op] { s with pc := update s.pc t (.check op) }
  | check {s t op} : s.pc t = .check op → Step s [] { s with pc := update s.pc t (Tag.check op) }
  | lock {s t p op} : s.pc t = .lock p op → s.lock p = none →
      Step s [] { s with lock := update s.lock p (some t), pc := update s.pc t (.read p op) }
  | read {s t p op} : s.pc t = .read p op → Step s [] { s with pc := update s.pc t (Tag.read p (s.tag p) op) }
  | write {s t p tag stored} : s.pc t = .write p tag stored →
      Step s [] { s with tag := update s.tag p tag, pc := update s.pc t (.unlock p stored) }
  | unlock {s t p stored} : s.pc t = .unlock p stored →
      Step s [] { s with lock := update s.lock p none, pc := update s.pc t (.ret ⟨true, stored⟩) }
  | ret {s t o} : s.pc t = .ret o → Step s [.ret t o] { s with pc := update s.pc t .idle }

/-- Everything that callers may see. -/
inductive Run : List Ev → St → Prop where
  | nil : Run [] init
  | step {l s l' s'} : Run l s → Step s l' s' → Run (l ++ l') s'

end Verif.Tag
