import Verif.TrkMem.Model
/-!
# The check for regions that are left, `src/provider/provider_tracking.c:792-832` (debug builds)

The maps and entries are those of `Verif.TrkMem.Model`. `critnib_find` with `FIND_G` is modelled by its result (`Verif.Critnib`
proves C11 of its tree). Counters do not wrap around.
-/
namespace Verif.TrkMem

/-- `critnib_find(map, x, FIND_G, ..)`: the least key above `x`. -/
def findG : List (Nat × Addr) → Nat → Option (Nat × Addr)
  | [], _ => none
  | e :: l, x =>
    match findG l x with
    | none => if x < e.1 then some e else none
    | some f => if x < e.1 ∧ e.1 < f.1 then some e else some f

/-- The inner loop, 798-809: from the key `last` on, with `n` counted before. `fuel` bounds the rounds; without any left the result
is `none`, which `C85_exact` excludes. -/
def leftLoop (s : St) (l : List (Nat × Addr)) (pool : Nat) : (fuel last n : Nat) → Option Nat
  | 0, _, _ => none
  | fuel + 1, last, n =>
    match findG l last with
    | none => some n
    | some (k, a) =>
      match load s a with
      | none => none
      | some i => leftLoop s l pool fuel k (if i.pool = pool ∨ pool = 0 then n + 1 else n)

/-- The outer loop, 797-810: the levels from `i` on, `j` of them. -/
def leftLevels (s : St) (pool : Nat) : (j i n : Nat) → Option Nat
  | 0, _, n => some n
  | j + 1, i, n =>
    match leftLoop s (s.lv i) pool ((s.lv i).length + 1) 0 n with
    | none => none
    | some n' => leftLevels s pool j (i + 1) n'

/-- `n_items`, 795-810; the pool 0 is NULL. -/
def itemsLeft (s : St) (pool : Nat) : Option Nat := leftLevels s pool 8 0 0

/-- The messages. -/
inductive Report where
  | silent
  | ofPool (pool n : Nat)
  | all (n : Nat)
deriving DecidableEq, Repr

/-- `check_if_tracker_is_empty`, 792-832. -/
def checkEmpty (s : St) (pool : Nat) (inProxy : Bool) : Option Report :=
  (itemsLeft s pool).map fun n =>
    if n ≠ 0 then
      if inProxy = false then (if pool ≠ 0 then .ofPool pool n else .all n) else .silent
    else .silent

end Verif.TrkMem
