import Verif.Heap.Machine

/-!
# The books of a library and of the provider

What the library has, as it knows from the hooks' answers, and what the provider has given out, as it knows from its own
answers. Nothing of the programs is used.
-/
namespace Verif.Heap

/-- Addresses and sizes of pieces of memory. -/
abbrev Book := List (Nat × Nat)

/-- The provider after it answered a call. -/
def provBook (b : Book) (x : Call × Resp) : Book :=
  if x.2.err ≠ 0 then b else match x.1 with
    | .provAlloc _ n _ => (x.2.val, n) :: b
    | .provFree _ ptr n => b.erase (ptr, n)
    | .split _ ptr total first => (ptr, first) :: (ptr + first, total - first) :: b.erase (ptr, total)
    | .merge _ low high total => (low, total) :: (b.erase (low, high - low)).erase (high, low + total - high)
    | _ => b

/-- The library after a hook answered. -/
def libBook (b : Book) (h : Hook) (o : Out) : Book :=
  match h with
  | .rawAlloc _ n | .alloc _ _ n _ _ => if o.val ≠ 0 then (o.val, n) :: b else b
  | .rawFree _ ptr n | .destroy _ ptr n => b.erase (ptr, n)
  | .dalloc _ ptr n => if o.val = 0 then b.erase (ptr, n) else b
  | .split _ addr n na nb => if o.val = 0 then (addr, na) :: (addr + na, nb) :: b.erase (addr, n) else b
  | .merge _ addrA na addrB nb => if o.val = 0 then (addrA, na + nb) :: (b.erase (addrA, na)).erase (addrB, nb) else b
  | _ => b

/-- What the library may ask: it gives back, splits and merges only what it has. -/
def HookLegal (b : Book) (h : Hook) : Prop :=
  match h with
  | .rawFree _ ptr n | .destroy _ ptr n | .dalloc _ ptr n => (ptr, n) ∈ b
  | .split _ addr n na nb => (addr, n) ∈ b ∧ na + nb = n
  | .merge _ addrA na addrB nb =>
      (addrA, na) ∈ b ∧ (addrB, nb) ∈ b.erase (addrA, na) ∧ addrB = addrA + na ∧ na + nb < 2 ^ 64
  | _ => True

/-- The provider gives memory that is not NULL. -/
def provGood (x : Call × Resp) : Prop :=
  match x.1 with
  | .provAlloc _ _ _ => x.2.err = 0 → x.2.val ≠ 0
  | _ => True

/-- How often the provider refused to take memory back. -/
def refusals (l : List (Call × Resp)) : Nat :=
  l.countP fun x => match x.1 with
    | .provFree _ _ _ => decide (x.2.err ≠ 0)
    | _ => false

/-- The hook is about the pool whose structure is at `p`: by its number, or by an arena that is entered for it. -/
def Hook.Of (h : Hook) (table : Nat → Option Pool) (p : Pool) : Prop :=
  h.id = some p ∨ ∃ a, h.arena = some a ∧ table a = some p

/-- Hooks of one pool, one after the other, with everything the provider answered and the book of the library.
Thread-local variables may be those of any thread each time. -/
inductive Hist (recs : Pool → Option Rec) (table : Nat → Option Pool) (p : Pool) :
    List (Call × Resp) → Book → Prop where
  | nil : Hist recs table p [] []
  | hook {l lib h tls l' o tls'} : Hist recs table p l lib → h.Of table p → HookLegal lib h →
      Runs recs table h.prog tls l' (some o) tls' → (∀ x ∈ l', provGood x) →
      Hist recs table p (l ++ l') (libBook lib h o)

end Verif.Heap
