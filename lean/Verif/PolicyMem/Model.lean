import Verif.Policy.Model
/-!
# Policies in memory, `src/mempolicy.c`, and how a provider reads them

The policies are blocks of the base allocator; the arrays of partitions are in the caller's memory. `none` is undefined behaviour:
the use of memory that is not allocated. `umf_mempolicy_split_partition_t` is `Verif.Os.Part`. Addresses 0 are NULL.
-/
namespace Verif.PolicyMem
open Verif.Os (Part)
open Verif.Policy (Policy)

/-- `umf_mempolicy_t`, `mempolicy_internal.h:19-30`. The union has two words: `part_size` and `part` share the first; `none`: what was
in the memory before. -/
structure Pol where
  type : Nat
  w0 : Option Nat
  w1 : Option Nat
deriving DecidableEq, Repr

structure World where
  /-- The policies that exist, by handle. -/
  pol : Nat → Option Pol
  /-- The arrays of the caller that exist, by address. -/
  arr : Nat → Option (List Part)

def upd {α : Type} (f : Nat → α) (a : Nat) (x : α) : Nat → α := fun b => if b = a then x else f b

inductive Err where
  | invalidArgument
  | outOfHostMemory
deriving DecidableEq, Repr

abbrev Ret := Except Err Unit

/-- `umfMempolicyCreate`, `mempolicy.c:14-34`; `out`: the result pointer is not NULL, `mem`: the memory for the policy. -/
def create (w : World) (type : Nat) (out : Bool) (mem : Option Nat) : Option (World × Ret) :=
  if out = false then some (w, .error .invalidArgument)
  else
    match mem with
    | none => some (w, .error .outOfHostMemory)
    | some h =>
      some ({ w with pol := upd w.pol h (some (if type = 0 then ⟨type, some 0, none⟩ else if type = 3 then ⟨type, none, some 0⟩
        else ⟨type, none, none⟩)) }, .ok ())

/-- `umfMempolicyDestroy`, `mempolicy.c:36-39`. -/
def destroy (w : World) (h : Nat) : Option (World × Ret) :=
  if h = 0 then some (w, .ok ())
  else
    match w.pol h with
    | none => none
    | some _ => some ({ w with pol := upd w.pol h none }, .ok ())

/-- `umfMempolicySetInterleavePartSize`, `mempolicy.c:41-53`. -/
def setPartSize (w : World) (h n : Nat) : Option (World × Ret) :=
  if h = 0 then some (w, .error .invalidArgument)
  else
    match w.pol h with
    | none => none
    | some p =>
      if p.type ≠ 0 then some (w, .error .invalidArgument)
      else some ({ w with pol := upd w.pol h (some { p with w0 := some n }) }, .ok ())

/-- `umfMempolicySetCustomSplitPartitions`, `mempolicy.c:55-69`. -/
def setParts (w : World) (h ptr len : Nat) : Option (World × Ret) :=
  if h = 0 then some (w, .error .invalidArgument)
  else
    match w.pol h with
    | none => none
    | some p =>
      if p.type ≠ 3 then some (w, .error .invalidArgument)
      else some ({ w with pol := upd w.pol h (some { p with w0 := some ptr, w1 := some len }) }, .ok ())

/-- `umfOsMemoryProviderParamsSetPartitions`, `provider_os_memory.c:1713-1744`, on new parameters, with host memory: the
partitions that are copied. `len` is an `unsigned`. -/
def copyParts (w : World) (ptr : Option Nat) (len : Nat) : Option (Except Err (List Part)) :=
  if len = 0 then some (.ok [])
  else
    match ptr with
    | none => none
    | some p =>
      if p = 0 then some (.error .invalidArgument)
      else
        match w.arr p with
        | none => none
        | some l => if len ≤ l.length then some (.ok (l.take len)) else none

/-- How `numa_memory_provider_create_from_memspace` reads the policy, `memtarget_numa.c:79-111` and 160-165: the policy that the
provider gets (`Verif.Policy.params`), `.ok none` for NULL. The number of partitions is cut to 32 bits (107). -/
def read (w : World) (h : Nat) : Option (Except Err (Option Policy)) :=
  if h = 0 then some (.ok none)
  else
    match w.pol h with
    | none => none
    | some p =>
      match p.type with
      | 0 => p.w0.map fun n => .ok (some (.interleave n))
      | 1 => some (.ok (some .bind))
      | 2 => some (.ok (some .preferred))
      | 3 =>
        match p.w1 with
        | none => none
        | some len =>
          match copyParts w p.w0 (len % 2 ^ 32) with
          | none => none
          | some (.ok l) => some (.ok (some (.split l)))
          | some (.error e) => some (.error e)
      | _ => some (.ok (some .unknown))

/-- What a program does: calls of the library, and writing and freeing its own arrays. -/
inductive Ev where
  | create (type : Nat) (out : Bool) (mem : Option Nat)
  | destroy (h : Nat)
  | setPartSize (h n : Nat)
  | setParts (h ptr len : Nat)
  | write (ptr : Nat) (l : List Part)
  | free (ptr : Nat)

def step (w : World) : Ev → Option (World × Ret)
  | .create t out m => create w t out m
  | .destroy h => destroy w h
  | .setPartSize h n => setPartSize w h n
  | .setParts h p n => setParts w h p n
  | .write p l => some ({ w with arr := upd w.arr p (some l) }, .ok ())
  | .free p => some ({ w with arr := upd w.arr p none }, .ok ())

end Verif.PolicyMem
