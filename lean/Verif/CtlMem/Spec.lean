import Verif.CtlMem.Model
import Verif.Ctl.Spec
import Mathlib.Data.List.Forall2
/-!
# Specification of the memory of control queries (C80)
-/
namespace Verif.CtlMem
open Verif.Ctl (Node Call Field Val QType Index Arg isSpace strtoll)
variable {H : Type}

/-- The bytes `l` hold the null-terminated string `s` at the offset `p`. -/
def Holds (l : List Char) (p : Nat) (s : List Char) : Prop := nul ∉ s ∧ ∃ rest, l.drop p = s ++ nul :: rest

/-- Only bytes from `lo` to before `hi` differ. -/
def Same (l l' : List Char) (lo hi : Nat) : Prop :=
  l'.length = l.length ∧ ∀ i, i < lo ∨ hi ≤ i → l'[i]? = l[i]?

/-- A node of a tree. -/
inductive Within : List (Node H) → Node H → Prop
  | here {nodes n} : n ∈ nodes → Within nodes n
  | named {nodes name cs n} : .named name cs ∈ nodes → Within cs n → Within nodes n
  | indexed {nodes name cs n} : .indexed name cs ∈ nodes → Within cs n → Within nodes n

/-- The descriptions of arguments in a tree are right: what a parser writes (an `int` for a boolean, the size of the field
otherwise) lies inside the argument structure. -/
def Sound (w : World H) (nodes : List (Node H)) : Prop :=
  ∀ name cb proto h, Within nodes (.leaf name cb proto) → cb .write = some h →
    ∀ f ∈ proto, f.off + (if f.parser = .boolean then 4 else f.size) ≤ w.dsize h

/-- The pointer `p` (block and offset) points to the string `s`. -/
def Stored (m : Mem H) (p : Nat × Nat) (s : List Char) : Prop := ∃ l, m.heap p.1 = some (.bytes l) ∧ Holds l p.2 s

/-- The argument of a query in memory is the argument of a query in lists. -/
def SrcIs (m : Mem H) : Src → Ctl.Source → Prop
  | .program a, .program a' => a = a'
  | .config v, .config s => Stored m v s
  | _, _ => False

/-- The block in which the text of the argument lies. -/
def srcBlk : Src → Nat → Prop
  | .program _, _ => False
  | .config v, b => b = v.1

/-- Nothing but the text of the argument is written over. -/
def Text (m m' : Mem H) : Src → Ctl.Source → Prop
  | .config v, .config s => ∀ l, m.heap v.1 = some (.bytes l) →
      ∃ l', m'.heap v.1 = some (.bytes l') ∧ Same l l' v.2 (v.2 + s.length)
  | _, _ => True

/-- Blocks that were never handed out are not in use. -/
def WF (m : Mem H) : Prop := ∀ b, m.cnt ≤ b → m.heap b = none

/-- What is left when the work is done: as many blocks more are in use as `L` has entries, and they are these entries; every
other block is in use as before, with the same contents unless it is one of `x`, or was not in use and is not. -/
def Leaves (m m' : Mem H) (x : Nat → Prop) (L : List Index) : Prop :=
  ∃ ids : List Nat, ids.Nodup ∧ (∀ b ∈ ids, m.heap b = none) ∧
    List.Forall₂ (fun b i => ∃ next, m'.heap b = some (.entry i next)) ids L ∧
    ∀ b, b ∉ ids → ¬ x b → m'.heap b = m.heap b

/-- No part of the name begins with a number. -/
def NoNumber (name : List Char) : Prop := ∀ seg ∈ Ctl.parts '.' name, ¬ Ctl.StartsWithNumber seg

/-- The names in a configuration. -/
def Names (cfg : List Char) (name : List Char) : Prop :=
  ∃ q ∈ Ctl.parts ';' cfg, ∃ val, Ctl.parts '=' q = [name, val]

/-- The name does not go on after a leaf, in none of the trees. -/
def NotTooLong (glob : List (Node H)) (ctl : Option (List (Node H))) (name : List Char) : Prop :=
  ¬ Ctl.TooLong glob (Ctl.parts '.' name) ∧ ∀ root, ctl = some root → ¬ Ctl.TooLong root (Ctl.parts '.' name)

/-- The text that a file contributes: without comments and white space, up to the first null character. -/
def textOf (f : File) : List Char := (Ctl.fileText f.contents).takeWhile (· != nul)

end Verif.CtlMem
