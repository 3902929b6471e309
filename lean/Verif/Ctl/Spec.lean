import Verif.Ctl.Model
import Mathlib.Data.Nat.Digits.Defs
/-!
# Specification of control names and configurations (C38, C39)
-/
namespace Verif.Ctl
variable {H : Type}

/-- The parts of a text between separators; empty parts do not count. -/
def parts (sep : Char) (s : List Char) : List (List Char) := (s.splitOn sep).filter (· ≠ [])

/-- White space. -/
def blank (c : Char) : Bool := decide (c ∈ [' ', '\t', '\n', '\x0b', '\x0c', '\r'])

/-- The text begins with a number: white space, a sign, a digit. -/
def StartsWithNumber (s : List Char) : Prop :=
  ∃ ws sign c rest, s = ws ++ sign ++ c :: rest ∧ (∀ x ∈ ws, blank x = true) ∧
    (sign = [] ∨ sign = ['-'] ∨ sign = ['+']) ∧ '0' ≤ c ∧ c ≤ '9'

/-- The node stands for this part of a name: it has this name, or it is an indexed node and the part is a number. -/
def Fits (n : Node H) (seg : List Char) : Prop :=
  match n with
  | .indexed name _ => name = seg ∨ StartsWithNumber seg
  | .named name _ | .leaf name _ _ | .subtree name _ => name = seg

/-- The first node that stands for this part of a name. -/
def Selects (nodes : List (Node H)) (seg : List Char) (n : Node H) : Prop :=
  ∃ before after, nodes = before ++ n :: after ∧ Fits n seg ∧ ∀ m ∈ before, ¬ Fits m seg

/-- `Resolves nodes segs n rest`: the name with the parts `segs` leads to `n`; `rest` is left for the handler of a subtree. -/
inductive Resolves : List (Node H) → List (List Char) → Node H → List (List Char) → Prop
  | last {nodes seg n} : Selects nodes seg n → Resolves nodes [seg] n []
  | named {nodes seg name cs segs n rest} : Selects nodes seg (.named name cs) → Resolves cs segs n rest →
      Resolves nodes (seg :: segs) n rest
  | indexed {nodes seg name cs segs n rest} : Selects nodes seg (.indexed name cs) → Resolves cs segs n rest →
      Resolves nodes (seg :: segs) n rest
  | subtree {nodes seg name cb segs} : Selects nodes seg (.subtree name cb) → segs ≠ [] →
      Resolves nodes (seg :: segs) (.subtree name cb) segs

/-- No node has this name: it is empty, or some part of it stands for no node. -/
inductive Missing : List (Node H) → List (List Char) → Prop
  | empty {nodes} : Missing nodes []
  | here {nodes seg segs} : (∀ n ∈ nodes, ¬ Fits n seg) → Missing nodes (seg :: segs)
  | named {nodes seg name cs segs} : Selects nodes seg (.named name cs) → segs ≠ [] → Missing cs segs →
      Missing nodes (seg :: segs)
  | indexed {nodes seg name cs segs} : Selects nodes seg (.indexed name cs) → segs ≠ [] → Missing cs segs →
      Missing nodes (seg :: segs)

/-- The name leads to a leaf and goes on after it. -/
inductive TooLong : List (Node H) → List (List Char) → Prop
  | leaf {nodes seg name cb arg segs} : Selects nodes seg (.leaf name cb arg) → segs ≠ [] → TooLong nodes (seg :: segs)
  | named {nodes seg name cs segs} : Selects nodes seg (.named name cs) → TooLong cs segs → TooLong nodes (seg :: segs)
  | indexed {nodes seg name cs segs} : Selects nodes seg (.indexed name cs) → TooLong cs segs →
      TooLong nodes (seg :: segs)

/-- `extra` is the end of `name` that has the parts `segs` and begins with the first of them. -/
def IsRest (name extra : List Char) (segs : List (List Char)) : Prop :=
  (∃ pre, name = pre ++ extra ∧ (pre = [] ∨ ∃ p, pre = p ++ ['.'])) ∧ parts '.' extra = segs ∧ extra.head? ≠ some '.'

/-! ## Configurations -/

/-- The queries `qs`, each of the form name=value, are executed one after the other, with the calls `calls`; none fails
(`strict`: failures matter). -/
inductive Done (run : Call H → Int) (glob : List (Node H)) (ctl : Option (List (Node H))) (strict : Bool) :
    List (List Char) → List (Call H) → Prop
  | nil : Done run glob ctl strict [] []
  | cons {q name val qs out cs} : parts '=' q = [name, val] →
      query run glob ctl (.config val) name .write = some out → (0 ≤ out.ret ∨ strict = false) →
      Done run glob ctl strict qs cs → Done run glob ctl strict (q :: qs) (out.calls ++ cs)

/-- The text of a configuration file: comments from # to the end of the line and white space do not count. -/
def fileText (f : List Char) : List Char :=
  ((f.splitOn '\n').map fun line => (line.takeWhile (· ≠ '#')).filter fun c => !blank c).flatten

/-- The decimal numeral of a number. -/
def numeral (v : Int) : List Char :=
  (if v < 0 then ['-'] else []) ++
    if v = 0 then ['0'] else (Nat.digits 10 v.natAbs).reverse.map fun d => Char.ofNat (48 + d)

end Verif.Ctl
