import Verif.Log.Model
/-!
# Specification for the logger
-/
namespace Verif.Log

/-- `it` is one of the items of the semicolon-separated list `var`. -/
def IsItem (var it : List Char) : Prop :=
  ';' ∉ it ∧ ∃ pre post, var = pre ++ it ++ post ∧ (pre = [] ∨ ∃ p, pre = p ++ [';']) ∧
    (post = [] ∨ ∃ p, post = ';' :: p)

/-- The items without an argument of the documented syntax (`docs/config/introduction.rst:150`). -/
def plainItems : List (List Char) :=
  ["output:stdout", "output:stderr", "timestamp:yes", "timestamp:no", "pid:yes", "pid:no",
    "level:debug", "level:info", "level:warning", "level:error", "level:fatal",
    "flush:debug", "flush:info", "flush:warning", "flush:error", "flush:fatal"].map String.toList

/-- The variable follows the documented syntax, and the text of no option occurs inside a file name. -/
def Clean (var : List Char) : Prop :=
  ∀ it, IsItem var it → it = [] ∨ it ∈ plainItems ∨
    ∃ path, it = "output:file".toList ++ ',' :: path ∧
      (∀ o ∈ plainItems, ¬ o <:+: it) ∧ ¬ "output:file".toList <:+: it.tail

def Level.name : Level → String
  | .debug => "debug" | .info => "info" | .warning => "warning" | .error => "error" | .fatal => "fatal"

/-- The whole text of a message. -/
def fullText (func msg : List Char) (err : Option (List Char × Bool)) : List Char :=
  func ++ ": ".toList ++ msg ++ match err with
    | none => []
    | some (e, _) => ": ".toList ++ e

end Verif.Log
