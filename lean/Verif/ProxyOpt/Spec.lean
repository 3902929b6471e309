import Verif.Log.Spec
import Verif.ProxyOpt.Model
/-!
# Specification of the options of the proxy library (`README.md:350-365`)
-/
namespace Verif.ProxyOpt

open Verif.Log (IsItem)

def thrOpt : List Char := "size.threshold=".toList
def fdOpt : List Char := "page.disposition=shared-fd".toList
def shmOpt : List Char := "page.disposition=shared-shm".toList

/-- A decimal number: one or more digits. -/
def IsDecimal (v : List Char) : Prop := v ≠ [] ∧ ∀ c ∈ v, c.isDigit = true

/-- The items of the documented syntax. -/
def Documented (var : List Char) : Prop :=
  ∀ it, IsItem var it → it = [] ∨ it = fdOpt ∨ it = shmOpt ∨ ∃ v, IsDecimal v ∧ it = thrOpt ++ v

/-- `n` is the size threshold that `var` asks for: the number in its first item `size.threshold=<value>`, and 0 if there is no
such item. -/
def Asks (var : List Char) (n : Nat) : Prop :=
  (n = 0 ∧ ∀ v, ¬ IsItem var (thrOpt ++ v)) ∨
  ∃ pre v post, var = pre ++ (thrOpt ++ v) ++ post ∧ (pre = [] ∨ ∃ p, pre = p ++ [';']) ∧
    (post = [] ∨ ∃ p, post = ';' :: p) ∧ IsDecimal v ∧ n = Nat.ofDigitChars 10 v 0 ∧
    ∀ v', ¬ IsItem pre (thrOpt ++ v')

/-- Messages of the level `debug` are not printed: the documented setting for that is not an item of `UMF_LOG`. -/
def Quiet (umfLog : Option (List Char)) : Prop :=
  ∀ v, umfLog = some v → ¬ IsItem v "level:debug".toList

/-- Nothing that the start-up needs is refused. -/
def Granted (a : Ans) : Prop :=
  a.params = true ∧ a.visibility = true ∧ a.name = true ∧ a.provider = true ∧ a.pool = true ∧
    a.symbols = (true, true, true, true, true, true)

end Verif.ProxyOpt
