/-!
# Tracking providers pass on what they do not track

`src/provider/provider_tracking.c:845-889` and the functions of `src/memory_provider.c` that they call. A tracking provider may be on top
of another one: the `initialize` of a pool gets the tracking provider and may create pools on it. What other providers answer is a
parameter. `none` is undefined behaviour, the use of memory that is not a provider. Handles and pointers 0 are NULL.
-/
namespace Verif.TrkPass

/-- A provider: a tracking provider with its upstream provider, or another one. -/
inductive Prov where
  | other
  | tracking (up : Nat)
deriving DecidableEq, Repr

/-- The calls that are passed on; `out`: the result pointer is not NULL. -/
inductive Query where
  | recommendedPage (size : Nat) (out : Bool)
  | minPage (ptr : Nat) (out : Bool)
  | purgeLazy (ptr size : Nat)
  | purgeForce (ptr size : Nat)
  | ipcSize (out : Bool)
  | name
  | lastError
deriving DecidableEq, Repr

/-- The result code (0: success) and the value. -/
structure Ans where
  res : Nat
  val : Nat
deriving DecidableEq, Repr

/-- `UMF_RESULT_ERROR_INVALID_ARGUMENT`, `include/umf/base.h:41-42`. -/
def invalidArgument : Nat := 3

/-- What a call does: the answer, the last failed provider of the thread, the calls of functions of other providers. -/
structure Out where
  ans : Ans
  last : Nat
  calls : List (Nat × Query)
deriving DecidableEq, Repr

/-- The arguments that are checked, `memory_provider.c:271-316` and 356-363. -/
def badArg : Query → Bool
  | .recommendedPage _ out => !out
  | .minPage _ out => !out
  | .purgeLazy p _ => decide (p = 0)
  | .purgeForce p _ => decide (p = 0)
  | .ipcSize out => !out
  | .name => false
  | .lastError => false

/-- The result of a bad argument or a null handle; NULL for the name, `memory_provider.c:293-296`. The last error of NULL is read
through a null pointer (`ASSERT` is not compiled in), `memory_provider.c:258-264`. -/
def refused (last : Nat) : Query → Option Out
  | .name => some ⟨⟨0, 0⟩, last, []⟩
  | .lastError => none
  | _ => some ⟨⟨invalidArgument, 0⟩, last, []⟩

/-- Whether the call is one of those that set the last failed provider, `memory_provider.c:271-316`. -/
def marks : Query → Bool
  | .recommendedPage _ _ => true
  | .minPage _ _ => true
  | .purgeLazy _ _ => true
  | .purgeForce _ _ => true
  | _ => false

/-- The call that the tracking provider makes, `provider_tracking.c:845-888`: its result pointers are those of the caller. -/
def pass : Query → Query
  | .recommendedPage s out => .recommendedPage s out
  | .minPage p out => .minPage p out
  | .purgeLazy p s => .purgeLazy p s
  | .purgeForce p s => .purgeForce p s
  | .ipcSize out => .ipcSize out
  | .name => .name
  | .lastError => .lastError

/-- `checkErrorAndSetLastProvider`, `memory_provider.c:232-238`, at the end of those calls. -/
def mark (h : Nat) (q : Query) (o : Out) : Out := if marks q = true ∧ o.ans.res ≠ 0 then { o with last := h } else o

/-- `umfMemoryProviderGetRecommendedPageSize`, .., `umfMemoryProviderGetIPCHandleSize` on the provider `h`; `a`: the answers of
other providers. `fuel` bounds the number of tracking providers on top of each other; `C88_passed` needs no bound. -/
def ask (w : Nat → Option Prov) (a : Nat → Query → Ans) : (fuel h : Nat) → (q : Query) → (last : Nat) → Option Out
  | 0, _, _, _ => none
  | fuel + 1, h, q, last =>
    if h = 0 then refused last q
    else if badArg q = true then refused last q
    else
      match w h with
      | none => none
      | some .other => some (mark h q ⟨a h q, last, [(h, q)]⟩)
      | some (.tracking up) => (ask w a fuel up (pass q) last).map (mark h q)

/-- Creating a provider at `h`, `memory_provider.c:186-223`, as far as which providers exist. -/
def create (w : Nat → Option Prov) (h : Nat) (p : Prov) : Nat → Option Prov := fun k => if k = h then some p else w k

/-- Destroying a provider, `memory_provider.c:225-230`, as far as which providers exist. -/
def destroy (w : Nat → Option Prov) (h : Nat) : Nat → Option Prov := fun k => if k = h then none else w k

end Verif.TrkPass
