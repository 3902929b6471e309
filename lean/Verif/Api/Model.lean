/-!
# Model of the provider interface (`src/memory_provider.c`)

An operation table is a function from slots to function pointers, `none` for `NULL`. Calling a null
pointer is the outcome `crash`. What a user's function returns is given by a parameter `run`; the calls of user
functions are recorded with their arguments. Pointers and sizes are natural numbers, 0 is `NULL`.
-/
namespace Verif.Api

/-- The result codes that this code itself returns, and all others. -/
inductive Res where
  | success | invalidArgument | notSupported | outOfHostMemory
  | other (n : Nat)
deriving DecidableEq, Repr

/-- The slots of `umf_memory_provider_ops_t`, `include/umf/memory_provider_ops.h`. -/
inductive Slot where
  | alloc | free | lastError | recPage | minPage | initialize | finalize | getName
  | purgeLazy | purgeForce | split | merge
  | ipcSize | ipcGet | ipcPut | ipcOpen | ipcClose
  | ctl
deriving DecidableEq, Repr

/-- A table as the user fills it. -/
def Ops (F : Type) := Slot → Option F

/-- A function of a provider: the user's, or one of the defaults, which return
`UMF_RESULT_ERROR_NOT_SUPPORTED` (`memory_provider.c:38-120`). -/
inductive Fn (F : Type) where
  | user (f : F)
  | unsupported
deriving DecidableEq

def Table (F : Type) := Slot → Option (Fn F)

/-- `validateOpsMandatory`, `memory_provider.c:158-163`. -/
def validateMandatory {F : Type} (o : Ops F) : Bool :=
  (o .alloc).isSome && (o .free).isSome && (o .recPage).isSome && (o .minPage).isSome &&
    (o .initialize).isSome && (o .finalize).isSome && (o .lastError).isSome && (o .getName).isSome

/-- `validateOpsExt`, `memory_provider.c:165-169`. -/
def validateExt {F : Type} (o : Ops F) : Bool :=
  ((o .split).isSome && (o .merge).isSome) || (!(o .split).isSome && !(o .merge).isSome)

/-- `validateOpsIpc`, `memory_provider.c:171-179`. -/
def validateIpc {F : Type} (o : Ops F) : Bool :=
  ((o .ipcSize).isSome && (o .ipcGet).isSome && (o .ipcPut).isSome && (o .ipcOpen).isSome &&
    (o .ipcClose).isSome) ||
  (!(o .ipcSize).isSome && !(o .ipcGet).isSome && !(o .ipcPut).isSome && !(o .ipcOpen).isSome &&
    !(o .ipcClose).isSome)

/-- `validateOps`, `memory_provider.c:181-184`. -/
def validateOps {F : Type} (o : Ops F) : Bool :=
  validateMandatory o && validateExt o && validateIpc o

/-- One `if (!ops->x) { ops->x = default; }`. -/
def setDefault {F : Type} (t : Table F) (s : Slot) : Table F :=
  fun x => if x = s then (match t s with | none => some .unsupported | some f => some f) else t x

/-- `assignOpsExtDefaults`, `memory_provider.c:122-135`. -/
def assignExt {F : Type} (t : Table F) : Table F :=
  setDefault (setDefault (setDefault (setDefault t .purgeLazy) .purgeForce) .split) .merge

/-- `assignOpsIpcDefaults`, `memory_provider.c:137-156`. -/
def assignIpc {F : Type} (t : Table F) : Table F :=
  setDefault (setDefault (setDefault (setDefault (setDefault (setDefault t .ipcSize) .ipcGet) .ipcPut)
    .ipcOpen) .ipcClose) .ctl

/-- `umf_memory_provider_t`, `memory_provider_internal.h:23-27`. -/
structure Provider (F : Type) where
  priv : Nat
  table : Table F

/-- A call of a user's function with its arguments. -/
abbrev Trace (F : Type) := List (F × List Nat)

/-- Result of an API call: it returns, or calls a null pointer. -/
inductive Outcome where
  | ret (r : Res)
  | crash
deriving DecidableEq, Repr

/-- `umfMemoryProviderCreate`, `memory_provider.c:186-223`. `ops`, `out`: the pointers are not null;
`host`: there is host memory; `init`: result and private pointer of the user's `initialize`. The table
is copied before `initialize` is called. -/
def create {F : Type} (ops : Option (Ops F)) (out host : Bool) (params : Nat)
    (init : F → Nat → Res × Nat) : Outcome × Option (Provider F) × Trace F :=
  match ops with
  | none => (.ret .invalidArgument, none, [])
  | some o =>
    if out = false ∨ validateOps o = false then (.ret .invalidArgument, none, [])
    else if host = false then (.ret .outOfHostMemory, none, [])
    else
      let t : Table F := assignIpc (assignExt fun s => (o s).map .user)
      match o .initialize with
      | none => (.crash, none, [])
      | some f =>
        match init f params with
        | (.success, priv) => (.ret .success, some ⟨priv, t⟩, [(f, [params])])
        | (r, _) => (.ret r, none, [(f, [params])])

/-- Calling the function in slot `s`. -/
def invoke {F : Type} (p : Provider F) (s : Slot) (args : List Nat) (run : F → List Nat → Res) :
    Outcome × Trace F :=
  match p.table s with
  | none => (.crash, [])
  | some .unsupported => (.ret .notSupported, [])
  | some (.user f) => (.ret (run f (p.priv :: args)), [(f, p.priv :: args)])

/-- The calls of the provider interface that return a result code, with their arguments other than the
handle. Output pointers are arguments. -/
inductive Call where
  | alloc (size al out : Nat)
  | free (ptr size : Nat)
  | recPage (size out : Nat)
  | minPage (ptr out : Nat)
  | purgeLazy (ptr size : Nat)
  | purgeForce (ptr size : Nat)
  | split (ptr total first : Nat)
  | merge (low high total : Nat)
  | ipcSize (out : Nat)
  | ipcGet (ptr size data : Nat)
  | ipcPut (data : Nat)
  | ipcOpen (data out : Nat)
  | ipcClose (ptr size : Nat)
deriving Repr, DecidableEq

/-- The checks of the arguments (`UMF_CHECK`) of each function. -/
def Call.checks : Call → Bool
  | .alloc _ _ out => out != 0                      -- memory_provider.c:240-248
  | .free _ _ => true                               -- memory_provider.c:250-256
  | .recPage _ out => out != 0                      -- memory_provider.c:271-280
  | .minPage _ out => out != 0                      -- memory_provider.c:282-291
  | .purgeLazy ptr _ => ptr != 0                    -- memory_provider.c:298-306
  | .purgeForce ptr _ => ptr != 0                   -- memory_provider.c:308-316
  | .split ptr total first =>                       -- memory_provider.c:322-336
    ptr != 0 && (first != 0 && total != 0) && decide (first < total)
  | .merge low high total =>                        -- memory_provider.c:338-354
    (low != 0 && high != 0) && total != 0 && decide (low < high) && decide (high - low < total)
  | .ipcSize out => out != 0                        -- memory_provider.c:356-363
  | .ipcGet ptr _ data => ptr != 0 && data != 0     -- memory_provider.c:365-374
  | .ipcPut data => data != 0                       -- memory_provider.c:376-383
  | .ipcOpen data out => data != 0 && out != 0      -- memory_provider.c:385-393
  | .ipcClose ptr _ => ptr != 0                     -- memory_provider.c:395-402

/-- The slot each function calls. -/
def Call.slot : Call → Slot
  | .alloc .. => .alloc | .free .. => .free | .recPage .. => .recPage | .minPage .. => .minPage
  | .purgeLazy .. => .purgeLazy | .purgeForce .. => .purgeForce | .split .. => .split
  | .merge .. => .merge | .ipcSize .. => .ipcSize | .ipcGet .. => .ipcGet | .ipcPut .. => .ipcPut
  | .ipcOpen .. => .ipcOpen | .ipcClose .. => .ipcClose

/-- The arguments passed on after the private pointer. -/
def Call.args : Call → List Nat
  | .alloc size al out => [size, al, out]
  | .free ptr size => [ptr, size]
  | .recPage size out => [size, out]
  | .minPage ptr out => [ptr, out]
  | .purgeLazy ptr size => [ptr, size]
  | .purgeForce ptr size => [ptr, size]
  | .split ptr total first => [ptr, total, first]
  | .merge low high total => [low, high, total]
  | .ipcSize out => [out]
  | .ipcGet ptr size data => [ptr, size, data]
  | .ipcPut data => [data]
  | .ipcOpen data out => [data, out]
  | .ipcClose ptr size => [ptr, size]

/-- Whether the function calls `checkErrorAndSetLastProvider`: all but the IPC functions. -/
def Call.reports : Call → Bool
  | .ipcSize .. | .ipcGet .. | .ipcPut .. | .ipcOpen .. | .ipcClose .. => false
  | _ => true

/-- Providers by handle, and the thread-local variable `lastFailedProvider`
(`memory_provider_get_last_failed.c:13`) of every thread. -/
structure World (F : Type) where
  provider : Nat → Option (Provider F)
  last : Nat → Option Nat

/-- `checkErrorAndSetLastProvider`, `memory_provider.c:232-238`. -/
def setLast {F : Type} (w : World F) (tid : Nat) (r : Outcome) (h : Nat) : World F :=
  if r ≠ .ret .success then { w with last := fun t => if t = tid then some h else w.last t } else w

/-- A call by a thread on a handle (`none`: `NULL`). A handle without provider is a crash. -/
def call {F : Type} (w : World F) (tid : Nat) (h : Option Nat) (c : Call) (run : F → List Nat → Res) :
    World F × Outcome × Trace F :=
  match h with
  | none => (w, .ret .invalidArgument, [])
  | some h =>
    if c.checks = false then (w, .ret .invalidArgument, [])
    else match w.provider h with
      | none => (w, .crash, [])
      | some p =>
        let r := invoke p c.slot c.args run
        (if c.reports then setLast w tid r.1 h else w, r)

/-- `umfGetLastFailedMemoryProvider`, `memory_provider.c:318-320`. -/
def lastFailed {F : Type} (w : World F) (tid : Nat) : Option Nat := w.last tid

/-- An allocation by a pool with tracking: the wrapper's `alloc` calls the upstream provider and
passes a failure on (`provider_tracking.c: trackingAlloc`). Simplification: only this part of
`trackingAlloc`, and the wrapper's function is the parameter `run` of the outer call. -/
def trackedAlloc {F : Type} (w : World F) (tid wrapper upstream size al out : Nat)
    (run : F → List Nat → Res) : World F × Outcome :=
  let r := call w tid (some upstream) (.alloc size al out) run
  match r.2.1 with
  | .crash => (r.1, .crash)
  | .ret res => (setLast r.1 tid (.ret res) wrapper, .ret res)

end Verif.Api
