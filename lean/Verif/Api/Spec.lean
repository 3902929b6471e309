import Verif.Api.Model
/-!
# Specification for the provider interface
-/
namespace Verif.Api

def mandatory : List Slot :=
  [.alloc, .free, .lastError, .recPage, .minPage, .initialize, .finalize, .getName]

def ipcSlots : List Slot := [.ipcSize, .ipcGet, .ipcPut, .ipcOpen, .ipcClose]

def optional : List Slot :=
  [.purgeLazy, .purgeForce, .split, .merge, .ipcSize, .ipcGet, .ipcPut, .ipcOpen, .ipcClose, .ctl]

/-- A table that may be used: all mandatory functions, split and merge together, IPC all or none. -/
def Acceptable {F : Type} (o : Ops F) : Prop :=
  (∀ s ∈ mandatory, o s ≠ none) ∧ (o .split = none ↔ o .merge = none) ∧
    ((∀ s ∈ ipcSlots, o s ≠ none) ∨ ∀ s ∈ ipcSlots, o s = none)

/-- The arguments that may reach a provider: pointers to read from or write to are not null, a cut lies strictly
inside the allocation, and merged allocations are given in order, the second inside the total. -/
def ArgsOk : Call → Prop
  | .alloc _ _ out | .recPage _ out | .minPage _ out | .ipcSize out => out ≠ 0
  | .free _ _ => True
  | .purgeLazy ptr _ | .purgeForce ptr _ | .ipcClose ptr _ | .ipcPut ptr => ptr ≠ 0
  | .split ptr total first => ptr ≠ 0 ∧ 0 < first ∧ first < total
  | .merge low high total => low ≠ 0 ∧ low < high ∧ high < low + total
  | .ipcGet ptr _ data => ptr ≠ 0 ∧ data ≠ 0
  | .ipcOpen data out => data ≠ 0 ∧ out ≠ 0

/-- The function of the table that stands for a call, and the arguments it is declared with
(`include/umf/memory_provider_ops.h`). -/
def Stands : Call → Slot → List Nat → Prop
  | .alloc size al out, s, l => s = .alloc ∧ l = [size, al, out]
  | .free ptr size, s, l => s = .free ∧ l = [ptr, size]
  | .recPage size out, s, l => s = .recPage ∧ l = [size, out]
  | .minPage ptr out, s, l => s = .minPage ∧ l = [ptr, out]
  | .purgeLazy ptr size, s, l => s = .purgeLazy ∧ l = [ptr, size]
  | .purgeForce ptr size, s, l => s = .purgeForce ∧ l = [ptr, size]
  | .split ptr total first, s, l => s = .split ∧ l = [ptr, total, first]
  | .merge low high total, s, l => s = .merge ∧ l = [low, high, total]
  | .ipcSize out, s, l => s = .ipcSize ∧ l = [out]
  | .ipcGet ptr size data, s, l => s = .ipcGet ∧ l = [ptr, size, data]
  | .ipcPut data, s, l => s = .ipcPut ∧ l = [data]
  | .ipcOpen data out, s, l => s = .ipcOpen ∧ l = [data, out]
  | .ipcClose ptr size, s, l => s = .ipcClose ∧ l = [ptr, size]

/-- One of the five IPC calls. -/
def IsIpc : Call → Prop
  | .ipcSize .. | .ipcGet .. | .ipcPut .. | .ipcOpen .. | .ipcClose .. => True
  | _ => False

/-- A call as its thread sees it when it returns: thread, handle, call, result. -/
structure Ev where
  tid : Nat
  h : Option Nat
  c : Call
  r : Outcome

/-- The call reached a provider. -/
def Ev.Reached (e : Ev) : Prop := e.h ≠ none ∧ ArgsOk e.c

/-- The provider of the last event of the thread `tid` whose call reached a provider and failed. -/
def LastFailing (tid : Nat) (es : List Ev) (h : Option Nat) : Prop :=
  (h = none ∧ ∀ e ∈ es, ¬ (e.tid = tid ∧ e.Reached ∧ e.r ≠ .ret .success)) ∨
  ∃ before e after, es = before ++ e :: after ∧ e.tid = tid ∧ e.Reached ∧ e.r ≠ .ret .success ∧
    e.h = h ∧ h ≠ none ∧ ∀ x ∈ after, ¬ (x.tid = tid ∧ x.Reached ∧ x.r ≠ .ret .success)

/-- Histories of calls by any threads, in the order in which they return. -/
inductive Hist {F : Type} (w0 : World F) : World F → List Ev → Prop where
  | nil : Hist w0 w0 []
  | call {w es tid h c run w' r tr} : Hist w0 w es → call w tid h c run = (w', r, tr) →
      Hist w0 w' (es ++ [⟨tid, h, c, r⟩])

end Verif.Api
