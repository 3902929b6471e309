import Verif.Heap.Machine

/-!
# What is claimed of the pools on top of other allocators

Written with the calls of the client and the calls of the libraries and the provider; nothing of the programs of the pools
is used.
-/
namespace Verif.Heap

/-- The provider of a call: the one of the client's request to create a pool, or the one the pool was created with. -/
def Frame.provider (f : Frame) : Option Prov :=
  match f.op with
  | .create _ pv _ => some pv
  | _ => f.made.map (·.pv)

/-- The provider that is called. -/
def Call.prov : Call → Option Prov
  | .provAlloc pv _ _ | .provFree pv _ _ | .purgeLazy pv _ _ | .purgeForce pv _ _ | .split pv _ _ _
  | .merge pv _ _ _ => some pv
  | _ => none

/-- The kind of the pool of a call. -/
def Op.file : Op → File
  | .create f _ _ | .destroy f _ | .malloc f _ _ | .calloc f _ _ _ | .realloc f _ _ _ | .aligned f _ _ _
  | .free f _ _ | .usable f _ _ | .lastError f _ => f

/-- A call that asks for memory failed: it returned NULL, and it was not a `realloc` to size 0, which frees. -/
def Op.Failed (op : Op) (o : Out) : Prop :=
  (∃ x, op.asks = some x) ∧ o.val = 0 ∧ ∀ f p ptr, op = .realloc f p ptr 0 → ptr = 0 ∨ f = .proxy

/-- The error that `umfPoolGetLastAllocationError` has to report after a failed call: an error; for the jemalloc pool that
memory is exhausted; for the scalable pool that memory is exhausted if the provider refused memory during the call, and an
unknown error otherwise, unless the provider used pools of the same kind itself. -/
def ErrOk (f : Frame) (o : Out) (tls : Var → Res) : Prop :=
  f.op.Failed o →
    tls (.alloc f.op.file) ≠ resSuccess ∧
    (f.op.file = .je → tls (.alloc .je) = resOutOfHostMemory) ∧
    (f.op.file = .tbb → f.nested = false →
      tls (.alloc .tbb) = if f.refused = true then resOutOfHostMemory else resUnknown)

/-- What freeing reports if oneTBB refuses: the last error of the provider during the call, if there is one. -/
def FreeOk (f : Frame) (o : Out) : Prop :=
  ∀ p ptr, f.op = .free .tbb p ptr → o.res ≠ resSuccess → f.nested = false →
    o.res = f.freeErr.getD resUnknown

/-- The parameters that oneTBB has to get. -/
def Made.granularity (m : Made) : Nat := match m.params with
  | some q => q.granularity
  | none => 2 * 1024 * 1024

def Made.keepAll (m : Made) : Bool := match m.params with
  | some q => q.keepAll
  | none => false

end Verif.Heap
