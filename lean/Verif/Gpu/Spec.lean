import Verif.Gpu.Machine

/-!
# What is claimed of the GPU providers

Written with the calls of the drivers and the calls of the client only; nothing of the programs of the providers is used.
-/
namespace Verif.Gpu

/-- Calls of CUDA that allocate, free or map memory, and so act on the current context. -/
def Call.usesCtx : Call → Bool
  | .cuMemHostAlloc _ _ | .cuMemAlloc _ | .cuMemAllocManaged _ _ | .cuMemFree _ | .cuMemFreeHost _
  | .cuIpcOpenMemHandle _ => true
  | _ => false

/-- The remaining calls of CUDA on memory. -/
def Call.usesCtxIpc : Call → Bool
  | .cuIpcGetMemHandle _ | .cuIpcCloseMemHandle _ => true
  | _ => false

/-- The memory that `umfMemoryProviderAlloc` has to give with a CUDA provider: of the configured type, with the configured
flags, of the size asked for, in the provider's context, aligned. -/
def CuFits (p : CuProv) (size align addr : Nat) (i : Info) : Prop :=
  ((p.type = 1 ∧ i.call = .cuMemHostAlloc size p.flags) ∨
    (p.type = 2 ∧ i.call = .cuMemAlloc size) ∨
    (p.type = 3 ∧ i.call = .cuMemAllocManaged size p.flags)) ∧
  i.ctx = p.ctx ∧ (align ≠ 0 → align ∣ addr)

/-- The memory that `umfMemoryProviderAlloc` has to give with a Level Zero provider: in the provider's context, on its
device, of the configured type, of the size asked for, with the larger limit exactly when the size needs it, aligned, and resident on the configured devices. -/
def ZeFits (p : ZeProv) (size align addr : Nat) (i : Info) : Prop :=
  ((p.type = 1 ∧ i.call = .zeMemAllocHost p.ctx size align) ∨
    (p.type = 2 ∧ ∃ relaxed, i.call = .zeMemAllocDevice p.ctx p.dev p.ordinal relaxed size align ∧
      (relaxed = true ↔ p.maxAlloc < size)) ∨
    (p.type = 3 ∧ ∃ relaxed, i.call = .zeMemAllocShared p.ctx p.dev p.ordinal relaxed size align ∧
      (relaxed = true ↔ p.maxAlloc < size))) ∧
  (align ≠ 0 → align ∣ addr) ∧ (∀ d, d ∈ i.resident ↔ d ∈ p.resident)

/-- A CUDA provider has what its parameters say, and the parameters are acceptable. -/
def CuMatches (P : CuParams) (p : CuProv) : Prop :=
  p.ctx = P.ctx ∧ p.dev = P.dev ∧ p.type = P.type ∧
    (P.type = 1 ∨ P.type = 2 ∨ P.type = 3) ∧ P.ctx ≠ 0 ∧ 0 ≤ P.dev ∧
    -- shared memory needs a flag, by default `CU_MEM_ATTACH_GLOBAL`
    (P.type = 3 ∧ P.flags = 0 → p.flags = 1) ∧ (¬(P.type = 3 ∧ P.flags = 0) → p.flags = P.flags)

/-- A Level Zero provider has what its parameters say, and the parameters are acceptable: a device exactly for device and
shared memory. -/
def ZeMatches (P : ZeParams) (p : ZeProv) : Prop :=
  p.ctx = P.ctx ∧ p.dev = P.dev ∧ p.type = P.type ∧ p.ordinal = P.ordinal ∧
    P.ctx ≠ 0 ∧ ((P.type = 1 ∧ P.dev = 0) ∨ ((P.type = 2 ∨ P.type = 3) ∧ P.dev ≠ 0)) ∧
    ((P.count = 0 ∧ p.resident = []) ∨ ∃ l, P.resident = some l ∧ p.resident = l.take P.count) ∧
    (P.policy = 1 ∨ P.policy = 2 → p.policy = P.policy) ∧ (¬(P.policy = 1 ∨ P.policy = 2) → p.policy = 0)

/-- What holds of a resource that a client has. -/
def Fits (g : Grant) (x : Rsrc) (i : Info) : Prop :=
  match g.1 with
  | .cuAlloc p n a => ∃ addr, x = .gpu .cu addr ∧ addr ≠ 0 ∧ CuFits p n a addr i
  | .zeAlloc p n a => ∃ addr, x = .gpu .ze addr ∧ addr ≠ 0 ∧ ZeFits p n a addr i
  | .cuCreate P => ∃ Q p, P = some Q ∧ g.2.cuProv = some p ∧ CuMatches Q p
  | .zeCreate P => ∃ Q p, P = some Q ∧ g.2.zeProv = some p ∧ ZeMatches Q p ∧ p.addr ≠ p.resAddr
  | _ => True

/-- The driver never refused to free memory or to read or change the current context, and made memory resident whenever
asked. -/
def Call.mustWork : Call → Bool
  | .cuMemFree _ | .cuMemFreeHost _ | .zeMemFree _ _ | .zeMemFreeExt _ _ _ => true
  | .cuCtxGetCurrent | .cuCtxSetCurrent _ => true
  | .zeMakeResident _ _ _ _ => true
  | _ => false

def Clean (l : List (Call × Nat)) : Prop := ∀ x ∈ l, x.1.mustWork = false

/-- The calls of Level Zero that find out the page size when a provider is created. -/
def Call.probes : Call → Bool
  | .zeMemAllocHost _ _ _ | .zeMemAllocDevice _ _ _ _ _ _ | .zeMemAllocShared _ _ _ _ _ _
  | .zeMakeResident _ _ _ _ | .zeMemGetAllocProperties _ _ => true
  | _ => false

/-- Error codes that have a result of their own. -/
def mapped : Be → Nat → Prop
  | .cu, e => e = 0 ∨ e = 1 ∨ e = 2 ∨ e = 4 ∨ e = 400
  | .ze, e => e = 0 ∨ e = 0x70000002 ∨ e = 0x78000004

/-- The driver that a call of the client goes to. -/
def Op.be : Op → Be
  | .cuParamsCreate | .paramsDestroy _ | .cuCreate _ | .cuDestroy _ | .cuAlloc _ _ _ | .cuFree _ _
  | .cuPageSize _ _ | .cuIpcGet _ _ | .cuIpcOpen _ _ | .cuIpcClose _ _ => .cu
  | _ => .ze

/-- The native error code is the one behind the result "provider specific": the code of a call that the driver refused
during this call of the client, one without a result of its own; and if a call other than those for the context was
refused, it is the code of such a call. -/
def NativeOk (op : Op) (o : Out) (refused : List (Call × Nat)) (tls : Be → Nat) : Prop :=
  o.res = .specific →
    ∃ c, (c, tls op.be) ∈ refused ∧ ¬ mapped op.be (tls op.be) ∧
      ((∃ x ∈ refused, x.1.isCtx = false) → c.isCtx = false)

/-- When a call of a Level Zero provider is undefined although the client obeys the rules: creating a provider with a
memory type that does not exist, or when the driver refuses one of the calls that find out the page size; and freeing with
a policy when the driver has no `zeMemFreeExt`, which creating a provider does too. -/
def Undefined (E : Env) (op : Op) (refused : List (Call × Nat)) : Prop :=
  (∃ P, op = .zeCreate (some P) ∧
    (¬(P.type = 1 ∨ P.type = 2 ∨ P.type = 3) ∨ (∃ x ∈ refused, x.1.probes = true) ∨
      (E.freeExt = false ∧ (P.policy = 1 ∨ P.policy = 2)))) ∨
  (∃ p q, op = .zeFree p q ∧ E.freeExt = false ∧ p.policy ≠ 0)

/-- What a thread guarantees about its next call. -/
def CallOk (live : Rsrc → Option Info) (cur pid : Nat) (op : Op) (c : Call) : Prop :=
  -- memory of CUDA is allocated, freed and mapped in the provider's context
  (c.usesCtx = true → ∃ p, op.cuProv = some p ∧ cur = p.ctx) ∧
  -- a handle is opened on the provider's context and device; the descriptor in it is the exporter's own if the exporter is
  -- this process, otherwise a duplicate of it, still open
  (∀ ctx dev h, c = .zeMemOpenIpcHandle ctx dev h → ∃ p d, op = .zeIpcOpen p d ∧ ctx = p.ctx ∧ dev = p.dev ∧
    h.rest = d.h.rest ∧
    (d.pid = pid → h.fd = d.h.fd) ∧
    (d.pid ≠ pid → ∃ i, live (.fd h.fd) = some i ∧ i.call = .dupFd d.pid d.h.fd))

end Verif.Gpu
