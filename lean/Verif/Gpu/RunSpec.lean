import Verif.Gpu.Spec

/-!
# What a call reports, against what the driver answered

A run of a program is the list of its calls with any answers at all, and what it returns. Nothing of the programs is used
but that they make calls.
-/
namespace Verif.Gpu

/-- The program can make these calls, in this order, be answered so, and return this; `none` stands for an undefined
end. -/
def Prog.Runs : Prog → List (Call × Resp) → Option Out → Prop
  | .ret o, tr, out => tr = [] ∧ out = some o
  | .ub, tr, out => tr = [] ∧ out = none
  | .call c k, tr, out => ∃ r tr', tr = (c, r) :: tr' ∧ (k r).Runs tr' out
  | .store _ _ k, tr, out => k.Runs tr out

/-- The call was made, and it succeeded with a value that has the property. -/
def Did (tr : List (Call × Resp)) (c : Call) (P : Nat → Prop := fun _ => True) : Prop :=
  ∃ r, (c, r) ∈ tr ∧ r.err = 0 ∧ P r.val

/-- The base allocator took the memory back. -/
def Freed (tr : List (Call × Resp)) (q : Nat) : Prop := ∃ r, (.baFree q, r) ∈ tr

/-- What has to have happened when a call of the client reports success. -/
def Done (E : Env) (op : Op) (o : Out) (tr : List (Call × Resp)) : Prop :=
  match op with
  | .cuParamsCreate | .zeParamsCreate => ∃ n, Did tr (.baAlloc n) (· = o.ptr)
  | .paramsDestroy q => q = 0 ∨ Freed tr q
  | .cuDestroy p => Freed tr p.addr
  | .zeDestroy p => Freed tr p.addr ∧ (p.resAddr ≠ 0 → Freed tr p.resAddr)
  | .cuCreate P => ∃ Q p, P = some Q ∧ o.cuProv = some p ∧ CuMatches Q p ∧
      Did tr (.cuGranularity Q.dev false) (· = p.minAlign)
  | .zeCreate P => ∃ Q p, P = some Q ∧ o.zeProv = some p ∧
      (Q.dev ≠ 0 → Did tr (.zeDeviceGetProperties Q.dev) (· = p.maxAlloc)) ∧
      ∃ q, Did tr (.zeMemGetAllocProperties Q.ctx q) (· = p.minPage)
  | .cuAlloc p n _ => ∃ c, Did tr c (· = o.ptr) ∧
      ((p.type = 1 ∧ c = .cuMemHostAlloc n p.flags) ∨ (p.type = 2 ∧ c = .cuMemAlloc n) ∨
        (p.type = 3 ∧ c = .cuMemAllocManaged n p.flags))
  | .cuFree p q => q = 0 ∨ (p.type = 1 ∧ Did tr (.cuMemFreeHost q)) ∨
      ((p.type = 2 ∨ p.type = 3) ∧ Did tr (.cuMemFree q))
  | .cuPageSize p recommended => Did tr (.cuGranularity p.dev recommended) (· = o.ptr)
  | .cuIpcGet _ q => Did tr (.cuIpcGetMemHandle q) (· = o.ptr)
  | .cuIpcOpen _ h => Did tr (.cuIpcOpenMemHandle h) (· = o.ptr)
  | .cuIpcClose _ q => Did tr (.cuIpcCloseMemHandle q)
  | .zeAlloc p n a => (∃ c, Did tr c (· = o.ptr) ∧
      ((p.type = 1 ∧ c = .zeMemAllocHost p.ctx n a) ∨
        (p.type = 2 ∧ c = .zeMemAllocDevice p.ctx p.dev p.ordinal (decide (p.maxAlloc < n)) n a) ∨
        (p.type = 3 ∧ c = .zeMemAllocShared p.ctx p.dev p.ordinal (decide (p.maxAlloc < n)) n a))) ∧
      ∀ d ∈ p.resident, Did tr (.zeMakeResident p.ctx d o.ptr n)
  | .zeFree p q => q = 0 ∨ (p.policy = 0 ∧ Did tr (.zeMemFree p.ctx q)) ∨
      (p.policy ≠ 0 ∧ Did tr (.zeMemFreeExt p.ctx p.policy q))
  | .zePageSize p q => (q = 0 ∧ o.ptr = p.minPage) ∨ (q ≠ 0 ∧ Did tr (.zeMemGetAllocProperties p.ctx q) (· = o.ptr))
  | .zeIpcGet p q => ∃ r g, (.zeMemGetIpcHandle p.ctx q, r) ∈ tr ∧ r.err = 0 ∧ (.getpid, g) ∈ tr ∧
      o.ipc = some { pid := g.val, h := { fd := r.val, rest := r.val2 } }
  | .zeIpcPut p d => E.putIpc = false ∨ Did tr (.zeMemPutIpcHandle p.ctx d.h)
  | .zeIpcOpen p d => ∃ h, Did tr (.zeMemOpenIpcHandle p.ctx p.dev h) (· = o.ptr) ∧ h.rest = d.h.rest
  | .zeIpcClose p q => Did tr (.zeMemCloseIpcHandle p.ctx q)

/-- The result that belongs to a refused call: `CUDA_ERROR_OUT_OF_MEMORY` is 2, `CUDA_ERROR_INVALID_VALUE` 1,
`CUDA_ERROR_INVALID_HANDLE` 400, `CUDA_ERROR_DEINITIALIZED` 4, `ZE_RESULT_ERROR_OUT_OF_HOST_MEMORY` 0x70000002,
`ZE_RESULT_ERROR_INVALID_ARGUMENT` 0x78000004; the numbers for a descriptor are `EBADF`, `EINVAL`, `ESRCH`, `EPERM`,
`EMFILE`, `ENOMEM`, `ENODEV`, `ENOSYS`, `ENOTSUP`. -/
def resultOf (c : Call) (e : Nat) : Res :=
  match c with
  | .baAlloc _ => .outOfHostMemory
  | .dupFd _ _ => if e ∈ [9, 22, 3, 1] then .invalidArgument else if e ∈ [24, 12] then .outOfHostMemory
      else if e ∈ [19, 38, 95] then .notSupported else .unknown
  | .cuGranularity _ _ | .cuMemHostAlloc _ _ | .cuMemAlloc _ | .cuMemAllocManaged _ _ | .cuMemFree _
  | .cuMemFreeHost _ | .cuCtxGetCurrent | .cuCtxGetDevice | .cuCtxSetCurrent _ | .cuIpcGetMemHandle _
  | .cuIpcOpenMemHandle _ | .cuIpcCloseMemHandle _ =>
      if e = 2 then .outOfHostMemory else if e ∈ [1, 400] then .invalidArgument
      else if e = 4 then .outOfResources else .specific
  | _ => if e = 0x70000002 then .outOfHostMemory else if e = 0x78000004 then .invalidArgument else .specific

/-- An error has a cause: a call that was refused with the code the result stands for, or the client's own arguments, or a
missing driver. -/
def Explained (E : Env) (op : Op) (o : Out) (tr : List (Call × Resp)) : Prop :=
  o.res = .success ∨
  (∃ c r, (c, r) ∈ tr ∧ r.err ≠ 0 ∧ o.res = resultOf c r.err) ∨
  -- more alignment than the driver gives
  (o.res = .notSupported ∧ ∃ p n a, op = .cuAlloc p n a ∧ p.minAlign < a) ∨
  -- the driver's memory was not aligned as asked
  (o.res = .invalidAlignment ∧ ∃ p n a c r, op = .cuAlloc p n a ∧ (c, r) ∈ tr ∧ r.err = 0 ∧
    c.makes r = some (.gpu .cu r.val) ∧ a ≠ 0 ∧ ¬ a ∣ r.val) ∨
  -- no parameters, or parameters that are not acceptable
  (o.res = .invalidArgument ∧ ((op = .cuCreate none ∨ ∃ P, op = .cuCreate (some P) ∧
      (¬(P.type = 1 ∨ P.type = 2 ∨ P.type = 3) ∨ P.ctx = 0 ∨ P.dev < 0)) ∨
    (op = .zeCreate none ∨ ∃ P, op = .zeCreate (some P) ∧
      (P.ctx = 0 ∨ (P.type = 1 ∧ P.dev ≠ 0) ∨ (P.type ≠ 1 ∧ P.dev = 0) ∨ (P.count ≠ 0 ∧ P.resident = none))))) ∨
  -- the driver's library is missing
  (o.res = .dependency ∧ ((E.cu = false ∧ (op = .cuParamsCreate ∨ ∃ P, op = .cuCreate P)) ∨
    (E.ze = false ∧ ∃ P, op = .zeCreate P))) ∨
  -- a provider that creation cannot have given
  (o.res = .unknown ∧ ((∃ p, op.cuProv = some p ∧ ¬(p.type = 1 ∨ p.type = 2 ∨ p.type = 3)) ∨
    ∃ p, op.zeProv = some p ∧ ¬(p.type = 1 ∨ p.type = 2 ∨ p.type = 3)))

end Verif.Gpu
