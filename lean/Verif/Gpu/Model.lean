/-!
# Model of the GPU memory providers (`src/provider/provider_cuda.c`, `src/provider/provider_level_zero.c`)

Every function of the two providers is a program that makes calls to the driver, to the operating system and to the global
base allocator, one at a time. What a call answers is not fixed: a program goes on with any answer. How the driver behaves
is in `Verif.Gpu.Machine`, which also runs the programs of many threads in any order.

The functions that only write a field of the parameters (`umfCUDAMemoryProviderParamsSet…`,
`umfLevelZeroMemoryProviderParamsSet…`) are the values of `CuParams` and `ZeParams`. Logging and the annotations for
sanitizers are left out. Pointers, handles and sizes are natural numbers, 0 is `NULL`; devices of CUDA are integers.
-/
namespace Verif.Gpu

/-- `umf_result_t`, `include/umf/base.h:35-56`: the codes these files return. -/
inductive Res where
  | success | outOfHostMemory | specific | invalidArgument | invalidAlignment | notSupported
  | dependency | outOfResources | unknown
deriving DecidableEq, Repr

/-- The two drivers. -/
inductive Be where
  | cu | ze
deriving DecidableEq, Repr

/-- `umf_usm_memory_type_t`, `include/umf/memory_provider_gpu.h:20-25`, an enumeration in C and so any number. -/
abbrev MemType := Nat

def MemType.unknown : MemType := 0
def MemType.host : MemType := 1
def MemType.device : MemType := 2
def MemType.shared : MemType := 3

/-- `ze_ipc_mem_handle_t`: 64 bytes, of which the first four are used as a file descriptor
(`provider_level_zero.c:806-814`). -/
structure ZeHandle where
  fd : Nat
  rest : Nat
deriving DecidableEq, Repr

/-- `ze_ipc_data_t`, `provider_level_zero.c:735-738`. -/
structure ZeIpc where
  pid : Nat
  h : ZeHandle
deriving DecidableEq, Repr

/-- The calls the providers make. The context of CUDA calls is the current one of the calling thread. -/
inductive Call where
  /-- `umf_ba_global_alloc`, `umf_ba_global_free` -/
  | baAlloc (size : Nat) | baFree (p : Nat)
  /-- `cuMemGetAllocationGranularity` for the minimum (`false`) or the recommended (`true`) granularity -/
  | cuGranularity (dev : Int) (recommended : Bool)
  | cuMemHostAlloc (size flags : Nat) | cuMemAlloc (size : Nat) | cuMemAllocManaged (size flags : Nat)
  | cuMemFree (p : Nat) | cuMemFreeHost (p : Nat)
  | cuCtxGetCurrent | cuCtxGetDevice | cuCtxSetCurrent (c : Nat)
  | cuIpcGetMemHandle (p : Nat) | cuIpcOpenMemHandle (h : Nat) | cuIpcCloseMemHandle (p : Nat)
  | zeMemAllocHost (ctx size align : Nat)
  | zeMemAllocDevice (ctx dev ordinal : Nat) (relaxed : Bool) (size align : Nat)
  | zeMemAllocShared (ctx dev ordinal : Nat) (relaxed : Bool) (size align : Nat)
  | zeMemFree (ctx p : Nat) | zeMemFreeExt (ctx policy p : Nat)
  | zeMakeResident (ctx dev p size : Nat)
  | zeDeviceGetProperties (dev : Nat) | zeMemGetAllocProperties (ctx p : Nat)
  | zeMemGetIpcHandle (ctx p : Nat) | zeMemPutIpcHandle (ctx : Nat) (h : ZeHandle)
  | zeMemOpenIpcHandle (ctx dev : Nat) (h : ZeHandle) | zeMemCloseIpcHandle (ctx p : Nat)
  /-- `utils_getpid`, `utils_duplicate_fd`, `utils_close_fd` -/
  | getpid | dupFd (pid fd : Nat) | closeFd (fd : Nat)
deriving DecidableEq, Repr

/-- An answer: 0 in `err` is success, everything else is the error code of the driver or the operating system. The value
is what the call stores through its out-parameter or returns; only `zeMemGetIpcHandle` gives two. -/
structure Resp where
  err : Nat
  val : Nat
  val2 : Nat := 0
deriving DecidableEq, Repr

/-- `cu_memory_provider_t`, `provider_cuda.c:103-109`, and its address. -/
structure CuProv where
  addr : Nat
  ctx : Nat
  dev : Int
  type : MemType
  minAlign : Nat
  flags : Nat
deriving DecidableEq, Repr

/-- `ze_memory_provider_t`, `provider_level_zero.c:141-158`, its address and that of the array of resident devices. Of the
properties of the device only the limit of an allocation is kept. -/
structure ZeProv where
  addr : Nat
  ctx : Nat
  dev : Nat
  type : MemType
  resAddr : Nat
  resident : List Nat
  maxAlloc : Nat
  policy : Nat
  minPage : Nat
  ordinal : Nat
deriving DecidableEq, Repr

/-- What a call of a provider returns: the result, and what it stores through its out-parameters. -/
structure Out where
  res : Res
  ptr : Nat := 0
  cuProv : Option CuProv := none
  zeProv : Option ZeProv := none
  ipc : Option ZeIpc := none
deriving DecidableEq, Repr

/-- A program: it returns, it does something undefined, it makes a call and goes on with the answer, or it writes the last
native error of its thread (`TLS_last_native_error`). -/
inductive Prog where
  | ret (o : Out)
  | ub
  | call (c : Call) (k : Resp → Prog)
  | store (b : Be) (e : Nat) (k : Prog)

/-- The results of a call that only returns a result. -/
def Prog.done (r : Res) : Prog := .ret { res := r }

/-- What loading the driver libraries found. `cu` and `ze`: the required symbols were found
(`init_cu_global_state`, `provider_cuda.c:191-252`, and `init_ze_global_state`, `provider_level_zero.c:214-270`, run once).
`freeExt` and `putIpc`: `zeMemFreeExt` and `zeMemPutIpcHandle` were found; they are not among the required symbols
(`provider_level_zero.c:254-259`). -/
structure Env where
  cu : Bool
  ze : Bool
  freeExt : Bool
  putIpc : Bool
deriving DecidableEq, Repr

/-! ## CUDA -/

/-- `cu2umf_result`, `provider_cuda.c:173-189`, with the numbers of `CUresult`. -/
def cu2umf (e : Nat) (k : Res → Prog) : Prog :=
  if e = 0 then k .success
  else if e = 2 then k .outOfHostMemory
  else if e = 1 ∨ e = 400 then k .invalidArgument
  else if e = 4 then k .outOfResources
  else .store .cu e (k .specific)

/-- `set_context`, `provider_cuda.c:437-455`. The second value is `*restore_ctx`. -/
def setContext (required : Nat) (k : Res → Nat → Prog) : Prog :=
  .call .cuCtxGetCurrent fun r =>
    if r.err ≠ 0 then cu2umf r.err fun u => k u 0
    else if r.val ≠ required then
      .call (.cuCtxSetCurrent required) fun r2 =>
        if r2.err ≠ 0 then cu2umf r2.err fun u => k u r.val
        else k .success r.val
    else k .success r.val

/-- `cu_memory_provider_free`, `provider_cuda.c:521-563`; it is also called by the allocation. -/
def cuFreeK (p : CuProv) (ptr : Nat) (k : Res → Prog) : Prog :=
  if ptr = 0 then k .success
  else setContext p.ctx fun u restore =>
    if u ≠ .success then k u
    else
      let rest : Resp → Prog := fun r =>
        setContext restore fun _ _ => cu2umf r.err k
      if p.type = .host then .call (.cuMemFreeHost ptr) rest
      else if p.type = .shared ∨ p.type = .device then .call (.cuMemFree ptr) rest
      else k .unknown

def cuFree (p : CuProv) (ptr : Nat) : Prog := cuFreeK p ptr .done

/-- The switch of `cu_memory_provider_alloc`, `provider_cuda.c:477-501`: the call for the memory type. -/
def cuAllocCall (p : CuProv) (size : Nat) : Option Call :=
  if p.type = .host then some (.cuMemHostAlloc size p.flags)
  else if p.type = .device then some (.cuMemAlloc size)
  else if p.type = .shared then some (.cuMemAllocManaged size p.flags)
  else none

/-- `cu_memory_provider_alloc`, `provider_cuda.c:457-519`. The assertion of line 499 is taken to be off. -/
def cuAlloc (p : CuProv) (size align : Nat) : Prog :=
  if align > p.minAlign then .done .notSupported
  else setContext p.ctx fun u restore =>
    if u ≠ .success then .done u
    else match cuAllocCall p size with
      | none => .done .unknown
      | some c => .call c fun r =>
          setContext restore fun _ _ => cu2umf r.err fun u =>
            if u ≠ .success then .done u
            else if align > 0 ∧ r.val % align ≠ 0 then
              cuFreeK p r.val fun _ => .ret { res := .invalidAlignment, ptr := r.val }
            else .ret { res := u, ptr := r.val }

/-- `umf_cuda_memory_provider_params_t`, `provider_cuda.c:112-124`, and its address. -/
structure CuParams where
  addr : Nat
  ctx : Nat
  dev : Int
  type : MemType
  flags : Nat
deriving DecidableEq, Repr

/-- `umfCUDAMemoryProviderParamsCreate`, `provider_cuda.c:254-298`, with an out-parameter that is not `NULL`. The defaults
that are stored in the parameters are left out: every field can be set afterwards. -/
def cuParamsCreate (E : Env) : Prog :=
  .call (.baAlloc 24) fun r =>
    if r.err ≠ 0 then .done .outOfHostMemory
    else if !E.cu then .done .dependency
    else .call .cuCtxGetCurrent fun _ => .call .cuCtxGetDevice fun _ =>
      .ret { res := .success, ptr := r.val }

/-- `umfCUDAMemoryProviderParamsDestroy`, `provider_cuda.c:300-305`. -/
def paramsDestroy (p : Nat) : Prog :=
  if p = 0 then .done .success else .call (.baFree p) fun _ => .done .success

/-- `cu_memory_provider_initialize`, `provider_cuda.c:356-426`. -/
def cuCreate (E : Env) (P : Option CuParams) : Prog :=
  match P with
  | none => .done .invalidArgument
  | some P =>
    if P.type = .unknown ∨ P.type > .shared then .done .invalidArgument
    else if P.ctx = 0 then .done .invalidArgument
    else if P.dev < 0 then .done .invalidArgument
    else if !E.cu then .done .dependency
    else .call (.baAlloc 40) fun m =>
      if m.err ≠ 0 then .done .outOfHostMemory
      else .call (.cuGranularity P.dev false) fun g =>
        if g.err ≠ 0 then .call (.baFree m.val) fun _ => cu2umf g.err .done
        else .ret
          { res := .success
            cuProv := some
              { addr := m.val, ctx := P.ctx, dev := P.dev, type := P.type, minAlign := g.val
                flags := if P.type = .shared ∧ P.flags = 0 then 1 else P.flags } }

/-- `cu_memory_provider_finalize`, `provider_cuda.c:428-430`. -/
def cuDestroy (p : CuProv) : Prog := .call (.baFree p.addr) fun _ => .done .success

/-- `cu_memory_provider_get_min_page_size` and `…_get_recommended_page_size`, `provider_cuda.c:615-649`. -/
def cuPageSize (p : CuProv) (recommended : Bool) : Prog :=
  .call (.cuGranularity p.dev recommended) fun r => cu2umf r.err fun u => .ret { res := u, ptr := r.val }

/-- `cu_memory_provider_get_ipc_handle`, `provider_cuda.c:663-680`. -/
def cuIpcGet (_p : CuProv) (ptr : Nat) : Prog :=
  .call (.cuIpcGetMemHandle ptr) fun r =>
    if r.err ≠ 0 then cu2umf r.err .done else .ret { res := .success, ptr := r.val }

/-- `cu_memory_provider_open_ipc_handle`, `provider_cuda.c:689-717`. -/
def cuIpcOpen (p : CuProv) (h : Nat) : Prog :=
  setContext p.ctx fun u restore =>
    if u ≠ .success then .done u
    else .call (.cuIpcOpenMemHandle h) fun r =>
      setContext restore fun _ _ => cu2umf r.err fun u => .ret { res := u, ptr := r.val }

/-- `cu_memory_provider_close_ipc_handle`, `provider_cuda.c:719-733`. -/
def cuIpcClose (_p : CuProv) (ptr : Nat) : Prog :=
  .call (.cuIpcCloseMemHandle ptr) fun r => if r.err ≠ 0 then cu2umf r.err .done else .done .success

/-! ## Level Zero -/

/-- `ze2umf_result`, `provider_level_zero.c:200-212`, with the numbers of `ze_result_t`. -/
def ze2umf (e : Nat) (k : Res → Prog) : Prog :=
  if e = 0 then k .success
  else if e = 0x70000002 then k .outOfHostMemory
  else if e = 0x78000004 then k .invalidArgument
  else .store .ze e (k .specific)

/-- `utils_errno_to_umf_result`, `utils_posix_common.c:67-84`, with the numbers of Linux: what `utils_duplicate_fd`
(lines 86-116) returns when `pidfd_open` or `pidfd_getfd` fails. -/
def errnoRes (e : Nat) : Res :=
  if e = 9 ∨ e = 22 ∨ e = 3 ∨ e = 1 then .invalidArgument
  else if e = 24 ∨ e = 12 then .outOfHostMemory
  else if e = 19 ∨ e = 38 ∨ e = 95 then .notSupported
  else .unknown

/-- The switch of `ze_memory_provider_alloc`, `provider_level_zero.c:428-474`, with `use_relaxed_allocation`, lines
408-415, whose assertions are taken to be off. -/
def zeAllocCall (p : ZeProv) (size align : Nat) : Option Call :=
  if p.type = .host then some (.zeMemAllocHost p.ctx size align)
  else if p.type = .device then
    some (.zeMemAllocDevice p.ctx p.dev p.ordinal (decide (size > p.maxAlloc)) size align)
  else if p.type = .shared then
    some (.zeMemAllocShared p.ctx p.dev p.ordinal (decide (size > p.maxAlloc)) size align)
  else none

/-- The loop of `ze_memory_provider_alloc`, `provider_level_zero.c:480-487`. -/
def zeResidents (ctx ptr size : Nat) (k : Res → Prog) : List Nat → Prog
  | [] => k .success
  | d :: ds => .call (.zeMakeResident ctx d ptr size) fun r =>
      if r.err ≠ 0 then ze2umf r.err k else zeResidents ctx ptr size k ds

/-- `ze_memory_provider_alloc`, `provider_level_zero.c:422-489`. -/
def zeAllocK (p : ZeProv) (size align : Nat) (k : Res → Nat → Prog) : Prog :=
  match zeAllocCall p size align with
  | none => k .unknown 0
  | some c => .call c fun r =>
      if r.err ≠ 0 then ze2umf r.err fun u => k u 0
      else zeResidents p.ctx r.val size (fun u => k u r.val) p.resident

def zeAlloc (p : ZeProv) (size align : Nat) : Prog :=
  zeAllocK p size align fun u ptr => .ret { res := u, ptr := ptr }

/-- `ze_memory_provider_free`, `provider_level_zero.c:491-512`. A missing `zeMemFreeExt` is a call through a null
pointer. -/
def zeFreeK (E : Env) (p : ZeProv) (ptr : Nat) (k : Res → Prog) : Prog :=
  if ptr = 0 then k .success
  else if p.policy = 0 then .call (.zeMemFree p.ctx ptr) fun r => ze2umf r.err k
  else if E.freeExt then .call (.zeMemFreeExt p.ctx p.policy ptr) fun r => ze2umf r.err k
  else .ub

def zeFree (E : Env) (p : ZeProv) (ptr : Nat) : Prog := zeFreeK E p ptr .done

/-- `query_min_page_size`, `provider_level_zero.c:514-536`. -/
def zeQuery (E : Env) (p : ZeProv) (k : Res → Nat → Prog) : Prog :=
  zeAllocK p 1 0 fun u ptr =>
    if u ≠ .success then k u 0
    else .call (.zeMemGetAllocProperties p.ctx ptr) fun r =>
      zeFreeK E p ptr fun _ => ze2umf r.err fun u => k u r.val

/-- `umf_level_zero_memory_provider_params_t`, `provider_level_zero.c:122-139`, and its address. The array of resident
devices is `none` when its pointer is `NULL`. -/
structure ZeParams where
  addr : Nat
  ctx : Nat
  dev : Nat
  type : MemType
  resident : Option (List Nat)
  count : Nat
  policy : Nat
  ordinal : Nat
deriving DecidableEq, Repr

/-- `umfFreePolicyToZePolicy`, `provider_level_zero.c:395-407`. -/
def zePolicy (p : Nat) : Nat := if p = 1 then 1 else if p = 2 then 2 else 0

/-- `umfLevelZeroMemoryProviderParamsCreate`, `provider_level_zero.c:272-299`, with an out-parameter that is not
`NULL`; the defaults are left out as for CUDA. -/
def zeParamsCreate : Prog :=
  .call (.baAlloc 48) fun r =>
    if r.err ≠ 0 then .done .outOfHostMemory else .ret { res := .success, ptr := r.val }

/-- The end of `ze_memory_provider_initialize`, `provider_level_zero.c:608-639`: the array of resident devices, and the
query of the page size. When the query fails, line 633 passes `provider`, the address of the caller's variable, to
`ze_memory_provider_finalize`, which reads it as a `ze_memory_provider_t` and frees it: undefined. -/
def zeCreateEnd (E : Env) (p : ZeProv) : Prog :=
  zeQuery E p fun u page =>
    if u ≠ .success then .ub
    else .ret { res := .success, zeProv := some { p with minPage := page } }

/-- `ze_memory_provider_initialize` from line 606, with the provider as filled so far. Reading the caller's array of
resident devices past its end is undefined. -/
def zeCreateResidents (E : Env) (P : ZeParams) (p : ZeProv) : Prog :=
  if P.count ≠ 0 then
    .call (.baAlloc (8 * P.count)) fun a =>
      if a.err ≠ 0 then .call (.baFree p.addr) fun _ => .done .outOfHostMemory
      else match P.resident with
        | none => .ub
        | some l => if l.length < P.count then .ub
            else zeCreateEnd E { p with resAddr := a.val, resident := l.take P.count }
  else zeCreateEnd E p

/-- `ze_memory_provider_initialize`, `provider_level_zero.c:545-639`. -/
def zeCreate (E : Env) (P : Option ZeParams) : Prog :=
  match P with
  | none => .done .invalidArgument
  | some P =>
    if P.ctx = 0 then .done .invalidArgument
    else if decide (P.type = .host) = decide (P.dev ≠ 0) then .done .invalidArgument
    else if P.count ≠ 0 ∧ P.resident = none then .done .invalidArgument
    else if !E.ze then .done .dependency
    else .call (.baAlloc 472) fun m =>
      if m.err ≠ 0 then .done .outOfHostMemory
      else
        let p : ZeProv :=
          { addr := m.val, ctx := P.ctx, dev := P.dev, type := P.type, resAddr := 0, resident := []
            maxAlloc := 0, policy := zePolicy P.policy, minPage := 0, ordinal := P.ordinal }
        if P.dev ≠ 0 then
          .call (.zeDeviceGetProperties P.dev) fun r => ze2umf r.err fun u =>
            if u ≠ .success then .call (.baFree m.val) fun _ => .done u
            else zeCreateResidents E P { p with maxAlloc := r.val }
        else zeCreateResidents E P p

/-- `ze_memory_provider_finalize`, `provider_level_zero.c:538-543`; freeing `NULL` does nothing. -/
def zeDestroy (p : ZeProv) : Prog :=
  if p.resAddr = 0 then .call (.baFree p.addr) fun _ => .done .success
  else .call (.baFree p.resAddr) fun _ => .call (.baFree p.addr) fun _ => .done .success

/-- `ze_memory_provider_get_min_page_size`, `provider_level_zero.c:654-675`; the recommended page size, lines 697-702, is
the one for `NULL`. -/
def zePageSize (p : ZeProv) (ptr : Nat) : Prog :=
  if ptr = 0 then .ret { res := .success, ptr := p.minPage }
  else .call (.zeMemGetAllocProperties p.ctx ptr) fun r =>
    if r.err ≠ 0 then ze2umf r.err .done else .ret { res := .success, ptr := r.val }

/-- `ze_memory_provider_get_ipc_handle`, `provider_level_zero.c:748-769`. -/
def zeIpcGet (p : ZeProv) (ptr : Nat) : Prog :=
  .call (.zeMemGetIpcHandle p.ctx ptr) fun r =>
    if r.err ≠ 0 then ze2umf r.err .done
    else .call .getpid fun g =>
      .ret { res := .success, ipc := some { pid := g.val, h := { fd := r.val, rest := r.val2 } } }

/-- `ze_memory_provider_put_ipc_handle`, `provider_level_zero.c:771-792`. -/
def zeIpcPut (E : Env) (p : ZeProv) (d : ZeIpc) : Prog :=
  if !E.putIpc then .done .success
  else .call (.zeMemPutIpcHandle p.ctx d.h) fun r =>
    if r.err ≠ 0 then ze2umf r.err .done else .done .success

/-- `ze_memory_provider_open_ipc_handle`, `provider_level_zero.c:794-827`. -/
def zeIpcOpen (p : ZeProv) (d : ZeIpc) : Prog :=
  .call .getpid fun g =>
    if d.pid ≠ g.val then
      .call (.dupFd d.pid d.h.fd) fun f =>
        if f.err ≠ 0 then .done (errnoRes f.err)
        else .call (.zeMemOpenIpcHandle p.ctx p.dev { d.h with fd := f.val }) fun r =>
          .call (.closeFd f.val) fun _ =>
            if r.err ≠ 0 then ze2umf r.err .done else .ret { res := .success, ptr := r.val }
    else .call (.zeMemOpenIpcHandle p.ctx p.dev d.h) fun r =>
      if r.err ≠ 0 then ze2umf r.err .done else .ret { res := .success, ptr := r.val }

/-- `ze_memory_provider_close_ipc_handle`, `provider_level_zero.c:829-844`. -/
def zeIpcClose (p : ZeProv) (ptr : Nat) : Prog :=
  .call (.zeMemCloseIpcHandle p.ctx ptr) fun r => if r.err ≠ 0 then ze2umf r.err .done else .done .success

/-! ## The calls of a client -/

/-- What a thread can call on the two providers. -/
inductive Op where
  | cuParamsCreate | zeParamsCreate | paramsDestroy (p : Nat)
  | cuCreate (P : Option CuParams) | cuDestroy (p : CuProv)
  | cuAlloc (p : CuProv) (size align : Nat) | cuFree (p : CuProv) (ptr : Nat)
  | cuPageSize (p : CuProv) (recommended : Bool)
  | cuIpcGet (p : CuProv) (ptr : Nat) | cuIpcOpen (p : CuProv) (h : Nat) | cuIpcClose (p : CuProv) (ptr : Nat)
  | zeCreate (P : Option ZeParams) | zeDestroy (p : ZeProv)
  | zeAlloc (p : ZeProv) (size align : Nat) | zeFree (p : ZeProv) (ptr : Nat)
  | zePageSize (p : ZeProv) (ptr : Nat)
  | zeIpcGet (p : ZeProv) (ptr : Nat) | zeIpcPut (p : ZeProv) (d : ZeIpc)
  | zeIpcOpen (p : ZeProv) (d : ZeIpc) | zeIpcClose (p : ZeProv) (ptr : Nat)
deriving DecidableEq, Repr

/-- The tables of functions, `provider_cuda.c:735-757` and `provider_level_zero.c:846-865`. -/
def Op.prog (E : Env) : Op → Prog
  | .cuParamsCreate => Gpu.cuParamsCreate E
  | .zeParamsCreate => Gpu.zeParamsCreate
  | .paramsDestroy p => Gpu.paramsDestroy p
  | .cuCreate P => Gpu.cuCreate E P
  | .cuDestroy p => Gpu.cuDestroy p
  | .cuAlloc p s a => Gpu.cuAlloc p s a
  | .cuFree p q => Gpu.cuFree p q
  | .cuPageSize p r => Gpu.cuPageSize p r
  | .cuIpcGet p q => Gpu.cuIpcGet p q
  | .cuIpcOpen p h => Gpu.cuIpcOpen p h
  | .cuIpcClose p q => Gpu.cuIpcClose p q
  | .zeCreate P => Gpu.zeCreate E P
  | .zeDestroy p => Gpu.zeDestroy p
  | .zeAlloc p s a => Gpu.zeAlloc p s a
  | .zeFree p q => Gpu.zeFree E p q
  | .zePageSize p q => Gpu.zePageSize p q
  | .zeIpcGet p q => Gpu.zeIpcGet p q
  | .zeIpcPut p d => Gpu.zeIpcPut E p d
  | .zeIpcOpen p d => Gpu.zeIpcOpen p d
  | .zeIpcClose p q => Gpu.zeIpcClose p q

end Verif.Gpu
