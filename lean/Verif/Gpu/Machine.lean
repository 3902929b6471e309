import Verif.Gpu.Model
import Mathlib.Logic.Function.Basic

/-!
# The drivers, and clients of the GPU providers in many threads

The drivers are described by what they may answer to a call and by what changes then. The assumptions are: a call that
reports success gives memory (or a descriptor) that is not in use, at a non-zero address, for Level Zero aligned as
asked; a call that reports failure changes nothing; the current context of CUDA is one variable per thread, changed only
by `cuCtxSetCurrent` of that thread; `close` always releases the descriptor. The drivers are thread safe: a call is one
step. Deferred freeing (`zeMemFreeExt`) counts as freeing.

Threads run the programs of `Verif.Gpu.Model` one call at a time, in any order. The client obeys the rules of the API: it
uses a provider only between its creation and its destruction, frees memory once and with the provider that gave it, and
passes arrays that are as long as it says. It may change its thread's current context between calls.
-/
namespace Verif.Gpu

abbrev Tid := Nat

/-- What has to be released: memory of a driver, memory of the base allocator, a file descriptor. -/
inductive Rsrc where
  | gpu (b : Be) (addr : Nat)
  | ba (addr : Nat)
  | fd (n : Nat)
deriving DecidableEq, Repr

/-- The null pointer is not memory. -/
def Rsrc.NonNull : Rsrc → Prop
  | .gpu _ a => a ≠ 0
  | .ba a => a ≠ 0
  | .fd _ => True

/-- How a resource in use was made: by which call, and in which current context of CUDA; and on which devices memory was
made resident. -/
structure Info where
  call : Call
  ctx : Nat
  resident : List Nat := []
deriving DecidableEq, Repr

structure Drv where
  live : Rsrc → Option Info
  cur : Tid → Nat
  pid : Nat

/-- The resource that a successful call makes. -/
def Call.makes (c : Call) (r : Resp) : Option Rsrc :=
  match c with
  | .baAlloc _ => some (.ba r.val)
  | .cuMemHostAlloc _ _ | .cuMemAlloc _ | .cuMemAllocManaged _ _ => some (.gpu .cu r.val)
  | .zeMemAllocHost _ _ _ | .zeMemAllocDevice _ _ _ _ _ _ | .zeMemAllocShared _ _ _ _ _ _ =>
      some (.gpu .ze r.val)
  | .dupFd _ _ => some (.fd r.val)
  | _ => none

/-- The resource that a successful call releases. -/
def Call.kills (c : Call) : Option Rsrc :=
  match c with
  | .baFree p => some (.ba p)
  | .cuMemFree p | .cuMemFreeHost p => some (.gpu .cu p)
  | .zeMemFree _ p | .zeMemFreeExt _ _ p => some (.gpu .ze p)
  | .closeFd n => some (.fd n)
  | _ => none

/-- `close` releases the descriptor whatever it reports, freeing memory of the base allocator cannot fail. -/
def Call.killsAnyway : Call → Bool
  | .baFree _ | .closeFd _ => true
  | _ => false

/-- The memory was made by a Level Zero allocation in the context `ctx`. -/
def Call.zeAllocIn (ctx : Nat) : Call → Prop
  | .zeMemAllocHost c _ _ | .zeMemAllocDevice c _ _ _ _ _ | .zeMemAllocShared c _ _ _ _ _ => c = ctx
  | _ => False

/-- What the drivers, the operating system and the base allocator require of a call; anything else is undefined. -/
def Call.Valid (live : Rsrc → Option Info) (c : Call) : Prop :=
  match c with
  | .baFree p => ∃ i, live (.ba p) = some i
  | .closeFd n => ∃ i, live (.fd n) = some i
  | .cuMemFree p => ∃ i, live (.gpu .cu p) = some i ∧
      ((∃ s, i.call = .cuMemAlloc s) ∨ ∃ s f, i.call = .cuMemAllocManaged s f)
  | .cuMemFreeHost p => ∃ i, live (.gpu .cu p) = some i ∧ ∃ s f, i.call = .cuMemHostAlloc s f
  | .zeMemFree ctx p | .zeMemFreeExt ctx _ p => ∃ i, live (.gpu .ze p) = some i ∧ i.call.zeAllocIn ctx
  | .zeMakeResident ctx _ p _ => ∃ i, live (.gpu .ze p) = some i ∧ i.call.zeAllocIn ctx
  | _ => True

/-- The alignment a successful call guarantees for a made address. -/
def Call.alignOk (c : Call) (v : Nat) : Prop :=
  match c with
  | .zeMemAllocHost _ _ a | .zeMemAllocDevice _ _ _ _ _ a | .zeMemAllocShared _ _ _ _ _ a => a ≠ 0 → a ∣ v
  | _ => True

/-- What a call may answer when these resources are in use, `cur` is the thread's current context and `pid` the
process. -/
def Call.Answer (live : Rsrc → Option Info) (cur pid : Nat) (c : Call) (r : Resp) : Prop :=
  (r.err = 0 → (∀ x, c.makes r = some x → live x = none ∧ x.NonNull) ∧ c.alignOk r.val) ∧
  (c = .cuCtxGetCurrent → r.err = 0 → r.val = cur) ∧
  (c = .getpid → r.err = 0 ∧ r.val = pid)

/-- The memory that a successful call makes resident, and the device. -/
def Call.residency : Call → Option (Rsrc × Nat)
  | .zeMakeResident _ dev p _ => some (.gpu .ze p, dev)
  | _ => none

/-- What is known of a resource in use, after a call that does not release it. -/
def Info.after (i : Info) (c : Call) (r : Resp) (x : Rsrc) : Info :=
  match c.residency with
  | some (y, dev) => if r.err = 0 ∧ y = x then { i with resident := dev :: i.resident } else i
  | none => i

/-- The resources in use after a call. -/
def Call.liveAfter (live : Rsrc → Option Info) (cur : Nat) (c : Call) (r : Resp) : Rsrc → Option Info := fun x =>
  if r.err = 0 ∧ c.makes r = some x then some { call := c, ctx := cur }
  else if (r.err = 0 ∨ c.killsAnyway = true) ∧ c.kills = some x then none
  else (live x).map fun i => i.after c r x

/-- The thread's current context after a call. -/
def Call.curAfter (cur : Nat) (c : Call) (r : Resp) : Nat :=
  match c with
  | .cuCtxSetCurrent x => if r.err = 0 then x else cur
  | _ => cur

/-- A call that reads or changes the current context. -/
def Call.isCtx : Call → Bool
  | .cuCtxGetCurrent | .cuCtxSetCurrent _ => true
  | _ => false

/-- What a client knows a resource by: the call that gave it, and what that call returned. -/
abbrev Grant := Op × Out

/-- The resources a client has after a call. -/
def Op.gives (op : Op) (o : Out) : List Rsrc :=
  match op with
  | .cuParamsCreate | .zeParamsCreate => if o.res = .success then [.ba o.ptr] else []
  | .cuCreate _ => match o.cuProv with
      | some p => [.ba p.addr]
      | none => []
  | .zeCreate _ => match o.zeProv with
      | some p => if p.resAddr = 0 then [.ba p.addr] else [.ba p.addr, .ba p.resAddr]
      | none => []
  | .cuAlloc _ _ _ => if o.res = .success then [.gpu .cu o.ptr] else []
  | .zeAlloc _ _ _ => if o.res = .success then [.gpu .ze o.ptr] else []
  | _ => []

/-- The resources a client gives up with a call. -/
def Op.takes (op : Op) : List Rsrc :=
  match op with
  | .paramsDestroy p => if p = 0 then [] else [.ba p]
  | .cuDestroy p => [.ba p.addr]
  | .zeDestroy p => if p.resAddr = 0 then [.ba p.addr] else [.ba p.addr, .ba p.resAddr]
  | .cuFree _ q => if q = 0 then [] else [.gpu .cu q]
  | .zeFree _ q => if q = 0 then [] else [.gpu .ze q]
  | _ => []

/-- A thread in a call: the call, what is left of its program, how the client knew the resources it gave up, and the calls
that were refused so far, with their error codes. -/
structure Th where
  op : Op
  prog : Prog
  saved : Rsrc → Option Grant
  refused : List (Call × Nat)

structure St where
  drv : Drv
  th : Tid → Option Th
  /-- `TLS_last_native_error` of each thread and file -/
  tls : Tid → Be → Nat
  /-- the context that the client made current in each thread -/
  user : Tid → Nat
  /-- a context call was refused while another context than the client's was current -/
  lost : Tid → Bool
  /-- what the clients have -/
  held : Rsrc → Option Grant
  /-- the last finished call of each thread: the call, what it returned, the refused calls -/
  last : Tid → Option (Op × Out × List (Call × Nat))
  /-- all refused calls -/
  refused : List (Call × Nat)

/-- The provider of a call. -/
def Op.cuProv : Op → Option CuProv
  | .cuDestroy p | .cuAlloc p _ _ | .cuFree p _ | .cuPageSize p _ | .cuIpcGet p _ | .cuIpcOpen p _
  | .cuIpcClose p _ => some p
  | _ => none

def Op.zeProv : Op → Option ZeProv
  | .zeDestroy p | .zeAlloc p _ _ | .zeFree p _ | .zePageSize p _ | .zeIpcGet p _ | .zeIpcPut p _
  | .zeIpcOpen p _ | .zeIpcClose p _ => some p
  | _ => none

/-- The rules for a client that starts a call. -/
structure Legal (s : St) (op : Op) : Prop where
  /-- the provider was created and is not being destroyed -/
  cu : ∀ p, op.cuProv = some p → ∃ P o, s.held (.ba p.addr) = some (.cuCreate P, o) ∧ o.cuProv = some p
  ze : ∀ p, op.zeProv = some p → ∃ P o, s.held (.ba p.addr) = some (.zeCreate P, o) ∧ o.zeProv = some p ∧
    (p.resAddr ≠ 0 → s.held (.ba p.resAddr) = some (.zeCreate P, o))
  /-- memory is freed once, with the provider that gave it -/
  cuFree : ∀ p q, op = .cuFree p q → q ≠ 0 → ∃ n a o, s.held (.gpu .cu q) = some (.cuAlloc p n a, o)
  zeFree : ∀ p q, op = .zeFree p q → q ≠ 0 → ∃ n a o, s.held (.gpu .ze q) = some (.zeAlloc p n a, o)
  /-- parameters are destroyed once -/
  params : ∀ q, op = .paramsDestroy q → q ≠ 0 →
    ∃ o, s.held (.ba q) = some (.cuParamsCreate, o) ∨ s.held (.ba q) = some (.zeParamsCreate, o)
  /-- nothing uses a provider that is destroyed -/
  cuIdle : ∀ p, op = .cuDestroy p → ∀ t th, s.th t = some th → th.op.cuProv ≠ some p
  zeIdle : ∀ p, op = .zeDestroy p → ∀ t th, s.th t = some th → th.op.zeProv ≠ some p
  /-- the array of resident devices is as long as said -/
  resident : ∀ P l, op = .zeCreate (some P) → P.resident = some l → P.count ≤ l.length

open Function (update)

/-- One step of one thread. -/
inductive Step (E : Env) : St → St → Prop where
  /-- the client makes a context current -/
  | setCtx {s : St} (t : Tid) (c : Nat) : s.th t = none →
      Step E s { s with
        drv := { s.drv with cur := update s.drv.cur t c }
        user := update s.user t c
        lost := update s.lost t false }
  | start {s : St} (t : Tid) (op : Op) : s.th t = none → Legal s op →
      Step E s { s with
        th := update s.th t (some ⟨op, op.prog E, s.held, []⟩)
        held := fun x => if x ∈ op.takes then none else s.held x }
  | call {s : St} (t : Tid) (th : Th) (c : Call) (k : Resp → Prog) (r : Resp) : s.th t = some th →
      th.prog = .call c k → c.Valid s.drv.live → c.Answer s.drv.live (s.drv.cur t) s.drv.pid r →
      Step E s { s with
        drv := { s.drv with
          live := c.liveAfter s.drv.live (s.drv.cur t) r
          cur := update s.drv.cur t (c.curAfter (s.drv.cur t) r) }
        th := update s.th t (some { th with
          prog := k r
          refused := if r.err = 0 then th.refused else (c, r.err) :: th.refused })
        lost := update s.lost t
          (s.lost t || (c.isCtx && decide (r.err ≠ 0) && decide (s.drv.cur t ≠ s.user t)))
        refused := if r.err = 0 then s.refused else (c, r.err) :: s.refused }
  | store {s : St} (t : Tid) (th : Th) (b : Be) (e : Nat) (k : Prog) : s.th t = some th →
      th.prog = .store b e k →
      Step E s { s with
        th := update s.th t (some { th with prog := k })
        tls := update s.tls t (update (s.tls t) b e) }
  | ret {s : St} (t : Tid) (th : Th) (o : Out) : s.th t = some th → th.prog = .ret o →
      Step E s { s with
        th := update s.th t none
        held := fun x =>
          if x ∈ th.op.gives o then some (th.op, o)
          else if o.res ≠ .success ∧ x ∈ th.op.takes then th.saved x
          else s.held x
        last := update s.last t (some (th.op, o, th.refused)) }

/-- Nothing was made yet, no thread is in a call, every thread has the context its client made current. -/
def Init (s : St) : Prop :=
  (∀ x, s.drv.live x = none) ∧ (∀ x, s.held x = none) ∧ (∀ t, s.th t = none) ∧
    (∀ t, s.drv.cur t = s.user t) ∧ (∀ t, s.last t = none) ∧ s.refused = []

/-- A state after any number of steps. -/
inductive Reach (E : Env) : St → Prop where
  | init {s : St} : Init s → Reach E s
  | step {s s' : St} : Reach E s → Step E s s' → Reach E s'

end Verif.Gpu
