/-!
# Pools and the functions they are made of, `src/memory_pool.c`

The caller's tables of functions are in the caller's memory and may be changed at any time. The functions are not modelled: each
call of one is recorded, with its arguments, and its answer comes with the event. What they do may be any events of other pools;
for this a creation is two events, up to the call of `initialize` and after it. `none` is undefined behaviour: the use of a
null pointer or of memory that is not a pool. The log, the tags (`Verif.Tag`) and the lists of objects to release
(`Verif.Api.PoolModel`) are left out.
-/
namespace Verif.PoolApi

/-- `umf_memory_pool_ops_t`, `include/umf/memory_pool_ops.h:30-144`; `F`: pointers to functions, `none`: NULL. -/
structure Ops (F : Type) where
  init : Option F
  finalize : Option F
  malloc : Option F
  calloc : Option F
  realloc : Option F
  alignedMalloc : Option F
  usableSize : Option F
  free : Option F
  lastError : Option F
  ctl : Option F

/-- The control function of a pool: its own or `umfDefaultCtlPoolHandle`, 40-49. -/
inductive Ctl (F : Type) where
  | own (f : F)
  | deflt

/-- `umf_memory_pool_t`, `memory_pool_internal.h:27-39`; `priv`: `none` until `initialize` has written it. -/
structure Obj (F : Type) where
  ops : Ops F
  ctl : Ctl F
  priv : Option Nat
  provider : Nat
  tracked : Bool
  own : Bool

structure World (F : Type) where
  /-- The tables of the caller; 0 is NULL. -/
  tab : Nat → Ops F
  /-- The pools, by handle. -/
  pools : Nat → Option (Obj F)
  /-- The tracking providers, by handle: the provider below. -/
  wrap : Nat → Option Nat

def upd {α : Type} (f : Nat → α) (a : Nat) (x : α) : Nat → α := fun b => if b = a then x else f b

inductive Err where
  | invalidArgument
  | outOfHostMemory
  | unknown
  | other (c : Nat)
deriving DecidableEq, Repr

/-- What the library does to others: it calls a function of a table, or destroys a provider. -/
inductive Act (F : Type) where
  | call (f : F) (args : List Nat)
  | destroy (provider : Nat)
deriving DecidableEq, Repr

/-- What the caller gets. -/
inductive Ret where
  | val (n : Nat)
  | err (e : Err)
  | done
  | pending
deriving DecidableEq, Repr

/-- The functions that a pool passes calls to. -/
inductive Op where
  | malloc (size : Nat)
  | alignedMalloc (size alignment : Nat)
  | calloc (num size : Nat)
  | realloc (ptr size : Nat)
  | usableSize (ptr : Nat)
  | free (ptr : Nat)
  | lastError
deriving DecidableEq, Repr

/-- The function that is called, 187-221. -/
def Op.fn {F : Type} (o : Ops F) : Op → Option F
  | .malloc _ => o.malloc
  | .alignedMalloc _ _ => o.alignedMalloc
  | .calloc _ _ => o.calloc
  | .realloc _ _ => o.realloc
  | .usableSize _ => o.usableSize
  | .free _ => o.free
  | .lastError => o.lastError

/-- Its arguments after the private data, 187-221. -/
def Op.args : Op → List Nat
  | .malloc s => [s]
  | .alignedMalloc s a => [s, a]
  | .calloc n s => [n, s]
  | .realloc p s => [p, s]
  | .usableSize p => [p]
  | .free p => [p]
  | .lastError => []

/-- The answer of a null handle, `UMF_CHECK`, 187-221. -/
def Op.refused : Op → Ret
  | .free _ => .err .invalidArgument
  | .lastError => .err .invalidArgument
  | _ => .val 0

/-- What comes from outside in the first part of a creation: the memory of the pool, the tracking provider (or an error), whether
the mutex can be made. -/
structure Ans where
  mem : Option Nat
  wrapper : Except Err Nat
  lock : Bool

/-- The pool's memory as it is filled in, 80-89. -/
def fill {F : Type} (o : Ops F) (p : Nat) (tracked own : Bool) : Obj F :=
  ⟨o, (match o.ctl with | some f => .own f | none => .deflt), none, p, tracked, own⟩

/-- `umfPoolCreateInternal`, 51-97, to the call of `initialize`. `t`: the table, `out`: `hPool` is not NULL. On the way back from
a mutex that cannot be made the tracking provider is destroyed (108-111). -/
def createBegin {F : Type} (w : World F) (t provider params : Nat) (tracked own out : Bool) (a : Ans) :
    Option (World F × List (Act F) × Ret) :=
  if t = 0 ∨ provider = 0 ∨ out = false then some (w, [], .err .invalidArgument)
  else
    match a.mem with
    | none => some (w, [], .err .outOfHostMemory)
    | some h =>
      match (if tracked then a.wrapper else .ok provider) with
      | .error e => some (w, [], .err e)
      | .ok p =>
        if a.lock = false then some (w, (if tracked then [.destroy p] else []), .err .unknown)
        else
          match (w.tab t).init with
          | none => none
          | some f =>
            some (⟨w.tab, upd w.pools h (some (fill (w.tab t) p tracked own)),
                if tracked then upd w.wrap p (some provider) else w.wrap⟩, [.call f [p, params]], .pending)

/-- `umfPoolCreateInternal`, 97-114, when `initialize` has returned: `ans` is the private data or an error. -/
def createEnd {F : Type} (w : World F) (h : Nat) (ans : Except Err Nat) : Option (World F × List (Act F) × Ret) :=
  match w.pools h with
  | none => none
  | some o =>
    match ans with
    | .ok priv => some ({ w with pools := upd w.pools h (some { o with priv := some priv }) }, [], .val h)
    | .error e =>
      some (⟨w.tab, upd w.pools h none, if o.tracked then upd w.wrap o.provider none else w.wrap⟩,
        (if o.tracked then [.destroy o.provider] else []), .err e)

/-- `umfPoolMalloc`, .., `umfPoolGetLastAllocationError`, 187-221; `ans`: what the function returns. -/
def call {F : Type} (w : World F) (h : Nat) (op : Op) (ans : Nat) : Option (World F × List (Act F) × Ret) :=
  if h = 0 then some (w, [], op.refused)
  else
    match w.pools h with
    | none => none
    | some o =>
      match o.priv, op.fn o.ops with
      | some priv, some f => some (w, [.call f (priv :: op.args)], .val ans)
      | _, _ => none

/-- `CTL_SUBTREE_HANDLER(by_handle_pool)`, 25-35. The function gets the handle, not the private data. -/
def ctl {F : Type} (w : World F) (h name arg query : Nat) : Option (World F × List (Act F) × Ret) :=
  match w.pools h with
  | none => none
  | some o =>
    match o.ctl with
    | .own f => some (w, [.call f [h, 0, name, arg, query]], .val 0)
    | .deflt => some (w, [], .val 0)

/-- The provider below, 161-166. -/
def upstream {F : Type} (w : World F) (o : Obj F) : Option Nat := if o.tracked then w.wrap o.provider else some o.provider

/-- `umfPoolGetMemoryProvider`, 155-169; `out`: the result pointer is not NULL. -/
def getProvider {F : Type} (w : World F) (h : Nat) (out : Bool) : Option (World F × List (Act F) × Ret) :=
  if out = false then some (w, [], .err .invalidArgument)
  else
    match w.pools h with
    | none => none
    | some o => (upstream w o).map fun p => (w, [], .val p)

/-- `umfPoolDestroy`, 117-139. -/
def destroy {F : Type} (w : World F) (h : Nat) : Option (World F × List (Act F) × Ret) :=
  match w.pools h with
  | none => none
  | some o =>
    match o.priv, o.ops.finalize, upstream w o with
    | some priv, some f, some p =>
      some (⟨w.tab, upd w.pools h none, if o.tracked then upd w.wrap o.provider none else w.wrap⟩,
        .call f [priv] :: ((if o.tracked then [.destroy o.provider] else []) ++ (if o.own then [.destroy p] else [])), .done)
    | _, _, _ => none

/-- The events. -/
inductive Ev (F : Type) where
  | write (t : Nat) (o : Ops F)
  | createBegin (t provider params : Nat) (tracked own out : Bool) (a : Ans)
  | createEnd (h : Nat) (ans : Except Err Nat)
  | call (h : Nat) (op : Op) (ans : Nat)
  | ctl (h name arg query : Nat)
  | getProvider (h : Nat) (out : Bool)
  | destroy (h : Nat)

/-- One event. -/
def step {F : Type} (w : World F) : Ev F → Option (World F × List (Act F) × Ret)
  | .write t o => some ({ w with tab := upd w.tab t o }, [], .done)
  | .createBegin t p ps tr own out a => createBegin w t p ps tr own out a
  | .createEnd h ans => createEnd w h ans
  | .call h op ans => call w h op ans
  | .ctl h n a q => ctl w h n a q
  | .getProvider h out => getProvider w h out
  | .destroy h => destroy w h

/-- A program's memory at the start: no pools, no tracking providers, some tables. -/
def World.init {F : Type} (tab : Nat → Ops F) : World F := ⟨tab, fun _ => none, fun _ => none⟩

end Verif.PoolApi
