import Verif.BaseAlloc.Linear
/-!
# Model of `src/proxy_lib/proxy_lib.c` (Linux)

The malloc replacement. The allocator of the start-up phase is the model of the linear base allocator; the UMF pool and the
functions of the system are called through `Ans` (answers of the environment) and return what the environment wants. A
function of the pool may itself call `malloc` and so on before it returns, and threads interleave at every such call: a call
that goes to the pool is *entered* first and *returns* in a later step. Outcome `none`: the process crashes (a NULL pointer is
followed).
-/
namespace Verif.Proxy
open BaseAlloc

/-- Where a request can be sent: the linear allocator of the start-up phase, the UMF pool, the allocator of the system. -/
inductive Origin | leak | pool | system
deriving DecidableEq, Repr

/-- Requests: the functions of the C library this library replaces. -/
inductive Req
  | alloc (n : Nat)
  | calloc (k n : Nat)
  | aligned (a n : Nat)
  | free (p : Nat)
  | realloc (p n : Nat)
  | usable (p : Nat)
deriving DecidableEq, Repr

/-- What the environment answers during a call: the address of the first memory of the linear allocator, addresses of further
memory (by size), the pointer or the size that a function of the system returns, and for which pointers `umfPoolByPtr` gives the
pool of this library. -/
structure Ans where
  create : Option Nat
  os : Nat → Option Nat
  system : Nat
  size : Nat
  byPtr : Nat → Bool

/-- Effects: a request reaches an allocator; memory is copied with `memcpy`; a pointer is reported as unknown. -/
inductive Ev
  | sent (t : Nat) (o : Origin) (r : Req)
  | copied (src dst n : Nat)
  | lost (p : Nat)
deriving DecidableEq, Repr

/-- The static variables, `proxy_lib.c:120-129`: `Size_threshold_value`, `Base_alloc_leak_initialized`, `Base_alloc_leak`,
whether `Proxy_pool` is set, and `was_called_from_umfPool` of each thread. `pending`: the functions of the pool each thread is
in, the innermost first. -/
structure State where
  threshold : Nat
  once : Bool
  leak : Option Linear.Pool
  pool : Bool
  flag : Nat → Bool
  pending : Nat → List Req

def State.init : State := ⟨0, false, none, false, fun _ => false, fun _ => []⟩

/-- `ba_leak_init_once`, `proxy_lib.c:306-314`. -/
def leakInit (cfg : Linear.Cfg) (s : State) (a : Ans) : State :=
  if s.once then s else { s with once := true, leak := Linear.create cfg (4 * 1024 * 1024) a.create true }

/-- `ALIGN_UP_SAFE`, `utils_common.h:48-51`, for 0 and powers of two. -/
def alignUp (v a : Nat) : Nat := if a = 0 then v else Fixed.alignUpSafe v a

/-- `ba_leak_aligned_alloc`, `proxy_lib.c:316-320`. A request of 0 bytes does not touch the allocator. -/
def leakAligned (cfg : Linear.Cfg) (s : State) (al n : Nat) (a : Ans) : Option (State × Nat) :=
  let s := leakInit cfg s a
  let size := Fixed.word (n + al)
  if size = 0 then some (s, alignUp 0 al)
  else
    match s.leak with
    | none => none
    | some p =>
      let r := Linear.alloc cfg p size a.os
      some ({ s with leak := some r.1 }, alignUp (r.2.getD 0) al)

/-- A function of the pool is called: the flag is set (not by `free`), the call is remembered. -/
def State.enter (s : State) (t : Nat) (r : Req) (flag : Bool) : State :=
  { s with flag := fun u => if u = t then flag else s.flag u
           pending := fun u => if u = t then r :: s.pending t else s.pending u }

/-- The common shape of `malloc`, `calloc` and `aligned_alloc`, `proxy_lib.c:352-384, 447-462`. `small`: the size compared with
the threshold; `r`: the request; `al` and `n`: alignment and size for the linear allocator. -/
def allocate (cfg : Linear.Cfg) (s : State) (t small : Nat) (r : Req) (al n : Nat) (a : Ans) :
    Option (State × Option Nat × List Ev) :=
  if small < s.threshold then some (s, some a.system, [.sent t .system r])
  else if !s.flag t && s.pool then some (s.enter t r true, none, [.sent t .pool r])
  else
    match leakAligned cfg s al n a with
    | none => none
    | some (s', p) => some (s', some p, [.sent t .leak r])

/-- `malloc`, `proxy_lib.c:352-367`. -/
def malloc (cfg : Linear.Cfg) (s : State) (t n : Nat) (a : Ans) := allocate cfg s t n (.alloc n) 0 n a

/-- `free`, `proxy_lib.c:386-412`. -/
def free (cfg : Linear.Cfg) (s : State) (t p : Nat) (a : Ans) : Option (State × Option Nat × List Ev) :=
  if p = 0 then some (s, some 0, [])
  else
    let s := leakInit cfg s a
    match s.leak with
    | none => none
    | some l =>
      let r := Linear.free cfg l p
      if r.2.2 then some ({ s with leak := some r.1 }, some 0, [.sent t .leak (.free p)])
      else if s.pool && a.byPtr p then some (s.enter t (.free p) (s.flag t), none, [.sent t .pool (.free p)])
      else if s.threshold ≠ 0 then some (s, some 0, [.sent t .system (.free p)])
      else some (s, some 0, [.lost p])

/-- `realloc`, `proxy_lib.c:414-445`, with `ba_generic_realloc`, `proxy_lib.c:279-300`. -/
def realloc (cfg : Linear.Cfg) (s : State) (t p n : Nat) (a : Ans) : Option (State × Option Nat × List Ev) :=
  if p = 0 then malloc cfg s t n a
  else if n = 0 then free cfg s t p a
  else
    let s := leakInit cfg s a
    match s.leak with
    | none => none
    | some l =>
      let max := Linear.containsPointer l p
      if max ≠ 0 then
        match Linear.alloc cfg l n a.os with
        | (l', none) => some ({ s with leak := some l' }, some 0, [.sent t .leak (.realloc p n)])
        | (l', some q) =>
          let m := if n > max then max else n
          some ({ s with leak := some (Linear.free cfg l' p).1 }, some q, [.sent t .leak (.realloc p n), .copied p q m])
      else if s.pool && a.byPtr p then some (s.enter t (.realloc p n) true, none, [.sent t .pool (.realloc p n)])
      else if s.threshold ≠ 0 then some (s, some a.system, [.sent t .system (.realloc p n)])
      else some (s, some 0, [.lost p])

/-- `malloc_usable_size`, `proxy_lib.c:467-494`. -/
def usable (cfg : Linear.Cfg) (s : State) (t p : Nat) (a : Ans) : Option (State × Option Nat × List Ev) :=
  if p = 1 then some (s, some 0xDEADBEEF, [])
  else
    let s := leakInit cfg s a
    match s.leak with
    | none => none
    | some l =>
      if Linear.containsPointer l p ≠ 0 then some (s, some 0, [.sent t .leak (.usable p)])
      else if s.pool && a.byPtr p then some (s.enter t (.usable p) true, none, [.sent t .pool (.usable p)])
      else if s.threshold ≠ 0 then some (s, some a.size, [.sent t .system (.usable p)])
      else some (s, some 0, [.lost p])

/-- A call of thread `t`. The second component: what it returns (0: NULL), or nothing if it is in a function of the pool now.
`calloc`: `proxy_lib.c:369-384`; `aligned_alloc`: `proxy_lib.c:447-462`. -/
def call (cfg : Linear.Cfg) (s : State) (t : Nat) (r : Req) (a : Ans) : Option (State × Option Nat × List Ev) :=
  match r with
  | .alloc n => malloc cfg s t n a
  | .calloc k n => allocate cfg s t (Fixed.word (k * n)) (.calloc k n) 0 (Fixed.word (k * n)) a
  | .aligned al n => allocate cfg s t n (.aligned al n) al n a
  | .free p => free cfg s t p a
  | .realloc p n => realloc cfg s t p n a
  | .usable p => usable cfg s t p a

/-- The innermost function of the pool that thread `t` is in returns: `was_called_from_umfPool = 0`, except in `free`. The
request that is finished. -/
def ret (s : State) (t : Nat) : Option (State × Req) :=
  match s.pending t with
  | [] => none
  | r :: rest =>
    let flag := match r with | .free _ => s.flag t | _ => false
    some ({ s with flag := fun u => if u = t then flag else s.flag u
                   pending := fun u => if u = t then rest else s.pending u }, r)

/-- The start-up reads the threshold, `proxy_lib.c:184-194`. -/
def setThreshold (s : State) (n : Nat) : State := if n > 0 then { s with threshold := n } else s

/-- The start-up has created the pool, `proxy_lib.c:242-252`. -/
def poolMade (s : State) : State := { s with pool := true }

/-- `proxy_lib_destroy_common`, `proxy_lib.c:254-273`. `preloaded`: `utils_is_running_in_proxy_lib()`, that is, whether the
variable LD_PRELOAD contains the name of the library. -/
def destroy (s : State) (preloaded : Bool) : State := if preloaded then s else { s with pool := false }

end Verif.Proxy
