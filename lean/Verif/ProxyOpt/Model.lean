import Verif.Log.Model
/-!
# Model of the start-up of the proxy library (`src/proxy_lib/proxy_lib.c`, `src/utils/utils_posix_common.c`)

A C string is the list of its bytes before the terminating null character; a byte is a `Char`. `long` has 64 bits, and `char`
is signed. What the C standard leaves undefined has its own outcome.
-/
namespace Verif.ProxyOpt

open Verif.Log (strstr logInit Config)

/-- The environment of the process: `UMF_LOG`, `UMF_PROXY` and `LD_PRELOAD`; `none`: not set. -/
structure Env where
  umfLog : Option (List Char)
  umfProxy : Option (List Char)
  ldPreload : Option (List Char)

/-- `utils_env_var_get_str`, `utils_common.c:55-58`: the rest of the value from the first occurrence on. -/
def getStr (value : Option (List Char)) (str : List Char) : Option (List Char) :=
  match value with
  | none => none
  | some v => (strstr v str).map v.drop

/-- `utils_env_var_has_str`, `utils_common.h:70-72`. -/
def hasStr (value : Option (List Char)) (str : List Char) : Bool := (getStr value str).isSome

/-- `utils_is_running_in_proxy_lib`, `utils_common.h:75-77`. -/
def inProxy (e : Env) : Bool := hasStr e.ldPreload "libumf_proxy.so".toList

/-- `utils_is_running_in_proxy_lib_with_size_threshold`, `utils_common.h:80-85`. -/
def inProxyWithThreshold (e : Env) : Bool :=
  inProxy e && hasStr e.umfProxy "size.threshold=".toList

/-- What a piece of the start-up does: it goes on with a value, calls `exit(-1)`, or its behaviour is undefined. -/
inductive Res (α : Type) where
  | ok (a : α)
  | exit
  | undef
deriving DecidableEq, Repr

/-- The value of the digits that `atol` reads, up to the first character that is not one. -/
def atolDigits : List Char → Nat → Nat
  | [], n => n
  | c :: t, n => if '0' ≤ c ∧ c ≤ '9' then atolDigits t (n * 10 + (c.toNat - 48)) else n

/-- `utils_get_size_threshold`, `utils_posix_common.c:271-291`; `ok none`: it returns -1. `isdigit` is undefined for a negative
argument (a byte above 127), and `atol` for a value that is not a `long`. The first character is a digit when `atol` is called,
so white space and signs need not be modelled. -/
def sizeThreshold (str : Option (List Char)) : Res (Option Nat) :=
  match str with
  | none => .ok (some 0)
  | some s =>
    match s.drop "size.threshold=".length with
    | [] => .ok none
    | c :: t =>
      if c.toNat > 127 then .undef
      else if ¬ ('0' ≤ c ∧ c ≤ '9') then .ok none
      else if atolDigits (c :: t) 0 ≥ 2 ^ 63 then .undef
      else .ok (some (atolDigits (c :: t) 0))

/-- Whether `utils_log(LOG_DEBUG, ...)` formats its message, `utils_log.c:102-107`. -/
def logsDebug (c : Config) : Bool := c.output.isSome && decide (c.level = .debug)

/-- `get_size_threshold`, `proxy_lib.c:136-146`. The message of line 138 prints the string with `%s`, which is undefined for
NULL. -/
def getSizeThreshold (e : Env) (log : Config) : Res Nat :=
  let str := getStr e.umfProxy "size.threshold=".toList
  if str = none ∧ logsDebug log then .undef
  else match sizeThreshold str with
    | .ok (some n) => .ok n
    | .ok none => .exit
    | .exit => .exit
    | .undef => .undef

/-- The answers of the rest of the system: whether `fopen` of a log file succeeds, whether the parameters can be created, the
visibility and the name be set, the provider and the pool be created; which of the six functions of the system allocator are
found (`aligned_alloc`, `calloc`, `free`, `malloc`, `malloc_usable_size`, `realloc`); the process number. -/
structure Ans where
  fopen : List Char → Bool
  params : Bool
  visibility : Bool
  name : Bool
  provider : Bool
  pool : Bool
  symbols : Bool × Bool × Bool × Bool × Bool × Bool
  pid : Nat

/-- `get_system_allocator_symbols`, `proxy_lib.c:148-169`: whether it returns 0. -/
def systemSymbols (a : Ans) : Bool :=
  a.symbols.1 && a.symbols.2.1 && a.symbols.2.2.1 && a.symbols.2.2.2.1 && a.symbols.2.2.2.2.1 && a.symbols.2.2.2.2.2

/-- How the library runs: `Size_threshold_value`, and the visibility and shared memory name of the parameters of the OS
provider (`false`: `UMF_MEM_MAP_PRIVATE`, the default). -/
structure Setup where
  threshold : Nat
  shared : Bool
  shmName : Option (List Char)
deriving DecidableEq, Repr

/-- `sprintf(shm_name, "umf_proxy_lib_shm_pid_%i", utils_getpid())`, `proxy_lib.c:221`. -/
def shmNameOf (pid : Nat) : List Char := "umf_proxy_lib_shm_pid_".toList ++ Nat.toDigits 10 pid

/-- The part on the size threshold, `proxy_lib.c:184-194`. -/
def applyThreshold (e : Env) (log : Config) (a : Ans) (s : Setup) : Res Setup :=
  match getSizeThreshold e log with
  | .ok n =>
    if n > 0 then
      if systemSymbols a then .ok { s with threshold := n } else .exit
    else .ok s
  | .exit => .exit
  | .undef => .undef

/-- The part on the visibility, `proxy_lib.c:196-231`. -/
def applyDisposition (e : Env) (a : Ans) (s : Setup) : Res Setup :=
  if hasStr e.umfProxy "page.disposition=shared-fd".toList then
    if ¬ a.visibility then .exit
    else if ¬ a.name then .exit
    else .ok { s with shared := true, shmName := none }
  else if hasStr e.umfProxy "page.disposition=shared-shm".toList then
    if ¬ a.visibility then .exit
    else if ¬ a.name then .exit
    else .ok { s with shared := true, shmName := some (shmNameOf a.pid) }
  else .ok s

/-- `proxy_lib_create_common`, `proxy_lib.c:172-252`, on Linux. -/
def create (e : Env) (a : Ans) : Res Setup :=
  let log := logInit e.umfLog a.fopen
  if ¬ a.params then .exit
  else match applyThreshold e log a ⟨0, false, none⟩ with
    | .exit => .exit
    | .undef => .undef
    | .ok s1 => match applyDisposition e a s1 with
      | .exit => .exit
      | .undef => .undef
      | .ok s2 =>
        if ¬ a.provider then .exit
        else if ¬ a.pool then .exit
        else .ok s2

/-- The end of the last `umfTearDown`, `libumf.c:74-89`: whether the tracker and the base allocator are destroyed. -/
def tearDownDestroys (e : Env) : Bool := ! inProxyWithThreshold e

end Verif.ProxyOpt
