/-!
# Opening the files behind memory providers

The functions of `src/utils` that open descriptors for the OS, file and devdax providers and for handles of other
processes, as programs of system calls. What the kernel answers and what other threads and processes do between two
calls is in `Verif.Files.Machine`.
-/
namespace Verif.Files

/-- The system calls, and the printing of a message. The descriptors are those of the calling process. -/
inductive Sys where
  /-- `open(path, O_RDWR)` -/
  | open (path : List Char)
  /-- `open(path, O_RDWR | O_CREAT, 0600)` -/
  | openCreate (path : List Char)
  /-- `stat(path)`; of the answer only `S_ISCHR` is kept -/
  | stat (path : List Char)
  | close (fd : Int)
  | shmUnlink (name : List Char)
  /-- `shm_open(name, O_RDWR | O_CREAT | O_EXCL, 0600)` -/
  | shmCreate (name : List Char)
  /-- `shm_open(name, O_RDWR, 0600)` -/
  | shmOpen (name : List Char)
  | ftruncate (fd : Int) (size : Nat)
  | memfdSecret
  | memfdCreate
  | pidfdOpen (pid : Nat)
  | pidfdGetfd (pidfd : Int) (fd : Nat)
  /-- `LOG_ERR`, `LOG_PERR`, `LOG_DEBUG`: library calls that may change `errno` -/
  | log
deriving DecidableEq, Repr

/-- What a call answers: its value, and `S_ISCHR` for `stat`. -/
structure Ans where
  ret : Int
  chr : Bool := false
deriving DecidableEq, Repr

/-- A function as a program of calls. -/
inductive Prog (α : Type) where
  | ret (a : α)
  | call (c : Sys) (k : Ans → Prog α)
  | setErrno (e : Nat) (p : Prog α)
  | errno (k : Nat → Prog α)

/-- A message, and then the result. -/
def logged {α : Type} (a : α) : Prog α := .call .log fun _ => .ret a

/-- `strstr`: the position of the first occurrence. -/
def strstr (s p : List Char) : Option Nat :=
  if p.isPrefixOf s then some 0
  else match s with
    | [] => none
    | _ :: t => (strstr t p).map (· + 1)

/-- `utils_file_open`, `utils_posix_common.c:237-249`. A path is `none` for `NULL`. -/
def fileOpen : Option (List Char) → Prog Int
  | none => logged (-1)
  | some p => .call (.open p) fun a => if a.ret = -1 then logged a.ret else .ret a.ret

/-- `utils_file_open_or_create`, `utils_posix_common.c:252-267`. -/
def fileOpenOrCreate : Option (List Char) → Prog Int
  | none => logged (-1)
  | some p => .call (.openCreate p) fun a => if a.ret = -1 then logged (-1) else logged a.ret

/-- `utils_devdax_open`, `utils_posix_common.c:201-234`. -/
def devdaxOpen : Option (List Char) → Prog Int
  | none => logged (-1)
  | some p =>
    if strstr p "/dev/dax".toList ≠ some 0 then logged (-1)
    else .call (.open p) fun a =>
      if a.ret = -1 then logged (-1)
      else .call (.stat p) fun b =>
        if b.ret ≠ 0 then .call .log fun _ => .call (.close a.ret) fun _ => .ret (-1)
        else if b.chr = false then .call .log fun _ => .call (.close a.ret) fun _ => .ret (-1)
        else .ret a.ret

/-- `utils_shm_create`, `utils_linux_common.c:142-166`, with `utils_set_file_size`, lines 125-135. -/
def shmCreate (name : Option (List Char)) (size : Nat) : Prog Int :=
  match name with
  | none => logged (-1)
  | some n =>
    .call (.shmUnlink n) fun _ => .call (.shmCreate n) fun a =>
      if a.ret = -1 then logged a.ret
      else .setErrno 0 (.call (.ftruncate a.ret size) fun b => .call .log fun _ =>
        if b.ret ≠ 0 then
          .call .log fun _ => .call (.close a.ret) fun _ => .call (.shmUnlink n) fun _ => .ret (-1)
        else .ret a.ret)

/-- `utils_shm_open`, `utils_linux_common.c:169-181`. -/
def shmOpen : Option (List Char) → Prog Int
  | none => logged (-1)
  | some n => .call (.shmOpen n) fun a => if a.ret = -1 then logged a.ret else .ret a.ret

/-- `syscall_memfd_create`, `utils_linux_common.c:202-216`, on a system that has the call. -/
def memfdCreate : Prog Int :=
  .call .memfdCreate fun a =>
    if a.ret = -1 then logged a.ret else if a.ret > 0 then logged a.ret else .ret a.ret

/-- `utils_create_anonymous_fd`, `utils_linux_common.c:219-242`, with `syscall_memfd_secret`, lines 186-200, on a system
that has the calls. `env`: the value of `UMF_MEM_FD_FUNC`. -/
def anonymousFd (env : Option (List Char)) : Prog Int :=
  if (env.bind fun v => strstr v "memfd_create".toList).isSome then memfdCreate
  else .call .memfdSecret fun a =>
    if a.ret = -1 then .call .log fun _ => memfdCreate
    else if a.ret > 0 then logged a.ret
    else memfdCreate

/-- `utils_errno_to_umf_result`, `utils_posix_common.c:67-84`, with the numbers of Linux and of `umf_result_t`. -/
def errnoRes (e : Nat) : Nat :=
  if e = 9 ∨ e = 22 ∨ e = 3 ∨ e = 1 then 3
  else if e = 24 ∨ e = 12 then 1
  else if e = 19 ∨ e = 38 ∨ e = 95 then 5
  else 0x7ffffffe

/-- `utils_duplicate_fd`, `utils_posix_common.c:86-116`: the result and `*fd_out`, if it is written. -/
def duplicateFd (pid fdIn : Nat) : Prog (Nat × Option Int) :=
  .setErrno 0 (.call (.pidfdOpen pid) fun a =>
    if a.ret = -1 then .call .log fun _ => .errno fun e => .ret (errnoRes e, none)
    else .call (.pidfdGetfd a.ret fdIn) fun b => .call (.close a.ret) fun _ =>
      if b.ret = -1 then .call .log fun _ => .errno fun e => .ret (errnoRes e, none)
      else .ret (0, some b.ret))

end Verif.Files
