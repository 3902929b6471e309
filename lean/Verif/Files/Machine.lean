import Verif.Files.Model

/-!
# The kernel, and what others do

The state of the calling process and of the names in the file system. `mine`, `foreign` and `trace` record what the call
has done: the descriptors it has opened and not closed, those of others it has closed, and the files it has opened;
`errs` records the errors that the kernel has reported to it, without those of `shm_unlink`.
-/
namespace Verif.Files

/-- Where an opened file comes from. -/
inductive Src where
  | path (p : List Char)
  | shm (n : List Char)
  | anonymous
  /-- a pidfd -/
  | process (pid : Nat)
  /-- descriptor `fd` of process `pid` -/
  | remote (pid fd : Nat)
deriving DecidableEq, Repr

/-- Files are numbers; those from `next` on do not exist yet. -/
structure St where
  /-- the descriptor table of the calling process -/
  fds : Nat → Option Nat
  path : List Char → Option Nat
  shm : List Char → Option Nat
  /-- which files are character devices -/
  chr : Nat → Bool
  size : Nat → Nat
  /-- the descriptor tables of the processes -/
  remote : Nat → Nat → Option Nat
  /-- the process that a pidfd stands for -/
  proc : Nat → Option Nat
  next : Nat
  /-- of the calling thread -/
  errno : Nat
  mine : List Nat
  foreign : List Nat
  trace : List (Src × Nat)
  errs : List Nat

def upd {α β : Type} [DecidableEq α] (f : α → β) (a : α) (b : β) : α → β := fun x => if x = a then b else f x

/-- POSIX lets calls that succeed change `errno`. With `keep` they do not. -/
def Quiet (keep : Bool) (s : St) (e : Nat) : Prop := keep = true → e = s.errno

/-- The call fails and sets `errno`. -/
def Fails (s : St) (a : Ans) (s' : St) : Prop := a.ret = -1 ∧ ∃ e, e ≠ 0 ∧ s' = { s with errno := e, errs := e :: s.errs }

/-- A free descriptor is opened for file `f`. -/
def Opened (keep : Bool) (s : St) (src : Src) (f : Nat) (a : Ans) (s' : St) : Prop :=
  ∃ fd : Nat, ∃ e, s.fds fd = none ∧ a.ret = fd ∧ Quiet keep s e ∧
    s' = { s with fds := upd s.fds fd (some f), mine := fd :: s.mine, trace := (src, f) :: s.trace, errno := e }

/-- What the kernel may answer to a call. `close` releases the descriptor also if it reports an error, as on Linux. -/
def Kernel (keep : Bool) (s : St) : Sys → Ans → St → Prop
  | .open p, a, s' => Fails s a s' ∨ ∃ f, s.path p = some f ∧ Opened keep s (.path p) f a s'
  | .openCreate p, a, s' =>
    Fails s a s' ∨ (∃ f, s.path p = some f ∧ Opened keep s (.path p) f a s') ∨
      (s.path p = none ∧ s.chr s.next = false ∧
        Opened keep { s with path := upd s.path p (some s.next), size := upd s.size s.next 0, next := s.next + 1 }
          (.path p) s.next a s')
  | .stat p, a, s' =>
    Fails s a s' ∨ ∃ f e, s.path p = some f ∧ a = ⟨0, s.chr f⟩ ∧ Quiet keep s e ∧ s' = { s with errno := e }
  | .close fd, a, s' =>
    (∃ n : Nat, ∃ e errs, fd = n ∧ s.fds n ≠ none ∧
      ((a.ret = 0 ∧ Quiet keep s e ∧ errs = s.errs) ∨ (a.ret = -1 ∧ e ≠ 0 ∧ errs = e :: s.errs)) ∧
      s' = { s with
        fds := upd s.fds n none, mine := s.mine.erase n
        foreign := if n ∈ s.mine then s.foreign else n :: s.foreign
        errno := e, errs := errs }) ∨
    ((∀ n : Nat, fd = n → s.fds n = none) ∧ Fails s a s')
  | .shmUnlink n, a, s' =>
    (∃ e, a.ret = -1 ∧ s' = { s with errno := e }) ∨
      ∃ e, a.ret = 0 ∧ Quiet keep s e ∧ s' = { s with shm := upd s.shm n none, errno := e }
  | .shmCreate n, a, s' =>
    Fails s a s' ∨
      (s.shm n = none ∧ s.chr s.next = false ∧
        Opened keep { s with shm := upd s.shm n (some s.next), size := upd s.size s.next 0, next := s.next + 1 }
          (.shm n) s.next a s')
  | .shmOpen n, a, s' => Fails s a s' ∨ ∃ f, s.shm n = some f ∧ Opened keep s (.shm n) f a s'
  | .ftruncate fd size, a, s' =>
    Fails s a s' ∨ ∃ n : Nat, ∃ f e, fd = n ∧ s.fds n = some f ∧ a.ret = 0 ∧ Quiet keep s e ∧
      s' = { s with size := upd s.size f size, errno := e }
  | .memfdSecret, a, s' => Fails s a s' ∨ Opened keep { s with next := s.next + 1 } .anonymous s.next a s'
  | .memfdCreate, a, s' => Fails s a s' ∨ Opened keep { s with next := s.next + 1 } .anonymous s.next a s'
  | .pidfdOpen pid, a, s' =>
    Fails s a s' ∨
      Opened keep { s with proc := upd s.proc s.next (some pid), next := s.next + 1 } (.process pid) s.next a s'
  | .pidfdGetfd pidfd fd, a, s' =>
    Fails s a s' ∨ ∃ n : Nat, ∃ g pid f, pidfd = n ∧ s.fds n = some g ∧ s.proc g = some pid ∧ s.remote pid fd = some f ∧
      Opened keep s (.remote pid fd) f a s'
  | .log, _, s' => ∃ e, Quiet keep s e ∧ s' = { s with errno := e }

/-- What other threads and processes may do between two calls: anything with names, files and descriptors, except that
the descriptors that the call has opened stay as they are and that files do not change their type. -/
def Other (s s' : St) : Prop :=
  s'.mine = s.mine ∧ s'.foreign = s.foreign ∧ s'.trace = s.trace ∧ s.next ≤ s'.next ∧ s'.chr = s.chr ∧
    (∀ f < s.next, s'.proc f = s.proc f) ∧ (∀ fd ∈ s.mine, s'.fds fd = s.fds fd) ∧ s'.errno = s.errno ∧ s'.errs = s.errs

/-- Others that leave the names and the sizes of files alone. -/
def Calm (s s' : St) : Prop := Other s s' ∧ s'.path = s.path ∧ s'.shm = s.shm ∧ s'.size = s.size

/-- A run of a program, with `R` before every call. -/
inductive Runs (keep : Bool) (R : St → St → Prop) {α : Type} : Prog α → St → α → St → Prop where
  | ret {a s} : Runs keep R (.ret a) s a s
  | call {c k s s₁ b s₂ a s₃} : R s s₁ → Kernel keep s₁ c b s₂ → Runs keep R (k b) s₂ a s₃ →
      Runs keep R (.call c k) s a s₃
  | setErrno {e p s a s'} : Runs keep R p { s with errno := e } a s' → Runs keep R (.setErrno e p) s a s'
  | errno {k s a s'} : Runs keep R (k s.errno) s a s' → Runs keep R (.errno k) s a s'

end Verif.Files
