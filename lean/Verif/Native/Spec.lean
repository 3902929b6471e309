import Verif.Native.Model
import Verif.Gpu.MsgSpec
/-! # Specification vocabulary for the native errors (C71) -/
namespace Verif.Native
open Gpu.Msg (Bytes lit)

/-- What can go wrong below a provider. -/
inductive Fault where
  | alloc | align | bind | free | purgeLazy | purgeForce | topology
deriving DecidableEq, Repr

/-- The documented code, `provider_os_memory.h:138-147`, `provider_file_memory.h:62-67`,
`provider_devdax_memory.h:60-66`, `provider_fixed_memory.h:55-58`. -/
inductive Code : Kind → Fault → Int → Prop where
  | os1 : Code .os .alloc 1001
  | os2 : Code .os .align 1002
  | os3 : Code .os .bind 1003
  | os4 : Code .os .free 1004
  | os5 : Code .os .purgeLazy 1005
  | os6 : Code .os .purgeForce 1006
  | os7 : Code .os .topology 1007
  | dax1 : Code .devdax .alloc 2001
  | dax2 : Code .devdax .align 2002
  | dax3 : Code .devdax .free 2003
  | dax4 : Code .devdax .purgeForce 2004
  | file1 : Code .file .alloc 3001
  | file2 : Code .file .free 3002
  | file3 : Code .file .purgeForce 3003
  | fix1 : Code .fixed .purgeForce 4001

/-- The text for a fault. -/
def Fault.text : Fault → String
  | .alloc => "memory allocation failed"
  | .align => "allocated address is not aligned"
  | .bind => "binding memory to NUMA node failed"
  | .free => "memory deallocation failed"
  | .purgeLazy => "lazy purging failed"
  | .purgeForce => "force purging failed"
  | .topology => "HWLOC topology discovery failed"

/-- `Because op f e`: by the answers it got, the call `op` could not go on because of fault `f`;
`e`: the `errno` of the system call, if it is one that is to be reported. -/
inductive Because : Op → Fault → Option Int → Prop where
  | init {rest} : Because (.osInit true false rest) .topology none
  | mmap {a : OsAlloc} : a.mmap = false → Because (.osAlloc a) .alloc none
  | misaligned {a : OsAlloc} : a.misaligned = true → Because (.osAlloc a) .align none
  | bind {a : OsAlloc} {e} : some e ∈ a.binds → e ≠ 38 → Because (.osAlloc a) .bind (some e)
  | free {e} : Because (.osFree false (some e)) .free (some e)
  | lazy {e} : Because (.purgeLazy .os (some e)) .purgeLazy (some e)
  | force {k e} : Because (.purgeForce k (some e)) .purgeForce (some e)
  | osOpen {a : Open} {e} : a.mmap = some e → Because (.osOpen a) .alloc (some e)
  | fileOpen {a : Open} {e} : a.mmap = some e → Because (.fileOpen a) .alloc (some e)
  | devdaxOpen {a : Open} {e} : a.mmap = some e → Because (.devdaxOpen a) .alloc (some e)
  | close {k en e} : Because (.ipcClose k en false (some e)) .free (some e)
  | file : Because (.fileAlloc .mmap) .alloc none

/-- Assumptions on the answers: `errno` of a failed system call is not 0; closing a descriptor does
not fail when a mapping fails; printing a message leaves `errno`; the bitmap for the split mode can
be allocated. Without each of the last three the claim is false, see the theorems named
`_violated`. -/
structure Plain (op : Op) (log : Int → Int) : Prop where
  free : ∀ {n e}, op = .osFree n (some e) → e ≠ 0
  lazy : ∀ {k e}, op = .purgeLazy k (some e) → e ≠ 0
  force : ∀ {k e}, op = .purgeForce k (some e) → e ≠ 0
  osOpen : ∀ {a e}, op = .osOpen a → a.mmap = some e → e ≠ 0
  fileOpen : ∀ {a e}, op = .fileOpen a → a.mmap = some e → e ≠ 0 ∧ a.close = none
  devdaxOpen : ∀ {a e}, op = .devdaxOpen a → a.mmap = some e → e ≠ 0 ∧ a.close = none
  close : ∀ {k en z e}, op = .ipcClose k en z (some e) → e ≠ 0
  bitmap : ∀ {a}, op = .osAlloc a → a.bitmap = true
  log : ∀ e, log e = e

/-- The call leaves the last native error alone. A call that succeeds or fails with another error
should; these two do not: an allocation of the file provider that fails, and an allocation of the
OS provider that succeeds although binding is not implemented. -/
def Harmless (op : Op) (log : Int → Int) : Prop :=
  (op.run log rec0).2 ≠ .specific ∧ (∀ e, op ≠ .fileAlloc (.refused e)) ∧
  ∀ a, op = .osAlloc a → ∀ b ∈ a.binds, b = none

/-- `Reads T m`: what a program reads at the message pointer it was given. -/
def Says (T : Tls) (t : Nat) (k : Kind) : Ptr → Bytes → Prop
  | .const s, m => m = lit s
  | .buf, m => Gpu.Msg.Reads (T t k).buf m

/-- The message for a fault: the text, and what the system says about `errno`, as far as the buffer
of 1024 characters has room. -/
def Message (strerr : Int → Bytes) (f : Fault) : Option Int → Bytes
  | none => lit f.text
  | some e => (lit f.text ++ lit ": " ++ strerr e).take 1023

end Verif.Native
