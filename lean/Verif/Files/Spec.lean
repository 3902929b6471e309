import Verif.Files.Machine

/-! # What a caller expects of a function that opens a file -/
namespace Verif.Files

/-- At the start of the call nothing has been done. -/
def Start (s : St) : Prop := s.mine = [] ∧ s.foreign = [] ∧ s.trace = [] ∧ s.errs = []

/-- The call has opened no descriptor that is still open, and has closed no descriptor of others. -/
def Nothing (s : St) : Prop := s.mine = [] ∧ s.foreign = []

/-- Of all the call has opened just `fd` is open, it stands for `f`, and no descriptor of others has been closed. -/
def Just (s : St) (fd : Int) (f : Nat) : Prop := ∃ n : Nat, fd = n ∧ s.mine = [n] ∧ s.foreign = [] ∧ s.fds n = some f

/-- The result is -1 and nothing is left open, or it is a descriptor of a file opened from `src`, and the only one
left open. Without a source there is only the first. -/
def OneOrNone (src : Option Src) (r : Int) (s : St) : Prop :=
  (r = -1 ∧ Nothing s) ∨ ∃ x f, src = some x ∧ Just s r f ∧ (x, f) ∈ s.trace

/-- The result codes for the errors of Linux: `UMF_RESULT_ERROR_INVALID_ARGUMENT` for `EBADF`, `EINVAL`, `ESRCH`, `EPERM`;
`…_OUT_OF_HOST_MEMORY` for `EMFILE`, `ENOMEM`; `…_NOT_SUPPORTED` for `ENODEV`, `ENOSYS`, `ENOTSUP`; `…_UNKNOWN` for others. -/
def Code (e res : Nat) : Prop :=
  (e ∈ [9, 22, 3, 1] ∧ res = 3) ∨ (e ∈ [24, 12] ∧ res = 1) ∨ (e ∈ [19, 38, 95] ∧ res = 5) ∨
    (e ∉ [9, 22, 3, 1, 24, 12, 19, 38, 95] ∧ res = 0x7ffffffe)

end Verif.Files
