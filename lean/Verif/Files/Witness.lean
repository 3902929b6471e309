import Verif.Files.Props
import Verif.Files.Frame
import Verif.Files.Exact

/-! # Runs that meet the hypotheses, and counterexamples -/
namespace Verif.Files

theorem Other.refl (s : St) : Other s s :=
  ⟨rfl, rfl, rfl, Nat.le_refl _, rfl, fun _ _ => rfl, fun _ _ => rfl, rfl, rfl⟩

theorem Calm.refl (s : St) : Calm s s := ⟨.refl s, rfl, rfl, rfl⟩

def dev : List Char := "/dev/dax0.0".toList

/-- File 1 is a device under `/dev/dax0.0`, file 2 an ordinary file, file 3 shared memory under the name `a`;
descriptors 0 to 2 are in use if `std`. Process 7 has file 2 as descriptor 5. -/
def s0 (std : Bool) : St where
  fds n := if n < 3 ∧ std = true then some 0 else none
  path p := if p = dev then some 1 else none
  shm n := if n = ['a'] then some 3 else none
  chr f := f = 1
  size _ := 0
  remote p fd := if p = 7 ∧ fd = 5 then some 2 else none
  proc _ := none
  next := 10
  errno := 0
  mine := []
  foreign := []
  trace := []
  errs := []

theorem start0 (std : Bool) : Start (s0 std) := ⟨rfl, rfl, rfl, rfl⟩

/-- Runs from the front. -/
theorem ex_call {keep : Bool} {R : St → St → Prop} {α : Type} {c : Sys} {k : Ans → Prog α} {s : St} {a : α}
    {P : St → Prop} (s₁ : St) (b : Ans) {s₂ : St} (h1 : R s s₁) (h2 : Kernel keep s₁ c b s₂)
    (h : ∃ s', Runs keep R (k b) s₂ a s' ∧ P s') : ∃ s', Runs keep R (.call c k) s a s' ∧ P s' :=
  h.elim fun s' h => ⟨s', .call h1 h2 h.1, h.2⟩

theorem ex_set {keep : Bool} {R : St → St → Prop} {α : Type} {e : Nat} {p : Prog α} {s : St} {a : α}
    {P : St → Prop} (h : ∃ s', Runs keep R p { s with errno := e } a s' ∧ P s') :
    ∃ s', Runs keep R (.setErrno e p) s a s' ∧ P s' :=
  h.elim fun s' h => ⟨s', .setErrno h.1, h.2⟩

theorem ex_errno {keep : Bool} {R : St → St → Prop} {α : Type} {k : Nat → Prog α} {s : St} {a : α}
    {P : St → Prop} (h : ∃ s', Runs keep R (k s.errno) s a s' ∧ P s') : ∃ s', Runs keep R (.errno k) s a s' ∧ P s' :=
  h.elim fun s' h => ⟨s', .errno h.1, h.2⟩

theorem ex_ret {keep : Bool} {R : St → St → Prop} {α : Type} {s : St} {a : α} {P : St → Prop} (h : P s) :
    ∃ s', Runs keep R (.ret a) s a s' ∧ P s' := ⟨s, .ret, h⟩

/-- A device is opened as descriptor 3. -/
example : ∃ s', Runs true Calm (devdaxOpen (some dev)) (s0 true) 3 s' ∧ s'.mine = [3] := by
  unfold devdaxOpen
  dsimp only
  rw [if_neg (by decide)]
  refine ex_call _ ⟨3, false⟩ (Calm.refl _) (.inr ⟨1, rfl, 3, 0, rfl, rfl, fun _ => rfl, rfl⟩) ?_
  rw [if_neg (by decide)]
  refine ex_call _ ⟨0, true⟩ (Calm.refl _) (.inr ⟨1, 0, rfl, rfl, fun _ => rfl, rfl⟩) ?_
  exact ex_ret rfl

/-- The path of an ordinary file, at first. -/
def t0 : St := { s0 true with path := fun p => if p = dev then some 2 else none }

/-- C90 fails for devices: between `open` and `stat` the path of an ordinary file gets to lead to a device, and the
descriptor of the ordinary file is returned. -/
theorem C90_devdax_violated : ∃ s r s', (Start s ∧ Runs true Other (devdaxOpen (some dev)) s r s') ∧
    ∃ f, Just s' r f ∧ s'.chr f = false := by
  have : ∃ s', Runs true Other (devdaxOpen (some dev)) t0 3 s' ∧ ∃ f, Just s' 3 f ∧ s'.chr f = false := by
    unfold devdaxOpen
    dsimp only
    rw [if_neg (by decide)]
    refine ex_call _ ⟨3, false⟩ (Other.refl _) (.inr ⟨2, rfl, 3, 0, rfl, rfl, fun _ => rfl, rfl⟩) ?_
    rw [if_neg (by decide)]
    refine ex_call { s0 true with fds := upd t0.fds 3 (some 2), mine := [3], trace := [(.path dev, 2)] } ⟨0, true⟩
      ⟨rfl, rfl, rfl, Nat.le_refl _, rfl, fun _ _ => rfl, fun _ _ => rfl, rfl, rfl⟩
      (.inr ⟨1, 0, rfl, rfl, fun _ => rfl, rfl⟩) ?_
    exact ex_ret ⟨2, ⟨3, rfl, rfl, rfl, rfl⟩, rfl⟩
  obtain ⟨s', h, h'⟩ := this
  exact ⟨t0, 3, s', ⟨⟨rfl, rfl, rfl, rfl⟩, h⟩, h'⟩

/-- Shared memory under a new name gets descriptor 3. -/
example : ∃ s', Runs true Calm (shmCreate (some ['b']) 4096) (s0 true) 3 s' ∧ s'.mine = [3] := by
  unfold shmCreate
  dsimp only
  refine ex_call _ ⟨-1, false⟩ (Calm.refl _) (.inl ⟨2, rfl, rfl⟩) ?_
  refine ex_call _ ⟨3, false⟩ (Calm.refl _) (.inr ⟨rfl, rfl, 3, 2, rfl, rfl, fun _ => rfl, rfl⟩) ?_
  rw [if_neg (by decide)]
  refine ex_set (ex_call _ ⟨0, false⟩ (Calm.refl _) (.inr ⟨3, 10, 0, rfl, rfl, rfl, fun _ => rfl, rfl⟩) ?_)
  refine ex_call _ ⟨0, false⟩ (Calm.refl _) ⟨0, fun _ => rfl, rfl⟩ ?_
  exact ex_ret rfl

/-- C90, names: a creation that fails because there are no more descriptors has removed the name of the shared memory
of another provider. -/
theorem C90_name_violated : ∃ s s', Start s ∧ s.shm ['a'] = some 3 ∧ Runs true Calm (shmCreate (some ['a']) 4096) s (-1) s' ∧
    s'.shm ['a'] = none := by
  have : ∃ s', Runs true Calm (shmCreate (some ['a']) 4096) (s0 true) (-1) s' ∧ s'.shm ['a'] = none := by
    unfold shmCreate
    dsimp only
    refine ex_call _ ⟨0, false⟩ (Calm.refl _) (.inr ⟨0, rfl, fun _ => rfl, rfl⟩) ?_
    refine ex_call _ ⟨-1, false⟩ (Calm.refl _) (.inl ⟨rfl, 24, by decide, rfl⟩) ?_
    exact ex_call _ ⟨0, false⟩ (Calm.refl _) ⟨24, fun _ => rfl, rfl⟩ (ex_ret rfl)
  obtain ⟨s', h, h'⟩ := this
  exact ⟨s0 true, s', start0 true, rfl, h, h'⟩

/-- With the standard descriptors in use, a file without a name gets descriptor 3. -/
example : ∃ s', Runs true (fun s s' => Other s s' ∧ s'.fds 0 ≠ none) (anonymousFd none) (s0 true) 3 s' ∧ s'.mine = [3] := by
  unfold anonymousFd
  rw [if_neg (by decide)]
  refine ex_call _ ⟨3, false⟩ ⟨Other.refl _, by simp [s0]⟩ (.inr ⟨3, 0, rfl, rfl, fun _ => rfl, rfl⟩) ?_
  rw [if_neg (by decide), if_pos (by decide)]
  exact ex_call _ ⟨0, false⟩ ⟨Other.refl _, by simp [s0, upd]⟩ ⟨0, fun _ => rfl, rfl⟩ (ex_ret rfl)

/-- C90 fails for files without a name: when `memfd_secret` gives descriptor 0, a second descriptor is opened, and
descriptor 0 stays open. -/
theorem C90_anonymous_violated : ∃ s s', Start s ∧ Runs true Calm (anonymousFd none) s 1 s' ∧ s'.mine = [1, 0] ∧
    s'.fds 0 ≠ none := by
  have : ∃ s', Runs true Calm (anonymousFd none) (s0 false) 1 s' ∧ s'.mine = [1, 0] ∧ s'.fds 0 ≠ none := by
    unfold anonymousFd
    rw [if_neg (by decide)]
    refine ex_call _ ⟨0, false⟩ (Calm.refl _) (.inr ⟨0, 0, rfl, rfl, fun _ => rfl, rfl⟩) ?_
    rw [if_neg (by decide), if_neg (by decide)]
    unfold memfdCreate
    refine ex_call _ ⟨1, false⟩ (Calm.refl _) (.inr ⟨1, 0, rfl, rfl, fun _ => rfl, rfl⟩) ?_
    rw [if_neg (by decide), if_pos (by decide)]
    exact ex_call _ ⟨0, false⟩ (Calm.refl _) ⟨0, fun _ => rfl, rfl⟩ (ex_ret ⟨rfl, by simp [upd]⟩)
  obtain ⟨s', h, h'⟩ := this
  exact ⟨s0 false, s', start0 false, h, h'⟩

/-- Descriptor 5 of process 7 is duplicated as descriptor 4. -/
example : ∃ s', Runs true Other (duplicateFd 7 5) (s0 true) (0, some 4) s' ∧ s'.mine = [4] := by
  unfold duplicateFd
  refine ex_set (ex_call _ ⟨3, false⟩ (Other.refl _) (.inr ⟨3, 0, rfl, rfl, fun _ => rfl, rfl⟩) ?_)
  rw [if_neg (by decide)]
  refine ex_call _ ⟨4, false⟩ (Other.refl _)
    (.inr ⟨3, 10, 7, 2, rfl, rfl, rfl, rfl, 4, 0, rfl, rfl, fun _ => rfl, rfl⟩) ?_
  refine ex_call _ ⟨0, false⟩ (Other.refl _)
    (.inl ⟨3, 0, [], rfl, by simp [upd], .inl ⟨rfl, fun _ => rfl, rfl⟩, rfl⟩) ?_
  exact ex_ret rfl

/-- C90, error codes: there is no such process (`ESRCH`), the message sets `errno` to `ENOTTY`, and the result is
`UMF_RESULT_ERROR_UNKNOWN`, the code of no error that the kernel has reported. -/
theorem C90_error_violated : ∃ s x s', Start s ∧ Runs false Calm (duplicateFd 8 5) s x s' ∧ s'.errs = [3] ∧
    x.1 = 0x7ffffffe ∧ ∀ e ∈ s'.errs, ¬ Code e x.1 := by
  have : ∃ s', Runs false Calm (duplicateFd 8 5) (s0 true) (errnoRes 25, none) s' ∧ s'.errs = [3] := by
    unfold duplicateFd
    refine ex_set (ex_call _ ⟨-1, false⟩ (Calm.refl _) (.inl ⟨rfl, 3, by decide, rfl⟩) ?_)
    rw [if_pos rfl]
    exact ex_call _ ⟨0, false⟩ (Calm.refl _) ⟨25, by simp [Quiet], rfl⟩ (ex_errno (ex_ret rfl))
  obtain ⟨s', h, h'⟩ := this
  refine ⟨s0 true, _, s', start0 true, h, h', rfl, ?_⟩
  rw [h']
  unfold Code
  decide

end Verif.Files
