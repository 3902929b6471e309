import Verif.Files.Proofs

/-! # Opening the files behind memory providers: the properties -/
namespace Verif.Files

variable {keep : Bool} {s s' : St} {r : Int}

/-- C90: opening a file, creating one, opening shared memory, for all answers of the kernel and whatever others do in
between. -/
theorem C90_file {path : Option (List Char)} (h : Start s) (hr : Runs keep Other (fileOpen path) s r s') :
    OneOrNone (path.map .path) r s' :=
  fileOpen_ok (fun _ _ h => h) h.nothing hr

theorem C90_create {path : Option (List Char)} (h : Start s) (hr : Runs keep Other (fileOpenOrCreate path) s r s') :
    OneOrNone (path.map .path) r s' :=
  fileOpenOrCreate_ok (fun _ _ h => h) h.nothing hr

theorem C90_shmOpen {name : Option (List Char)} (h : Start s) (hr : Runs keep Other (shmOpen name) s r s') :
    OneOrNone (name.map .shm) r s' :=
  shmOpen_ok (fun _ _ h => h) h.nothing hr

/-- Devices: nothing leaks, and other paths are refused. Missing: the file is a character device
(`C90_devdax_violated`); it is when nobody changes the path, `C90_device`. -/
theorem C90_devdax_partial {path : Option (List Char)} (h : Start s) (hr : Runs keep Other (devdaxOpen path) s r s') :
    OneOrNone (path.map .path) r s' ∧ (r ≠ -1 → ∃ p, path = some p ∧ "/dev/dax".toList <+: p) := by
  rcases devdax_run (fun _ _ h => h) h.nothing hr with h' | ⟨p, rfl, hp, n, f, _, _, _, rfl, _, _, _, _, _, hg⟩
  · exact ⟨.inl h', fun h => absurd h'.1 h⟩
  · exact ⟨.inr ⟨_, f, rfl, hg.just h.nothing, hg.traced⟩, fun _ => ⟨p, rfl, hp⟩⟩

theorem C90_device {path : Option (List Char)} (h : Start s) (hr : Runs keep Calm (devdaxOpen path) s r s') (h1 : r ≠ -1) :
    ∃ f, Just s' r f ∧ s'.chr f = true := by
  rcases devdax_run (fun _ _ h => h.1) h.nothing hr with h' | ⟨p, rfl, _, n, f, g, s₂, s₃, rfl, h2, h3, h4, h5, h6, hg⟩
  · exact absurd h'.1 h1
  · rw [h3.2.1, h2] at h4
    cases h4
    exact ⟨f, hg.just h.nothing, by rw [h6, h5]⟩

/-- Shared memory: nothing leaks, and the file is a new one, not one of others. -/
theorem C90_shm {name : Option (List Char)} {size : Nat} (h : Start s)
    (hr : Runs keep Other (shmCreate name size) s r s') :
    OneOrNone (name.map .shm) r s' ∧ ∀ f, Just s' r f → s.next ≤ f := by
  rcases shmCreate_run (fun _ _ h => h) h.nothing hr with ⟨rfl, h'⟩ | ⟨p, rfl, n, f, _, _, _, _, rfl, hf, hg, _⟩
  · exact ⟨.inl ⟨rfl, h'⟩, fun f ⟨n, hn, _⟩ => by omega⟩
  · refine ⟨.inr ⟨_, f, rfl, hg.just h.nothing, hg.traced⟩, ?_⟩
    rintro f' ⟨m, hm, _, _, hfd⟩
    have : m = n := by omega
    subst this
    rw [hg.2.2.2.1] at hfd
    cases hfd
    exact hf

/-- It is found under its name and has its size, unless others rename or resize it. -/
theorem C90_shmName {name : Option (List Char)} {size : Nat} (h : Start s)
    (hr : Runs keep Calm (shmCreate name size) s r s') (h1 : r ≠ -1) :
    ∃ n f, name = some n ∧ Just s' r f ∧ s'.shm n = some f ∧ s'.size f = size := by
  rcases shmCreate_run (fun _ _ h => h.1) h.nothing hr with
    h' | ⟨p, rfl, n, f, s₂, s₃, s₄, s₅, rfl, hf, hg, h2, h3, h4, h5, h6, h7, h8⟩
  · exact absurd h'.1 h1
  · exact ⟨p, f, rfl, hg.just h.nothing, by rw [h7, h6.2.2.1, h5, h3.2.2.1, h2], by rw [h8, h6.2.2.2, h4]⟩

/-- Files without a name: nothing leaks as long as descriptor 0 is in use, or when `UMF_MEM_FD_FUNC` asks for
`memfd_create`. Missing: descriptor 0 (`C90_anonymous_violated`). -/
theorem C90_anonymous_partial {env : Option (List Char)} {R : St → St → Prop} (hR : ∀ s s', R s s' → Other s s')
    (h0 : (∃ v, env = some v ∧ "memfd_create".toList <:+: v) ∨ ∀ s s', R s s' → s'.fds 0 ≠ none) (h : Start s)
    (hr : Runs keep R (anonymousFd env) s r s') :
    OneOrNone (some .anonymous) r s' ∧ ∀ f, Just s' r f → s.next ≤ f := by
  rcases anonymousFd_ok hR h0 h.nothing hr with ⟨rfl, h'⟩ | ⟨n, f, rfl, hf, hg⟩
  · exact ⟨.inl ⟨rfl, h'⟩, fun f ⟨n, hn, _⟩ => by omega⟩
  · refine ⟨.inr ⟨_, f, rfl, hg.just h.nothing, hg.traced⟩, ?_⟩
    rintro f' ⟨m, hm, _, _, hfd⟩
    have : m = n := by omega
    subst this
    rw [hg.2.2.2.1] at hfd
    cases hfd
    exact hf

/-- Descriptors of other processes: the pidfd is always closed; the result is a duplicate of the descriptor asked for, or
an error and nothing. -/
theorem C90_duplicate {pid fd : Nat} {x : Nat × Option Int} (h : Start s)
    (hr : Runs keep Other (duplicateFd pid fd) s x s') :
    (x.1 ≠ 0 ∧ x.2 = none ∧ Nothing s') ∨
      (x.1 = 0 ∧ ∃ r f, x.2 = some r ∧ Just s' r f ∧ (.remote pid fd, f) ∈ s'.trace) := by
  rcases duplicateFd_run (fun _ _ h => h) h.nothing hr with ⟨h1, h2, e, h3, _⟩ | h'
  · exact .inl ⟨by rw [h3]; exact errnoRes_ne e, h1, h2⟩
  · exact .inr h'

/-- The error code stands for an error that the kernel has reported, if `close` and the messages leave `errno` alone
when they succeed. Missing: other cases (`C90_error_violated`). -/
theorem C90_error_partial {pid fd : Nat} {x : Nat × Option Int} (h : Start s)
    (hr : Runs true Other (duplicateFd pid fd) s x s') (hx : x.1 ≠ 0) : ∃ e ∈ s'.errs, Code e x.1 := by
  rcases duplicateFd_run (fun _ _ h => h) h.nothing hr with ⟨_, _, e, h3, h4⟩ | h'
  · exact ⟨e, h4 rfl, h3 ▸ errnoRes_code e⟩
  · exact absurd h'.1 hx

/-- A call fails only if there is no path or name, the kernel has reported an error, or, for devices, the path is not one
of a device or leads to another kind of file. -/
theorem C90_reason {path name env : Option (List Char)} {size pid fd : Nat} {x : Nat × Option Int} :
    (Runs keep Other (fileOpen path) s (-1) s' → path = none ∨ s'.errs ≠ []) ∧
    (Runs keep Other (fileOpenOrCreate path) s (-1) s' → path = none ∨ s'.errs ≠ []) ∧
    (Runs keep Other (shmOpen name) s (-1) s' → name = none ∨ s'.errs ≠ []) ∧
    (Runs keep Other (shmCreate name size) s (-1) s' → name = none ∨ s'.errs ≠ []) ∧
    (Runs keep Other (anonymousFd env) s (-1) s' → s'.errs ≠ []) ∧
    (Runs keep Other (duplicateFd pid fd) s x s' → x.1 ≠ 0 → s'.errs ≠ []) ∧
    (Runs keep Calm (devdaxOpen path) s (-1) s' → (∀ p, path = some p → ¬ "/dev/dax".toList <+: p) ∨
      (∃ p f, path = some p ∧ s.path p = some f ∧ s.chr f = false) ∨ s'.errs ≠ []) :=
  ⟨fileOpen_reason fun _ _ h => h, fileOpenOrCreate_reason fun _ _ h => h, shmOpen_reason fun _ _ h => h,
    shmCreate_reason fun _ _ h => h, anonymousFd_reason fun _ _ h => h, duplicateFd_reason fun _ _ h => h, devdax_reason⟩

/-- A file without a name is refused only after two reported errors: `memfd_create` is tried if `memfd_secret` fails. -/
theorem C90_both {env : Option (List Char)} {R : St → St → Prop} (hR : ∀ s s', R s s' → Other s s')
    (h0 : ∀ s s', R s s' → s'.fds 0 ≠ none) (hv : ∀ v, env = some v → ¬ "memfd_create".toList <:+: v) (h : Start s)
    (hr : Runs keep R (anonymousFd env) s (-1) s') : 2 ≤ s'.errs.length := by
  have := anonymousFd_both hR h0 hv hr
  rw [h.2.2.2] at this
  simpa using this

end Verif.Files
