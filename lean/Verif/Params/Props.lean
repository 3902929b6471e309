import Verif.Params.Ops3
/-!
# Properties of the parameter objects

C72: an object of parameters holds the values that the last successful calls set, whatever the caller does to its own
memory afterwards.
-/
namespace Verif.Params

theorem good_all {s : St} {A : Spec} {op : Op} {ans : List Addr} (R : Rel s A) (hl : Legal A op) (hc : Careful A op) :
    Good s A op ans := by
  cases op <;> simp only [Legal, Careful] at hl hc
  case cuCreate => subst hc; exact good_cuCreate R
  case write => exact good_write R hc
  case giveBack => exact good_giveBack R hc
  case osCreate => exact good_osCreate R
  case fixedCreate => exact good_fixedCreate R
  case zeCreate => exact good_zeCreate R
  case scalCreate => exact good_scalCreate R
  case djCreate => exact good_djCreate R
  case osDestroy => exact good_osDestroy R hl
  case osSetProtection => exact good_osSetProtection R hl
  case osSetVisibility => exact good_osSetVisibility R hl
  case osSetNumaMode => exact good_osSetNumaMode R hl
  case osSetPartSize => exact good_osSetPartSize R hl
  case fileDestroy => exact good_fileDestroy R hl
  case fileSetProtection => exact good_fileSetProtection R hl
  case fileSetVisibility => exact good_fileSetVisibility R hl
  case daxDestroy => exact good_daxDestroy R hl
  case daxSetProtection => exact good_daxSetProtection R hl
  case fixedDestroy => exact good_fixedDestroy R hl
  case fixedSet => exact good_fixedSet R hl
  case zeDestroy => exact good_zeDestroy R hl
  case zeSetContext => exact good_zeSetContext R hl
  case zeSetDevice => exact good_zeSetDevice R hl
  case zeSetMemoryType => exact good_zeSetMemoryType R hl
  case zeSetOrdinal => exact good_zeSetOrdinal R hl
  case zeSetPolicy => exact good_zeSetPolicy R hl
  case cuDestroy => exact good_cuDestroy R hl
  case cuSetContext => exact good_cuSetContext R hl
  case cuSetDevice => exact good_cuSetDevice R hl
  case cuSetMemoryType => exact good_cuSetMemoryType R hl
  case cuSetFlags => exact good_cuSetFlags R hl
  case scalDestroy => exact good_scalDestroy R hl
  case scalSetGranularity => exact good_scalSetGranularity R hl
  case scalSetKeep => exact good_scalSetKeep R hl
  case djDestroy => exact good_djDestroy R hl
  case djSetSlabMinSize => exact good_djSetSlabMinSize R hl
  case djSetMaxPoolableSize => exact good_djSetMaxPoolableSize R hl
  case djSetCapacity => exact good_djSetCapacity R hl
  case djSetMinBucketSize => exact good_djSetMinBucketSize R hl
  case djSetTrace => exact good_djSetTrace R hl
  case djSetLimits => exact good_djSetLimits R hl
  case fileCreate => exact good_fileCreate R hl
  case daxCreate => exact good_daxCreate R hl
  case osSetShmName => exact good_osSetShmName R hl.1 hl.2
  case osSetNumaList => exact good_osSetNumaList R hl.1 hl.2
  case osSetPartitions => exact good_osSetPartitions R hl.1 hl.2
  case fileSetPath => exact good_fileSetPath R hl.1 hl.2
  case daxSet => exact good_daxSet R hl.1 hl.2
  case zeSetResident => exact good_zeSetResident R hl.1 hl.2
  case djSetName => exact good_djSetName R hl.1 hl.2

theorem reach_rel {s : St} {A : Spec} (hr : Reach Careful s A) : Rel s A := by
  induction hr with
  | init => exact rel_init
  | step _ hl hc hs ih =>
    obtain ⟨out, s', h1, _, h2, _⟩ := good_all ih hl hc
    rw [hs] at h1
    cases h1
    exact h2

/-! ## Values -/

/-- C72: after any legal history, an object exists exactly if it was made and not destroyed, and a provider or pool made from
it reads the values that the last successful calls set, also when the caller has changed or given back its own strings and
arrays since. Missing: arrays of resident devices that the caller changes or gives back, and the default name of a disjoint
pool. -/
theorem C72_values_partial {s : St} {A : Spec} (hr : Reach Careful s A) (h : Addr) :
    Matches (view s h) (A.vals h) := (reach_rel hr).vals h

/-- C72: every legal call is defined and answers as it should: it refuses wrong arguments, otherwise it succeeds or, if it
needs memory, reports that there is none; it reports that only if an answer of the base allocator was `NULL`. A call that does
not succeed changes nothing. Missing: the exceptions in `Careful`. -/
theorem C72_calls_partial {s : St} {A : Spec} (hr : Reach Careful s A) {op : Op} (hl : Legal A op) (hc : Careful A op)
    (ans : List Addr) :
    ∃ out s', step s op ans = some (out, s') ∧ Answered A op out ∧ (Plenty s ans → out.1 ≠ .oom) ∧
      (out.1 ≠ .success → ∀ h, Matches (view s' h) (A.vals h)) := by
  obtain ⟨out, s', h1, h2, h3, h4⟩ := good_all (ans := ans) (reach_rel hr) hl hc
  refine ⟨out, s', h1, h2, h4, fun hne h => ?_⟩
  have := h3.vals h
  rwa [show A.next op out = A by simp [Spec.next, hne]] at this

/-- C72: when all objects are destroyed, no memory is left, whatever failed on the way. Missing: the creation of CUDA
parameters without the CUDA library. -/
theorem C72_noleak_partial {s : St} {A : Spec} (hr : Reach Careful s A) (hn : ∀ h, A.vals h = none) (a : Addr) :
    s.heap a = none := (reach_rel hr).empty hn a

end Verif.Params
