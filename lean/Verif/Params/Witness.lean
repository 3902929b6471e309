import Verif.Params.Props
/-!
# Parameter objects: concrete histories
-/
namespace Verif.Params

/-- Any legal call. -/
def Anything (_ : Spec) (_ : Op) : Prop := True

/-! A string of the caller is copied, then the caller changes it. -/

example : ∃ s A, Reach Careful s A ∧ s.user 500 = some [120, 0] ∧
    A.vals 10 = some (.os ⟨6, 1, some [97, 98], [], 0, 0, []⟩) ∧
    view s 10 = some (.os ⟨6, 1, some [97, 98], [], 0, 0, []⟩) := by
  refine ⟨_, _, .step (op := .write 500 [120, 0]) (ans := []) (.step (op := .osSetShmName 10 500) (ans := [11])
    (.step (op := .osCreate true) (ans := [10]) (.step (op := .write 500 [97, 98, 0]) (ans := []) .init
      (by simp [Legal]) (by simp [Careful, Spec.init]) rfl) trivial trivial rfl) ?_ trivial rfl) ?_ ?_ rfl, rfl, ?_, rfl⟩
  · refine ⟨Or.inr ⟨_, rfl, _, rfl⟩, Or.inr ⟨[97, 98, 0], rfl, by simp⟩⟩
  · simp [Legal]
  · simp [Careful, Spec.next, Spec.init]
  · simp [Spec.next, want, Spec.init, Spec.onOs, Spec.text]

/-! A call that fails half-way: the second request for memory fails. -/

example : ∃ s A, Reach Careful s A ∧ Legal A (.fileCreate true 500) ∧ Careful A (.fileCreate true 500) ∧
    (∃ s', step s (.fileCreate true 500) [10, 0] = some ((.oom, 0), s')) ∧
    (∃ s', step s (.fileCreate true 500) [10, 11] = some ((.success, 10), s')) := by
  refine ⟨_, _, .step (op := .write 500 [97, 0]) (ans := []) .init (by simp [Legal]) (by simp [Careful, Spec.init]) rfl,
    Or.inr ⟨[97, 0], rfl, by simp⟩, trivial, ⟨_, rfl⟩, ⟨_, rfl⟩⟩

/-! All objects are destroyed. -/

example : ∃ s A, Reach Careful s A ∧ (∀ h, A.vals h = none) ∧ s.user 500 ≠ none := by
  refine ⟨_, _, .step (op := .fileDestroy 10) (ans := []) (.step (op := .fileCreate true 500) (ans := [10, 11])
    (.step (op := .write 500 [97, 0]) (ans := []) .init (by simp [Legal]) (by simp [Careful, Spec.init]) rfl)
    (Or.inr ⟨[97, 0], rfl, by simp⟩) trivial rfl) ?_ trivial rfl, ?_, by simp [upd]⟩
  · refine Or.inr ⟨.file ⟨some [97], 6, 1⟩, ?_, _, rfl⟩
    simp [Spec.next, want, Spec.init, Spec.text]
  · intro h
    by_cases hh : h = 10 <;> simp [Spec.next, want, Spec.init, Spec.text, hh]

/-! ## Findings -/

/-- C72 violated: the array of resident devices is not copied. The caller sets an array, uses it again for something else,
and a provider made from the parameters then sees other devices than were set. -/
theorem C72_resident_violated : ∃ s A, Reach Anything s A ∧
    A.vals 10 = some (.ze ⟨0, 0, 0, [7, 8], 0, 0⟩) ∧ view s 10 = some (.ze ⟨0, 0, 0, [9, 9], 0, 0⟩) := by
  refine ⟨_, _, .step (op := .write 500 [9, 9]) (ans := []) (.step (op := .zeSetResident 10 500 2) (ans := [])
    (.step (op := .zeCreate true) (ans := [10]) (.step (op := .write 500 [7, 8]) (ans := []) .init
      (by simp [Legal]) trivial rfl) trivial trivial rfl) ?_ trivial rfl) (by simp [Legal]) trivial rfl, ?_, rfl⟩
  · refine ⟨Or.inr ⟨.ze ⟨0, 0, 0, [], 0, 0⟩, ?_, _, rfl⟩, Or.inr (Or.inr ⟨[7, 8], rfl, by simp⟩)⟩
    simp [Spec.next, want]
  · simp [Spec.next, want, Spec.init, Spec.onZe, Spec.elems]

/-- C72 violated: when the caller has given the array back, for example because it was on the stack of a function that has
returned, reading the parameters is undefined. -/
theorem C72_residentFreed_violated : ∃ s A, Reach Anything s A ∧
    A.vals 10 = some (.ze ⟨0, 0, 0, [7, 8], 0, 0⟩) ∧ view s 10 = none ∧ s.heap 10 ≠ none := by
  refine ⟨_, _, .step (op := .giveBack 500) (ans := []) (.step (op := .zeSetResident 10 500 2) (ans := [])
    (.step (op := .zeCreate true) (ans := [10]) (.step (op := .write 500 [7, 8]) (ans := []) .init
      (by simp [Legal]) trivial rfl) trivial trivial rfl) ?_ trivial rfl) (by simp [Legal]) trivial rfl, ?_, rfl, by simp [upd]⟩
  · refine ⟨Or.inr ⟨.ze ⟨0, 0, 0, [], 0, 0⟩, ?_, _, rfl⟩, Or.inr (Or.inr ⟨[7, 8], rfl, by simp⟩)⟩
    simp [Spec.next, want]
  · simp [Spec.next, want, Spec.init, Spec.onZe, Spec.elems]

/-- C72 violated: the default name of a disjoint pool is `"d"`, not `"disjoint_pool"`. -/
theorem C72_defaultName_violated : ∃ s A v, Reach Careful s A ∧ view s 10 = some (.dj v) ∧
    v.name = some ['d'.toNat] ∧ v.name ≠ some ("disjoint_pool".toList.map Char.toNat) := by
  refine ⟨_, _, ⟨0, 0, 0, 8, 0, 0, some [100]⟩, .step (op := .djCreate true) (ans := [10]) .init trivial trivial rfl, rfl,
    by decide, by decide⟩

set_option maxRecDepth 4096 in
/-- C72 violated: a name of 64 letters, which is not longer than 64, loses its last letter. -/
theorem C72_name64_violated : ∃ s A v, Reach Careful s A ∧ A.text 500 = List.replicate 64 120 ∧
    view s 10 = some (.dj v) ∧ v.name = some (List.replicate 63 120) := by
  refine ⟨_, _, ⟨0, 0, 0, 8, 0, 0, some (List.replicate 63 120)⟩, .step (op := .djSetName 10 500) (ans := [])
    (.step (op := .djCreate true) (ans := [10]) (.step (op := .write 500 (List.replicate 64 120 ++ [0])) (ans := []) .init
      (by simp [Legal]) (by simp [Careful, Spec.init]) rfl) trivial trivial rfl) ?_ trivial rfl, ?_, ?_, rfl⟩
  · refine ⟨Or.inr ⟨.dj ⟨0, 0, 0, 8, 0, 0, none⟩, ?_, _, rfl⟩, ⟨List.replicate 64 120 ++ [0], rfl, by simp⟩⟩
    simp [Spec.next, want]
  · rfl
  · rfl

/-- C72 violated: the name `NULL` is not refused; the call is undefined. -/
theorem C72_nullName_violated : ∃ s A, Reach Careful s A ∧ A.vals 10 ≠ none ∧ s.heap 10 ≠ none ∧
    ∀ ans, step s (.djSetName 10 0) ans = none := by
  refine ⟨_, _, .step (op := .djCreate true) (ans := [10]) .init trivial trivial rfl, ?_, by simp [upd], fun _ => rfl⟩
  simp [Spec.next, want]

/-- C72 violated: without the CUDA library the creation of CUDA parameters fails and loses the memory of the object. -/
theorem C72_cuda_violated : ∃ s A, Reach Anything s A ∧ (∀ h, A.vals h = none) ∧ s.heap 10 ≠ none := by
  refine ⟨_, _, .step (op := .cuCreate true false none none) (ans := [10]) .init trivial trivial rfl, ?_, by simp [upd]⟩
  intro h
  simp [Spec.next, Spec.init]

end Verif.Params
