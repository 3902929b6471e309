import Verif.IpcEnd.Props
/-! # C84: concrete cases, and what the unchanged code leaves behind -/
namespace Verif.IpcEnd

/-- Block `v` and upstream handle `u`. -/
def yes (v u : Nat) : Ans := ⟨true, some v, some u, true⟩

/-- Two regions, the upper one right after the lower one. -/
def s2 : St := alloc (alloc init 4096 100) 4196 50

/-- The upper one is exported. -/
def s3 : St :=
  ⟨s2.regs, upd s2.cache 4196 (some 1), upd (upd s2.heap 1 (some none)) 1 (some (some 7)), upd s2.out 7 true⟩

theorem s3_run : (Call.expo 4200 4196 (yes 1 7)).run s2 = some s3 := by
  simp [Call.run, exportPtr, s2, alloc, init, getHandle, yes, upd, s3]

theorem s3_honest : (Call.expo 4200 4196 (yes 1 7)).Fair s2 :=
  ⟨(fun _ _ => rfl), (fun _ _ => rfl)⟩

theorem s3_reach : Reach s3 :=
  .step (.step (.step .init (c := .alloc 4096 100) trivial trivial rfl) (c := .alloc 4196 50) trivial trivial rfl)
    s3_honest trivial s3_run

/-- The hypotheses of `C84_handles_partial` and `C84_defined` are met by a state in which a handle is out. -/
example : Reach s3 ∧ s3.out 7 = true ∧ s3.regs 4196 = some 50 :=
  ⟨s3_reach, by simp [s3, upd], by simp [s3, s2, alloc, upd]⟩

/-- Both are freed. -/
def s5 : Option St := (free s3 4096 100 true true).bind fun s => free s 4196 50 true true

/-- The hypotheses of `C84_end_partial` are met after an export. -/
example : ∃ s, Reach s ∧ s5 = some s ∧ (∀ b, s.regs b = none) ∧ Nothing (finalize s) := by
  obtain ⟨s4, e1, _⟩ := free_spec s3_reach.regs.1.core 4096 100 true true
  have r4 : Reach s4 := .step s3_reach (c := .free 4096 100 true true) trivial trivial e1
  obtain ⟨s, e2, _⟩ := free_spec r4.regs.1.core 4196 50 true true
  have r5 : Reach s := .step r4 (c := .free 4196 50 true true) trivial trivial e2
  have hs : s5 = some s := by unfold s5; rw [e1]; exact e2
  have hr : ∀ b, s.regs b = none := by
    have h := hs
    simp [s5, free, dropHandle, s3, s2, alloc, init, upd, putUp, gfree] at h
    intro b
    rw [← h]
    dsimp only [upd]
    by_cases c1 : b = 4196
    · simp [c1]
    · by_cases c2 : b = 4096
      · simp [c2]
      · simp [c1, c2]
  exact ⟨s, r5, hs, hr, C84_end_partial r5 hr⟩

/-- An export that is refused memory for the map leaves nothing. -/
example : exportPtr s2 4200 4196 { yes 1 7 with node := false } = some (s2, none) := by
  simp [exportPtr, s2, alloc, init, getHandle, yes, upd, putUp, gfree]
  constructor
  · funext w
    by_cases h : w = 1 <;> simp [h, upd]
  · funext w
    by_cases h : w = 7 <;> simp [h, upd]

/-- C84 is violated: an exported region is merged into the one below it, the pool frees the merged region and is destroyed. The
upstream handle is still out, and the block in use. -/
theorem C84_merge_violated : ∃ s s' : St, Any s ∧ Call.run (merge s 4096 4196) (.free 4096 150 true true) = some s' ∧
    Any s' ∧ (∀ b, s'.regs b = none) ∧ (finalize s').out 7 = true ∧ (finalize s').heap 1 = some (some 7) := by
  have h3 := s3_reach.regs.1
  have hm : Any (merge s3 4096 4196) := .step h3 (c := .merge 4096 4196) trivial rfl
  obtain ⟨s', e, _⟩ := free_spec hm.core 4096 150 true true
  refine ⟨s3, s', h3, e, .step hm (c := .free 4096 150 true true) trivial e, ?_⟩
  simp [free, dropHandle, merge, s3, s2, alloc, init, upd] at e
  rw [← e]
  refine ⟨?_, by simp [finalize, upd], by simp [finalize, upd]⟩
  intro b
  dsimp only [upd]
  by_cases c1 : b = 4096
  · simp [c1]
  · by_cases c2 : b = 4196
    · simp [c2]
    · simp [c1, c2]

/-- C84 is violated: a pool is destroyed with a region left that was exported. The upstream handle is never put back, and its
block is never freed. -/
theorem C84_destroy_violated : ∃ s : St, Reach s ∧ (finalize s).out 7 = true ∧ (finalize s).heap 1 = some (some 7) ∧
    ∀ b, (finalize s).cache b = none :=
  ⟨s3, s3_reach, by simp [finalize, s3, upd], by simp [finalize, s3, upd], fun _ => rfl⟩

end Verif.IpcEnd
