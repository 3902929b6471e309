import Verif.TrkMem.Spec
/-! # Creating and destroying the tracker (C82) -/
namespace Verif.TrkMem

/-- Creating the tracker is well defined, whichever of its parts cannot be made. If one cannot, no handle is returned and nothing
is left; otherwise a handle is returned and all parts are there. -/
theorem C82_create (ok : Part → Bool) : ∃ m b, create ok = some (m, b) ∧
    ((b = true ∧ m.live = parts ∧ ∀ p ∈ parts, ok p = true) ∨ (b = false ∧ m.live = [] ∧ ∃ p ∈ parts, ok p = false)) := by
  cases h0 : ok .handle
  · refine ⟨_, false, by simp [create, make, makeMaps, undoMaps, dropMaps, drop, upd, h0]; rfl, .inr ⟨rfl, rfl, .handle, by decide, h0⟩⟩
  cases h1 : ok .infos
  · refine ⟨_, false, by simp [create, make, makeMaps, undoMaps, dropMaps, drop, upd, h0, h1]; rfl, .inr ⟨rfl, rfl, .infos, by decide, h1⟩⟩
  cases h2 : ok .mutex
  · refine ⟨_, false, by simp [create, make, makeMaps, undoMaps, dropMaps, drop, upd, h0, h1, h2]; rfl, .inr ⟨rfl, rfl, .mutex, by decide, h2⟩⟩
  cases h3 : ok (.level 0)
  · refine ⟨_, false, by simp [create, make, makeMaps, undoMaps, dropMaps, drop, upd, h0, h1, h2, h3]; rfl, .inr ⟨rfl, rfl, (.level 0), by decide, h3⟩⟩
  cases h4 : ok (.level 1)
  · refine ⟨_, false, by simp [create, make, makeMaps, undoMaps, dropMaps, drop, upd, h0, h1, h2, h3, h4]; rfl, .inr ⟨rfl, rfl, (.level 1), by decide, h4⟩⟩
  cases h5 : ok (.level 2)
  · refine ⟨_, false, by simp [create, make, makeMaps, undoMaps, dropMaps, drop, upd, h0, h1, h2, h3, h4, h5]; rfl, .inr ⟨rfl, rfl, (.level 2), by decide, h5⟩⟩
  cases h6 : ok (.level 3)
  · refine ⟨_, false, by simp [create, make, makeMaps, undoMaps, dropMaps, drop, upd, h0, h1, h2, h3, h4, h5, h6]; rfl, .inr ⟨rfl, rfl, (.level 3), by decide, h6⟩⟩
  cases h7 : ok (.level 4)
  · refine ⟨_, false, by simp [create, make, makeMaps, undoMaps, dropMaps, drop, upd, h0, h1, h2, h3, h4, h5, h6, h7]; rfl, .inr ⟨rfl, rfl, (.level 4), by decide, h7⟩⟩
  cases h8 : ok (.level 5)
  · refine ⟨_, false, by simp [create, make, makeMaps, undoMaps, dropMaps, drop, upd, h0, h1, h2, h3, h4, h5, h6, h7, h8]; rfl, .inr ⟨rfl, rfl, (.level 5), by decide, h8⟩⟩
  cases h9 : ok (.level 6)
  · refine ⟨_, false, by simp [create, make, makeMaps, undoMaps, dropMaps, drop, upd, h0, h1, h2, h3, h4, h5, h6, h7, h8, h9]; rfl, .inr ⟨rfl, rfl, (.level 6), by decide, h9⟩⟩
  cases h10 : ok (.level 7)
  · refine ⟨_, false, by simp [create, make, makeMaps, undoMaps, dropMaps, drop, upd, h0, h1, h2, h3, h4, h5, h6, h7, h8, h9, h10]; rfl, .inr ⟨rfl, rfl, (.level 7), by decide, h10⟩⟩
  cases h11 : ok .ipcInfos
  · refine ⟨_, false, by simp [create, make, makeMaps, undoMaps, dropMaps, drop, upd, h0, h1, h2, h3, h4, h5, h6, h7, h8, h9, h10, h11]; rfl, .inr ⟨rfl, rfl, .ipcInfos, by decide, h11⟩⟩
  cases h12 : ok .ipcMap
  · refine ⟨_, false, by simp [create, make, makeMaps, undoMaps, dropMaps, drop, upd, h0, h1, h2, h3, h4, h5, h6, h7, h8, h9, h10, h11, h12]; rfl, .inr ⟨rfl, rfl, .ipcMap, by decide, h12⟩⟩
  refine ⟨_, true, by simp [create, make, makeMaps, h0, h1, h2, h3, h4, h5, h6, h7, h8, h9, h10, h11, h12]; rfl, .inl ⟨rfl, rfl, ?_⟩⟩
  simp [parts, h0, h1, h2, h3, h4, h5, h6, h7, h8, h9, h10, h11, h12]

/-- Destroying a tracker destroys each of its parts once and leaves nothing; in the proxy library it is kept. -/
theorem C82_destroy {ok : Part → Bool} {m : Mk} (h : create ok = some (m, true)) :
    (∃ m', destroy false m = some m' ∧ m'.live = []) ∧ destroy true m = some m := by
  obtain ⟨m', b, h1, h2⟩ := C82_create ok
  rw [h] at h1
  cases h1
  rcases h2 with ⟨_, _, h3⟩ | ⟨h3, _⟩
  · refine ⟨?_, rfl⟩
    have hh : ∀ p ∈ parts, ok p = true := h3
    simp only [parts, List.mem_cons, List.not_mem_nil, or_false, forall_eq_or_imp, forall_eq] at hh
    simp [create, make, makeMaps, hh] at h
    rw [← h]
    simp [destroy, dropMaps, drop, upd]
  · cases h3

/-- There are refusals of both kinds. -/
example : (create fun _ => true).map (fun r => (r.1.live, r.2)) = some (parts, true) := by decide
example : (create fun p => p ≠ .level 5).map (fun r => (r.1.live, r.2)) = some ([], false) := by decide

end Verif.TrkMem
