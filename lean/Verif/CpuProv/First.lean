import Verif.CpuProv.Witness
/-!
# When the first allocation of an OS provider is defined (C68)
-/
namespace Verif.CpuProv
open Verif.Policy Verif.Os

theorem initNodeset_len {n : Nat} {list : List Nat} {ded : Bool} {a : OsAns} (h : (initNodeset n list ded a).1 = true) :
    (initNodeset n list ded a).2.2 = if list ≠ [] ∧ ded then list.length else 1 := by
  unfold initNodeset at h ⊢
  simp only at h ⊢
  split
  · next h1 => simp [h1] at h
  · next h1 =>
    rw [if_neg h1] at h
    split
    · next h2 =>
      rw [if_pos h2] at h
      split
      · rfl
      · next h3 => simp [h3] at h
    · next h2 =>
      rw [if_neg h2] at h
      split
      · next h3 => rw [h3] at h; simp at h
      · next h3 =>
        rw [h3] at h
        simp only at h
        split
        · next h4 => rw [h4] at h; simp at h
        · rfl

/-- C68: whatever succeeds or fails during the creation, the first allocation of a created OS provider follows no null
pointer exactly if there was host memory for the partitions or they are not needed: outside split mode, and with at most
one node. -/
theorem C68_firstBind {n P m : Nat} {mem : Bool} {i : OsIn} {a : OsAns} {p : Prov}
    (h : (create n mem (.os P i a)).2.2 = some ⟨m, some p⟩) :
    osFirstBind p = [] ↔ (i.numa.mode = .split → 2 ≤ i.numa.list.length → a.partitions = true) := by
  have h : (osInit n P i a).2.2 = some p := by
    unfold create at h
    by_cases h1 : mem = false
    · rw [if_pos h1] at h; cases h
    · rw [if_neg h1] at h
      simp only at h
      by_cases h2 : (init n (.os P i a)).1 ≠ .success
      · rw [if_pos h2] at h; cases h
      · rw [if_neg h2] at h
        exact (Handle.mk.inj (Option.some.inj h)).2
  unfold osInit at h
  split at h
  · cases h
  split at h
  · cases h
  split at h
  · cases h
  split at h
  · cases h
  split at h
  · cases h
  simp only at h
  split at h
  · cases h
  next ht =>
  split at h
  · cases h
  split at h
  · cases h
  cases h
  have ht := not_not.1 ht
  unfold osTranslate at ht ⊢
  split at ht
  · cases ht
  next hf =>
  rw [if_neg hf]
  cases htr : translate P [] i.numa with
  | none => rw [htr] at ht; cases ht
  | some y =>
  rw [htr] at ht
  simp only at ht ⊢
  by_cases hr : (initNodeset n i.numa.list (dedicated i.numa) a).1 = false
  · rw [if_pos hr] at ht; cases ht
  · rw [if_neg hr]
    have hl := initNodeset_len (by simpa using hr)
    cases hm : i.numa.mode with
    | split =>
      have hd : dedicated i.numa = true := by unfold dedicated; rw [hm]
      rw [hd] at hl
      by_cases hp : a.partitions = true
      · simp [hp, osFirstBind]
      · have hp' : a.partitions = false := by simpa using hp
        simp only [hp', osFirstBind, hd, hl]
        cases hlist : i.numa.list with
        | nil => simp
        | cons x xs => cases xs <;> simp
    | _ => simp [osFirstBind]

/-- Met in both directions: one node and no memory for the partitions, and two nodes with and without that memory. -/
def oneIn : OsIn := ⟨true, false, none, ⟨.split, [3], [], 0⟩⟩
example : (create 0 true (.os 4096 oneIn { osAll with partitions := false })).2.2 =
      some ⟨0, some (.os .split 1 false true none false)⟩ ∧
    (create 0 true (.os 4096 splitIn { osAll with partitions := false })).2.2 =
      some ⟨0, some (.os .split 2 false true none false)⟩ ∧
    (create 0 true (.os 4096 splitIn osAll)).2.2 = some ⟨0, some (.os .split 2 true true none false)⟩ :=
  ⟨by decide +kernel, by decide +kernel, by decide +kernel⟩

end Verif.CpuProv
