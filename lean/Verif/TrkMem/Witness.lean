import Verif.TrkMem.Props
/-! # Where the tracker's own memory goes wrong (C82) -/
namespace Verif.TrkMem
open Tracker (Res word UpAlloc)

/-- The first block that is not allocated, of the first hundred. -/
def fresh : Give := fun u => (List.range 100).find? fun a => !u a

theorem fresh_honest : Honest fresh := by
  intro u a h
  have := List.find?_some h
  simpa using this

/-- Nothing is refused. -/
def fine : Ans := ⟨fresh, true, true, fresh, true, true⟩

/-- One region of 0x1000 bytes. -/
def one : Call := .alloc 1 0x1000 (.ok 0x1000) fresh true

/-! A concrete case of the theorems: an allocation, one of another pool inside it, a split that is refused, a split. -/

def story (s : St) : List Call → Option St
  | [] => some s
  | c :: cs => (c.run s).bind fun s' => story s' cs

theorem reach_story {s s' : St} : ∀ {cs : List Call}, Reach s → (∀ c ∈ cs, ∀ s, c.Fair s) → story s cs = some s' → Reach s'
  | [], h, _, he => by
    cases he
    exact h
  | c :: cs, h, hf, he => by
    rw [story] at he
    cases h1 : c.run s with
    | none =>
      rw [h1] at he
      cases he
    | some s1 =>
      rw [h1] at he
      exact reach_story (.step h (hf c (by simp) s) h1) (fun d hd => hf d (List.mem_cons_of_mem _ hd)) he

theorem any_story {s s' : St} : ∀ {cs : List Call}, ReachAny s → (∀ c ∈ cs, (match c with
        | .alloc _ _ _ g _ => Honest g
        | .free _ _ _ _ g _ => Honest g
        | .split _ _ _ _ _ v => Honest v.give ∧ Honest v.give2
        | .merge _ _ _ _ _ v => Honest v.give
        | .look _ => True)) → story s cs = some s' → ReachAny s'
  | [], h, _, he => by
    cases he
    exact h
  | c :: cs, h, hf, he => by
    rw [story] at he
    cases h1 : c.run s with
    | none =>
      rw [h1] at he
      cases he
    | some s1 =>
      rw [h1] at he
      exact any_story (.step h (hf c (by simp)) h1) (fun d hd => hf d (List.mem_cons_of_mem _ hd)) he

def demo : List Call := [one, .alloc 2 0x100 (.ok 0x1100) fresh true, .split 1 0x1000 0x1000 0x400 none fine,
  .split 2 0x1100 0x100 0x40 none fine, .free 2 0x1100 0x40 none fresh true, .alloc 3 8 (.ok 0x5000) fresh false]

example : ((story empty demo).map fun s => (s.lv 0, s.lv 1, (List.range 6).map s.used)) =
    some ([(0x1000, 0)], [(0x1140, 3)], [true, false, false, true, false, false]) := by decide +kernel

example : ∃ s, story empty demo = some s ∧ Reach s := by
  cases h : story empty demo with
  | none =>
    have : (story empty demo).isSome = true := by decide +kernel
    rw [h] at this
    cases this
  | some s =>
    refine ⟨s, rfl, reach_story .init ?_ h⟩
    intro c hc t
    simp only [demo, one, List.mem_cons, List.not_mem_nil, or_false] at hc
    rcases hc with rfl | rfl | rfl | rfl | rfl | rfl <;>
      simp [Call.Fair, fine, fresh_honest]

/-! ## Replacing a value needs memory -/

/-- Memory is refused only to the leaf that replaces the value. -/
def noLeaf : Ans := { fine with leaf := false }

theorem pick {o : Option (St × Res × Bool)} {r : Res × Bool} (h : o.map (·.2) = some r) : o = some ((o.map (·.1)).getD empty, r) := by
  cases o with
  | none => cases h
  | some p =>
    cases h
    rfl

theorem pick1 {o : Option St} (h : o.isSome = true) : o = some (o.getD empty) := by
  cases o with
  | none => cases h
  | some p => rfl

/-- The tracker after these calls. -/
def after (cs : List Call) : St := (story empty cs).getD empty

def split1 : List Call := [one]

/-- After the split that got no leaf. -/
def split2 : St := ((trackingSplit (after split1) 1 0x1000 0x1000 0x400 none noLeaf).map (·.1)).getD empty

theorem reach_split1 : ReachAny (after split1) := by
  refine any_story .init ?_ (pick1 (o := story empty split1) (by decide +kernel))
  intro c hc
  simp only [split1, List.mem_cons, List.not_mem_nil, or_false] at hc
  subst hc
  exact fresh_honest

/-- A split for which the radix tree gets no leaf reports success, but the map keeps the old entry, which has been freed: the next
lookup of the region, and the next free, read freed memory. `critnib_insert` asks for a leaf before it knows that the key
is there; the split takes for granted that it cannot fail. -/
theorem C82_splitUpdate_violated : ∃ s s' : St, ReachAny s ∧
    trackingSplit s 1 0x1000 0x1000 0x400 none noLeaf = some (s', .success, true) ∧ ReachAny s' ∧
    (∃ a, (0x1000, a) ∈ s'.lv 0 ∧ s'.used a = false) ∧ getAllocInfo s' 0x1000 = none ∧ remove s' 0x1000 = none := by
  have e : trackingSplit (after split1) 1 0x1000 0x1000 0x400 none noLeaf = some (split2, .success, true) :=
    pick (by decide +kernel)
  refine ⟨after split1, split2, reach_split1, e, ?_, ⟨0, by decide +kernel, by decide +kernel⟩, ?_, ?_⟩
  · refine .step (c := .split 1 0x1000 0x1000 0x400 none noLeaf) reach_split1 ⟨fresh_honest, fresh_honest⟩ ?_
    rw [Call.run, e]
    rfl
  · exact Option.isNone_iff_eq_none.1 (by decide +kernel)
  · exact Option.isNone_iff_eq_none.1 (by decide +kernel)

def two : List Call := [one, .alloc 1 0x1000 (.ok 0x2000) fresh true]

theorem reach_two : ReachAny (after two) := by
  refine any_story .init ?_ (pick1 (o := story empty two) (by decide +kernel))
  intro c hc
  simp only [two, one, List.mem_cons, List.not_mem_nil, or_false] at hc
  rcases hc with rfl | rfl <;> exact fresh_honest

theorem two_childless (p : Nat) : Childless (after two) p := by
  intro l a h
  match l with
  | 0 =>
    have e : (after two).lv 0 = [(0x2000, 1), (0x1000, 0)] := by decide +kernel
    have e0 : ((after two).heap 0).nch = 0 := by decide +kernel
    have e1 : ((after two).heap 1).nch = 0 := by decide +kernel
    rw [e] at h
    simp only [List.mem_cons, Prod.mk.injEq, List.not_mem_nil, or_false] at h
    rcases h with ⟨_, rfl⟩ | ⟨_, rfl⟩
    · exact e1
    · exact e0
  | l + 1 =>
    have e : (after two).lv (l + 1) = [] := rfl
    rw [e] at h
    cases h

/-- A merge to which `C82_merge_partial` applies, and what it leaves. -/
example : (Call.merge 1 0x1000 0x2000 0x2000 none fine).Fair (after two) :=
  ⟨fresh_honest, rfl, two_childless _, two_childless _⟩
example : ((trackingMerge (after two) 1 0x1000 0x2000 0x2000 none fine).map fun r => (r.1.lv 0, (List.range 4).map r.1.used, r.2)) =
    some ([(0x1000, 2)], [false, false, true, false], .success, true) := by decide +kernel

/-- After the merge that got no leaf. -/
def merged2 : St := ((trackingMerge (after two) 1 0x1000 0x2000 0x2000 none noLeaf).map (·.1)).getD empty

/-- The same for a merge: the map keeps the freed entry of the lower part, and the new entry is never freed. -/
theorem C82_mergeUpdate_violated : ∃ s s' : St, ReachAny s ∧
    trackingMerge s 1 0x1000 0x2000 0x2000 none noLeaf = some (s', .success, true) ∧ ReachAny s' ∧
    (∃ a, (0x1000, a) ∈ s'.lv 0 ∧ s'.used a = false) ∧ (∃ a, s'.used a = true ∧ ∀ l k, (k, a) ∉ s'.lv l) ∧
    getAllocInfo s' 0x1000 = none := by
  have e : trackingMerge (after two) 1 0x1000 0x2000 0x2000 none noLeaf = some (merged2, .success, true) :=
    pick (by decide +kernel)
  refine ⟨after two, merged2, reach_two, e, ?_, ⟨0, by decide +kernel, by decide +kernel⟩, ⟨2, by decide +kernel, ?_⟩, ?_⟩
  · refine .step (c := .merge 1 0x1000 0x2000 0x2000 none noLeaf) reach_two fresh_honest ?_
    rw [Call.run, e]
    rfl
  · intro l k
    match l with
    | 0 =>
      have : merged2.lv 0 = [(0x1000, 0)] := by decide +kernel
      rw [this]
      simp
    | l + 1 =>
      have : merged2.lv (l + 1) = [] := rfl
      rw [this]
      simp
  · exact Option.isNone_iff_eq_none.1 (by decide +kernel)

/-! ## Merging regions whose count of children is not zero -/

/-- Two regions of pool 1; in each, pool 2 has two regions, merges them and frees the result. -/
def stale : List Call := [one, .alloc 1 0x1000 (.ok 0x2000) fresh true,
  .alloc 2 0x100 (.ok 0x1000) fresh true, .alloc 2 0x100 (.ok 0x1100) fresh true, .merge 2 0x1000 0x1100 0x200 none fine,
  .free 2 0x1000 0x200 none fresh true,
  .alloc 2 0x100 (.ok 0x2000) fresh true, .alloc 2 0x100 (.ok 0x2100) fresh true, .merge 2 0x2000 0x2100 0x200 none fine,
  .free 2 0x2000 0x200 none fresh true]

theorem reach_stale : ReachAny (after stale) := by
  refine any_story .init ?_ (pick1 (o := story empty stale) (by decide +kernel))
  intro c hc
  simp only [stale, one, List.mem_cons, List.not_mem_nil, or_false] at hc
  rcases hc with rfl | rfl | rfl | rfl | rfl | rfl | rfl | rfl | rfl | rfl <;> exact fresh_honest

/-- After pool 1 merges its regions. -/
def merged3 : St := ((trackingMerge (after stale) 1 0x1000 0x2000 0x2000 none fine).map (·.1)).getD empty

/-- No memory is refused, and no region has a region in it any more; but the count of children of an outer region is not
decremented by a merge inside it (`C16_nestedMerge_violated`). The search for the entries of the two outer regions goes on to the
next level, finds nothing there, and returns the outer entry with the wrong level. The merge then puts the new entry into
the map of the next level and frees the old one, which stays in its own map: the next lookup reads freed memory. -/
theorem C82_mergeKids_violated : ∃ s s' : St, ReachAny s ∧ (∀ l, 0 < l → s.lv l = []) ∧
    trackingMerge s 1 0x1000 0x2000 0x2000 none fine = some (s', .success, true) ∧ ReachAny s' ∧
    (∃ a, (0x1000, a) ∈ s'.lv 0 ∧ s'.used a = false) ∧ getAllocInfo s' 0x1000 = none := by
  have e : trackingMerge (after stale) 1 0x1000 0x2000 0x2000 none fine = some (merged3, .success, true) :=
    pick (by decide +kernel)
  refine ⟨after stale, merged3, reach_stale, ?_, e, ?_, ⟨0, by decide +kernel, by decide +kernel⟩, ?_⟩
  · intro l hl
    match l with
    | 1 => decide +kernel
    | l + 2 => rfl
  · refine .step (c := .merge 1 0x1000 0x2000 0x2000 none fine) reach_stale fresh_honest ?_
    rw [Call.run, e]
    rfl
  · exact Option.isNone_iff_eq_none.1 (by decide +kernel)

/-! ## Opened regions: a concrete case -/

/-- Two regions are registered, a third cannot be, and the first is removed. -/
example : ∃ s : Ipc, IpcReach s [⟨0x5000, 0x100, 9, 2⟩] ∧ getIpcInfo s 0x5010 = some (some (0x5000, 0x100, 9)) ∧
    closeIpc s 0x1000 = some none := by
  have h1 : IpcReach _ _ := .added (ptr := 0x1000) (size := 0x1000) (provider := 8) (cache := 1) (node := true) .init fresh_honest rfl
  have h2 : IpcReach _ _ := .added (ptr := 0x5000) (size := 0x100) (provider := 9) (cache := 2) (node := true) h1 fresh_honest rfl
  have h3 : IpcReach _ _ := .refused (ptr := 0x7000) (size := 0x100) (provider := 9) (cache := 3) (node := false) h2 fresh_honest
    (by simp) rfl
  have h4 : IpcReach _ _ := .removed (ptr := 0x1000) h3 rfl
  exact ⟨_, h4, rfl, rfl⟩

end Verif.TrkMem
