import Verif.TrkConc.Props
/-!
# C45: concrete histories of the tracker used by several threads
-/
namespace Verif.TrkConc

/-- Several steps of one thread. -/
def steps (t : Nat) (op : Op) : St → Pc → List Ans → Option (St × Pc)
  | s, pc, [] => some (s, pc)
  | s, pc, v :: vs => match next t op s pc v with
    | none => none
    | some (s', pc') => steps t op s' pc' vs

theorem reach_steps {s : Sys} {t : Nat} {op : Op} {pc pc' : Pc} {st' : St} (vs : List Ans) (h : Reach Anything s)
    (ht : s.thr t = some (op, pc)) (hs : steps t op s.st pc vs = some (st', pc')) :
    Reach Anything ⟨st', s.live, upd s.thr t (some (op, pc'))⟩ := by
  induction vs generalizing s pc with
  | nil =>
    cases hs
    rw [show upd s.thr t _ = s.thr from upd_self _ ht]
    exact h
  | cons v vs ih =>
    unfold steps at hs
    cases e : next t op s.st pc v with
    | none => rw [e] at hs; cases hs
    | some x =>
      rw [e] at hs
      have := ih (Reach.move (v := v) h ht trivial e) (upd_same _ _ _) hs
      dsimp only at this
      rw [upd_upd] at this
      exact this

/-- A region that is registered by thread 1 and removed, the region of thread 0, and the region that reuses the entry. -/
def R1 : Rec := ⟨0x1000, 0x1000, 1⟩
def R0 : Rec := ⟨0x5000, 0x100, 2⟩
def R2 : Rec := ⟨0x9000, 0x8000, 1⟩

def ans (a : Addr) : Ans := ⟨a, true, none, 0⟩

/-- Thread 1 registers the first region in block 100. -/
def w1 : St := setLv (newBlk init 100 ⟨1, 0x1000, 0⟩) 0 [(0x1000, 100)]
/-- Thread 1 removes it, and block 100 is free. -/
def w2 : St := freeBlk (setLv w1 0 []) 100 0
/-- Thread 1 registers the third region, again in block 100. -/
def w3 : St := setLv (newBlk w2 100 ⟨1, 0x8000, 0⟩) 0 [(0x9000, 100)]
/-- Thread 0 registers its region in block 101, on level 1. -/
def w4 : St := setKids (setLv (newBlk w3 101 ⟨2, 0x100, 0⟩) 1 [(0x5000, 101)]) 100 1

theorem run1 : steps 1 (.add R1) init .start [ans 0, ans 0, ans 100, ans 0] = some (w1, .fin .success) := rfl
theorem run2 : steps 0 (.add R0) w1 .start [ans 0, ⟨0, true, some (0x1000, 100), 0⟩] = some (w1, .addLoad 0 none 0x1000 100) := by
  simp [steps, next, w1, setLv, newBlk, upd, target, R0]
theorem run3 : steps 1 (.remove R1) w1 .start [ans 0, ans 0, ans 0, ans 0, ans 0, ans 0, ans 0, ans 0] = some (w2, .fin .success) := by
  rfl
theorem run4 : steps 1 (.add R2) w2 .start [ans 0, ans 0, ans 100, ans 0] = some (w3, .fin .success) := rfl
theorem run5 : steps 0 (.add R0) w3 (.addLoad 0 none 0x1000 100) [ans 0, ans 0, ans 101, ans 0, ans 0, ans 0] = some (w4, .fin .success) := rfl
theorem run6 : steps 2 (.look R0 0x5000) w4 .start [ans 0, ans 0, ans 0] = some (w4, .fin .invalidArgument) := rfl
theorem run7 : steps 2 (.remove R2) w4 .start [ans 0, ans 0, ans 0, ans 0, ans 0, ans 0, ans 0, ans 0] = some (w4, .fin .unknown) := rfl

/-- What three threads are doing. -/
def three (a b c : Option (Op × Pc)) : Nat → Option (Op × Pc)
  | 0 => a
  | 1 => b
  | 2 => c
  | _ => none

theorem three0 (a b c x : Option (Op × Pc)) : upd (three a b c) 0 x = three x b c := by
  funext t
  match t with
  | 0 => rfl
  | 1 => rfl
  | 2 => rfl
  | _ + 3 => rfl
theorem three1 (a b c x : Option (Op × Pc)) : upd (three a b c) 1 x = three a x c := by
  funext t
  match t with
  | 0 => rfl
  | 1 => rfl
  | 2 => rfl
  | _ + 3 => rfl
theorem three2 (a b c x : Option (Op × Pc)) : upd (three a b c) 2 x = three a b x := by
  funext t
  match t with
  | 0 => rfl
  | 1 => rfl
  | 2 => rfl
  | _ + 3 => rfl

theorem three_cases {a b c : Option (Op × Pc)} {t : Nat} {z : Op × Pc} (h : three a b c t = some z) : a = some z ∨ b = some z ∨ c = some z := by
  match t, h with
  | 0, h => exact Or.inl h
  | 1, h => exact Or.inr (Or.inl h)
  | 2, h => exact Or.inr (Or.inr h)

theorem unseen_three {st : St} {live : List Rec} {a b c : Option (Op × Pc)} {r : Rec} (ha : ∀ x pc, a ≠ some (.look r x, pc))
    (hb : ∀ x pc, b ≠ some (.look r x, pc)) (hc : ∀ x pc, c ≠ some (.look r x, pc)) : Unseen ⟨st, live, three a b c⟩ r := by
  intro t x pc h
  rcases three_cases h with h | h | h
  · exact ha _ _ h
  · exact hb _ _ h
  · exact hc _ _ h

theorem three_init (ok : Sys → Nat → Ans → Prop) : Reach ok ⟨init, [], three none none none⟩ := by
  have : (fun _ => none : Nat → Option (Op × Pc)) = three none none none := by
    funext t
    match t with
    | 0 => rfl
    | 1 => rfl
    | 2 => rfl
    | _ + 3 => rfl
  have h := Reach.init (ok := ok)
  unfold Sys.init at h
  rw [this] at h
  exact h

/-- Thread 1 has registered its region. -/
theorem race1 : Reach Anything ⟨w1, [R1], three none none none⟩ := by
  have h := Reach.start (t := 1) (op := .add R1) (three_init Anything) rfl (by
    refine ⟨by unfold Rec.Ok; decide, fun r h => (nomatch h), ?_⟩
    intro t op pc r h
    rcases three_cases h with h | h | h <;> cases h)
  rw [show Sys.thr ⟨init, [], three none none none⟩ = three none none none from rfl, three1] at h
  have h := reach_steps _ h rfl run1
  dsimp only at h
  rw [three1] at h
  have h := Reach.ret (t := 1) h rfl
  dsimp only at h
  rw [three1] at h
  exact h

/-- Thread 0 has found its entry, and not yet read the size. -/
theorem race2 : Reach Anything ⟨w1, [R1], three (some (.add R0, .addLoad 0 none 0x1000 100)) none none⟩ := by
  have h := Reach.start (t := 0) (op := .add R0) race1 rfl (by
    refine ⟨by unfold Rec.Ok; decide, ?_, ?_⟩
    · intro r h
      rw [List.mem_singleton.1 h]
      exact Or.inr (by decide)
    · intro t op pc r h
      rcases three_cases h with h | h | h <;> cases h)
  dsimp only at h
  rw [three0] at h
  have h := reach_steps _ h rfl run2
  dsimp only at h
  rw [three0] at h
  exact h

/-- Thread 1 has removed that region. -/
theorem race3 : Reach Anything ⟨w2, [], three (some (.add R0, .addLoad 0 none 0x1000 100)) none none⟩ := by
  have h := Reach.start (t := 1) (op := .remove R1) race2 rfl ⟨List.mem_singleton.2 rfl, unseen_three (by simp) (by simp) (by simp)⟩
  dsimp only at h
  rw [three1] at h
  have h := reach_steps _ h rfl run3
  dsimp only at h
  rw [three1] at h
  have h := Reach.ret (t := 1) h rfl
  dsimp only at h
  rw [three1] at h
  exact h

/-- Thread 1 has registered another region, and the block of the entry is the same. -/
theorem race4 : Reach Anything ⟨w3, [R2], three (some (.add R0, .addLoad 0 none 0x1000 100)) none none⟩ := by
  have h := Reach.start (t := 1) (op := .add R2) race3 rfl (by
    refine ⟨by unfold Rec.Ok; decide, fun r h => (nomatch h), ?_⟩
    intro t op pc r h hs
    rcases three_cases h with h | h | h <;> cases h
    cases hs
    exact Or.inr (by decide))
  dsimp only at h
  rw [three1] at h
  have h := reach_steps _ h rfl run4
  dsimp only at h
  rw [three1] at h
  have h := Reach.ret (t := 1) h rfl
  dsimp only at h
  rw [three1] at h
  exact h

/-- Thread 0 has registered its region, and been told that this succeeded. -/
theorem race5 : Reach Anything ⟨w4, [R0, R2], three none none none⟩ := by
  have h := reach_steps (t := 0) _ race4 rfl run5
  dsimp only at h
  rw [three0] at h
  have h := Reach.ret (t := 0) h rfl
  dsimp only at h
  rw [three0] at h
  exact h

/-- **Finding.** When the base allocator hands out an entry again between the moment a registering thread finds it and the
moment it reads its size, the region of that thread is put under a region it has nothing to do with: its registration
succeeds, no other operation is going on any more, and a lookup of an address of the region finds nothing. -/
theorem C45_conc_lookup_violated : ∃ s t r x res, Reach Anything s ∧ s.thr t = some (.look r x, .fin res) ∧ r ∈ s.live ∧ r.has x ∧
    (∀ t', t' ≠ t → s.thr t' = none) ∧ ¬Answered (.look r x) res := by
  have h := Reach.start (t := 2) (op := .look R0 0x5000) race5 rfl ⟨by decide, by unfold Rec.has; decide⟩
  dsimp only at h
  rw [three2] at h
  have h := reach_steps _ h rfl run6
  dsimp only at h
  rw [three2] at h
  refine ⟨_, 2, R0, 0x5000, .invalidArgument, h, rfl, by decide, by unfold Rec.has; decide, ?_, by unfold Answered; decide⟩
  intro t ht
  match t, ht with
  | 0, _ => rfl
  | 1, _ => rfl
  | _ + 3, _ => rfl

/-- **Finding.** After the same history the removal of a registered region fails. -/
theorem C45_conc_remove_violated : ∃ s t r res, Reach Anything s ∧ s.thr t = some (.remove r, .fin res) ∧ ¬Answered (.remove r) res := by
  have h := Reach.start (t := 2) (op := .remove R2) race5 rfl ⟨by decide, unseen_three (by simp) (by simp) (by simp)⟩
  dsimp only at h
  rw [three2] at h
  have h := reach_steps _ h rfl run7
  dsimp only at h
  rw [three2] at h
  exact ⟨_, 2, R2, .unknown, h, rfl, by unfold Answered; decide⟩

/-! ## The hypotheses of the theorems are met -/

/-- The block that a thread is about to read. -/
def reads : Pc → Option Addr
  | .addLoad _ _ _ a => some a
  | _ => none

/-- Several steps of one thread, while the base allocator hands out none of the blocks `bad`. -/
def csteps (t : Nat) (op : Op) (bad : List Addr) : St → Pc → List Ans → Option (St × Pc)
  | s, pc, [] => some (s, pc)
  | s, pc, v :: vs =>
    if v.addr ∈ bad ∨ reads pc = some v.addr then none
    else match next t op s pc v with
      | none => none
      | some (s', pc') => csteps t op bad s' pc' vs

theorem reach_csteps {s : Sys} {t : Nat} {op : Op} {pc pc' : Pc} {st' : St} (bad : List Addr) (vs : List Ans) (h : Reach Careful s)
    (ht : s.thr t = some (op, pc)) (hb : ∀ t' z a, t' ≠ t → s.thr t' = some z → reads z.2 = some a → a ∈ bad)
    (hs : csteps t op bad s.st pc vs = some (st', pc')) : Reach Careful ⟨st', s.live, upd s.thr t (some (op, pc'))⟩ := by
  induction vs generalizing s pc with
  | nil =>
    cases hs
    rw [show upd s.thr t _ = s.thr from upd_self _ ht]
    exact h
  | cons v vs ih =>
    unfold csteps at hs
    by_cases hv : v.addr ∈ bad ∨ reads pc = some v.addr
    · rw [if_pos hv] at hs
      cases hs
    · rw [if_neg hv] at hs
      cases e : next t op s.st pc v with
      | none => rw [e] at hs; cases hs
      | some x =>
        rw [e] at hs
        have hc : Careful s t v := by
          intro t' op' lvl par k h'
          by_cases et : t' = t
          · rw [et, ht] at h'
            cases h'
            exact hv (Or.inr rfl)
          · exact hv (Or.inl (hb t' _ v.addr et h' rfl))
        have := ih (Reach.move (v := v) h ht hc e) (upd_same _ _ _) (by
          intro t' z a et h'
          have h' : upd s.thr t _ t' = some z := h'
          rw [upd_ne _ _ et] at h'
          exact hb t' z a et h') hs
        dsimp only at this
        rw [upd_upd] at this
        exact this

theorem bad_three {st : St} {live : List Rec} {a b c : Option (Op × Pc)} {t : Nat} {bad : List Addr}
    (ha : ∀ z x, a = some z → reads z.2 = some x → x ∈ bad) (hb : ∀ z x, b = some z → reads z.2 = some x → x ∈ bad)
    (hc : ∀ z x, c = some z → reads z.2 = some x → x ∈ bad) :
    ∀ t' z x, t' ≠ t → Sys.thr ⟨st, live, three a b c⟩ t' = some z → reads z.2 = some x → x ∈ bad := by
  intro t' z x _ h hx
  rcases three_cases h with h | h | h
  · exact ha z x h hx
  · exact hb z x h hx
  · exact hc z x h hx

theorem crun1 : csteps 1 (.add R1) [] init .start [ans 0, ans 0, ans 100, ans 0] = some (w1, .fin .success) := rfl
theorem crun2 : csteps 0 (.add R0) [] w1 .start [ans 0, ⟨0, true, some (0x1000, 100), 0⟩] = some (w1, .addLoad 0 none 0x1000 100) := by
  simp [csteps, reads, next, w1, setLv, newBlk, upd, target, R0, ans]
theorem crun3 : csteps 2 (.look R1 0x1234) [100] w1 .start [ans 0, ans 0, ans 0, ans 0, ans 0] = some (w1, .fin (.found 0x1000 0x1000 1)) := rfl

theorem calm1 : Reach Careful ⟨w1, [R1], three none none none⟩ := by
  have h := Reach.start (t := 1) (op := .add R1) (three_init Careful) rfl (by
    refine ⟨by unfold Rec.Ok; decide, fun r h => (nomatch h), ?_⟩
    intro t op pc r h
    rcases three_cases h with h | h | h <;> cases h)
  rw [show Sys.thr ⟨init, [], three none none none⟩ = three none none none from rfl, three1] at h
  have h := reach_csteps _ _ h rfl
    (bad_three (fun z x h => by cases h) (by rintro z x ⟨⟩ h; cases h) (fun z x h => by cases h)) crun1
  dsimp only at h
  rw [three1] at h
  have h := Reach.ret (t := 1) h rfl
  dsimp only at h
  rw [three1] at h
  exact h

/-- Thread 0 registers a region and has found the entry of another, thread 2 is at the end of a lookup there. -/
theorem calm2 : Reach Careful ⟨w1, [R1], three (some (.add R0, .addLoad 0 none 0x1000 100)) none
    (some (.look R1 0x1234, .fin (.found 0x1000 0x1000 1)))⟩ := by
  have h := Reach.start (t := 0) (op := .add R0) calm1 rfl (by
    refine ⟨by unfold Rec.Ok; decide, ?_, ?_⟩
    · intro r h
      rw [List.mem_singleton.1 h]
      exact Or.inr (by decide)
    · intro t op pc r h
      rcases three_cases h with h | h | h <;> cases h)
  dsimp only at h
  rw [three0] at h
  have h := reach_csteps _ _ h rfl
    (bad_three (by rintro z x ⟨⟩ h; cases h) (fun z x h => by cases h) (fun z x h => by cases h)) crun2
  dsimp only at h
  rw [three0] at h
  have h := Reach.start (t := 2) (op := .look R1 0x1234) h rfl ⟨by decide, by unfold Rec.has; decide⟩
  dsimp only at h
  rw [three2] at h
  have h := reach_csteps [100] _ h rfl
    (bad_three (by rintro z x ⟨⟩ ⟨⟩; decide) (fun z x h => by cases h) (by rintro z x ⟨⟩ h; cases h)) crun3
  dsimp only at h
  rw [three2] at h
  exact h

/-- `C45_conc_defined_partial`, `C45_conc_bounded_partial`: a thread is about to read an entry while another thread is active. -/
example : ∃ s v, Reach Careful s ∧ s.thr 0 = some (.add R0, .addLoad 0 none 0x1000 100) ∧ Careful s 0 v :=
  ⟨_, ans 0, calm2, rfl, by
    intro t op lvl par k h
    rcases three_cases h with h | h | h <;> cases h⟩

/-- `C45_conc_answer_partial`, `C45_conc_tracked_partial`, `C45_conc_entries_partial`. -/
example : ∃ s, Reach Careful s ∧ s.thr 2 = some (.look R1 0x1234, .fin (.found 0x1000 0x1000 1)) ∧ R1 ∈ s.live ∧ R1.has 0x1234 ∧
    (0x1000, 100) ∈ s.st.lv 0 :=
  ⟨_, calm2, rfl, by decide, by unfold Rec.has; decide, by decide⟩

/-- The halves of the first region. -/
def w5 : St := freeBlk (setLv (newBlk (setLv { newBlk w1 7 ⟨1, 0x400, 0⟩ with lock := some 0 } 0 (put (w1.lv 0) 0x1000 7)) 8 ⟨1, 0xc00, 0⟩) 0
  ((0x1400, 8) :: put (w1.lv 0) 0x1000 7)) 100 0

theorem crun4 : csteps 0 (.split R1 0x400) [] w1 .start
    [ans 7, ans 0, ans 0, ans 0, ans 0, ans 0, ans 0, ans 0, ans 0, ans 0, ans 8, ans 0, ans 0] = some (w5, .unlock) := rfl
theorem crun5 : csteps 0 (.split R1 0x400) [] w5 .unlock [ans 0] = some ({ w5 with lock := none }, .fin .success) := rfl

/-- Thread 0 has split the region and is about to unlock the mutex. -/
theorem calm3 : Reach Careful ⟨w5, [], three (some (.split R1 0x400, .unlock)) none none⟩ := by
  have h := Reach.start (t := 0) (op := .split R1 0x400) calm1 rfl
    ⟨by decide, unseen_three (by simp) (by simp) (by simp), by decide, by decide⟩
  dsimp only at h
  rw [three0] at h
  have h := reach_csteps _ _ h rfl
    (bad_three (by rintro z x ⟨⟩ h; cases h) (fun z x h => by cases h) (fun z x h => by cases h)) crun4
  dsimp only at h
  rw [three0] at h
  exact h

/-- `C45_conc_no_deadlock_partial`, `C45_conc_mutex_partial`. -/
example : ∃ s, Reach Careful s ∧ s.st.lock = some 0 ∧ ∃ pc, s.thr 0 = some (.split R1 0x400, pc) ∧ inLock (.split R1 0x400) pc = true :=
  ⟨_, calm3, rfl, _, rfl, rfl⟩

/-- `C45_conc_idle_partial`: no operation is going on, and both halves of a region are registered. -/
example : ∃ s, Reach Careful s ∧ (∀ t, s.thr t = none) ∧ s.live = [⟨0x1000, 0x400, 1⟩, ⟨0x1400, 0xc00, 1⟩] := by
  have h := reach_csteps (t := 0) _ _ calm3 rfl
    (bad_three (by rintro z x ⟨⟩ h; cases h) (fun z x h => by cases h) (fun z x h => by cases h)) crun5
  dsimp only at h
  rw [three0] at h
  have h := Reach.ret (t := 0) h rfl
  dsimp only at h
  rw [three0] at h
  refine ⟨_, h, ?_, rfl⟩
  intro t
  match t with
  | 0 => rfl
  | 1 => rfl
  | 2 => rfl
  | _ + 3 => rfl

end Verif.TrkConc
