import Verif.PolicyMem.Spec
import Mathlib.Data.List.Induction
/-! # C87: a policy keeps what was set -/
namespace Verif.PolicyMem
open Verif.Os (Part)
open Verif.Policy (Policy)

theorem upd_eq {α : Type} (f : Nat → α) (a : Nat) (x : α) : upd f a x a = x := by simp [upd]
theorem upd_ne {α : Type} (f : Nat → α) {a b : Nat} (x : α) (h : b ≠ a) : upd f a x b = f b := by simp [upd, h]

theorem run_snoc {es : List Ev} {e : Ev} {w : World} (h : Run (es ++ [e]) w) :
    ∃ w0 r, Run es w0 ∧ e.Fair w0 ∧ step w0 e = some r ∧ w = r.1 := by
  generalize he : es ++ [e] = l at h
  cases h with
  | nil => simp at he
  | snoc h1 h2 h3 =>
    obtain ⟨h4, h5⟩ := List.append_inj' he rfl
    cases h5
    subst h4
    exact ⟨_, _, h1, h2, h3, rfl⟩

/-- Something that the events `es'` keep. -/
theorem run_keep {P : World → Prop} {ok : Ev → Prop} (hs : ∀ w e r, P w → e.Fair w → ok e → step w e = some r → P r.1)
    {es es' : List Ev} {w' : World} (hw : ∀ w, Run es w → P w) (h : Run (es ++ es') w') (hn : ∀ e ∈ es', ok e) : P w' := by
  induction es' using List.reverseRecOn generalizing w' with
  | nil => rw [List.append_nil] at h; exact hw _ h
  | append_singleton es'' e ih =>
    rw [← List.append_assoc] at h
    obtain ⟨w0, r, h1, h2, h3, rfl⟩ := run_snoc h
    exact hs w0 e r (ih h1 (fun f hf => hn f (by simp [hf]))) h2 (hn e (by simp)) h3

/-- What an event does to a policy that exists. -/
theorem step_pol {w : World} {e : Ev} {r} (hf : e.Fair w) (hs : step w e = some r) {h : Nat} {p : Pol} (hp : w.pol h = some p) :
    (¬ e.Sets h → r.1.pol h = some p) ∧ (e ≠ .destroy h → ∃ q, r.1.pol h = some q ∧ q.type = p.type) := by
  have same : r.1 = w → (¬ e.Sets h → r.1.pol h = some p) ∧ (e ≠ .destroy h → ∃ q, r.1.pol h = some q ∧ q.type = p.type) := by
    intro e1
    rw [e1]
    exact ⟨fun _ => hp, fun _ => ⟨p, hp, rfl⟩⟩
  cases e with
  | create t out m =>
    simp only [step, create] at hs
    split at hs
    · cases hs; exact same rfl
    split at hs
    · cases hs; exact same rfl
    rename_i h'
    cases hs
    have hne : h ≠ h' := by
      intro e1
      have := hf.2
      rw [← e1, hp] at this
      cases this
    dsimp only
    rw [upd_ne _ _ hne]
    exact ⟨fun _ => hp, fun _ => ⟨p, hp, rfl⟩⟩
  | destroy h' =>
    simp only [step, destroy] at hs
    split at hs
    · cases hs; exact same rfl
    split at hs
    · cases hs
    cases hs
    dsimp only
    constructor
    · intro hn
      rw [upd_ne _ _ (fun e1 => hn e1.symm)]
      exact hp
    · intro hn
      rw [upd_ne _ _ (fun e1 => hn (by rw [e1]))]
      exact ⟨p, hp, rfl⟩
  | setPartSize h' n =>
    simp only [step, setPartSize] at hs
    split at hs
    · cases hs; exact same rfl
    split at hs
    · cases hs
    rename_i p' hp'
    split at hs
    · cases hs; exact same rfl
    cases hs
    dsimp only
    by_cases c : h = h'
    · subst c
      rw [hp] at hp'
      cases hp'
      rw [upd_eq]
      exact ⟨fun hn => absurd rfl hn, fun _ => ⟨_, rfl, rfl⟩⟩
    · rw [upd_ne _ _ c]
      exact ⟨fun _ => hp, fun _ => ⟨p, hp, rfl⟩⟩
  | setParts h' q n =>
    simp only [step, setParts] at hs
    split at hs
    · cases hs; exact same rfl
    split at hs
    · cases hs
    rename_i p' hp'
    split at hs
    · cases hs; exact same rfl
    cases hs
    dsimp only
    by_cases c : h = h'
    · subst c
      rw [hp] at hp'
      cases hp'
      rw [upd_eq]
      exact ⟨fun hn => absurd rfl hn, fun _ => ⟨_, rfl, rfl⟩⟩
    · rw [upd_ne _ _ c]
      exact ⟨fun _ => hp, fun _ => ⟨p, hp, rfl⟩⟩
  | write q l =>
    simp only [step, Option.some.injEq] at hs
    subst hs
    exact ⟨fun _ => hp, fun _ => ⟨p, hp, rfl⟩⟩
  | free q =>
    simp only [step, Option.some.injEq] at hs
    subst hs
    exact ⟨fun _ => hp, fun _ => ⟨p, hp, rfl⟩⟩

theorem step_arr {w : World} {e : Ev} {r} (hs : step w e = some r) {p : Nat} (hn : ¬ e.Changes p) : r.1.arr p = w.arr p := by
  cases e with
  | create t out m =>
    simp only [step, create] at hs
    repeat' split at hs
    all_goals first | (cases hs; done) | (cases hs; rfl)
  | destroy h' =>
    simp only [step, destroy] at hs
    repeat' split at hs
    all_goals first | (cases hs; done) | (cases hs; rfl)
  | setPartSize h' n =>
    simp only [step, setPartSize] at hs
    repeat' split at hs
    all_goals first | (cases hs; done) | (cases hs; rfl)
  | setParts h' q n =>
    simp only [step, setParts] at hs
    repeat' split at hs
    all_goals first | (cases hs; done) | (cases hs; rfl)
  | write q l =>
    simp only [step, Option.some.injEq] at hs
    subst hs
    exact upd_ne _ _ (fun e1 => hn e1.symm)
  | free q =>
    simp only [step, Option.some.injEq] at hs
    subst hs
    exact upd_ne _ _ (fun e1 => hn e1.symm)

theorem run_zero {es : List Ev} {w : World} (h : Run es w) : w.pol 0 = none := by
  induction h with
  | nil => rfl
  | snoc _ hf hs ih =>
    rename_i w0 e r _
    cases e with
    | create t out m =>
      simp only [step, create] at hs
      split at hs
      · cases hs; exact ih
      split at hs
      · cases hs; exact ih
      cases hs
      dsimp only
      rw [upd_ne _ _ (Ne.symm hf.1)]
      exact ih
    | destroy h' =>
      simp only [step, destroy] at hs
      split at hs
      · cases hs; exact ih
      rename_i h0
      split at hs
      · cases hs
      cases hs
      dsimp only
      rw [upd_ne _ _ (fun e => h0 e.symm)]
      exact ih
    | setPartSize h' n =>
      simp only [step, setPartSize] at hs
      split at hs
      · cases hs; exact ih
      rename_i h0
      split at hs
      · cases hs
      split at hs
      · cases hs; exact ih
      cases hs
      dsimp only
      rw [upd_ne _ _ (fun e => h0 e.symm)]
      exact ih
    | setParts h' q n =>
      simp only [step, setParts] at hs
      split at hs
      · cases hs; exact ih
      rename_i h0
      split at hs
      · cases hs
      split at hs
      · cases hs; exact ih
      cases hs
      dsimp only
      rw [upd_ne _ _ (fun e => h0 e.symm)]
      exact ih
    | write q l =>
      simp only [step, Option.some.injEq] at hs
      subst hs
      exact ih
    | free q =>
      simp only [step, Option.some.injEq] at hs
      subst hs
      exact ih

theorem lives_pol {es : List Ev} {w : World} {h t : Nat} (hr : Run es w) (hl : Lives es h t) :
    h ≠ 0 ∧ ∃ p, w.pol h = some p ∧ p.type = t := by
  obtain ⟨es1, es2, rfl, h2⟩ := hl
  have key : ∃ p, w.pol h = some p ∧ p.type = t := by
    refine run_keep (P := fun w => ∃ p, w.pol h = some p ∧ p.type = t) (ok := fun e => e ≠ .destroy h) ?_ ?_ hr h2
    · rintro w0 e r ⟨p, h3, h4⟩ hf ho hs
      obtain ⟨q, h5, h6⟩ := (step_pol hf hs h3).2 ho
      exact ⟨q, h5, h6.trans h4⟩
    · intro w1 hr1
      obtain ⟨w0, r, _, _, hs, rfl⟩ := run_snoc hr1
      simp only [step, create] at hs
      cases hs
      refine ⟨_, upd_eq _ _ _, ?_⟩
      split
      · rfl
      · split <;> rfl
  refine ⟨?_, key⟩
  rintro rfl
  obtain ⟨p, h3, _⟩ := key
  rw [run_zero hr] at h3
  cases h3

/-- What a policy holds stays until it is set or destroyed. -/
theorem keep_pol {es es' : List Ev} {w : World} {h : Nat} {p : Pol} (hr : Run (es ++ es') w) (hn : ∀ e ∈ es', ¬ e.Sets h)
    (hw : ∀ w, Run es w → w.pol h = some p) : w.pol h = some p :=
  run_keep (P := fun w => w.pol h = some p) (ok := fun e => ¬ e.Sets h)
    (fun _ _ _ hp hf ho hs => (step_pol hf hs hp).1 ho) hw hr hn

/-! ## The theorems -/

/-- A policy in which nothing was set is the one that was created: no part size (the system's) and no partitions (equal parts). It does
not depend on what was in its memory before. -/
theorem C87_fresh {es1 es2 : List Ev} {w : World} {h t : Nat} (hr : Run (es1 ++ [.create t true (some h)] ++ es2) w)
    (hn : ∀ e ∈ es2, ¬ e.Sets h) : read w h = some (.ok (some (Policy.create t))) := by
  have h0 := (lives_pol hr ⟨es1, es2, rfl, fun e he e1 => hn e he (by rw [e1]; rfl)⟩).1
  have hp : w.pol h = some (if t = 0 then ⟨t, some 0, none⟩ else if t = 3 then ⟨t, none, some 0⟩ else ⟨t, none, none⟩) := by
    refine keep_pol hr hn ?_
    intro w1 hr1
    obtain ⟨w0, r, _, _, hs, rfl⟩ := run_snoc hr1
    simp only [step, create] at hs
    cases hs
    exact upd_eq _ _ _
  unfold read
  rw [if_neg h0, hp]
  match t with
  | 0 => rfl
  | 1 => rfl
  | 2 => rfl
  | 3 => rfl
  | t + 4 => simp [Policy.create]

/-- The part size of an interleave policy is the one that was set last, whatever happens to other policies. -/
theorem C87_partSize {es es' : List Ev} {w : World} {h n : Nat} (hr : Run (es ++ [.setPartSize h n] ++ es') w) (hl : Lives es h 0)
    (hn : ∀ e ∈ es', ¬ e.Sets h) : read w h = some (.ok (some (.interleave n))) := by
  have key : ∃ p, w.pol h = some p ∧ p.type = 0 ∧ p.w0 = some n := by
    refine run_keep (P := fun w => ∃ p, w.pol h = some p ∧ p.type = 0 ∧ p.w0 = some n) (ok := fun e => ¬ e.Sets h) ?_ ?_ hr hn
    · rintro w0 e r ⟨p, h1, h2⟩ hf ho hs
      exact ⟨p, (step_pol hf hs h1).1 ho, h2⟩
    · intro w1 hr1
      obtain ⟨w0, r, hr0, _, hs, rfl⟩ := run_snoc hr1
      obtain ⟨h0, p, h1, h2⟩ := lives_pol hr0 hl
      simp only [step, setPartSize] at hs
      rw [if_neg h0, h1] at hs
      dsimp only at hs
      rw [if_neg (by simp [h2])] at hs
      cases hs
      exact ⟨_, upd_eq _ _ _, h2, rfl⟩
  obtain ⟨p, h1, h2, h3⟩ := key
  have h0 : h ≠ 0 := by rintro rfl; rw [run_zero hr] at h1; cases h1
  unfold read
  rw [if_neg h0, h1]
  dsimp only
  rw [h2, h3]
  rfl

theorem lives_append {es es' : List Ev} {h t : Nat} (hl : Lives es h t) (hn : ∀ e ∈ es', e ≠ .destroy h) : Lives (es ++ es') h t := by
  obtain ⟨a, b, rfl, h1⟩ := hl
  refine ⟨a, b ++ es', by simp, ?_⟩
  intro e he
  rcases List.mem_append.1 he with he | he
  · exact h1 e he
  · exact hn e he

/-- The policy after its partitions were set. -/
theorem parts_pol {es es' : List Ev} {w : World} {h p len : Nat} (hr : Run (es ++ [.setParts h p len] ++ es') w) (hl : Lives es h 3)
    (hn : ∀ e ∈ es', ¬ e.Sets h) : h ≠ 0 ∧ w.pol h = some ⟨3, some p, some len⟩ := by
  have key : w.pol h = some ⟨3, some p, some len⟩ := by
    refine keep_pol hr hn ?_
    intro w1 hr1
    obtain ⟨w0, r, hr0, _, hs, rfl⟩ := run_snoc hr1
    obtain ⟨h0, q, h1, h2⟩ := lives_pol hr0 hl
    simp only [step, setParts] at hs
    rw [if_neg h0, h1] at hs
    dsimp only at hs
    rw [if_neg (by simp [h2])] at hs
    cases hs
    show upd w0.pol h (some { q with w0 := some p, w1 := some len }) h = _
    rw [upd_eq]
    cases q
    cases h2
    rfl
  refine ⟨?_, key⟩
  rintro rfl
  rw [run_zero hr] at key
  cases key

/-- The partitions of a split policy are the first `len` of the array when they were set, if the program has not changed or freed the
array since, and has fewer than 2^32. -/
theorem C87_parts_partial {es es' : List Ev} {w w0 : World} {h p len : Nat} {l : List Part} (h0 : Run es w0)
    (ha : w0.arr p = some l) (hp : p ≠ 0) (hlen : len ≤ l.length) (h32 : len < 2 ^ 32)
    (hr : Run (es ++ [.setParts h p len] ++ es') w) (hl : Lives es h 3) (hn : ∀ e ∈ es', ¬ e.Sets h)
    (hc : ∀ e ∈ es', ¬ e.Changes p) : read w h = some (.ok (some (.split (l.take len)))) := by
  obtain ⟨g0, g1⟩ := parts_pol hr hl hn
  have det : ∀ {es : List Ev} {u v : World}, Run es u → Run es v → u = v := by
    intro es u v hu
    induction hu generalizing v with
    | nil =>
      intro hv
      generalize he : ([] : List Ev) = l at hv
      cases hv with
      | nil => rfl
      | snoc => simp at he
    | snoc _ _ hs ih =>
      intro hv
      obtain ⟨w1, r1, h1, _, h3, rfl⟩ := run_snoc hv
      have := ih h1
      subst this
      rw [hs] at h3
      cases h3
      rfl
  have harr : w.arr p = some l := by
    refine run_keep (P := fun w => w.arr p = some l) (ok := fun e => ¬ e.Changes p) ?_ ?_ hr hc
    · intro w1 e r h1 _ ho hs
      rw [step_arr hs ho]
      exact h1
    · intro w1 hr1
      obtain ⟨w2, r, hr2, _, hs, rfl⟩ := run_snoc hr1
      rw [step_arr hs (by simp [Ev.Changes]), ← det h0 hr2]
      exact ha
  unfold read
  rw [if_neg g0, g1]
  dsimp only
  rw [Nat.mod_eq_of_lt h32]
  unfold copyParts
  by_cases z : len = 0
  · rw [if_pos z, z]; rfl
  · rw [if_neg z]
    dsimp only
    rw [if_neg hp, harr]
    dsimp only
    rw [if_pos hlen]
    rfl

/-- Setting the property of another type of policy, or of NULL, is refused and changes nothing. -/
theorem C87_refused {es : List Ev} {w : World} (hr : Run es w) (n p len : Nat) :
    (∀ h t, Lives es h t → t ≠ 0 → step w (.setPartSize h n) = some (w, .error .invalidArgument)) ∧
    (∀ h t, Lives es h t → t ≠ 3 → step w (.setParts h p len) = some (w, .error .invalidArgument)) ∧
    step w (.setPartSize 0 n) = some (w, .error .invalidArgument) ∧
    step w (.setParts 0 p len) = some (w, .error .invalidArgument) ∧
    step w (.create n false (some p)) = some (w, .error .invalidArgument) := by
  refine ⟨?_, ?_, rfl, rfl, rfl⟩
  · intro h t hl ht
    obtain ⟨h0, q, h1, h2⟩ := lives_pol hr hl
    simp only [step, setPartSize]
    rw [if_neg h0, h1]
    dsimp only
    rw [if_pos (by rw [h2]; exact ht)]
  · intro h t hl ht
    obtain ⟨h0, q, h1, h2⟩ := lives_pol hr hl
    simp only [step, setParts]
    rw [if_neg h0, h1]
    dsimp only
    rw [if_pos (by rw [h2]; exact ht)]

/-- A policy can be destroyed, once; nothing else changes, and its memory is free again. -/
theorem C87_destroy {es : List Ev} {w : World} {h t : Nat} (hr : Run es w) (hl : Lives es h t) :
    ∃ w', step w (.destroy h) = some (w', .ok ()) ∧ w'.pol h = none ∧ (∀ k, k ≠ h → w'.pol k = w.pol k) ∧ w'.arr = w.arr ∧
      step w' (.destroy h) = none := by
  obtain ⟨h0, q, h1, h2⟩ := lives_pol hr hl
  refine ⟨{ w with pol := upd w.pol h none }, ?_, upd_eq _ _ _, fun k hk => upd_ne _ _ hk, rfl, ?_⟩
  · simp [step, destroy, h0, h1]
  · simp [step, destroy, h0, upd_eq]

end Verif.PolicyMem
