import Verif.Tag.Spec

/-! # The tag of a pool under any schedule (C66) -/
namespace Verif.Tag
open Function (update)
open Spec (Lin Status)

/-- What a thread owes. -/
def PcOk (s : St) (t : Tid) : Pc → Status → Prop
  | .idle, st => st = .idle
  | .check op, st => st = .called op
  | .lock p op, st => st = .called op ∧ check op = .lock p op
  | .read p op, st => st = .called op ∧ check op = .lock p op ∧ s.lock p = some t
  | .write p tag stored, st => s.lock p = some t ∧ ∃ place, st = .called (.set (some p) tag place) ∧
      stored = if place then some (s.tag p) else none
  | .unlock p stored, st => s.lock p = some t ∧ st = .done ⟨true, stored⟩
  | .ret o, st => st = .done o

structure Inv (s : St) (st : Tid → Status) : Prop where
  pc : ∀ t, PcOk s t (s.pc t) (st t)

theorem PcOk.other {s s' : St} {t : Tid} {pc : Pc} {st : Status} (h : PcOk s t pc st)
    (hl : ∀ p, s.lock p = some t → s'.lock p = some t ∧ s'.tag p = s.tag p) : PcOk s' t pc st := by
  cases pc with
  | idle | check | lock | ret => exact h
  | read p op => exact ⟨h.1, h.2.1, (hl p h.2.2).1⟩
  | write p tag stored =>
    obtain ⟨h1, place, h2, h3⟩ := h
    exact ⟨(hl p h1).1, place, h2, by rw [(hl p h1).2]; exact h3⟩
  | unlock p stored => exact ⟨(hl p h.1).1, h.2⟩

theorem Inv.step {s s' : St} {st : Tid → Status} {t : Tid} {pc : Pc} {x : Status} (h : Inv s st)
    (hpc : s'.pc = update s.pc t pc) (hok : PcOk s' t pc x)
    (hl : ∀ t', t' ≠ t → ∀ p, s.lock p = some t' → s'.lock p = some t' ∧ s'.tag p = s.tag p) :
    Inv s' (update st t x) := by
  constructor
  intro t'
  rw [hpc]
  by_cases e : t' = t
  · subst e; simpa using hok
  · rw [Function.update_of_ne e, Function.update_of_ne e]
    exact (h.pc t').other (hl t' e)

theorem check_lock {op : Op} {p : Pool} {op' : Op} (h : check op = .lock p op') :
    op' = op ∧ ((∃ tag place, op = .set (some p) tag place) ∨ op = .get (some p) true) := by
  unfold check at h
  split at h <;> cases h
  · exact ⟨rfl, .inl ⟨_, _, rfl⟩⟩
  · exact ⟨rfl, .inr rfl⟩

theorem run_lin {l : List Ev} {s : St} (h : Run l s) : ∃ st, Lin l s.tag st ∧ Inv s st := by
  induction h with
  | nil => exact ⟨fun _ => .idle, .nil, ⟨fun _ => rfl⟩⟩
  | @step l s l' s' _ hs ih =>
    obtain ⟨st, hl, hi⟩ := ih
    cases hs with
    | @call t op hp =>
      have h1 := hi.pc t
      rw [hp] at h1
      exact ⟨_, hl.call h1, hi.step rfl rfl fun _ _ _ h => ⟨h, rfl⟩⟩
    | @check t op hp =>
      have h1 := hi.pc t
      rw [hp] at h1
      have h1 : st t = .called op := h1
      rw [List.append_nil]
      cases hc : check op with
      | lock p op' =>
        obtain ⟨rfl, _⟩ := check_lock hc
        have := hi.step (s' := { s with pc := update s.pc t (.lock p op') }) (x := .called op') rfl ⟨rfl, hc⟩
          fun _ _ _ h => ⟨h, rfl⟩
        exact ⟨_, by simpa [← h1] using hl, this⟩
      | ret o =>
        have he : Spec.apply s.tag op = (s.tag, o) := by
          unfold check at hc
          split at hc <;> cases hc <;> rfl
        have h2 := hl.effect h1
        rw [he] at h2
        exact ⟨_, h2, hi.step rfl rfl fun _ _ _ h => ⟨h, rfl⟩⟩
      | idle | check | read | write | unlock => unfold check at hc; split at hc <;> cases hc
    | @lock t p op hp hfree =>
      have h1 := hi.pc t
      rw [hp] at h1
      obtain ⟨h1, h2⟩ := h1
      rw [List.append_nil]
      refine ⟨update st t (.called op), by simpa [← h1] using hl, hi.step rfl ⟨rfl, h2, by simp⟩ ?_⟩
      intro t' _ q hq
      refine ⟨?_, rfl⟩
      show update s.lock p (some t) q = some t'
      rw [Function.update_of_ne]
      · exact hq
      · rintro rfl; rw [hfree] at hq; cases hq
    | @read t p op hp =>
      have h1 := hi.pc t
      rw [hp] at h1
      obtain ⟨h1, h2, h3⟩ := h1
      rw [List.append_nil]
      obtain ⟨-, ⟨tag, place, rfl⟩ | rfl⟩ := check_lock h2
      · refine ⟨update st t (.called (.set (some p) tag place)), by simpa [← h1] using hl,
          hi.step rfl ⟨h3, place, rfl, rfl⟩ fun _ _ _ h => ⟨h, rfl⟩⟩
      · exact ⟨_, hl.effect h1, hi.step rfl ⟨h3, rfl⟩ fun _ _ _ h => ⟨h, rfl⟩⟩
    | @write t p tag stored hp =>
      have h1 := hi.pc t
      rw [hp] at h1
      obtain ⟨h1, place, h2, rfl⟩ := h1
      rw [List.append_nil]
      refine ⟨_, hl.effect h2, hi.step rfl ⟨h1, rfl⟩ ?_⟩
      intro t' hne q hq
      refine ⟨hq, ?_⟩
      show update s.tag p tag q = s.tag q
      rw [Function.update_of_ne]
      rintro rfl
      rw [h1] at hq
      cases hq
      exact hne rfl
    | @unlock t p stored hp =>
      have h1 := hi.pc t
      rw [hp] at h1
      obtain ⟨h1, h2⟩ := h1
      rw [List.append_nil]
      refine ⟨update st t (.done ⟨true, stored⟩), by simpa [← h2] using hl, hi.step rfl rfl ?_⟩
      intro t' hne q hq
      refine ⟨?_, rfl⟩
      show update s.lock p none q = some t'
      rw [Function.update_of_ne]
      · exact hq
      · rintro rfl
        rw [h1] at hq
        cases hq
        exact hne rfl
    | @ret t o hp =>
      have h1 := hi.pc t
      rw [hp] at h1
      exact ⟨_, hl.ret h1, hi.step rfl rfl fun _ _ _ h => ⟨h, rfl⟩⟩

/-- C66: whatever the schedule, callers see what they would see if every `umfPoolSetTag` and `umfPoolGetTag` had its effect
at one instant between its call and its return: each exchange hands back the tag that the one before it had set. -/
theorem C66_tag_atomic {l : List Ev} {s : St} (h : Run l s) : ∃ v st, Lin l v st :=
  let ⟨st, h1, _⟩ := run_lin h; ⟨_, st, h1⟩

/-- Two threads at the same time: the second one gets what the first one set. -/
example : ∃ s, Run [.call 0 (.set (some 9) 5 true), .call 1 (.get (some 9) true), .ret 1 ⟨true, some 5⟩, .ret 0 ⟨true, some 0⟩] s := by
  have h := Run.nil
  have h := h.step (.call (t := 0) (.set (some 9) 5 true) rfl)
  have h := h.step (.check (t := 0) rfl)
  have h := h.step (.lock (t := 0) rfl rfl)
  have h := h.step (.call (t := 1) (.get (some 9) true) rfl)
  have h := h.step (.check (t := 1) rfl)
  have h := h.step (.read (t := 0) rfl)
  have h := h.step (.write (t := 0) rfl)
  have h := h.step (.unlock (t := 0) rfl)
  have h := h.step (.lock (t := 1) rfl rfl)
  have h := h.step (.read (t := 1) rfl)
  have h := h.step (.unlock (t := 1) rfl)
  have h := h.step (.ret (t := 1) rfl)
  have h := h.step (.ret (t := 0) rfl)
  exact ⟨_, h⟩

end Verif.Tag
