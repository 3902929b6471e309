import Verif.TrkPass.Spec
/-! # C88: tracking providers pass on what they do not track -/
namespace Verif.TrkPass

theorem Reach.zero {w : Nat → Option Prov} (h : Reach w) : w 0 = none := by
  induction h with
  | init => rfl
  | other _ h0 _ ih => simp [create, Ne.symm h0, ih]
  | tracking _ h0 _ _ ih => simp [create, Ne.symm h0, ih]
  | destroy _ _ ih =>
    unfold TrkPass.destroy
    split
    · rfl
    · exact ih

theorem bottom_create {w : Nat → Option Prov} {h : Nat} {p : Prov} (hn : w h = none) {k b : Nat} (hb : Bottom w k b) :
    Bottom (create w h p) k b := by
  induction hb with
  | self h1 =>
    refine .self ?_
    unfold create
    rw [if_neg (by rintro rfl; rw [hn] at h1; cases h1)]
    exact h1
  | down h1 _ ih =>
    refine .down ?_ ih
    unfold create
    rw [if_neg (by rintro rfl; rw [hn] at h1; cases h1)]
    exact h1

theorem bottom_destroy {w : Nat → Option Prov} {h : Nat} (hn : ∀ k, w k ≠ some (.tracking h)) {k b : Nat} (hb : Bottom w k b)
    (hk : k ≠ h) : Bottom (destroy w h) k b := by
  induction hb with
  | self h1 =>
    refine .self ?_
    unfold destroy
    rw [if_neg hk]
    exact h1
  | down h1 _ ih =>
    refine .down ?_ (ih (by rintro rfl; exact hn _ h1))
    unfold destroy
    rw [if_neg hk]
    exact h1

/-- C88: every provider that a program can have stands on one that is not a tracking provider. -/
theorem C88_bottom {w : Nat → Option Prov} (h : Reach w) {k : Nat} {p : Prov} (hk : w k = some p) : ∃ b, Bottom w k b := by
  induction h generalizing k p with
  | init => cases hk
  | @other w h _ h0 hn ih =>
    by_cases c : k = h
    · exact ⟨k, .self (by simp [create, c])⟩
    · have : w k = some p := by simpa [create, c] using hk
      obtain ⟨b, hb⟩ := ih this
      exact ⟨b, bottom_create hn hb⟩
  | @tracking w h up q _ h0 hn hu ih =>
    by_cases c : k = h
    · obtain ⟨b, hb⟩ := ih hu
      exact ⟨b, .down (by simp [create, c]) (bottom_create hn hb)⟩
    · have : w k = some p := by simpa [create, c] using hk
      obtain ⟨b, hb⟩ := ih this
      exact ⟨b, bottom_create hn hb⟩
  | @destroy w h _ hn ih =>
    by_cases c : k = h
    · rw [c] at hk; simp [destroy] at hk
    · have : w k = some p := by simpa [destroy, c] using hk
      obtain ⟨b, hb⟩ := ih this
      exact ⟨b, bottom_destroy hn hb c⟩

theorem badArg_iff (q : Query) : badArg q = true ↔ Refused q := by
  cases q <;> simp [badArg, Refused]

theorem marks_iff (q : Query) : marks q = true ↔ Reported q := by
  cases q <;> simp [marks, Reported]

theorem pass_eq (q : Query) : pass q = q := by cases q <;> rfl

theorem bottom_other {w : Nat → Option Prov} {h b : Nat} (hb : Bottom w h b) : w b = some .other := by
  induction hb with
  | self h => exact h
  | down _ _ ih => exact ih

/-- C88: a call whose arguments are not refused calls the provider at the bottom once, with the same arguments, and nothing else, and
gives its answer to the caller, through any number of tracking providers. If it fails and is one of those that are reported, the
last failed provider is the one that was called; otherwise it is the one before. -/
theorem C88_passed {w : Nat → Option Prov} (hr : Reach w) (a : Nat → Query → Ans) {h b : Nat} (hb : Bottom w h b) {q : Query}
    (hq : ¬ Refused q) (last : Nat) :
    ∃ n, ∀ fuel, n ≤ fuel → ∃ l, ask w a fuel h q last = some ⟨a b q, l, [(b, q)]⟩ ∧
      (Reported q → (a b q).res ≠ 0 → l = h) ∧ (¬ (Reported q ∧ (a b q).res ≠ 0) → l = last) := by
  induction hb with
  | @self h h1 =>
    refine ⟨1, ?_⟩
    intro fuel hf
    obtain ⟨m, rfl⟩ : ∃ m, fuel = m + 1 := ⟨fuel - 1, by omega⟩
    have h0 : h ≠ 0 := by rintro rfl; rw [hr.zero] at h1; cases h1
    unfold ask
    rw [if_neg h0, if_neg (by rw [badArg_iff]; exact hq), h1]
    dsimp only
    unfold mark
    by_cases c : marks q = true ∧ (a h q).res ≠ 0
    · rw [if_pos c]
      refine ⟨h, rfl, fun _ _ => rfl, fun hc => absurd ⟨(marks_iff q).1 c.1, c.2⟩ hc⟩
    · rw [if_neg c]
      exact ⟨last, rfl, fun h2 h3 => absurd ⟨(marks_iff q).2 h2, h3⟩ c, fun _ => rfl⟩
  | @down h up b h1 _ ih =>
    obtain ⟨n, hn⟩ := ih
    refine ⟨n + 1, ?_⟩
    intro fuel hf
    obtain ⟨m, rfl⟩ : ∃ m, fuel = m + 1 := ⟨fuel - 1, by omega⟩
    obtain ⟨l, h2, h3, h4⟩ := hn m (by omega)
    have h0 : h ≠ 0 := by rintro rfl; rw [hr.zero] at h1; cases h1
    unfold ask
    rw [if_neg h0, if_neg (by rw [badArg_iff]; exact hq), h1]
    dsimp only
    rw [pass_eq, h2]
    unfold mark
    dsimp only [Option.map]
    by_cases c : marks q = true ∧ (a b q).res ≠ 0
    · rw [if_pos c]
      refine ⟨h, rfl, fun _ _ => rfl, fun hc => absurd ⟨(marks_iff q).1 c.1, c.2⟩ hc⟩
    · rw [if_neg c]
      refine ⟨l, rfl, fun h5 h6 => absurd ⟨(marks_iff q).2 h5, h6⟩ c, fun hc => h4 hc⟩

/-- C88: a refused argument is refused without calling anything, and nobody is reported. -/
theorem C88_refused (w : Nat → Option Prov) (a : Nat → Query → Ans) {q : Query} (hq : Refused q) (fuel h last : Nat) :
    ask w a (fuel + 1) h q last = some ⟨⟨3, 0⟩, last, []⟩ := by
  unfold ask
  have h1 : refused last q = some ⟨⟨3, 0⟩, last, []⟩ := by
    cases q <;> first | rfl | cases hq
  split
  · exact h1
  · rw [if_pos ((badArg_iff q).2 hq)]
    exact h1

/-- C88: NULL is refused, with `UMF_RESULT_ERROR_INVALID_ARGUMENT` (3), and has no name. -/
theorem C88_null (w : Nat → Option Prov) (a : Nat → Query → Ans) (fuel last : Nat) :
    (∀ q, q ≠ .name → q ≠ .lastError → ask w a (fuel + 1) 0 q last = some ⟨⟨3, 0⟩, last, []⟩) ∧
    ask w a (fuel + 1) 0 .name last = some ⟨⟨0, 0⟩, last, []⟩ := by
  refine ⟨?_, rfl⟩
  intro q h1 h2
  cases q <;> first | rfl | exact absurd rfl h1 | exact absurd rfl h2

/-- C88: the last error of the provider that a failed call reports is the one of the provider at the bottom, which failed. -/
theorem C88_error {w : Nat → Option Prov} (hr : Reach w) (a : Nat → Query → Ans) {h b : Nat} (hb : Bottom w h b) {q : Query}
    (hq : ¬ Refused q) (hp : Reported q) (last : Nat) (hf : (a b q).res ≠ 0) :
    ∃ n, ∀ fuel, n ≤ fuel → ∃ o, ask w a fuel h q last = some o ∧
      ∃ o', ask w a fuel o.last .lastError o.last = some o' ∧ o'.ans = a b .lastError ∧ o'.calls = [(b, .lastError)] := by
  obtain ⟨n, hn⟩ := C88_passed hr a hb hq last
  obtain ⟨m, hm⟩ := C88_passed hr a hb (q := .lastError) (by simp [Refused]) h
  refine ⟨max n m, ?_⟩
  intro fuel hfu
  obtain ⟨l, h1, h2, _⟩ := hn fuel (by omega)
  obtain ⟨l', h3, _⟩ := hm fuel (by omega)
  have := h2 hp hf
  subst this
  exact ⟨_, h1, _, h3, rfl, rfl⟩

/-! ## A concrete case, and who is reported -/

/-- A provider, a tracking provider on it, and one on that. -/
def tower : Nat → Option Prov := create (create (create (fun _ => none) 1 .other) 2 (.tracking 1)) 3 (.tracking 2)

theorem tower_reach : Reach tower :=
  .tracking (p := .tracking 1) (.tracking (p := .other) (.other .init (by decide) rfl) (by decide) rfl rfl) (by decide) rfl rfl

theorem tower_bottom : Bottom tower 3 1 := .down rfl (.down rfl (.self rfl))

/-- Only forced purges fail. -/
def answers : Nat → Query → Ans
  | _, .purgeForce _ _ => ⟨9, 0⟩
  | h, .lastError => ⟨0, 100 + h⟩
  | _, _ => ⟨0, 4096⟩

example : ask tower answers 4 3 (.minPage 0x1000 true) 8 = some ⟨⟨0, 4096⟩, 8, [(1, .minPage 0x1000 true)]⟩ := by decide +kernel
example : ask tower answers 4 3 (.purgeForce 0x1000 64) 8 = some ⟨⟨9, 0⟩, 3, [(1, .purgeForce 0x1000 64)]⟩ := by decide +kernel
example : ∃ b, Bottom tower 3 b := C88_bottom tower_reach (p := .tracking 2) rfl

/-- The provider that failed is not the one that is reported, if tracking providers are on top of it; a failed query of the size of
IPC handles is not reported at all; and the last error of NULL follows a null pointer. -/
theorem C88_reported_violated : ∃ w a h b o o', Reach w ∧ Bottom w h b ∧ ask w a 9 h (.purgeForce 0x1000 64) 0 = some o ∧ o.ans.res ≠ 0 ∧
    o.last ≠ b ∧ ask w (fun _ _ => ⟨9, 0⟩) 9 b (.ipcSize true) 0 = some o' ∧ o'.ans.res ≠ 0 ∧ o'.last = 0 ∧
    ask w a 9 0 .lastError 0 = none :=
  ⟨tower, answers, 3, 1, ⟨⟨9, 0⟩, 3, [(1, .purgeForce 0x1000 64)]⟩, ⟨⟨9, 0⟩, 0, [(1, .ipcSize true)]⟩, tower_reach, tower_bottom,
    by decide +kernel, by decide, by decide, by decide +kernel, by decide, rfl, by decide +kernel⟩

end Verif.TrkPass
