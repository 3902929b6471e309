import Verif.Log.Props
/-!
# C40, C49: concrete cases and the witness
-/
namespace Verif.Log

/-- The items of a list. -/
theorem item_nil {it : List Char} (h : IsItem [] it) : it = [] := by
  obtain ⟨_, pre, post, e, _, _⟩ := h
  have := e.symm
  simp only [List.append_eq_nil_iff] at this
  exact this.1.2

/-- An item of `a ++ ';' :: b` with no semicolon in `a` is `a` or an item of `b`. -/
theorem item_cons {a b it : List Char} (ha : ';' ∉ a) (h : IsItem (a ++ ';' :: b) it) : it = a ∨ IsItem b it := by
  obtain ⟨h0, pre, post, e, h1, h2⟩ := h
  rw [List.append_assoc] at e
  rcases h1 with rfl | ⟨p, rfl⟩
  · left
    rcases h2 with rfl | ⟨q, rfl⟩
    · exfalso
      apply h0
      have : it = a ++ ';' :: b := by simpa using e.symm
      rw [this]; simp
    · simp only [List.nil_append] at e
      rcases List.append_eq_append_iff.1 e with ⟨d, e1, e2⟩ | ⟨d, e1, e2⟩
      · cases d with
        | nil => simpa using e1
        | cons c d =>
          simp only [List.cons_append, List.cons.injEq] at e2
          exact absurd (by rw [e1, ← e2.1]; simp) h0
      · cases d with
        | nil => simpa using e1.symm
        | cons c d =>
          simp only [List.cons_append, List.cons.injEq] at e2
          exact absurd (by rw [e1, ← e2.1]; simp) ha
  · right
    rw [List.append_assoc] at e
    rcases List.append_eq_append_iff.1 e with ⟨d, e1, e2⟩ | ⟨d, e1, e2⟩
    · cases d with
      | nil =>
        simp only [List.nil_append, List.singleton_append, List.cons.injEq, true_and] at e2
        exact ⟨h0, [], post, by simpa using e2, Or.inl rfl, h2⟩
      | cons c d =>
        simp only [List.cons_append, List.cons.injEq] at e2
        refine ⟨h0, d ++ [';'], post, by rw [e2.2]; simp, Or.inr ⟨d, rfl⟩, h2⟩
    · cases d with
      | nil =>
        simp only [List.nil_append, List.singleton_append, List.cons.injEq, true_and] at e2
        exact ⟨h0, [], post, by simpa using e2.symm, Or.inl rfl, h2⟩
      | cons c d =>
        simp only [List.cons_append, List.nil_append, List.cons.injEq] at e2
        exact absurd (by rw [e1, ← e2.1]; simp) ha

theorem item_last {a it : List Char} (ha : ';' ∉ a) (h : IsItem a it) : it = a := by
  obtain ⟨h0, pre, post, e, h1, h2⟩ := h
  rcases h1 with rfl | ⟨p, rfl⟩
  · rcases h2 with rfl | ⟨q, rfl⟩
    · simpa using e.symm
    · exact absurd (by rw [e]; simp) ha
  · exact absurd (by rw [e]; simp) ha

/-- The example of the documentation. -/
def docVar : List Char := "level:info;flush:warning;output:file,out.log".toList

theorem doc_clean : Clean docVar := by
  intro it h
  have e : docVar = "level:info".toList ++ ';' :: ("flush:warning".toList ++ ';' :: "output:file,out.log".toList) := by
    decide +kernel
  rw [e] at h
  rcases item_cons (by decide +kernel) h with rfl | h
  · right; left; decide +kernel
  rcases item_cons (by decide +kernel) h with rfl | h
  · right; left; decide +kernel
  have := item_last (by decide +kernel) h
  subst this
  right; right
  exact ⟨"out.log".toList, by decide +kernel, by decide +kernel, by decide +kernel⟩

/-- The hypothesis is met by the documented example, with the expected result. -/
example : Clean docVar ∧ logInit (some docVar) (fun _ => true) =
    ⟨false, false, .info, .warning, some (.file "out.log".toList)⟩ :=
  ⟨doc_clean, by decide +kernel⟩

/-- C40 is violated: `level:debug` is an item, and the only one for the level, but since the file name contains the same
text the level stays at its default. -/
theorem C40_fileName_violated : ∃ var : List Char, IsItem var "level:debug".toList ∧
    (∀ l : Level, IsItem var ("level" ++ ":" ++ l.name).toList → l = .debug) ∧
    (logInit (some var) fun _ => true).output ≠ none ∧
    (logInit (some var) fun _ => true).level = .error := by
  have e : "output:file,/tmp/level:debug.log;level:debug".toList =
      "output:file,/tmp/level:debug.log".toList ++ ';' :: "level:debug".toList := by decide +kernel
  refine ⟨"output:file,/tmp/level:debug.log;level:debug".toList, ?_, ?_, by decide +kernel, by decide +kernel⟩
  · exact ⟨by decide +kernel, "output:file,/tmp/level:debug.log;".toList, [], by decide +kernel,
      Or.inr ⟨"output:file,/tmp/level:debug.log".toList, by decide +kernel⟩, Or.inl rfl⟩
  · intro l h
    rw [e] at h
    rcases item_cons (by decide +kernel) h with h | h
    · exfalso; revert h; cases l <;> decide +kernel
    · have := item_last (by decide +kernel) h
      revert this
      cases l <;> decide +kernel

/-- A long message: 8 kB and an error text, cut and marked. -/
example : (message "f".toList (List.replicate 8192 'x') (some ("No such file".toList, false))).2 =
    "[truncated...]".toList ∧
    (message "f".toList "msg".toList (some ("No such file".toList, false))).1.text =
      "f: msg: No such file".toList := by
  constructor
  · decide +kernel
  · decide +kernel

end Verif.Log
