import Verif.Log.Spec
import Mathlib.Tactic.ByContra
/-!
# C40, C49: the logger
-/
namespace Verif.Log

theorem strstr_some {h n : List Char} {i : Nat} (e : strstr h n = some i) :
    ∃ a b, h = a ++ n ++ b ∧ a.length = i := by
  induction h generalizing i with
  | nil =>
    unfold strstr at e
    split at e
    · rename_i hp
      cases e
      obtain ⟨t, ht⟩ := List.isPrefixOf_iff_prefix.1 hp
      exact ⟨[], t, by simpa using ht.symm, rfl⟩
    · simp at e
  | cons c h ih =>
    unfold strstr at e
    split at e
    · rename_i hp
      cases e
      obtain ⟨t, ht⟩ := List.isPrefixOf_iff_prefix.1 hp
      exact ⟨[], t, by simpa using ht.symm, rfl⟩
    · simp only [Option.map_eq_some_iff] at e
      obtain ⟨j, e1, e2⟩ := e
      obtain ⟨a, b, e3, e4⟩ := ih e1
      exact ⟨c :: a, b, by rw [e3]; simp, by simp [e4, e2]⟩

theorem strstr_none {h n : List Char} (e : strstr h n = none) (a b : List Char) : h ≠ a ++ n ++ b := by
  induction h generalizing a with
  | nil =>
    unfold strstr at e
    split at e
    · cases e
    · rename_i hp
      intro hh
      have hh := hh.symm
      simp only [List.append_eq_nil_iff] at hh
      exact hp (by rw [hh.1.2]; rfl)
  | cons c h ih =>
    unfold strstr at e
    split at e
    · cases e
    · rename_i hp
      simp only [Option.map_eq_none_iff] at e
      intro hh
      cases a with
      | nil =>
        apply hp
        rw [List.isPrefixOf_iff_prefix]
        exact ⟨b, by simpa using hh.symm⟩
      | cons d a =>
        simp only [List.cons_append, List.cons.injEq] at hh
        exact ih e a hh.2

theorem strstr_first {h n : List Char} {i : Nat} (e : strstr h n = some i) (a b : List Char)
    (hh : h = a ++ n ++ b) : i ≤ a.length := by
  induction h generalizing i a with
  | nil =>
    unfold strstr at e
    split at e
    · cases e; omega
    · simp at e
  | cons c h ih =>
    unfold strstr at e
    split at e
    · cases e; omega
    · rename_i hp
      simp only [Option.map_eq_some_iff] at e
      obtain ⟨j, e1, e2⟩ := e
      cases a with
      | nil =>
        exfalso
        apply hp
        rw [List.isPrefixOf_iff_prefix]
        exact ⟨b, by simpa using hh.symm⟩
      | cons d a =>
        simp only [List.cons_append, List.cons.injEq] at hh
        have := ih e1 a hh.2
        simp only [List.length_cons]
        omega

/-- The result of `parseFound`, in terms of the pieces of the variable. -/
theorem found_some {var opt r : List Char} (h : parseFound var opt = some r) :
    ∃ pre, var = pre ++ opt ++ r ∧ (pre = [] ∨ ∃ p, pre = p ++ [';']) := by
  unfold parseFound at h
  split at h
  · cases h
  · rename_i i hi
    obtain ⟨a, b, e1, e2⟩ := strstr_some hi
    split at h
    · cases h
    · rename_i hc
      simp only [Option.some.injEq] at h
      subst e2
      refine ⟨a, ?_, ?_⟩
      · rw [← h, e1]
        have : (a ++ opt ++ b).drop (a.length + opt.length) = b := by
          rw [← List.length_append, List.drop_left]
        rw [this]
      · rcases List.eq_nil_or_concat a with rfl | ⟨p, c, rfl⟩
        · exact Or.inl rfl
        · right
          refine ⟨p, ?_⟩
          have hx : var[(p.concat c).length - 1]? = some ';' := by
            by_contra hx
            exact hc ⟨by simp, hx⟩
          rw [e1] at hx
          simp [List.concat_eq_append] at hx
          simp [hx, List.concat_eq_append]

/-- An occurrence of text without semicolon lies inside one item. -/
theorem in_item {a o b : List Char} (ho : ';' ∉ o) :
    ∃ pre x y post, a = pre ++ x ∧ b = y ++ post ∧ IsItem (a ++ o ++ b) (x ++ o ++ y) ∧
      (pre = [] ∨ ∃ p, pre = p ++ [';']) ∧ (post = [] ∨ ∃ p, post = ';' :: p) := by
  have key : ∀ l : List Char, ∃ y post, l = y ++ post ∧ ';' ∉ y ∧ (post = [] ∨ ∃ p, post = ';' :: p) := by
    intro l
    induction l with
    | nil => exact ⟨[], [], rfl, by simp, Or.inl rfl⟩
    | cons c l ih =>
      by_cases hc : c = ';'
      · exact ⟨[], c :: l, rfl, by simp, Or.inr ⟨l, by rw [hc]⟩⟩
      · obtain ⟨y, post, e1, e2, e3⟩ := ih
        refine ⟨c :: y, post, by rw [e1]; rfl, ?_, e3⟩
        simp only [List.mem_cons, not_or]
        exact ⟨fun h => hc h.symm, e2⟩
  obtain ⟨y, post, e1, e2, e3⟩ := key b
  obtain ⟨x, pre, f1, f2, f3⟩ := key a.reverse
  have f1 : a = pre.reverse ++ x.reverse := by
    rw [← List.reverse_append, ← f1, List.reverse_reverse]
  have f3 : pre.reverse = [] ∨ ∃ p, pre.reverse = p ++ [';'] := by
    rcases f3 with rfl | ⟨p, rfl⟩
    · exact Or.inl rfl
    · exact Or.inr ⟨p.reverse, by simp⟩
  refine ⟨pre.reverse, x.reverse, y, post, f1, e1, ⟨?_, pre.reverse, post, ?_, f3, e3⟩, f3, e3⟩
  · simp only [List.mem_append, List.mem_reverse, not_or]
    exact ⟨⟨f2, ho⟩, e2⟩
  · rw [e1, f1]; simp

/-- **C40**, one direction, for every variable and every option: an option that takes effect is an
item of the list. -/
theorem C40_sound {var opt : List Char} (ho : ';' ∉ opt) (h : parseVar var opt = true) : IsItem var opt := by
  unfold parseVar at h
  split at h
  · cases h
  · rename_i hf
    obtain ⟨pre, e1, e2⟩ := found_some hf
    exact ⟨ho, pre, [], e1, e2, Or.inl rfl⟩
  · rename_i c t hf
    obtain ⟨pre, e1, e2⟩ := found_some hf
    have : c = ';' := by simpa using h
    subst this
    exact ⟨ho, pre, _, e1, e2, Or.inr ⟨t, rfl⟩⟩

/-- **C40**, the same for the option with an argument: the item is the option, a comma and the argument up to
the next semicolon. -/
theorem C40_soundArg {var opt r : List Char} (ho : ';' ∉ opt) (h : parseArg var opt = some r) :
    ∃ arg post, r = arg ++ post ∧ IsItem var (opt ++ ',' :: arg) ∧ (post = [] ∨ ∃ p, post = ';' :: p) := by
  unfold parseArg at h
  split at h
  · rename_i rest hf
    cases h
    obtain ⟨pre, e1, e2⟩ := found_some hf
    obtain ⟨p', x, y, post, g1, g2, g3, g4, g5⟩ := in_item (a := pre) (o := opt ++ [',']) (b := r)
      (by simp [ho])
    refine ⟨y, post, g2, ⟨?_, pre, post, ?_, e2, g5⟩, g5⟩
    · intro hm
      apply g3.1
      simp only [List.mem_append, List.mem_cons] at hm ⊢
      rcases hm with hm | hm | hm
      · exact absurd hm ho
      · cases hm
      · exact Or.inr hm
    · rw [e1, g2]; simp
  · cases h

/-- The converse holds if the option occurs nowhere else: every item with the text of the option in it is the option. -/
theorem C40_complete_partial {var opt : List Char} (hi : IsItem var opt)
    (hu : ∀ it, IsItem var it → opt <:+: it → it = opt) : parseVar var opt = true := by
  obtain ⟨ho, pre, post, e, _, _⟩ := hi
  cases hs : strstr var opt with
  | none => exact absurd e (strstr_none hs _ _)
  | some i =>
    obtain ⟨a, b, e1, e2⟩ := strstr_some hs
    obtain ⟨p', x, y, post', g1, g2, g3, g4, g5⟩ := in_item (a := a) (o := opt) (b := b) ho
    rw [← e1] at g3
    have hxy := hu _ g3 ⟨x, y, rfl⟩
    have hx : x = [] ∧ y = [] := by
      have := congrArg List.length hxy
      simp only [List.length_append] at this
      exact ⟨List.eq_nil_of_length_eq_zero (by omega), List.eq_nil_of_length_eq_zero (by omega)⟩
    obtain ⟨rfl, rfl⟩ := hx
    simp only [List.append_nil, List.nil_append] at g1 g2
    subst g1 g2
    have hf : parseFound var opt = some b := by
      unfold parseFound
      rw [hs]
      simp only
      rw [if_neg]
      · rw [e1, ← e2, ← List.length_append, List.drop_left]
      · rintro ⟨h1, h2⟩
        rcases g4 with rfl | ⟨p, rfl⟩
        · simp at e2; omega
        · apply h2
          rw [e1, ← e2]
          simp
    unfold parseVar
    rw [hf]
    rcases g5 with rfl | ⟨p, rfl⟩
    · rfl
    · simp

theorem plain_infix : ∀ o ∈ plainItems, ∀ it ∈ plainItems, o <:+: it → it = o := by decide +kernel

theorem file_infix : ∀ it ∈ plainItems, ¬ "output:file".toList <:+: it := by decide +kernel

theorem plain_semi : ∀ o ∈ plainItems, ';' ∉ o ∧ o ≠ [] := by decide +kernel

/-- With a clean variable a plain option takes effect exactly when it is an item. -/
theorem parse_iff {var o : List Char} (hc : Clean var) (ho : o ∈ plainItems) :
    parseVar var o = true ↔ IsItem var o := by
  obtain ⟨h1, h2⟩ := plain_semi o ho
  refine ⟨C40_sound h1, fun h => C40_complete_partial h ?_⟩
  intro it hit hin
  rcases hc it hit with rfl | hp | ⟨path, _, hn, _⟩
  · exact absurd (List.infix_nil.1 hin) h2
  · exact plain_infix o ho it hp hin
  · exact absurd hin (hn o ho)

theorem parse_false {var o : List Char} (hc : Clean var) (ho : o ∈ plainItems) :
    parseVar var o = false ↔ ¬ IsItem var o := by
  rw [← parse_iff hc ho]; simp

theorem take_semi {arg post : List Char} (h : ';' ∉ arg) (hp : post = [] ∨ ∃ p, post = ';' :: p) :
    fileName (arg ++ post) = arg := by
  unfold fileName
  cases hs : strstr (arg ++ post) [';'] with
  | none =>
    rcases hp with rfl | ⟨p, rfl⟩
    · simp
    · exact absurd (by simp) (strstr_none hs arg p)
  | some n =>
    simp only
    obtain ⟨a, b, e1, e2⟩ := strstr_some hs
    have hle : arg.length ≤ n := by
      by_contra hlt
      have hlt : n < arg.length := by omega
      apply h
      have h3 : (arg ++ post)[n]? = some ';' := by rw [e1, ← e2]; simp
      rw [List.getElem?_append_left hlt] at h3
      exact List.mem_of_getElem? h3
    rcases hp with rfl | ⟨p, rfl⟩
    · rw [List.append_nil]
      exact List.take_of_length_le hle
    · have h4 := strstr_first hs arg p (by simp)
      have : n = arg.length := by omega
      rw [this, List.take_left]

theorem parseArg_complete {var path : List Char} (hc : Clean var)
    (hi : IsItem var ("output:file".toList ++ ',' :: path)) :
    (parseArg var "output:file".toList).isSome := by
  obtain ⟨ho, pre, post, e, _, _⟩ := hi
  generalize hopt : "output:file".toList = opt at *
  cases hs : strstr var opt with
  | none => exact absurd (by rw [e]; simp) (strstr_none hs pre (',' :: path ++ post))
  | some i =>
    obtain ⟨a, b, e1, e2⟩ := strstr_some hs
    have ho' : ';' ∉ opt := fun h => ho (List.mem_append_left _ h)
    obtain ⟨p', x, y, post', g1, g2, g3, g4, g5⟩ := in_item (a := a) (o := opt) (b := b) ho'
    rw [← e1] at g3
    have hne : opt ≠ [] := by rw [← hopt]; decide +kernel
    rcases hc _ g3 with h0 | h0 | ⟨path', h1, _, h2⟩
    · simp only [List.append_eq_nil_iff] at h0
      exact absurd h0.1.2 hne
    · exact absurd (by rw [hopt]; exact ⟨x, y, rfl⟩) (file_infix _ h0)
    · rw [hopt] at h1 h2
      cases x with
      | cons c x => exact absurd ⟨x, y, by simp⟩ h2
      | nil =>
        simp only [List.nil_append, List.append_nil, List.append_cancel_left_eq] at h1 g1
        subst h1 g1
        have hf : parseFound var opt = some b := by
          unfold parseFound
          rw [hs]
          simp only
          rw [if_neg]
          · rw [e1, ← e2, ← List.length_append, List.drop_left]
          · rintro ⟨h1, h2⟩
            rcases g4 with rfl | ⟨p, rfl⟩
            · simp at e2; omega
            · apply h2
              rw [e1, ← e2]
              simp
        unfold parseArg
        rw [hf, g2]
        rfl

/-- **C40**, the output. -/
theorem output_partial {var : List Char} (hc : Clean var) (fopen : List Char → Bool) :
    (IsItem var "output:stdout".toList → initOutput var fopen = some .stdout) ∧
    (¬ IsItem var "output:stdout".toList → IsItem var "output:stderr".toList →
      initOutput var fopen = some .stderr) ∧
    (¬ IsItem var "output:stdout".toList → ¬ IsItem var "output:stderr".toList →
      (∀ path, IsItem var ("output:file".toList ++ ',' :: path) →
        (∀ path', IsItem var ("output:file".toList ++ ',' :: path') → path' = path) →
        initOutput var fopen = if path.length ≤ 256 ∧ fopen path then some (.file path) else none) ∧
      ((∀ path, ¬ IsItem var ("output:file".toList ++ ',' :: path)) → initOutput var fopen = none)) := by
  have p1 : "output:stdout".toList ∈ plainItems := by decide +kernel
  have p2 : "output:stderr".toList ∈ plainItems := by decide +kernel
  have hsemi : ';' ∉ "output:file".toList := by decide +kernel
  unfold initOutput
  refine ⟨fun h => ?_, fun h1 h2 => ?_, fun h1 h2 => ⟨fun path h3 h4 => ?_, fun h3 => ?_⟩⟩
  · rw [if_pos ((parse_iff hc p1).2 h)]
  · rw [if_neg (by rw [parse_iff hc p1]; exact h1), if_pos ((parse_iff hc p2).2 h2)]
  · rw [if_neg (by rw [parse_iff hc p1]; exact h1), if_neg (by rw [parse_iff hc p2]; exact h2)]
    obtain ⟨r, hr⟩ := Option.isSome_iff_exists.1 (parseArg_complete hc h3)
    obtain ⟨arg, post, e1, e2, e3⟩ := C40_soundArg hsemi hr
    have e4 := h4 arg e2
    subst e4
    rw [hr, e1]
    have hno : ';' ∉ arg := fun h => e2.1 (by simp [h])
    simp only
    rw [take_semi hno e3]
    unfold maxPath
    by_cases hl : arg.length ≤ 256
    · by_cases hf : fopen arg = true
      · rw [if_neg (by omega), if_pos hf, if_pos ⟨hl, hf⟩]
      · rw [if_neg (by omega), if_neg hf, if_neg (fun h => hf h.2)]
    · rw [if_pos (by omega), if_neg (fun h => hl h.1)]
  · rw [if_neg (by rw [parse_iff hc p1]; exact h1), if_neg (by rw [parse_iff hc p2]; exact h2)]
    cases hr : parseArg var "output:file".toList with
    | none => rfl
    | some r =>
      obtain ⟨arg, post, e1, e2, e3⟩ := C40_soundArg hsemi hr
      exact absurd e2 (h3 arg)

theorem level_partial {var : List Char} (hc : Clean var) (name : String) (d : Level)
    (hn : ∀ l : Level, (name ++ ":" ++ l.name).toList ∈ plainItems) :
    (∀ l : Level, IsItem var (name ++ ":" ++ l.name).toList →
      (∀ l' : Level, IsItem var (name ++ ":" ++ l'.name).toList → l' = l) → initLevel var name d = l) ∧
    ((∀ l : Level, ¬ IsItem var (name ++ ":" ++ l.name).toList) → initLevel var name d = d) := by
  have e : ∀ l : Level, parseVar var (name ++ ":" ++ l.name).toList = true ↔
      IsItem var (name ++ ":" ++ l.name).toList := fun l => parse_iff hc (hn l)
  have e1 := e .debug
  have e2 := e .info
  have e3 := e .warning
  have e4 := e .error
  have e5 := e .fatal
  simp only [Level.name, String.append_assoc] at e1 e2 e3 e4 e5
  unfold initLevel
  constructor
  · intro l h1 h2
    have f1 := h2 .debug
    have f2 := h2 .info
    have f3 := h2 .warning
    have f4 := h2 .error
    have f5 := h2 .fatal
    simp only [Level.name, String.append_assoc] at f1 f2 f3 f4 f5
    cases l <;> simp only [Level.name, String.append_assoc] at h1 <;>
      simp_all
  · intro h
    have f1 := h .debug
    have f2 := h .info
    have f3 := h .warning
    have f4 := h .error
    have f5 := h .fatal
    simp only [Level.name, String.append_assoc] at f1 f2 f3 f4 f5
    simp_all

theorem bool_partial {var : List Char} (hc : Clean var) (name : String) (d : Bool)
    (h1 : (name ++ ":yes").toList ∈ plainItems) (h2 : (name ++ ":no").toList ∈ plainItems) :
    (IsItem var (name ++ ":yes").toList → ¬ IsItem var (name ++ ":no").toList → initBool var name d = true) ∧
    (IsItem var (name ++ ":no").toList → ¬ IsItem var (name ++ ":yes").toList → initBool var name d = false) ∧
    (¬ IsItem var (name ++ ":yes").toList → ¬ IsItem var (name ++ ":no").toList → initBool var name d = d) := by
  have e1 := parse_iff hc h1
  have e2 := parse_iff hc h2
  unfold initBool
  refine ⟨?_, ?_, ?_⟩ <;> intro a b <;> simp_all

theorem level_items : ∀ l : Level, ("level" ++ ":" ++ l.name).toList ∈ plainItems := by
  intro l; cases l <;> decide +kernel

theorem flush_items : ∀ l : Level, ("flush" ++ ":" ++ l.name).toList ∈ plainItems := by
  intro l; cases l <;> decide +kernel

/-- **C40** (missing: file names that contain the text of an option, see `C40_fileName_violated`). For every value of UMF_LOG of
the documented form: the output is the one given, if it can be opened, and logging is off otherwise. With an output, each other
option has the value given by its item, and the default value if there is none. Nothing is claimed about an option with two
different values. -/
theorem C40_log_partial {var : List Char} (hc : Clean var) (fopen : List Char → Bool) :
    let c := logInit (some var) fopen
    -- the output
    (IsItem var "output:stdout".toList → c.output = some .stdout) ∧
    (¬ IsItem var "output:stdout".toList → IsItem var "output:stderr".toList → c.output = some .stderr) ∧
    (¬ IsItem var "output:stdout".toList → ¬ IsItem var "output:stderr".toList →
      (∀ path, IsItem var ("output:file".toList ++ ',' :: path) →
        (∀ path', IsItem var ("output:file".toList ++ ',' :: path') → path' = path) →
        c.output = if path.length ≤ 256 ∧ fopen path then some (.file path) else none) ∧
      ((∀ path, ¬ IsItem var ("output:file".toList ++ ',' :: path)) → c.output = none)) ∧
    (c.output = none → c = defaults) ∧
    -- the other options
    (c.output ≠ none →
      (∀ l : Level, IsItem var ("level" ++ ":" ++ l.name).toList →
        (∀ l' : Level, IsItem var ("level" ++ ":" ++ l'.name).toList → l' = l) → c.level = l) ∧
      ((∀ l : Level, ¬ IsItem var ("level" ++ ":" ++ l.name).toList) → c.level = .error) ∧
      (∀ l : Level, IsItem var ("flush" ++ ":" ++ l.name).toList →
        (∀ l' : Level, IsItem var ("flush" ++ ":" ++ l'.name).toList → l' = l) → c.flush = l) ∧
      ((∀ l : Level, ¬ IsItem var ("flush" ++ ":" ++ l.name).toList) → c.flush = .error) ∧
      (IsItem var "timestamp:yes".toList → ¬ IsItem var "timestamp:no".toList → c.timestamp = true) ∧
      (¬ IsItem var "timestamp:yes".toList → c.timestamp = false) ∧
      (IsItem var "pid:yes".toList → ¬ IsItem var "pid:no".toList → c.pid = true) ∧
      (¬ IsItem var "pid:yes".toList → c.pid = false)) := by
  have ho : (logInit (some var) fopen).output = initOutput var fopen := by
    unfold logInit
    cases h : initOutput var fopen <;> simp [h, defaults]
  obtain ⟨o1, o2, o3⟩ := output_partial hc fopen
  intro c
  have ho : c.output = initOutput var fopen := ho
  refine ⟨by rw [ho]; exact o1, by rw [ho]; exact o2, by rw [ho]; exact o3, ?_, ?_⟩
  · intro h
    rw [ho] at h
    show logInit (some var) fopen = defaults
    unfold logInit
    simp only [h]
  · intro h
    obtain ⟨o, hoo⟩ := Option.ne_none_iff_exists'.1 h
    rw [ho] at hoo
    have hcfg : c = ⟨initBool var "timestamp" false, initBool var "pid" false, initLevel var "level" .error,
        initLevel var "flush" .error, some o⟩ := by
      show logInit (some var) fopen = _
      unfold logInit
      simp only [hoo]
      rfl
    rw [hcfg]
    obtain ⟨l1, l2⟩ := level_partial hc "level" .error level_items
    obtain ⟨f1, f2⟩ := level_partial hc "flush" .error flush_items
    obtain ⟨t1, t2, t3⟩ := bool_partial hc "timestamp" false (by decide +kernel) (by decide +kernel)
    obtain ⟨p1, p2, p3⟩ := bool_partial hc "pid" false (by decide +kernel) (by decide +kernel)
    have s1 : ("timestamp" ++ ":yes") = "timestamp:yes" := by decide +kernel
    have s2 : ("timestamp" ++ ":no") = "timestamp:no" := by decide +kernel
    have s3 : ("pid" ++ ":yes") = "pid:yes" := by decide +kernel
    have s4 : ("pid" ++ ":no") = "pid:no" := by decide +kernel
    rw [s1, s2] at t1 t2 t3
    rw [s3, s4] at p1 p2 p3
    refine ⟨l1, l2, f1, f2, t1, ?_, p1, ?_⟩
    · intro h
      by_cases h' : IsItem var "timestamp:no".toList
      · exact t2 h' h
      · exact t3 h h'
    · intro h
      by_cases h' : IsItem var "pid:no".toList
      · exact p2 h' h
      · exact p3 h h'

/-! ## Messages -/

/-- The buffer holds the beginning of `full`, as much as fits. -/
structure Holds (b : Buf) (full : List Char) : Prop where
  text : b.text = full.take 8191
  pos : b.pos = full.length
  size : b.size = 8192 - (full.length : Int)
  touched : b.touched ≤ 8192

theorem holds_print {b : Buf} {full : List Char} (h : Holds b full) (s : List Char) (hp : 0 < b.size) :
    Holds (b.print s) (full ++ s) := by
  obtain ⟨h1, h2, h3, h4⟩ := h
  have hl : full.length ≤ 8191 := by omega
  unfold Buf.print
  rw [if_pos hp]
  refine ⟨?_, by simp [h2], by simp [h3]; omega, ?_⟩
  · simp only
    rw [h1, List.take_append, List.take_of_length_le hl, h3]
    have : (8192 - (full.length : Int)).toNat - 1 = 8191 - full.length := by omega
    rw [this]
    congr 1
    by_cases hs : s.length ≤ 8191 - full.length
    · rw [Nat.min_eq_left hs, List.take_length, List.take_of_length_le hs]
    · rw [Nat.min_eq_right (by omega)]
  · simp only [h2]
    have := Nat.min_le_right s.length (b.size.toNat - 1)
    omega

theorem holds_cat {b : Buf} {full : List Char} (h : Holds b full) (s : List Char)
    (hp : (s.length : Int) < b.size) : Holds (b.cat s) (full ++ s) := by
  obtain ⟨h1, h2, h3, h4⟩ := h
  unfold Buf.cat
  refine ⟨?_, by simp [h2], by simp [h3]; omega, ?_⟩
  · simp only
    rw [h1, Nat.min_eq_left (by omega), List.take_length, List.take_of_length_le (by omega),
      List.take_of_length_le (by simp; omega)]
  · simp only [h2]
    have := Nat.min_le_left s.length b.size.toNat
    omega

theorem holds_copy {b : Buf} {full : List Char} (h : Holds b full) (s : List Char) (hp : 0 < b.size) :
    Holds (b.copy s) (full ++ s) := by
  obtain ⟨h1, h2, h3, h4⟩ := h
  have hl : full.length ≤ 8191 := by omega
  have ht : max b.touched (b.pos + b.size.toNat) ≤ 8192 := by rw [h2]; omega
  have hn : b.size.toNat = 8192 - full.length := by omega
  unfold Buf.copy
  simp only
  by_cases hz : b.size - (s.length : Int) ≤ 0
  · rw [if_pos hz]
    refine ⟨?_, by simp [h2], by simp [h3]; omega, ht⟩
    simp only [logMax]
    rw [h1, hn, List.take_of_length_le hl]
    rw [List.take_append, List.take_append, List.take_take]
    congr 2
    omega
  · rw [if_neg hz]
    refine ⟨?_, by simp [h2], by simp [h3]; omega, ht⟩
    simp only
    rw [h1, List.take_of_length_le hl, List.take_of_length_le (by omega),
      List.take_of_length_le (by simp; omega)]

theorem holds_spec {b : Buf} {full : List Char} (h : Holds b full) : b.text.length < 8192 ∧ b.text <+: full ∧
    (0 < b.size → b.text = full) := by
  obtain ⟨h1, h2, h3, h4⟩ := h
  refine ⟨?_, ?_, ?_⟩
  · rw [h1, List.length_take]; omega
  · rw [h1]; exact List.take_prefix _ _
  · intro hp
    rw [h1]
    exact List.take_of_length_le (by omega)

/-- **C49**: whatever the length of the message and of the error text, nothing is written outside the buffer (the name of
the function fits into it), the string ends inside it, and it is an initial part of the full text. If nothing is appended
to tell the reader, the text is complete. -/
theorem C49_message (func msg : List Char) (err : Option (List Char × Bool)) (hf : func.length + 2 < 8192) :
    (message func msg err).1.touched ≤ 8192 ∧ (message func msg err).1.text.length < 8192 ∧
    (message func msg err).1.text <+: fullText func msg err ∧
    ((message func msg err).2 = [] → (message func msg err).1.text = fullText func msg err ∧
      ∀ e t, err = some (e, t) → t = false) ∧
    ((message func msg err).2 = [] ∨ (message func msg err).2 = "[truncated...]".toList) := by
  have ht : "[truncated...]".toList ≠ [] := by decide +kernel
  have hc : (": ".toList).length = 2 := by decide +kernel
  have h0 : Holds ⟨[], 0, logMax, 0⟩ [] := ⟨by simp, rfl, by simp [logMax], by simp⟩
  have h1 := holds_print h0 (func ++ ": ".toList) (by simp [logMax])
  have hs1 : 0 < (Buf.print ⟨[], 0, logMax, 0⟩ (func ++ ": ".toList)).size := by
    rw [h1.size]; simp only [List.nil_append, List.length_append, hc]; omega
  have h2 := holds_print h1 msg hs1
  unfold message fullText
  dsimp only
  generalize "[truncated...]".toList = tr at *
  generalize ((Buf.print ⟨[], 0, logMax, 0⟩ (func ++ ": ".toList)).print msg) = b at *
  simp only [List.nil_append] at h2
  cases err with
  | none =>
    simp only [List.append_nil]
    obtain ⟨a1, a2, a3⟩ := holds_spec h2
    refine ⟨h2.touched, a1, a2, ?_, ?_⟩
    · split
      · intro h; exact absurd h ht
      · intro _; exact ⟨a3 (by omega), by simp⟩
    · split <;> simp
  | some et =>
    obtain ⟨e, t⟩ := et
    simp only
    by_cases hb : 2 < b.size
    · rw [if_pos hb]
      have h3 := holds_cat h2 ": ".toList (by rw [hc]; exact hb)
      have hs3 : 0 < (b.cat ": ".toList).size := by
        have := h3.size
        rw [this, List.length_append, hc]
        have := h2.size
        omega
      have h4 := holds_copy h3 e hs3
      obtain ⟨a1, a2, a3⟩ := holds_spec h4
      simp only [List.append_assoc] at a2 a3 ⊢
      refine ⟨h4.touched, a1, a2, ?_, ?_⟩
      · split
        · intro h; exact absurd h ht
        · intro h
          refine ⟨a3 (by omega), ?_⟩
          intro e' t' he
          cases he
          by_contra htt
          simp only [Bool.not_eq_false] at htt
          rw [if_pos htt] at h
          exact ht h
      · split
        · simp
        · split <;> simp
    · rw [if_neg hb]
      obtain ⟨a1, a2, a3⟩ := holds_spec h2
      refine ⟨h2.touched, a1, ?_, ?_, ?_⟩
      · exact a2.trans (List.prefix_append _ _)
      · simp only [ite_self]
        intro h; exact absurd h ht
      · simp

/-- **C49**, the line: a message is printed exactly if its level reaches the configured level and there is an output, or the
level is FATAL; the line goes to the configured output (else standard error) and is not cut: it has the header, the level,
the text, the mark and ends with a newline. The stream is flushed exactly if the level reaches the flush level. -/
theorem C49_line (c : Config) (level : Level) (head func msg : List Char) (err : Option (List Char × Bool))
    (hf : func.length + 2 < 8192) (hh : head.length < 256) :
    log c level head func msg err =
      if (c.output ≠ none ∨ level = .fatal) ∧ c.level.num ≤ level.num then
        some (c.output.getD .stderr, '[' :: head ++ level.text ++ " UMF] ".toList ++
          (message func msg err).1.text ++ (message func msg err).2 ++ ['\n'],
          decide (c.flush.num ≤ level.num))
      else none := by
  obtain ⟨_, h2, _, _, h5⟩ := C49_message func msg err hf
  have h6 : (message func msg err).2.length ≤ 14 := by
    rcases h5 with h | h <;> rw [h] <;> decide +kernel
  have h7 : level.text.length = 5 := by cases level <;> decide +kernel
  have h8 : (" UMF] ".toList).length = 6 := by decide +kernel
  unfold log
  by_cases g1 : c.output = none ∧ level ≠ .fatal
  · rw [if_pos g1, if_neg]
    rintro ⟨h | h, _⟩
    · exact h g1.1
    · exact g1.2 h
  · rw [if_neg g1]
    have g1' : c.output ≠ none ∨ level = .fatal := by
      by_cases h : c.output = none
      · exact Or.inr (by_contra fun hx => g1 ⟨h, hx⟩)
      · exact Or.inl h
    by_cases g2 : level.num < c.level.num
    · rw [if_pos g2, if_neg (fun h => by omega)]
    · rw [if_neg g2, if_pos ⟨g1', by omega⟩]
      simp only
      rw [List.take_of_length_le]
      simp only [List.length_append, List.length_cons, List.length_nil, h7, h8, logMax, logHeader]
      omega

end Verif.Log
