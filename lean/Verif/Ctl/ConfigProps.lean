import Verif.Ctl.Lemmas
import Mathlib.Data.Nat.Digits.Lemmas
/-!
# Configurations (C39)
-/
namespace Verif.Ctl
variable {H : Type}

theorem parseQuery_some {q name val : List Char} (h : parts '=' q = [name, val]) : parseQuery q = some (name, val) := by
  unfold parseQuery
  rw [← toks_snd] at h
  match ht : toks '=' q, h with
  | [(a, b), (c, d)], h =>
    simp only [List.map_cons, List.map_nil, List.cons.injEq, and_true] at h
    simp [h]

theorem parseQuery_none {q : List Char} (h : ∀ name val, parts '=' q ≠ [name, val]) : parseQuery q = none := by
  unfold parseQuery
  split
  · rename_i x y ht
    exact absurd (by rw [← toks_snd, ht]; rfl) (h _ _)
  · rfl

theorem loadLoop_done {run : Call H → Int} {glob : List (Node H)} {ctl : Option (List (Node H))} {strict : Bool}
    {good rest : List (List Char)} {cs : List (Call H)} (h : Done run glob ctl strict good cs) :
    ∃ l, loadLoop run glob ctl strict (good ++ rest) =
      (loadLoop run glob ctl strict rest).map fun r => ⟨r.ret, cs ++ r.calls, r.leaked ++ l⟩ := by
  induction h with
  | nil =>
    refine ⟨[], ?_⟩
    rw [List.nil_append]
    cases loadLoop run glob ctl strict rest with
    | none => rfl
    | some r => simp
  | @cons q name val qs out cs h1 h2 h3 _ ih =>
    obtain ⟨l, ih⟩ := ih
    refine ⟨l ++ out.leaked, ?_⟩
    rw [List.cons_append, loadLoop, parseQuery_some h1]
    dsimp only
    rw [h2]
    dsimp only
    rw [if_neg (by rcases h3 with h | h <;> simp [h]), ih]
    cases loadLoop run glob ctl strict rest with
    | none => rfl
    | some r => simp

/-- C39. If all queries of a configuration have the form name=value and none of them fails, they are executed, in the order of
the text, and loading succeeds. -/
theorem C39_all {run : Call H → Int} {glob : List (Node H)} {ctl : Option (List (Node H))} {strict : Bool} {s : List Char}
    {cs : List (Call H)} (h : Done run glob ctl strict (parts ';' s) cs) :
    ∃ out, loadString run glob ctl strict s = some out ∧ out.ret = 0 ∧ out.calls = cs := by
  unfold loadString
  rw [toks_snd]
  obtain ⟨l, h1⟩ := loadLoop_done (rest := []) h
  rw [List.append_nil] at h1
  rw [h1]
  exact ⟨_, rfl, rfl, by simp⟩

/-- C39. A query that does not have this form is reported; the queries before it were executed, it and the queries after it are
not. -/
theorem C39_malformed {run : Call H → Int} {glob : List (Node H)} {ctl : Option (List (Node H))} {strict : Bool}
    {s bad : List Char} {good rest : List (List Char)} {cs : List (Call H)} (hs : parts ';' s = good ++ bad :: rest)
    (h : Done run glob ctl strict good cs) (hb : ∀ name val, parts '=' bad ≠ [name, val]) :
    ∃ out, loadString run glob ctl strict s = some out ∧ out.ret = -1 ∧ out.calls = cs := by
  unfold loadString
  rw [toks_snd, hs]
  obtain ⟨l, h1⟩ := loadLoop_done (rest := bad :: rest) h
  rw [h1, loadLoop, parseQuery_none hb]
  exact ⟨_, rfl, rfl, by simp⟩

/-- C39. A query that fails is reported if there is a context; the queries after it are not executed. -/
theorem C39_fails {run : Call H → Int} {glob : List (Node H)} {ctl : Option (List (Node H))} {s q name val : List Char}
    {good rest : List (List Char)} {cs : List (Call H)} {out : Out H} (hs : parts ';' s = good ++ q :: rest)
    (h : Done run glob ctl true good cs) (hq : parts '=' q = [name, val])
    (ho : query run glob ctl (.config val) name .write = some out) (hf : out.ret < 0) :
    ∃ out', loadString run glob ctl true s = some out' ∧ out'.ret = -1 ∧ out'.calls = cs ++ out.calls := by
  unfold loadString
  rw [toks_snd, hs]
  obtain ⟨l, h1⟩ := loadLoop_done (rest := q :: rest) h
  rw [h1, loadLoop, parseQuery_some hq]
  dsimp only
  rw [ho]
  dsimp only
  rw [if_pos ⟨hf, rfl⟩]
  exact ⟨_, rfl, rfl, rfl⟩

/-! ## Files -/

/-- One line without its comment and white space. -/
def lineText (line : List Char) : List Char := (line.takeWhile (· ≠ '#')).filter fun c => !isSpace c

theorem strip_both (f : List Char) : ∃ h tl, f.splitOn '\n' = h :: tl ∧
    stripLoop false f = lineText h ++ (tl.map lineText).flatten ∧ stripLoop true f = (tl.map lineText).flatten := by
  induction f with
  | nil => exact ⟨[], [], by simp, rfl, rfl⟩
  | cons c t ih =>
    obtain ⟨h, tl, h1, h2, h3⟩ := ih
    rw [List.splitOn_cons_eq_if_modifyHead, h1]
    by_cases hn : c = '\n'
    · subst hn
      refine ⟨[], h :: tl, by simp, ?_, ?_⟩
      · rw [stripLoop, if_neg (by decide), if_pos rfl, h2]
        rfl
      · rw [stripLoop, if_neg (by decide), if_pos rfl, h2]
        rfl
    · refine ⟨c :: h, tl, by simp [hn], ?_, ?_⟩
      · rw [stripLoop]
        by_cases hc : c = '#'
        · rw [if_pos hc, h3]
          simp [lineText, hc]
        · rw [if_neg hc, if_neg hn]
          by_cases hs : isSpace c
          · simp [hs, h2, lineText, hc]
          · simp [hs, h2, lineText, hc]
      · rw [stripLoop]
        by_cases hc : c = '#'
        · rw [if_pos hc, h3]
        · rw [if_neg hc, if_neg hn]
          simp [h3]

theorem strip_eq (f : List Char) : stripLoop false f = fileText f := by
  obtain ⟨h, tl, h1, h2, _⟩ := strip_both f
  rw [h2]
  unfold fileText
  rw [h1, ← isSpace_eq]
  rfl

theorem fileText_mem {f : List Char} {c : Char} (h : c ∈ fileText f) : c ∈ f := by
  rw [← strip_eq] at h
  generalize false = b at h
  induction f generalizing b with
  | nil => exact h
  | cons a t ih =>
    rw [stripLoop] at h
    split at h
    · exact List.mem_cons_of_mem _ (ih _ h)
    · split at h
      · exact List.mem_cons_of_mem _ (ih _ h)
      · split at h
        · rcases List.mem_cons.1 h with rfl | h
          · exact List.mem_cons_self
          · exact List.mem_cons_of_mem _ (ih _ h)
        · exact List.mem_cons_of_mem _ (ih _ h)

/-- C39. Loading a file is loading its text without comments and white space. -/
theorem C39_file {run : Call H → Int} {glob : List (Node H)} {ctl : Option (List (Node H))} {strict : Bool} {f : List Char}
    (hlen : f.length ≤ 2 ^ 20) (h0 : '\x00' ∉ f) :
    loadFile run glob ctl strict f = loadString run glob ctl strict (fileText f) := by
  unfold loadFile
  rw [if_neg (by omega), strip_eq]
  congr 1
  rw [List.takeWhile_eq_self_iff]
  intro c hc
  rw [bne_iff_ne]
  rintro rfl
  exact h0 (fileText_mem hc)

/-! ## Arguments -/

theorem digit_char {d : Nat} (h : d < 10) : digit (Char.ofNat (48 + d)) = some d := by
  have : ∀ d : Fin 10, digit (Char.ofNat (48 + d.1)) = some d.1 := by decide
  exact this ⟨d, h⟩

theorem char_ne {d : Nat} (h : d < 10) : isSpace (Char.ofNat (48 + d)) = false ∧ Char.ofNat (48 + d) ≠ '-' ∧
    Char.ofNat (48 + d) ≠ '+' ∧ (d ≠ 0 → Char.ofNat (48 + d) ≠ '0') := by
  have : ∀ d : Fin 10, isSpace (Char.ofNat (48 + d.1)) = false ∧ Char.ofNat (48 + d.1) ≠ '-' ∧
    Char.ofNat (48 + d.1) ≠ '+' ∧ (d.1 ≠ 0 → Char.ofNat (48 + d.1) ≠ '0') := by decide
  exact this ⟨d, h⟩

theorem digits_chars (l : List Nat) (hl : ∀ d ∈ l, d < 10) (tail : List Char)
    (ht : ∀ c t, tail = c :: t → ¬ ('0' ≤ c ∧ c ≤ '9')) :
    digits 10 (l.map (fun d => Char.ofNat (48 + d)) ++ tail) = l := by
  induction l with
  | nil =>
    cases tail with
    | nil => rfl
    | cons c t =>
      rw [List.map_nil, List.nil_append]
      by_contra hne
      exact ht c t rfl (digit_dec.1 (digits_ne_nil.1 hne))
  | cons d l ih =>
    rw [List.map_cons, List.cons_append, digits, digit_char (hl d (by simp))]
    dsimp only
    rw [if_pos (hl d (by simp)), ih fun x hx => hl x (by simp [hx])]

theorem value_reverse (l : List Nat) : value 10 l.reverse = Nat.ofDigits 10 l := by
  unfold value
  rw [List.foldl_reverse, Nat.ofDigits_eq_foldr]
  congr 1
  funext a b
  simp only [Nat.cast_id]
  omega

/-- The value of a numeral with other text after it. -/
theorem strtoll_numeral (v : Int) (tail : List Char) (ht : ∀ c t, tail = c :: t → ¬ ('0' ≤ c ∧ c ≤ '9'))
    (h0 : v = 0 → tail = []) : strtoll (numeral v ++ tail) =
      some (if v < -2 ^ 63 then (-2 ^ 63, true) else if 2 ^ 63 ≤ v then (2 ^ 63 - 1, true) else (v, false)) := by
  by_cases hv : v = 0
  · subst hv
    rw [h0 rfl]
    decide
  · obtain ⟨d, l, hl⟩ : ∃ d l, (Nat.digits 10 v.natAbs).reverse = d :: l := by
      cases hc : (Nat.digits 10 v.natAbs).reverse with
      | nil =>
        rw [List.reverse_eq_nil_iff, Nat.digits_eq_nil_iff_eq_zero] at hc
        omega
      | cons d l => exact ⟨d, l, rfl⟩
    have hlt : ∀ x ∈ d :: l, x < 10 := by
      intro x hx
      rw [← hl, List.mem_reverse] at hx
      exact Nat.digits_lt_base (by decide) hx
    have hd0 : d ≠ 0 := by
      have h1 : (Nat.digits 10 v.natAbs) ≠ [] := by
        intro h
        rw [h] at hl
        cases hl
      have h2 := Nat.getLast_digit_ne_zero 10 (m := v.natAbs) (by omega)
      have h3 : (Nat.digits 10 v.natAbs).getLast h1 = d := by
        rw [← List.head_reverse (by simpa using h1)]
        simp [hl]
      rw [← h3]
      exact h2
    obtain ⟨c1, c2, c3, c4⟩ := char_ne (hlt d (by simp))
    have hval : value 10 (d :: l) = v.natAbs := by
      rw [← hl, value_reverse, Nat.ofDigits_digits]
    generalize hch : Char.ofNat (48 + d) = ch at c1 c2 c3 c4
    have hbody : numeral v ++ tail = (if v < 0 then ['-'] else []) ++
        (ch :: (l.map (fun d => Char.ofNat (48 + d)) ++ tail)) := by
      unfold numeral
      rw [if_neg hv, hl, List.map_cons, hch]
      simp
    have hsig : signOf ((numeral v ++ tail).dropWhile isSpace) =
        (decide (v < 0), ch :: (l.map (fun d => Char.ofNat (48 + d)) ++ tail)) := by
      rw [hbody]
      by_cases hneg : v < 0
      · rw [if_pos hneg]
        simp [isSpace, signOf, hneg]
      · rw [if_neg hneg, List.nil_append, List.dropWhile_cons, if_neg (by simp [c1])]
        unfold signOf
        split
        · rename_i e
          cases e
          exact absurd rfl c2
        · rename_i e
          cases e
          exact absurd rfl c3
        · simp [hneg]
    have hpre : prefixOf (ch :: (l.map (fun d => Char.ofNat (48 + d)) ++ tail)) =
        (10, ch :: (l.map (fun d => Char.ofNat (48 + d)) ++ tail)) := by
      generalize l.map (fun d => Char.ofNat (48 + d)) ++ tail = r
      unfold prefixOf
      split
      · rename_i e
        cases e
        exact absurd rfl (c4 hd0)
      · rename_i e
        cases e
        exact absurd rfl (c4 hd0)
      · rfl
    have hdig : digits 10 (ch :: (l.map (fun d => Char.ofNat (48 + d)) ++ tail)) = d :: l := by
      have := digits_chars (d :: l) hlt tail ht
      rw [List.map_cons, hch] at this
      exact this
    unfold strtoll
    rw [hsig]
    dsimp only
    rw [hpre]
    dsimp only
    rw [hdig, if_neg (by simp), hval]
    have : (if decide (v < 0) = true then -(v.natAbs : Int) else (v.natAbs : Int)) = v := by
      by_cases hneg : v < 0
      · simp only [hneg, decide_true, if_true]
        omega
      · simp only [hneg, decide_false, Bool.false_eq_true, if_false]
        omega
    rw [this]
    split
    · rfl
    · split <;> rfl

theorem argInteger_numeral (v : Int) (size : Nat) (tail : List Char) (ht : ∀ c t, tail = c :: t → ¬ ('0' ≤ c ∧ c ≤ '9'))
    (h0 : v = 0 → tail = []) : argInteger (numeral v ++ tail) size =
      if (size = 4 ∧ -2 ^ 31 ≤ v ∧ v < 2 ^ 31) ∨ (size = 8 ∧ -2 ^ 63 < v ∧ v < 2 ^ 63) ∨ (size = 1 ∧ 0 ≤ v ∧ v < 256)
      then some (.int v) else none := by
  unfold argInteger parseLl
  rw [strtoll_numeral v tail ht h0]
  dsimp only
  by_cases h1 : v < -2 ^ 63
  · rw [if_pos h1]
    dsimp only
    rw [if_pos rfl, if_neg (by omega)]
  · rw [if_neg h1]
    by_cases h2 : 2 ^ 63 ≤ v
    · rw [if_pos h2]
      dsimp only
      rw [if_pos rfl, if_neg (by omega)]
    · rw [if_neg h2]
      dsimp only
      by_cases h3 : v = -2 ^ 63
      · rw [if_pos h3, if_neg (by omega)]
      · rw [if_neg h3]
        by_cases h4 : size = 4
        · rw [if_pos h4]
          by_cases h5 : -2 ^ 31 ≤ v ∧ v < 2 ^ 31
          · rw [if_neg (by omega), if_pos (.inl ⟨h4, h5⟩)]
          · rw [if_pos (by omega), if_neg (by omega)]
        · rw [if_neg h4]
          by_cases h5 : size = 8
          · rw [if_pos h5, if_pos (by omega)]
          · rw [if_neg h5]
            by_cases h6 : size = 1
            · rw [if_pos h6]
              by_cases h7 : 0 ≤ v ∧ v < 256
              · rw [if_neg (by omega), if_pos (by omega)]
              · rw [if_pos (by omega), if_neg (by omega)]
            · rw [if_neg h6, if_neg (by omega)]

/-- C39. The numeral of a number is stored as this number exactly if it fits: in 4 signed bytes, 8 signed bytes, or 1 unsigned
byte; otherwise it is refused. Missing: the smallest number of 8 bytes. -/
theorem C39_integer_partial (v : Int) (hv : v ≠ -2 ^ 63) (size : Nat) : argInteger (numeral v) size =
    if (size = 4 ∧ -2 ^ 31 ≤ v ∧ v < 2 ^ 31) ∨ (size = 8 ∧ -2 ^ 63 ≤ v ∧ v < 2 ^ 63) ∨ (size = 1 ∧ 0 ≤ v ∧ v < 256)
    then some (.int v) else none := by
  have := argInteger_numeral v size [] (by simp) (fun _ => rfl)
  rw [List.append_nil] at this
  rw [this]
  have e : (-2 ^ 63 < v) ↔ (-2 ^ 63 ≤ v) := by omega
  simp only [e]

/-- C39 is false for the smallest number of 8 bytes: it is refused. -/
theorem C39_smallest_violated : argInteger (numeral (-2 ^ 63)) 8 = none := by
  have := argInteger_numeral (-2 ^ 63) 8 [] (by simp) (fun h => by cases h)
  rw [List.append_nil] at this
  rw [this]
  decide

/-- C39 is false for numbers followed by other text: the text is ignored. -/
theorem C39_trailing_violated (v : Int) (hv : v ≠ 0) (size : Nat) (c : Char) (rest : List Char)
    (hc : ¬ ('0' ≤ c ∧ c ≤ '9')) : argInteger (numeral v ++ c :: rest) size = argInteger (numeral v) size := by
  rw [argInteger_numeral v size (c :: rest) (by
    intro c' t' e
    cases e
    exact hc) (fun h => absurd h hv)]
  have := argInteger_numeral v size [] (by simp) (fun _ => rfl)
  rw [List.append_nil] at this
  rw [this]

/-- C39. Boolean arguments: `y`, `Y` and `1` mean true, `n`, `N` and `0` false; text after the first character is ignored. -/
theorem C39_boolean (s : List Char) :
    (argBoolean s = some (.int 1) ↔ s.head? = some 'y' ∨ s.head? = some 'Y' ∨ s.head? = some '1') ∧
    (argBoolean s = some (.int 0) ↔ s.head? = some 'n' ∨ s.head? = some 'N' ∨ s.head? = some '0') ∧
    (argBoolean s = none ↔ ∀ c ∈ ['y', 'Y', '1', 'n', 'N', '0'], s.head? ≠ some c) := by
  cases s with
  | nil => simp [argBoolean]
  | cons c t =>
    unfold argBoolean
    simp only [List.head?_cons, Option.some.injEq]
    by_cases h1 : c = 'y' ∨ c = 'Y' ∨ c = '1'
    · rw [if_pos h1]
      rcases h1 with rfl | rfl | rfl <;> simp
    · rw [if_neg h1]
      by_cases h2 : c = 'n' ∨ c = 'N' ∨ c = '0'
      · rw [if_pos h2]
        rcases h2 with rfl | rfl | rfl <;> simp
      · rw [if_neg h2]
        simp only [not_or] at h1 h2
        simp [h1, h2]

/-- C39. A string is stored exactly if it fits with its terminating null character. -/
theorem C39_string (s : List Char) (size : Nat) :
    argString s size = if s.length + 1 ≤ size then some (.str s) else none := by
  unfold argString
  by_cases h : size ≤ s.length
  · rw [if_pos h, if_neg (by omega)]
  · rw [if_neg h, if_pos (by omega)]

/-- C39. Arguments with several fields: if every field has a value that can be parsed, each is stored at its offset; if there are
too few values, or one cannot be parsed, nothing is. -/
theorem C39_fields (proto : List Field) (arg : List Char) :
    (∀ vals : List Val, vals.length = proto.length →
      (∀ (i : Nat) f, proto[i]? = some f → ∃ t v, (parts ',' arg)[i]? = some t ∧ vals[i]? = some v ∧ parse f t = some v) →
      parseArgs proto arg = some ((proto.map Field.off).zip vals)) ∧
    (((parts ',' arg).length < proto.length ∨
        ∃ (i : Nat) (f : Field) (t : List Char), proto[i]? = some f ∧ (parts ',' arg)[i]? = some t ∧ parse f t = none) → parseArgs proto arg = none) := by
  unfold parseArgs
  rw [toks_snd]
  generalize parts ',' arg = ts
  induction proto generalizing ts with
  | nil =>
    refine ⟨?_, ?_⟩
    · intro vals h _
      cases vals with
      | nil => rfl
      | cons _ _ => simp at h
    · rintro (h | ⟨i, f, t, h, _⟩)
      · simp at h
      · simp at h
  | cons f fs ih =>
    refine ⟨?_, ?_⟩
    · intro vals hl h
      obtain ⟨t, v, h1, h2, h3⟩ := h 0 f rfl
      cases ts with
      | nil => simp at h1
      | cons t' ts =>
        cases vals with
        | nil => simp at hl
        | cons v' vals =>
          simp only [List.getElem?_cons_zero, Option.some.injEq] at h1 h2
          subst h1 h2
          rw [parseFields, h3]
          dsimp only
          rw [(ih ts).1 vals (by simpa using hl) (fun i f' hf => by
            obtain ⟨a, b, c⟩ := h (i + 1) f' (by simpa using hf)
            exact ⟨a, b, by simpa using c⟩)]
          rfl
    · intro h
      cases ts with
      | nil => rfl
      | cons t' ts =>
        rw [parseFields]
        cases hp : parse f t' with
        | none => rfl
        | some v =>
          dsimp only
          rw [(ih ts).2 ?_]
          · rfl
          · rcases h with h | ⟨i, f', t, h1, h2, h3⟩
            · left
              simpa using h
            · right
              cases i with
              | zero =>
                simp only [List.getElem?_cons_zero, Option.some.injEq] at h1 h2
                subst h1 h2
                rw [hp] at h3
                cases h3
              | succ i => exact ⟨i, f', t, by simpa using h1, by simpa using h2, h3⟩

/-- C39 is false for arguments with too many values: they are ignored. -/
theorem C39_tooMany_violated (f : Field) (t : List Char) (ts : List (List Char)) (arg : List Char)
    (h : parts ',' arg = t :: ts) : parseArgs [f] arg = (parse f t).map fun v => [(f.off, v)] := by
  unfold parseArgs
  rw [toks_snd, h, parseFields]
  cases parse f t with
  | none => rfl
  | some v => rfl

/-- C39. A write from a configuration runs the function of the leaf with the parsed argument, or fails. -/
theorem C39_write {run : Call H → Int} {glob : List (Node H)} {ctl : Option (List (Node H))} {name nm val : List Char}
    {cb : QType → Option H} {proto : List Field} (hr : Resolves glob (parts '.' name) (.leaf nm cb proto) []) {h : H}
    (hcb : cb .write = some h) :
    ∃ out ix, query run glob ctl (.config val) name .write = some out ∧
      (∀ vals, parseArgs proto val = some vals → out.calls = [⟨h, .parsed vals, ix, none, none⟩] ∧
        out.ret = run ⟨h, .parsed vals, ix, none, none⟩) ∧
      (parseArgs proto val = none → out.calls = [] ∧ out.ret = -1) := by
  obtain ⟨o, ix, h1, _⟩ := findNode_resolves hr
  unfold query
  rw [h1]
  simp only [exec, hcb, realArg]
  cases parseArgs proto val with
  | none => exact ⟨_, some [], rfl, fun _ h => (by cases h), fun _ => ⟨rfl, rfl⟩⟩
  | some vals => exact ⟨_, some [], rfl, fun _ h => (by cases h; exact ⟨rfl, rfl⟩), fun h => (by cases h)⟩

/-! ## Concrete cases -/

/-- A tree with two settings. -/
def demoTree : List (Node Nat) :=
  [.named "debug".toList
    [.leaf "level".toList (fun t => if t = .write then some 1 else none) [⟨0, 4, .integer⟩],
     .leaf "name".toList (fun t => if t = .write then some 2 else none) [⟨0, 8, .string⟩]]]

/-- Two queries, with a comment and white space. -/
example : fileText "debug.level = -12; # first
 debug.name=abc;
".toList = "debug.level=-12;debug.name=abc;".toList := by
  decide +kernel

example : loadString (fun _ => 0) demoTree none true "debug.level=-12;debug.name=abc;".toList =
    some ⟨0, [⟨1, .parsed [(0, .int (-12))], some [], none, none⟩, ⟨2, .parsed [(0, .str "abc".toList)], some [], none, none⟩],
      []⟩ := by
  rfl

/-- The hypotheses of the theorems on configurations are met. -/
example : Done (fun _ => 0) demoTree none true (parts ';' "debug.level=7".toList)
    [⟨1, .parsed [(0, .int 7)], some [], none, none⟩] := by
  have h1 : parts ';' "debug.level=7".toList = ["debug.level=7".toList] := by decide +kernel
  have h2 : parts '=' "debug.level=7".toList = ["debug.level".toList, "7".toList] := by decide +kernel
  rw [h1]
  exact .cons (out := ⟨0, [⟨1, .parsed [(0, .int 7)], some [], none, none⟩], []⟩) h2 rfl (.inl (by decide)) .nil

/-- A query without a value. -/
example : ∀ name val, parts '=' "debug.level=".toList ≠ [name, val] := by
  have h2 : parts '=' "debug.level=".toList = ["debug.level".toList] := by decide +kernel
  rw [h2]
  simp

end Verif.Ctl
