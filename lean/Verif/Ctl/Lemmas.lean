import Verif.Ctl.Spec
import Mathlib.Data.List.TakeWhile
import Mathlib.Tactic.Conv
namespace Verif.Ctl
variable {H : Type}

theorem parts_nil (sep : Char) : parts sep [] = [] := by
  simp [parts]

theorem parts_sep (sep : Char) (s : List Char) : parts sep (sep :: s) = parts sep s := by
  simp [parts, List.splitOn_cons_eq_if_modifyHead]

theorem parts_seps (sep : Char) (l s : List Char) (h : ∀ c ∈ l, c = sep) : parts sep (l ++ s) = parts sep s := by
  induction l with
  | nil => rfl
  | cons c l ih =>
    have : c = sep := h c (by simp)
    subst this
    rw [List.cons_append, parts_sep]
    exact ih fun x hx => h x (by simp [hx])

theorem parts_tok (sep : Char) (t : List Char) (ht : sep ∉ t) (hne : t ≠ []) : parts sep t = [t] := by
  simp [parts, List.splitOn_eq_singleton ht, hne]

theorem parts_tok_cons (sep : Char) (t r : List Char) (ht : sep ∉ t) (hne : t ≠ []) :
    parts sep (t ++ sep :: r) = t :: parts sep r := by
  unfold parts
  rw [List.splitOn_append_cons_of_beq t r (by simp), List.splitOn_eq_singleton ht]
  simp [hne]

theorem drop_takeWhile {α : Type} (p : α → Bool) (s : List α) :
    s.drop (s.takeWhile p).length = s.dropWhile p := by
  induction s with
  | nil => rfl
  | cons a s ih =>
    by_cases h : p a
    · simp [h, ih]
    · simp [h]

theorem strtok_none {sep : Char} {s : List Char} (h : strtok sep s = none) : parts sep s = [] := by
  unfold strtok at h
  simp only at h
  split at h
  · rename_i h0
    rw [drop_takeWhile] at h0
    have e : s = s.takeWhile (· == sep) ++ [] := by
      rw [← h0]
      exact (List.takeWhile_append_dropWhile).symm
    rw [e, parts_seps _ _ _ (fun c hc => by
      have := List.mem_takeWhile_imp hc
      simpa using this), parts_nil]
  · cases h

theorem strtok_some {sep : Char} {s t rest : List Char} {o : Nat} (h : strtok sep s = some (o, t, rest)) :
    parts sep s = t :: parts sep rest ∧ t ≠ [] ∧ sep ∉ t ∧ parts sep (s.drop o) = t :: parts sep rest ∧
      (s.drop o).head? ≠ some sep ∧ rest.length < s.length ∧ rest = s.drop (o + t.length + 1) ∧
      (∀ c ∈ s.take o, c = sep) ∧ t = (s.drop o).take t.length ∧
      (∀ c, (s.drop (o + t.length)).head? = some c → c = sep) := by
  unfold strtok at h
  simp only at h
  split at h
  · cases h
  · rename_i h0
    rw [Option.some.injEq, Prod.mk.injEq, Prod.mk.injEq] at h
    obtain ⟨ho, ht, hrest⟩ := h
    subst ho
    generalize hs' : s.drop (s.takeWhile (· == sep)).length = s' at *
    have hd : s.dropWhile (· == sep) = s' := by rw [← hs', drop_takeWhile]
    have hs : s = s.takeWhile (· == sep) ++ s' := by
      rw [← hd]
      exact (List.takeWhile_append_dropWhile).symm
    have hpre : ∀ c ∈ s.takeWhile (· == sep), c = sep := fun c hc => by
      have := List.mem_takeWhile_imp hc
      simpa using this
    have hh : s'.head? ≠ some sep := by
      intro hc
      have := List.head?_dropWhile_not (· == sep) s
      rw [hd, hc] at this
      simp at this
    obtain ⟨c, s1, rfl⟩ : ∃ c s1, s' = c :: s1 := by
      cases s' with
      | nil => exact absurd rfl h0
      | cons c s1 => exact ⟨c, s1, rfl⟩
    have hcsep : c ≠ sep := fun hc => hh (by rw [hc]; rfl)
    have htne : t ≠ [] := by
      rw [← ht]
      simp [hcsep]
    have htsep : sep ∉ t := by
      intro hc
      rw [← ht] at hc
      have := List.mem_takeWhile_imp hc
      simp at this
    have hsplit := (List.takeWhile_append_dropWhile (p := (· != sep)) (l := c :: s1)).symm
    rw [ht] at hsplit
    have hr : rest = ((c :: s1).dropWhile (· != sep)).drop 1 := by
      rw [← hrest, ← drop_takeWhile, ht, List.drop_drop]
    have hp : parts sep (c :: s1) = t :: parts sep rest := by
      rw [hr]
      cases hdw : (c :: s1).dropWhile (· != sep) with
      | nil =>
        rw [hdw, List.append_nil] at hsplit
        rw [hsplit, parts_tok _ _ htsep htne]
        simp [parts_nil]
      | cons d r =>
        have hdsep : d = sep := by
          have := List.head?_dropWhile_not (· != sep) (c :: s1)
          rw [hdw] at this
          simpa using this
        subst hdsep
        rw [hdw] at hsplit
        rw [hsplit, parts_tok_cons _ _ _ htsep htne]
        rfl
    refine ⟨?_, htne, htsep, hp, hh, ?_, ?_, ?_, ?_, ?_⟩
    · rw [hs, parts_seps _ _ _ hpre]
      exact hp
    · have l1 : s.length = (s.takeWhile (· == sep)).length + (c :: s1).length := by
        conv_lhs => rw [hs]
        simp
      have l2 : rest.length < (c :: s1).length := by
        rw [← hrest]
        simp only [List.length_drop, List.length_cons]
        omega
      omega
    · rw [← hrest, ht, ← hs', List.drop_drop]
      congr 1
    · intro x hx
      apply hpre
      have := List.takeWhile_prefix (p := (· == sep)) (l := s)
      rw [List.prefix_iff_eq_take.1 this]
      simpa using hx
    · conv_rhs => rw [hsplit]
      simp
    · intro d hdd
      rw [← List.drop_drop, hs', hsplit] at hdd
      simp only [List.drop_left] at hdd
      have := List.head?_dropWhile_not (· != sep) (c :: s1)
      rw [hdd] at this
      simpa using this

theorem tokens_snd (sep : Char) (fuel pos : Nat) (s : List Char) (h : s.length < fuel) :
    (tokens sep fuel pos s).map Prod.snd = parts sep s := by
  induction fuel generalizing pos s with
  | zero => omega
  | succ fuel ih =>
    unfold tokens
    split
    · rename_i h0
      rw [strtok_none h0]
      rfl
    · rename_i o t rest h0
      obtain ⟨h1, _, _, _, _, h6, _⟩ := strtok_some h0
      rw [h1, List.map_cons, ih _ _ (by omega)]

theorem toks_snd (sep : Char) (s : List Char) : (toks sep s).map Prod.snd = parts sep s :=
  tokens_snd _ _ _ _ (by omega)

/-- Where a token begins. -/
theorem tokens_off (sep : Char) (full : List Char) (fuel : Nat) {s : List Char} {pos : Nat} (h : s.length < fuel)
    (hs : s = full.drop pos) (hpos : pos = 0 ∨ full[pos - 1]? = some sep ∨ full.length ≤ pos) {l1 l2 : List (Nat × List Char)}
    {o : Nat} {t : List Char} (he : tokens sep fuel pos s = l1 ++ (o, t) :: l2) :
    parts sep (full.drop o) = t :: l2.map Prod.snd ∧ (full.drop o).head? ≠ some sep ∧ o < full.length ∧
      (o = 0 ∨ full[o - 1]? = some sep) := by
  induction fuel generalizing pos s l1 with
  | zero => omega
  | succ fuel ih =>
    unfold tokens at he
    split at he
    · simp at he
    · rename_i o' t' rest h0
      obtain ⟨h1, h2, h3, h4, h5, h6, h7, h8, h9, h10⟩ := strtok_some h0
      have hlt : pos + o' < full.length := by
        have : (s.drop o') ≠ [] := by
          intro hc
          rw [hc] at h9
          simp at h9
          exact h2 h9
        rw [hs, List.drop_drop] at this
        rw [Ne, List.drop_eq_nil_iff] at this
        omega
      cases l1 with
      | nil =>
        simp only [List.nil_append, List.cons.injEq, Prod.mk.injEq] at he
        obtain ⟨⟨rfl, rfl⟩, rfl⟩ := he
        rw [hs, List.drop_drop] at h4 h5
        refine ⟨?_, h5, hlt, ?_⟩
        · rw [h4, tokens_snd _ _ _ _ (by omega)]
        · by_cases ho : o' = 0
          · subst ho
            simp only [Nat.add_zero] at *
            rcases hpos with h | h | h
            · exact .inl h
            · exact .inr h
            · omega
          · right
            have : s[o' - 1]? = some sep := by
              have hl : o' - 1 < s.length := by
                rw [hs, List.length_drop]
                omega
              rw [List.getElem?_eq_getElem hl]
              congr 1
              apply h8
              rw [List.mem_take_iff_getElem]
              exact ⟨o' - 1, by omega, rfl⟩
            rw [hs, List.getElem?_drop] at this
            rw [← this]
            congr 1
            omega
      | cons a l1 =>
        simp only [List.cons_append, List.cons.injEq] at he
        obtain ⟨-, he⟩ := he
        refine ih (by omega) ?_ ?_ he
        · rw [h7, hs, List.drop_drop]
          congr 1
          omega
        · by_cases hl : full.length ≤ pos + o' + t'.length + 1
          · exact .inr (.inr hl)
          · right
            left
            have hl2 : pos + o' + t'.length < full.length := by omega
            have h11 := h10 (full[pos + o' + t'.length]) (by
              rw [hs, List.drop_drop, List.head?_drop, ← Nat.add_assoc, List.getElem?_eq_getElem hl2])
            rw [Nat.add_sub_cancel, List.getElem?_eq_getElem hl2, h11]

theorem toks_off {sep : Char} {s : List Char} {l1 l2 : List (Nat × List Char)} {o : Nat} {t : List Char}
    (he : toks sep s = l1 ++ (o, t) :: l2) :
    parts sep (s.drop o) = t :: l2.map Prod.snd ∧ (s.drop o).head? ≠ some sep ∧
      ∃ pre, s = pre ++ s.drop o ∧ (pre = [] ∨ ∃ p, pre = p ++ [sep]) := by
  obtain ⟨h1, h2, h3, h4⟩ := tokens_off sep s _ (by omega) (by simp) (.inl rfl) he
  refine ⟨h1, h2, s.take o, (List.take_append_drop o s).symm, ?_⟩
  rcases h4 with rfl | h4
  · exact .inl rfl
  · right
    refine ⟨s.take (o - 1), ?_⟩
    by_cases ho : o = 0
    · subst ho
      exfalso
      simp only [Nat.zero_sub] at h4
      rw [List.drop_zero] at h2
      cases s with
      | nil => simp at h4
      | cons a s => exact h2 (by simpa using h4)
    · obtain ⟨k, rfl⟩ : ∃ k, o = k + 1 := ⟨o - 1, by omega⟩
      rw [Nat.add_sub_cancel] at *
      rw [List.take_add_one, h4]
      rfl

/-! ## Numbers -/

theorem digits_ne_nil {base : Nat} {c : Char} {t : List Char} :
    digits base (c :: t) ≠ [] ↔ ∃ d, digit c = some d ∧ d < base := by
  unfold digits
  cases h : digit c with
  | none => simp
  | some d =>
    by_cases hd : d < base
    · simp [hd]
    · simp [hd]

theorem digit_dec {c : Char} : (∃ d, digit c = some d ∧ d < 10) ↔ '0' ≤ c ∧ c ≤ '9' := by
  have e0 : ('0' ≤ c) ↔ 48 ≤ c.toNat := Iff.rfl
  have e9 : (c ≤ '9') ↔ c.toNat ≤ 57 := Iff.rfl
  have ea : ('a' ≤ c) ↔ 97 ≤ c.toNat := Iff.rfl
  have eA : ('A' ≤ c) ↔ 65 ≤ c.toNat := Iff.rfl
  unfold digit
  constructor
  · rintro ⟨d, h, hd⟩
    split at h
    · assumption
    · split at h
      · rename_i h2
        rw [Option.some.injEq] at h
        have := ea.1 h2.1
        omega
      · split at h
        · rename_i h2
          rw [Option.some.injEq] at h
          have := eA.1 h2.1
          omega
        · cases h
  · intro h
    rw [if_pos h]
    refine ⟨_, rfl, ?_⟩
    have := e9.1 h.2
    omega

theorem digits_prefix (s : List Char) :
    digits (prefixOf s).1 (prefixOf s).2 ≠ [] ↔ ∃ c t, s = c :: t ∧ '0' ≤ c ∧ c ≤ '9' := by
  unfold prefixOf
  split
  · rename_i x t
    split
    · rename_i h
      exact ⟨fun _ => ⟨'0', x :: t, rfl, by decide, by decide⟩, fun _ => h.2⟩
    · refine ⟨fun _ => ⟨'0', x :: t, rfl, by decide, by decide⟩, fun _ => ?_⟩
      rw [digits_ne_nil]
      exact ⟨0, by decide, by show 0 < 8; decide⟩
  · refine ⟨fun _ => ⟨'0', [], rfl, by decide, by decide⟩, fun _ => by decide⟩
  · cases s with
    | nil => simp [digits]
    | cons c t =>
      rw [digits_ne_nil, digit_dec]
      constructor
      · intro h
        exact ⟨c, t, rfl, h⟩
      · rintro ⟨c', t', h, h'⟩
        cases h
        exact h'

theorem isSpace_eq : isSpace = blank := by
  funext c
  unfold isSpace blank
  rw [Bool.eq_iff_iff]
  simp only [Bool.or_eq_true, beq_iff_eq, Bool.and_eq_true, decide_eq_true_eq, List.mem_cons, List.not_mem_nil, or_false]
  have hn : ∀ n : Nat, (hn : n < 256) → (c.toNat = n ↔ c = Char.ofNat n) := by
    intro n hn
    constructor
    · intro h
      rw [← h, Char.ofNat_toNat]
    · rintro rfl
      have : ∀ n : Fin 256, (Char.ofNat n.1).toNat = n.1 := by decide +kernel
      exact this ⟨n, hn⟩
  have h9 := hn 9 (by omega)
  have h10 := hn 10 (by omega)
  have h11 := hn 11 (by omega)
  have h12 := hn 12 (by omega)
  have h13 := hn 13 (by omega)
  have : (9 ≤ c.toNat ∧ c.toNat ≤ 13) ↔ c.toNat = 9 ∨ c.toNat = 10 ∨ c.toNat = 11 ∨ c.toNat = 12 ∨ c.toNat = 13 := by omega
  rw [this, h9, h10, h11, h12, h13]

theorem isSpace_digit {c : Char} (h : '0' ≤ c) : isSpace c = false := by
  have e0 : 48 ≤ c.toNat := h
  unfold isSpace
  simp only [Bool.or_eq_false_iff, beq_eq_false_iff_ne, Bool.and_eq_false_iff, decide_eq_false_iff_not]
  refine ⟨fun hc => ?_, .inr (by omega)⟩
  rw [hc] at e0
  revert e0
  decide

theorem dropWhile_all {α : Type} {p : α → Bool} {ws s : List α} (h : ∀ x ∈ ws, p x = true)
    (hs : ∀ c t, s = c :: t → p c = false) : (ws ++ s).dropWhile p = s := by
  induction ws with
  | nil =>
    cases s with
    | nil => rfl
    | cons c t => simp [hs c t rfl]
  | cons a ws ih =>
    rw [List.cons_append, List.dropWhile_cons, if_pos (h a (by simp))]
    exact ih fun x hx => h x (by simp [hx])

theorem strtoll_isSome (s : List Char) : (strtoll s).isSome = true ↔ StartsWithNumber s := by
  unfold StartsWithNumber
  rw [← isSpace_eq]
  have key : (strtoll s).isSome = true ↔
      digits (prefixOf (signOf (s.dropWhile isSpace)).2).1 (prefixOf (signOf (s.dropWhile isSpace)).2).2 ≠ [] := by
    unfold strtoll
    dsimp only
    split
    · rename_i h
      simp [h]
    · rename_i h
      simp only [ne_eq, h, not_false_eq_true, iff_true]
      split <;> split <;> first | rfl | (split <;> rfl)
  rw [key, digits_prefix]
  constructor
  · rintro ⟨c, t, h, hc⟩
    refine ⟨s.takeWhile isSpace, (if (s.dropWhile isSpace).head? = some '-' then ['-'] else
      if (s.dropWhile isSpace).head? = some '+' then ['+'] else []), c, t, ?_,
      fun x hx => List.mem_takeWhile_imp hx, ?_, hc⟩
    · conv_lhs => rw [← List.takeWhile_append_dropWhile (p := isSpace) (l := s)]
      rw [List.append_assoc]
      congr 1
      unfold signOf at h
      split at h
      · rename_i t' e
        rw [e]
        simp at h
        simp [h]
      · rename_i t' e
        rw [e]
        simp at h
        simp [h]
      · rename_i e1 e2
        simp at h
        rw [h]
        have n1 : c ≠ '-' := fun e => e1 t (by rw [h, e])
        have n2 : c ≠ '+' := fun e => e2 t (by rw [h, e])
        simp [n1, n2]
    · split
      · simp
      · split <;> simp
  · rintro ⟨ws, sign, c, rest, rfl, hw, hsg, hc⟩
    refine ⟨c, rest, ?_, hc⟩
    have h1 : c ≠ '-' := by
      rintro rfl
      exact absurd hc.1 (by decide)
    have h2 : c ≠ '+' := by
      rintro rfl
      exact absurd hc.1 (by decide)
    rw [List.append_assoc, dropWhile_all hw]
    · rcases hsg with rfl | rfl | rfl
      · unfold signOf
        split
        · rename_i e
          cases e
          exact absurd rfl h1
        · rename_i e
          cases e
          exact absurd rfl h2
        · rfl
      · rfl
      · rfl
    · intro d t e
      rcases hsg with rfl | rfl | rfl
      · cases e
        exact isSpace_digit hc.1
      · cases e
        decide
      · cases e
        decide

/-! ## Names -/

theorem fits_iff (n : Node H) (tok : List Char) :
    ((((strtoll tok).map Prod.fst).isSome && n.isIndexed) || n.name == tok) = true ↔ Fits n tok := by
  have h := strtoll_isSome tok
  rw [Option.isSome_map]
  cases n with
  | indexed name cs =>
    simp only [Node.isIndexed, Node.name, Fits, Bool.and_true, Bool.or_eq_true, beq_iff_eq, h]
    exact Or.comm
  | named name cs => simp [Node.isIndexed, Node.name, Fits]
  | leaf name cb arg => simp [Node.isIndexed, Node.name, Fits]
  | subtree name cb => simp [Node.isIndexed, Node.name, Fits]

theorem scan_some {nodes : List (Node H)} {tok : List Char} {n : Node H} :
    scan nodes tok ((strtoll tok).map Prod.fst).isSome = some n ↔ Selects nodes tok n := by
  unfold scan Selects
  rw [List.find?_eq_some_iff_append]
  constructor
  · rintro ⟨h1, as, bs, h2, h3⟩
    refine ⟨as, bs, h2, (fits_iff n tok).1 h1, fun m hm hf => ?_⟩
    have := h3 m hm
    rw [(fits_iff m tok).2 hf] at this
    cases this
  · rintro ⟨as, bs, h2, h1, h3⟩
    refine ⟨(fits_iff n tok).2 h1, as, bs, h2, fun m hm => ?_⟩
    rw [Bool.not_eq_true', ← Bool.not_eq_true]
    exact fun hf => h3 m hm ((fits_iff m tok).1 hf)

theorem scan_none {nodes : List (Node H)} {tok : List Char} :
    scan nodes tok ((strtoll tok).map Prod.fst).isSome = none ↔ ∀ n ∈ nodes, ¬ Fits n tok := by
  unfold scan
  rw [List.find?_eq_none]
  constructor
  · intro h n hn hf
    exact h n hn ((fits_iff n tok).2 hf)
  · intro h n hn hf
    exact h n hn ((fits_iff n tok).1 hf)

/-- What the search finds. -/
def Found (ts : List (Nat × List Char)) (nodes : List (Node H)) (r : Option (Option (Node H × Nat) × List Index)) : Prop :=
  (r = none ∧ TooLong nodes (ts.map Prod.snd)) ∨
  (∃ ix, r = some (none, ix) ∧ Missing nodes (ts.map Prod.snd)) ∨
  ∃ n o ix l1 l2 t rest, r = some (some (n, o), ix) ∧ Resolves nodes (ts.map Prod.snd) n rest ∧ ts = l1 ++ (o, t) :: l2 ∧
    ((n.isSubtree = true ∧ rest ≠ [] ∧ rest = t :: l2.map Prod.snd) ∨ (rest = [] ∧ l2 = []))

theorem findLoop_found (ts : List (Nat × List Char)) (hne : ts ≠ []) (nodes : List (Node H)) (n : Option (Node H))
    (hn : (n.map Node.isSubtree).getD false = false) (off : Nat) (ix : List Index) :
    Found ts nodes (findLoop ts (some nodes) n off ix) := by
  induction ts generalizing nodes n off ix with
  | nil => exact absurd rfl hne
  | cons a ts ih =>
    obtain ⟨o, tok⟩ := a
    unfold findLoop
    rw [if_neg (by rw [hn]; decide)]
    dsimp only
    cases hsc : scan nodes tok ((strtoll tok).map Prod.fst).isSome with
    | none => exact .inr (.inl ⟨_, rfl, .here (scan_none.1 hsc)⟩)
    | some m =>
      have hsel := scan_some.1 hsc
      dsimp only
      generalize ((strtoll tok).map Prod.fst).map (Index.mk m.name ·) = e
      cases ts with
      | nil =>
        refine .inr (.inr ⟨m, o, e.toList ++ ix, [], [], tok, [], rfl, .last hsel, rfl, .inr ⟨rfl, rfl⟩⟩)
      | cons b ts =>
        have lift : ∀ cs, (∀ (segs : List (List Char)) (m' : Node H) (rest : List (List Char)),
              Resolves cs segs m' rest → Resolves nodes (tok :: segs) m' rest) →
            (∀ segs : List (List Char), segs ≠ [] → Missing cs segs → Missing nodes (tok :: segs)) →
            (∀ segs : List (List Char), TooLong cs segs → TooLong nodes (tok :: segs)) →
            (some m).map Node.isSubtree = some false →
            Found ((o, tok) :: b :: ts) nodes (findLoop (b :: ts) (some cs) (some m) o (e.toList ++ ix)) := by
          intro cs l1 l2 l3 l4
          rcases ih (by simp) cs (some m) (by rw [l4]; rfl) o (e.toList ++ ix) with
            ⟨h1, h2⟩ | ⟨ix', h1, h2⟩ | ⟨n', o', ix', p1, p2, t', rest, h1, h2, h3, h4⟩
          · exact .inl ⟨h1, l3 _ h2⟩
          · exact .inr (.inl ⟨ix', h1, l2 _ (by simp) h2⟩)
          · exact .inr (.inr ⟨n', o', ix', (o, tok) :: p1, p2, t', rest, h1, l1 _ _ _ h2, by rw [h3]; rfl, h4⟩)
        cases m with
        | named name cs =>
          exact lift cs (fun _ _ _ h => .named hsel h) (fun _ h h' => .named hsel h h') (fun _ h => .named hsel h) rfl
        | indexed name cs =>
          exact lift cs (fun _ _ _ h => .indexed hsel h) (fun _ h h' => .indexed hsel h h') (fun _ h => .indexed hsel h) rfl
        | leaf name cb arg =>
          refine .inl ⟨rfl, .leaf hsel (by simp)⟩
        | subtree name cb =>
          obtain ⟨o', t'⟩ := b
          refine .inr (.inr ⟨_, o', e.toList ++ ix, [(o, tok)], ts, t', _, rfl, .subtree hsel (by simp), rfl,
            .inl ⟨rfl, by simp, rfl⟩⟩)

theorem selects_unique {nodes : List (Node H)} {seg : List Char} {n m : Node H} (h : Selects nodes seg n)
    (h' : Selects nodes seg m) : n = m := by
  have := (scan_some.2 h).symm.trans (scan_some.2 h')
  exact Option.some.inj this

theorem selects_mem {nodes : List (Node H)} {seg : List Char} {n : Node H} (h : Selects nodes seg n) :
    n ∈ nodes ∧ Fits n seg := by
  obtain ⟨a, b, rfl, h, _⟩ := h
  exact ⟨by simp, h⟩

theorem resolves_ne {nodes : List (Node H)} {segs : List (List Char)} {n : Node H} {r : List (List Char)}
    (h : Resolves nodes segs n r) : segs ≠ [] := by
  cases h <;> simp

theorem tooLong_ne {nodes : List (Node H)} {segs : List (List Char)} (h : TooLong nodes segs) : segs ≠ [] := by
  cases h <;> simp

theorem resolves_unique {nodes : List (Node H)} {segs : List (List Char)} {n n' : Node H} {r r' : List (List Char)}
    (h : Resolves nodes segs n r) (h' : Resolves nodes segs n' r') : n = n' ∧ r = r' := by
  induction h with
  | last s =>
    cases h' with
    | last s' => exact ⟨selects_unique s s', rfl⟩
    | named _ x => exact absurd rfl (resolves_ne x)
    | indexed _ x => exact absurd rfl (resolves_ne x)
    | subtree _ x => exact absurd rfl x
  | named s x ih =>
    cases h' with
    | last _ => exact absurd rfl (resolves_ne x)
    | named s' x' => cases selects_unique s s'; exact ih x'
    | indexed s' _ => cases selects_unique s s'
    | subtree s' _ => cases selects_unique s s'
  | indexed s x ih =>
    cases h' with
    | last _ => exact absurd rfl (resolves_ne x)
    | indexed s' x' => cases selects_unique s s'; exact ih x'
    | named s' _ => cases selects_unique s s'
    | subtree s' _ => cases selects_unique s s'
  | subtree s x =>
    cases h' with
    | last _ => exact absurd rfl x
    | named s' _ => cases selects_unique s s'
    | indexed s' _ => cases selects_unique s s'
    | subtree s' _ => exact ⟨selects_unique s s', rfl⟩

theorem resolves_not_missing {nodes : List (Node H)} {segs : List (List Char)} {n : Node H} {r : List (List Char)}
    (h : Resolves nodes segs n r) (h' : Missing nodes segs) : False := by
  induction h with
  | last s =>
    cases h' with
    | here x => exact x _ (selects_mem s).1 (selects_mem s).2
    | named _ x => exact x rfl
    | indexed _ x => exact x rfl
  | named s x ih =>
    cases h' with
    | here x => exact x _ (selects_mem s).1 (selects_mem s).2
    | named s' _ x' => cases selects_unique s s'; exact ih x'
    | indexed s' _ => cases selects_unique s s'
  | indexed s x ih =>
    cases h' with
    | here x => exact x _ (selects_mem s).1 (selects_mem s).2
    | indexed s' _ x' => cases selects_unique s s'; exact ih x'
    | named s' _ => cases selects_unique s s'
  | subtree s x =>
    cases h' with
    | here x => exact x _ (selects_mem s).1 (selects_mem s).2
    | named s' _ => cases selects_unique s s'
    | indexed s' _ => cases selects_unique s s'

theorem resolves_not_tooLong {nodes : List (Node H)} {segs : List (List Char)} {n : Node H} {r : List (List Char)}
    (h : Resolves nodes segs n r) (h' : TooLong nodes segs) : False := by
  induction h with
  | last s =>
    cases h' with
    | leaf _ x => exact x rfl
    | named _ x => exact tooLong_ne x rfl
    | indexed _ x => exact tooLong_ne x rfl
  | named s x ih =>
    cases h' with
    | leaf s' _ => cases selects_unique s s'
    | named s' x' => cases selects_unique s s'; exact ih x'
    | indexed s' _ => cases selects_unique s s'
  | indexed s x ih =>
    cases h' with
    | leaf s' _ => cases selects_unique s s'
    | indexed s' x' => cases selects_unique s s'; exact ih x'
    | named s' _ => cases selects_unique s s'
  | subtree s x =>
    cases h' with
    | leaf s' _ => cases selects_unique s s'
    | named s' _ => cases selects_unique s s'
    | indexed s' _ => cases selects_unique s s'

theorem missing_not_tooLong {nodes : List (Node H)} {segs : List (List Char)} (h : Missing nodes segs)
    (h' : TooLong nodes segs) : False := by
  induction h with
  | empty => exact tooLong_ne h' rfl
  | here x =>
    cases h' with
    | leaf s _ => exact x _ (selects_mem s).1 (selects_mem s).2
    | named s _ => exact x _ (selects_mem s).1 (selects_mem s).2
    | indexed s _ => exact x _ (selects_mem s).1 (selects_mem s).2
  | named s _ _ ih =>
    cases h' with
    | leaf s' _ => cases selects_unique s s'
    | named s' x => cases selects_unique s s'; exact ih x
    | indexed s' _ => cases selects_unique s s'
  | indexed s _ _ ih =>
    cases h' with
    | leaf s' _ => cases selects_unique s s'
    | indexed s' x => cases selects_unique s s'; exact ih x
    | named s' _ => cases selects_unique s s'

theorem findNode_found (nodes : List (Node H)) (name : List Char) :
    (parts '.' name = [] ∧ findNode nodes name = some (none, [])) ∨
    (Found (toks '.' name) nodes (findNode nodes name)) := by
  by_cases h : toks '.' name = []
  · left
    rw [← toks_snd, h]
    refine ⟨rfl, ?_⟩
    unfold findNode
    rw [h]
    rfl
  · exact .inr (findLoop_found _ h _ _ rfl _ _)

theorem findNode_missing {nodes : List (Node H)} {name : List Char} (h : Missing nodes (parts '.' name)) :
    ∃ ix, findNode nodes name = some (none, ix) := by
  rcases findNode_found nodes name with ⟨_, h1⟩ | ⟨_, h2⟩ | ⟨ix, h1, h2⟩ | ⟨n, o, ix, l1, l2, t, rest, h1, h2, _⟩
  · exact ⟨_, h1⟩
  · rw [toks_snd] at h2
    exact (missing_not_tooLong h h2).elim
  · exact ⟨ix, h1⟩
  · rw [toks_snd] at h2
    exact (resolves_not_missing h2 h).elim

theorem findNode_tooLong {nodes : List (Node H)} {name : List Char} (h : TooLong nodes (parts '.' name)) :
    findNode nodes name = none := by
  rcases findNode_found nodes name with ⟨h0, h1⟩ | ⟨h1, h2⟩ | ⟨ix, h1, h2⟩ | ⟨n, o, ix, l1, l2, t, rest, h1, h2, _⟩
  · exact absurd h0 (tooLong_ne h)
  · exact h1
  · rw [toks_snd] at h2
    exact (missing_not_tooLong h2 h).elim
  · rw [toks_snd] at h2
    exact (resolves_not_tooLong h2 h).elim

theorem findNode_resolves {nodes : List (Node H)} {name : List Char} {n : Node H} {rest : List (List Char)}
    (h : Resolves nodes (parts '.' name) n rest) :
    ∃ o ix, findNode nodes name = some (some (n, o), ix) ∧ (rest ≠ [] → IsRest name (name.drop o) rest) ∧
      (rest = [] → ∃ seg, (parts '.' name).getLast? = some seg ∧ IsRest name (name.drop o) [seg]) := by
  rcases findNode_found nodes name with ⟨h0, h1⟩ | ⟨h1, h2⟩ | ⟨ix, h1, h2⟩ | ⟨n', o, ix, l1, l2, t, rest', h1, h2, h3, h4⟩
  · exact absurd h0 (resolves_ne h)
  · rw [toks_snd] at h2
    exact (resolves_not_tooLong h h2).elim
  · rw [toks_snd] at h2
    exact (resolves_not_missing h h2).elim
  · rw [toks_snd] at h2
    obtain ⟨rfl, rfl⟩ := resolves_unique h h2
    obtain ⟨a, b, c⟩ := toks_off h3
    refine ⟨o, ix, h1, ?_, ?_⟩
    · intro hr
      rcases h4 with ⟨_, _, h5⟩ | ⟨h5, _⟩
      · exact ⟨c, by rw [a, h5], b⟩
      · exact absurd h5 hr
    · intro hr
      rcases h4 with ⟨_, h5, _⟩ | ⟨_, h6⟩
      · exact absurd hr h5
      · subst h6
        refine ⟨t, ?_, c, a, b⟩
        rw [← toks_snd, h3]
        simp

end Verif.Ctl
