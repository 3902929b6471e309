import Verif.ProxyOpt.Lemmas
/-!
# C83: the options of the proxy library
-/
namespace Verif.ProxyOpt

open Verif.Log (IsItem logInit)

/-- The debug message is only printed if `UMF_LOG` asks for it. -/
theorem quiet_spec {umfLog : Option (List Char)} (hq : Quiet umfLog) (fopen : List Char → Bool) :
    logsDebug (logInit umfLog fopen) = false := by
  cases h : logsDebug (logInit umfLog fopen) with
  | false => rfl
  | true =>
    exfalso
    unfold logsDebug at h
    simp only [Bool.and_eq_true, decide_eq_true_eq] at h
    cases umfLog with
    | none => exact absurd (show Option.isSome (none : Option Verif.Log.Output) = true from h.1) (by decide)
    | some v =>
      apply hq v rfl
      apply Verif.Log.C40_sound (by decide +kernel)
      have h2 := h.2
      unfold logInit at h2
      dsimp only at h2
      split at h2
      · cases h2
      · dsimp only [Verif.Log.initLevel] at h2
        cases hp : Verif.Log.parseVar v "level:debug".toList with
        | true => rfl
        | false =>
          exfalso
          have e : ("level" ++ ":debug").toList = "level:debug".toList := by decide +kernel
          simp only [e, hp] at h2
          revert h2
          simp only [Verif.Log.defaults]
          repeat' split
          all_goals simp_all

theorem granted_symbols {a : Ans} (h : Granted a) : systemSymbols a = true := by
  unfold systemSymbols
  rw [h.2.2.2.2.2]
  rfl

/-- The threshold, for a documented list. -/
theorem threshold_doc {e : Env} {var : List Char} {n : Nat} (he : e.umfProxy = some var) (hd : Documented var)
    (hn : Asks var n) (hs : n < 2 ^ 63) (log : Verif.Log.Config) (hq : logsDebug log = false) :
    getSizeThreshold e log = .ok n := by
  unfold getSizeThreshold
  dsimp only
  rw [if_neg (by simp [hq]), he]
  show (match sizeThreshold (getStr (some var) thrOpt) with
    | .ok (some n) => Res.ok n | .ok none => .exit | .exit => .exit | .undef => .undef) = _
  cases hg : getStr (some var) thrOpt with
  | none =>
    rcases hn with ⟨rfl, _⟩ | ⟨pre, v, post, h, _⟩
    · rfl
    · exact absurd (by rw [h]; simp) (getStr_none hg pre (v ++ post))
  | some s =>
    obtain ⟨a, b, e1, e2, e3⟩ := getStr_some hg
    obtain ⟨v, post, f1, f2, f3, f4⟩ := first_is_asked hd e1 e3 hn
    rw [e2, f1, sizeThreshold_num f2 (semi_head f3) (by omega), ← f4]

/-- C83: if `UMF_PROXY` follows the documented syntax, the size threshold is a `long`, debug messages are off and nothing is
refused, the library starts with exactly what is asked for: the number in the first item `size.threshold=<value>` (0 if there is
none), shared memory if and only if one of the two visibility options is an item, and the documented name of the shared memory
if it is `page.disposition=shared-shm` only. Missing: the cases of the theorems `_violated` below. -/
theorem C83_start_partial {e : Env} {var : List Char} {n : Nat} {a : Ans} (he : e.umfProxy = some var)
    (hd : Documented var) (hn : Asks var n) (hs : n < 2 ^ 63) (hq : Quiet e.umfLog) (ha : Granted a) :
    ∃ s, create e a = .ok s ∧ s.threshold = n ∧
      (s.shared = true ↔ IsItem var "page.disposition=shared-fd".toList ∨
        IsItem var "page.disposition=shared-shm".toList) ∧
      (s.shmName = some ("umf_proxy_lib_shm_pid_".toList ++ Nat.toDigits 10 a.pid) ↔
        IsItem var "page.disposition=shared-shm".toList ∧ ¬ IsItem var "page.disposition=shared-fd".toList) ∧
      (s.shmName = none ∨ s.shmName = some ("umf_proxy_lib_shm_pid_".toList ++ Nat.toDigits 10 a.pid)) := by
  have ht : applyThreshold e (logInit e.umfLog a.fopen) a ⟨0, false, none⟩ = .ok ⟨n, false, none⟩ := by
    unfold applyThreshold
    rw [threshold_doc he hd hn hs _ (quiet_spec hq _)]
    dsimp only
    rw [granted_symbols ha]
    by_cases h0 : n > 0
    · rw [if_pos h0, if_pos rfl]
    · rw [if_neg h0, show n = 0 by omega]
  obtain ⟨h1, h2, h3, h4, h5, _⟩ := ha
  have hfd := has_disp hd (Or.inl rfl)
  have hshm := has_disp hd (Or.inr rfl)
  have hc : create e a = applyDisposition e a ⟨n, false, none⟩ := by
    unfold create
    dsimp only
    rw [if_neg (by simp [h1]), ht]
    dsimp only
    cases applyDisposition e a ⟨n, false, none⟩ with
    | ok s => dsimp only; rw [if_neg (by simp [h4]), if_neg (by simp [h5])]
    | exit => rfl
    | undef => rfl
  rw [hc]
  unfold applyDisposition
  rw [he]
  change ∃ s, (if hasStr (some var) fdOpt = true then _ else if hasStr (some var) shmOpt = true then _ else _) = _ ∧ _ ∧
    (_ ↔ IsItem var fdOpt ∨ IsItem var shmOpt) ∧ (_ ↔ IsItem var shmOpt ∧ ¬ IsItem var fdOpt) ∧ _
  by_cases c1 : hasStr (some var) fdOpt = true
  · rw [if_pos c1, if_neg (by simp [h2]), if_neg (by simp [h3])]
    refine ⟨_, rfl, rfl, ?_, ?_, Or.inl rfl⟩
    · simp [hfd.1 c1]
    · simp [hfd.1 c1]
  · rw [if_neg c1]
    have c1' : ¬ IsItem var fdOpt := fun h => c1 (hfd.2 h)
    by_cases c2 : hasStr (some var) shmOpt = true
    · rw [if_pos c2, if_neg (by simp [h2]), if_neg (by simp [h3])]
      refine ⟨_, rfl, rfl, ?_, ?_, Or.inr rfl⟩
      · simp [hshm.1 c2]
      · simp only [hshm.1 c2, c1', not_false_eq_true, and_self, iff_true]
        rfl
    · rw [if_neg c2]
      have c2' : ¬ IsItem var shmOpt := fun h => c2 (hshm.2 h)
      refine ⟨_, rfl, rfl, ?_, ?_, Or.inl rfl⟩
      · simp [c1', c2']
      · simp [c2']

/-- C83: without `UMF_PROXY` there is no threshold and no shared memory. -/
theorem C83_unset {e : Env} {a : Ans} (he : e.umfProxy = none) (hq : Quiet e.umfLog) (ha : Granted a) :
    create e a = .ok ⟨0, false, none⟩ := by
  obtain ⟨h1, h2, h3, h4, h5, _⟩ := ha
  have hq := quiet_spec hq a.fopen
  unfold create applyThreshold getSizeThreshold applyDisposition
  dsimp only
  rw [he, if_neg (by simp [h1]), if_neg (by simp [hq])]
  simp [getStr, hasStr, sizeThreshold, h4, h5]

/-- C83: the library runs only if everything it needs was there; a threshold above 0 needs all functions of the system
allocator. For every environment. -/
theorem C83_refused {e : Env} {a : Ans} {s : Setup} (h : create e a = .ok s) :
    a.params = true ∧ a.provider = true ∧ a.pool = true ∧
    (s.threshold > 0 → a.symbols = (true, true, true, true, true, true)) ∧
    (s.shared = true → a.visibility = true ∧ a.name = true) := by
  unfold create at h
  dsimp only at h
  split at h
  · cases h
  rename_i h1
  split at h
  · cases h
  · cases h
  rename_i s1 hs1
  split at h
  · cases h
  · cases h
  rename_i s2 hs2
  split at h
  · cases h
  rename_i h4
  split at h
  · cases h
  rename_i h5
  cases h
  have k1 : s1.shared = false ∧ (s1.threshold > 0 → systemSymbols a = true) := by
    unfold applyThreshold at hs1
    split at hs1
    · split at hs1
      · split at hs1
        · rename_i hy
          cases hs1
          exact ⟨rfl, fun _ => hy⟩
        · cases hs1
      · cases hs1
        exact ⟨rfl, fun h => absurd h (by simp)⟩
    · cases hs1
    · cases hs1
  have k2 : s.threshold = s1.threshold ∧ (s.shared = true → a.visibility = true ∧ a.name = true) := by
    unfold applyDisposition at hs2
    split at hs2
    · split at hs2
      · cases hs2
      · rename_i hv
        split at hs2
        · cases hs2
        · rename_i hm
          cases hs2
          exact ⟨rfl, fun _ => ⟨by simpa using hv, by simpa using hm⟩⟩
    · split at hs2
      · split at hs2
        · cases hs2
        · rename_i hv
          split at hs2
          · cases hs2
          · rename_i hm
            cases hs2
            exact ⟨rfl, fun _ => ⟨by simpa using hv, by simpa using hm⟩⟩
      · cases hs2
        exact ⟨rfl, fun h => by rw [k1.1] at h; cases h⟩
  refine ⟨by simpa using h1, by simpa using h4, by simpa using h5, ?_, k2.2⟩
  intro ht
  have := k1.2 (by rw [← k2.1]; exact ht)
  unfold systemSymbols at this
  simp only [Bool.and_eq_true] at this
  obtain ⟨⟨⟨⟨⟨x1, x2⟩, x3⟩, x4⟩, x5⟩, x6⟩ := this
  exact Prod.ext x1 (Prod.ext x2 (Prod.ext x3 (Prod.ext x4 (Prod.ext x5 x6))))

/-- The threshold with which the library runs. -/
theorem threshold_of_create {e : Env} {a : Ans} {s : Setup} (h : create e a = .ok s) :
    getSizeThreshold e (logInit e.umfLog a.fopen) = .ok s.threshold := by
  unfold create at h
  dsimp only at h
  split at h
  · cases h
  split at h
  · cases h
  · cases h
  rename_i s1 hs1
  split at h
  · cases h
  · cases h
  rename_i s2 hs2
  split at h
  · cases h
  split at h
  · cases h
  cases h
  have k1 : getSizeThreshold e (logInit e.umfLog a.fopen) = .ok s1.threshold := by
    unfold applyThreshold at hs1
    split at hs1
    · rename_i n hn
      rw [hn]
      split at hs1
      · split at hs1
        · cases hs1; rfl
        · cases hs1
      · cases hs1
        rename_i h0
        rw [show n = 0 by omega]
    · cases hs1
    · cases hs1
  have k2 : s.threshold = s1.threshold := by
    unfold applyDisposition at hs2
    repeat' split at hs2
    all_goals first | (cases hs2; rfl) | cases hs2
  rw [k1, k2]

/-- C83: for every value of `UMF_PROXY`, documented or not: if the library runs, either the text `size.threshold=` does not
occur and the threshold is 0, or it occurs with a number after it and the threshold is that number. So it never runs with a
threshold that is not a number, and never ignores one. -/
theorem C83_sound {e : Env} {var : List Char} {a : Ans} {s : Setup} (he : e.umfProxy = some var)
    (h : create e a = .ok s) :
    ((¬ "size.threshold=".toList <:+: var) ∧ s.threshold = 0) ∨
    ∃ p v q, var = p ++ "size.threshold=".toList ++ v ++ q ∧ IsDecimal v ∧
      (∀ c, q.head? = some c → c.isDigit = false) ∧ s.threshold = Nat.ofDigitChars 10 v 0 ∧ s.threshold < 2 ^ 63 := by
  have h := threshold_of_create h
  unfold getSizeThreshold at h
  dsimp only at h
  split at h
  · cases h
  rw [he] at h
  change (match sizeThreshold (getStr (some var) thrOpt) with
    | .ok (some n) => Res.ok n | .ok none => .exit | .exit => .exit | .undef => .undef) = _ at h
  cases hg : getStr (some var) thrOpt with
  | none =>
    left
    rw [hg] at h
    simp only [sizeThreshold, Res.ok.injEq] at h
    refine ⟨?_, h.symm⟩
    rintro ⟨x, y, hxy⟩
    exact getStr_none hg x y hxy.symm
  | some str =>
    right
    rw [hg] at h
    obtain ⟨p, b, e1, e2, _⟩ := getStr_some hg
    rw [e2, sizeThreshold_some] at h
    obtain ⟨v, q, f1, f2, f3⟩ := digits_split b
    cases b with
    | nil => cases h
    | cons c t =>
      dsimp only at h
      by_cases g1 : c.toNat > 127
      · rw [if_pos g1] at h; cases h
      rw [if_neg g1] at h
      by_cases g2 : c.isDigit = true
      · rw [if_neg (by simp [g2])] at h
        by_cases g3 : atolDigits (c :: t) 0 ≥ 2 ^ 63
        · rw [if_pos g3] at h; cases h
        rw [if_neg g3] at h
        simp only [Res.ok.injEq] at h
        have hval : atolDigits (c :: t) 0 = Nat.ofDigitChars 10 v 0 := by rw [f1]; exact atol_eq f2 f3 0
        refine ⟨p, v, q, ?_, ⟨?_, f2⟩, f3, by rw [← h, hval], by omega⟩
        · rw [e1, f1]
          show p ++ thrOpt ++ (v ++ q) = p ++ thrOpt ++ v ++ q
          simp
        · rintro rfl
          have := f3 c (by rw [List.nil_append] at f1; rw [← f1]; rfl)
          rw [g2] at this; cases this
      · rw [if_pos g2] at h; cases h

/-- C83: a process that runs with a threshold above 0 and has the library preloaded keeps the tracker and the base allocator at
the end, since the system's `free` may be called with its pointers; without the library preloaded they are always destroyed. -/
theorem C83_tearDown {e : Env} {a : Ans} {s : Setup} (h : create e a = .ok s) :
    (s.threshold > 0 → (∃ v, e.ldPreload = some v ∧ "libumf_proxy.so".toList <:+: v) → tearDownDestroys e = false) ∧
    ((∀ v, e.ldPreload = some v → ¬ "libumf_proxy.so".toList <:+: v) → tearDownDestroys e = true) := by
  constructor
  · rintro h0 ⟨v, hv, x, y, hxy⟩
    have hp : inProxy e = true := by
      unfold inProxy
      rw [hv, hasStr_some]
      exact ⟨x, y, hxy.symm⟩
    cases hu : e.umfProxy with
    | none =>
      have h := threshold_of_create h
      unfold getSizeThreshold at h
      dsimp only at h
      split at h
      · cases h
      rw [hu] at h
      simp only [getStr, sizeThreshold, Res.ok.injEq] at h
      omega
    | some var =>
      rcases C83_sound hu h with ⟨_, h'⟩ | ⟨p, w, q, hw, _⟩
      · omega
      · unfold tearDownDestroys inProxyWithThreshold
        have : hasStr e.umfProxy "size.threshold=".toList = true := by
          rw [hu, hasStr_some]
          exact ⟨p, w ++ q, by rw [hw]; simp⟩
        rw [hp, this]
        rfl
  · intro hn
    have hp : inProxy e = false := by
      cases hb : inProxy e with
      | false => rfl
      | true =>
        exfalso
        unfold inProxy at hb
        cases hl : e.ldPreload with
        | none => rw [hl] at hb; cases hb
        | some v =>
          rw [hl, hasStr_some] at hb
          obtain ⟨x, y, hxy⟩ := hb
          exact hn v hl ⟨x, y, hxy.symm⟩
    unfold tearDownDestroys inProxyWithThreshold
    rw [hp]
    rfl

/-- Every number is asked for by its decimal digits. -/
theorem asks_number (n : Nat) : Asks (thrOpt ++ Nat.toDigits 10 n) n := by
  right
  refine ⟨[], Nat.toDigits 10 n, [], by simp, Or.inl rfl, Or.inl rfl, ⟨?_, ?_⟩, Nat.ofDigitChars_ten_toDigits.symm, ?_⟩
  · intro h0
    have := Nat.length_toDigits_pos (b := 10) (n := n)
    rw [h0] at this
    simp at this
  · intro c hc
    exact Nat.isDigit_of_mem_toDigits (by decide) (by decide) hc
  · rintro v ⟨_, pre, post, e, _⟩
    have := e.symm
    simp only [List.append_eq_nil_iff] at this
    exact absurd this.1.2.1 (by decide +kernel)

end Verif.ProxyOpt
