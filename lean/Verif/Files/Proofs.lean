import Verif.Files.Lemmas

/-! # Proofs about the functions -/
namespace Verif.Files

variable {keep : Bool} {R : St → St → Prop} {s s' : St} {r : Int}

theorem strstr_zero (s p : List Char) : strstr s p = some 0 ↔ p <+: s := by
  unfold strstr
  split
  next h => simpa using h
  next h =>
    have hn : ¬ p <+: s := by simpa using h
    cases s with
    | nil => simp [hn]
    | cons c t => simp [hn]

theorem strstr_some (s p : List Char) : strstr s p ≠ none ↔ p <:+: s := by
  induction s with
  | nil =>
    unfold strstr
    split
    next h => have h : p <+: [] := by simpa using h
              simpa using h.isInfix
    next h => simp at h ⊢; exact h
  | cons c t ih =>
    unfold strstr
    split
    next h => have h : p <+: c :: t := by simpa using h
              simpa using h.isInfix
    next h =>
      have hn : ¬ p <+: c :: t := by simpa using h
      rw [List.infix_cons_iff]
      simp only [hn, false_or, ← ih, ne_eq, Option.map_eq_none_iff]

theorem fileOpen_ok {path : Option (List Char)} (hR : ∀ s s', R s s' → Other s s') (h : Nothing s)
    (hr : Runs keep R (fileOpen path) s r s') : OneOrNone (path.map .path) r s' := by
  cases path with
  | none =>
    obtain ⟨rfl, hk⟩ := logged_keeps hR hr
    exact .inl ⟨rfl, h.keeps hk⟩
  | some p =>
    unfold fileOpen at hr
    rw [runs_call] at hr
    obtain ⟨s₁, a, s₂, h1, h2, h3⟩ := hr
    rcases open_cases (hR _ _ h1) h2 with ⟨ha, hk⟩ | ⟨n, f, ha, _, _, hg⟩
    · rw [if_pos ha] at h3
      obtain ⟨rfl, hk'⟩ := logged_keeps hR h3
      exact .inl ⟨ha, h.keeps (hk.trans hk')⟩
    · rw [if_neg (by omega), runs_ret, ha] at h3
      obtain ⟨rfl, rfl⟩ := h3
      exact .inr ⟨_, f, rfl, hg.just h, hg.traced⟩

theorem fileOpenOrCreate_ok {path : Option (List Char)} (hR : ∀ s s', R s s' → Other s s') (h : Nothing s)
    (hr : Runs keep R (fileOpenOrCreate path) s r s') : OneOrNone (path.map .path) r s' := by
  cases path with
  | none =>
    obtain ⟨rfl, hk⟩ := logged_keeps hR hr
    exact .inl ⟨rfl, h.keeps hk⟩
  | some p =>
    unfold fileOpenOrCreate at hr
    rw [runs_call] at hr
    obtain ⟨s₁, a, s₂, h1, h2, h3⟩ := hr
    rcases create_cases (hR _ _ h1) h2 with ⟨ha, hk⟩ | ⟨n, f, ha, hg⟩
    · rw [if_pos ha] at h3
      obtain ⟨rfl, hk'⟩ := logged_keeps hR h3
      exact .inl ⟨rfl, h.keeps (hk.trans hk')⟩
    · rw [if_neg (by omega), ha] at h3
      obtain ⟨rfl, hk'⟩ := logged_keeps hR h3
      exact .inr ⟨_, f, rfl, (hk'.grew hg).just h, (hk'.grew hg).traced⟩

theorem shmOpen_ok {name : Option (List Char)} (hR : ∀ s s', R s s' → Other s s') (h : Nothing s)
    (hr : Runs keep R (shmOpen name) s r s') : OneOrNone (name.map .shm) r s' := by
  cases name with
  | none =>
    obtain ⟨rfl, hk⟩ := logged_keeps hR hr
    exact .inl ⟨rfl, h.keeps hk⟩
  | some p =>
    unfold shmOpen at hr
    rw [runs_call] at hr
    obtain ⟨s₁, a, s₂, h1, h2, h3⟩ := hr
    rcases shmOpen_cases (hR _ _ h1) h2 with ⟨ha, hk⟩ | ⟨n, f, ha, hg⟩
    · rw [if_pos ha] at h3
      obtain ⟨rfl, hk'⟩ := logged_keeps hR h3
      exact .inl ⟨ha, h.keeps (hk.trans hk')⟩
    · rw [if_neg (by omega), runs_ret, ha] at h3
      obtain ⟨rfl, rfl⟩ := h3
      exact .inr ⟨_, f, rfl, hg.just h, hg.traced⟩

/-- A message, `close`, and the result -1. -/
theorem giveUp {src : Src} {n f : Nat} {s₀ : St} (hR : ∀ s s', R s s' → Other s s') (h : Nothing s₀)
    (hg : Grew s₀ src f n s)
    (hr : Runs keep R (.call .log fun _ => .call (.close (n : Int)) fun _ => .ret (-1)) s r s') : r = -1 ∧ Nothing s' := by
  rw [runs_call] at hr
  obtain ⟨s₁, _, s₂, h1, h2, h3⟩ := hr
  have hg2 := (log_keeps (hR _ _ h1) h2).grew hg
  rw [runs_call] at h3
  obtain ⟨s₃, _, s₄, h4, h5, h6⟩ := h3
  rw [runs_ret] at h6
  obtain ⟨rfl, rfl⟩ := h6
  exact ⟨rfl, close_nothing h hg2 (hR _ _ h4) h5⟩

/-- The runs of `utils_devdax_open`: those that return a descriptor opened a file under the path, found later that what is
under the path is a character device, and did nothing else. -/
theorem devdax_run {path : Option (List Char)} (hR : ∀ s s', R s s' → Other s s') (h : Nothing s)
    (hr : Runs keep R (devdaxOpen path) s r s') :
    (r = -1 ∧ Nothing s') ∨ ∃ p, path = some p ∧ "/dev/dax".toList <+: p ∧ ∃ n f g : Nat, ∃ s₂ s₃, r = n ∧
      s₂.path p = some f ∧ R s₂ s₃ ∧ s₃.path p = some g ∧ s₃.chr g = true ∧ s'.chr = s₃.chr ∧ Grew s (.path p) f n s' := by
  cases path with
  | none =>
    obtain ⟨rfl, hk⟩ := logged_keeps hR hr
    exact .inl ⟨rfl, h.keeps hk⟩
  | some p =>
    unfold devdaxOpen at hr
    dsimp only at hr
    split at hr
    · obtain ⟨rfl, hk⟩ := logged_keeps hR hr
      exact .inl ⟨rfl, h.keeps hk⟩
    next hpre =>
      have hpre' := (strstr_zero p _).1 (Decidable.not_not.1 hpre)
      rw [runs_call] at hr
      obtain ⟨s₁, a, s₂, h1, h2, h3⟩ := hr
      rcases open_cases (hR _ _ h1) h2 with ⟨ha, hk⟩ | ⟨n, f, ha, hp, hpp, hg⟩
      · rw [if_pos ha] at h3
        obtain ⟨rfl, hk'⟩ := logged_keeps hR h3
        exact .inl ⟨rfl, h.keeps (hk.trans hk')⟩
      · rw [if_neg (by omega), runs_call] at h3
        obtain ⟨s₃, b, s₄, h4, h5, h6⟩ := h3
        have hg4 := (stat_keeps (hR _ _ h4) h5).grew hg
        rw [ha] at h6
        split at h6
        · exact .inl (giveUp hR h hg4 h6)
        next hb =>
          split at h6
          · exact .inl (giveUp hR h hg4 h6)
          next hc =>
            rw [runs_ret] at h6
            obtain ⟨rfl, rfl⟩ := h6
            refine .inr ⟨p, rfl, hpre', n, f, ?_⟩
            rcases h5 with hf | ⟨g, e, hpg, rfl, _, rfl⟩
            · exact absurd hf.1 (by omega)
            · exact ⟨g, s₂, s₃, rfl, by rw [hpp, hp], h4, hpg, by simpa using hc, rfl, hg4⟩

theorem shmCreate_run {name : Option (List Char)} {size : Nat} (hR : ∀ s s', R s s' → Other s s') (h : Nothing s)
    (hr : Runs keep R (shmCreate name size) s r s') :
    (r = -1 ∧ Nothing s') ∨ ∃ p, name = some p ∧ ∃ n f : Nat, ∃ s₂ s₃ s₄ s₅, r = n ∧ s.next ≤ f ∧ Grew s (.shm p) f n s' ∧
      s₂.shm p = some f ∧ R s₂ s₃ ∧ s₄.size f = size ∧ s₄.shm = s₃.shm ∧ R s₄ s₅ ∧ s'.shm = s₅.shm ∧ s'.size = s₅.size := by
  cases name with
  | none =>
    obtain ⟨rfl, hk⟩ := logged_keeps hR hr
    exact .inl ⟨rfl, h.keeps hk⟩
  | some p =>
    unfold shmCreate at hr
    dsimp only at hr
    rw [runs_call] at hr
    obtain ⟨t₁, _, t₂, g1, g2, hr⟩ := hr
    have hk0 := unlink_keeps (hR _ _ g1) g2
    rw [runs_call] at hr
    obtain ⟨s₁, a, s₂, h1, h2, h3⟩ := hr
    rcases shmCreate_cases (hR _ _ h1) h2 with ⟨ha, hk⟩ | ⟨n, f, ha, hnf, hshm, hg⟩
    · rw [if_pos ha] at h3
      obtain ⟨rfl, hk'⟩ := logged_keeps hR h3
      exact .inl ⟨ha, h.keeps (hk0.trans (hk.trans hk'))⟩
    · rw [if_neg (by omega), runs_setErrno, runs_call] at h3
      obtain ⟨s₃, b, s₄, h4, h5, h6⟩ := h3
      have hg3 := hk0.before hg
      have hg4 := ((keeps_errno s₂ 0).trans (truncate_keeps (hR _ _ h4) h5)).grew hg3
      rw [runs_call] at h6
      obtain ⟨s₅, c, s₆, h7, h8, h9⟩ := h6
      have hg6 := (log_keeps (hR _ _ h7) h8).grew hg4
      rw [ha] at h9
      split at h9
      · rw [runs_call] at h9
        obtain ⟨u₁, _, u₂, i1, i2, i3⟩ := h9
        have hu := (log_keeps (hR _ _ i1) i2).grew hg6
        rw [runs_call] at i3
        obtain ⟨u₃, _, u₄, i4, i5, i6⟩ := i3
        have hn := close_nothing h hu (hR _ _ i4) i5
        rw [runs_call] at i6
        obtain ⟨u₅, _, u₆, i7, i8, i9⟩ := i6
        rw [runs_ret] at i9
        obtain ⟨rfl, rfl⟩ := i9
        exact .inl ⟨rfl, hn.keeps (unlink_keeps (hR _ _ i7) i8)⟩
      next hb =>
        rw [runs_ret] at h9
        obtain ⟨rfl, rfl⟩ := h9
        have hfd : s₃.fds n = some f := by
          have := (hR _ _ h4).keeps.2.2.2.2.2.2 n (by show n ∈ s₂.mine; rw [hg.1]; simp)
          exact this.trans hg.2.2.2.1
        rcases h5 with hf | ⟨m, f', e, hmn, hf', _, _, rfl⟩
        · exact absurd hf.1 (by omega)
        · have : m = n := by omega
          subst this
          rw [hfd] at hf'
          cases hf'
          obtain ⟨e', _, rfl⟩ := h8
          exact .inr ⟨p, rfl, m, f, { s₂ with errno := 0 }, s₃,
            { s₃ with size := upd s₃.size f size, errno := e }, s₅, rfl, Nat.le_trans hk0.2.2.2.1 hnf, hg6, hshm, h4,
            by simp [upd], rfl, h7, rfl, rfl⟩

theorem memfdCreate_ok (hR : ∀ s s', R s s' → Other s s') (h : Nothing s) (hr : Runs keep R memfdCreate s r s') :
    (r = -1 ∧ Nothing s') ∨ ∃ n f : Nat, r = n ∧ s.next ≤ f ∧ Grew s .anonymous f n s' := by
  unfold memfdCreate at hr
  rw [runs_call] at hr
  obtain ⟨s₁, a, s₂, h1, h2, h3⟩ := hr
  rcases memfd_cases (hR _ _ h1) h2 with ⟨ha, hk⟩ | ⟨n, f, ha, hn, hg⟩
  · rw [if_pos ha] at h3
    obtain ⟨rfl, hk'⟩ := logged_keeps hR h3
    exact .inl ⟨ha, h.keeps (hk.trans hk')⟩
  · rw [if_neg (by omega), ha] at h3
    split at h3
    · obtain ⟨rfl, hk'⟩ := logged_keeps hR h3
      exact .inr ⟨n, f, rfl, hn, hk'.grew hg⟩
    · rw [runs_ret] at h3
      obtain ⟨rfl, rfl⟩ := h3
      exact .inr ⟨n, f, rfl, hn, hg⟩

theorem anonymousFd_ok {env : Option (List Char)} (hR : ∀ s s', R s s' → Other s s')
    (h0 : (∃ v, env = some v ∧ "memfd_create".toList <:+: v) ∨ ∀ s s', R s s' → s'.fds 0 ≠ none) (h : Nothing s)
    (hr : Runs keep R (anonymousFd env) s r s') :
    (r = -1 ∧ Nothing s') ∨ ∃ n f : Nat, r = n ∧ s.next ≤ f ∧ Grew s .anonymous f n s' := by
  unfold anonymousFd at hr
  split at hr
  · exact memfdCreate_ok hR h hr
  next hne =>
    have h0 : ∀ s s', R s s' → s'.fds 0 ≠ none := by
      rcases h0 with ⟨v, rfl, hv⟩ | h0
      · refine absurd ?_ hne
        simpa [Option.isSome_iff_ne_none] using (strstr_some _ _).2 hv
      · exact h0
    rw [runs_call] at hr
    obtain ⟨s₁, a, s₂, h1, h2, h3⟩ := hr
    have h00 := h0 _ _ h1
    rcases secret_cases (hR _ _ h1) h2 with ⟨ha, hk⟩ | ⟨n, f, ha, hn, hg⟩
    · rw [if_pos ha, runs_call] at h3
      obtain ⟨s₃, b, s₄, h4, h5, h6⟩ := h3
      have hk4 := hk.trans (log_keeps (hR _ _ h4) h5)
      rcases memfdCreate_ok hR (h.keeps hk4) h6 with h' | ⟨n, f, hn, hf, hg⟩
      · exact .inl h'
      · exact .inr ⟨n, f, hn, Nat.le_trans hk4.2.2.2.1 hf, hk4.before hg⟩
    · rw [if_neg (by omega), ha] at h3
      split at h3
      · obtain ⟨rfl, hk'⟩ := logged_keeps hR h3
        exact .inr ⟨n, f, rfl, hn, hk'.grew hg⟩
      next hz =>
        exfalso
        rcases h2 with hf | ⟨m, e, hm, hm', _, _⟩
        · exact absurd hf.1 (by omega)
        · have : m = 0 := by omega
          subst this
          exact h00 hm

theorem errnoRes_ne (e : Nat) : errnoRes e ≠ 0 := by
  unfold errnoRes; (repeat' split) <;> decide

theorem errnoRes_code (e : Nat) : Code e (errnoRes e) := by
  unfold errnoRes Code
  split
  next h => left; exact ⟨by simpa using h, rfl⟩
  next h =>
    right
    split
    next h' => left; exact ⟨by simpa using h', rfl⟩
    next h' =>
      right
      split
      next h'' => left; exact ⟨by simpa using h'', rfl⟩
      next h'' => right; exact ⟨by simp; omega, rfl⟩

/-- With calls that keep `errno`, it is the last error the kernel has reported. -/
def Told (keep : Bool) (s : St) : Prop := keep = true → s.errno ∈ s.errs

theorem Told.log {a : Ans} {s₁ s₂ : St} (h : Told keep s) (h1 : Other s s₁) (h2 : Kernel keep s₁ .log a s₂) :
    Told keep s₂ := by
  obtain ⟨e, he, rfl⟩ := h2
  intro hk
  have := h hk
  simpa [he hk, h1.2.2.2.2.2.2.2.1, h1.2.2.2.2.2.2.2.2] using this

theorem Told.close {a : Ans} {fd : Int} {s₁ s₂ : St} (h : Told keep s) (h1 : Other s s₁)
    (h2 : Kernel keep s₁ (.close fd) a s₂) : Told keep s₂ := by
  intro hk
  have := h hk
  rcases h2 with ⟨m, e, errs, _, _, ⟨_, he, rfl⟩ | ⟨_, _, rfl⟩, rfl⟩ | ⟨_, _, e, _, rfl⟩
  · simpa [he hk, h1.2.2.2.2.2.2.2.1, h1.2.2.2.2.2.2.2.2] using this
  · simp
  · simp

theorem duplicateFd_run {pid fd : Nat} {x : Nat × Option Int} (hR : ∀ s s', R s s' → Other s s') (h : Nothing s)
    (hr : Runs keep R (duplicateFd pid fd) s x s') :
    (x.2 = none ∧ Nothing s' ∧ ∃ e, x.1 = errnoRes e ∧ (keep = true → e ∈ s'.errs)) ∨
      (x.1 = 0 ∧ ∃ r f, x.2 = some r ∧ Just s' r f ∧ (.remote pid fd, f) ∈ s'.trace) := by
  unfold duplicateFd at hr
  rw [runs_setErrno, runs_call] at hr
  obtain ⟨s₁, a, s₂, h1, h2, h3⟩ := hr
  have h' : Nothing { s with errno := 0 } := h
  have h2' := h2
  rcases pidfd_cases (hR _ _ h1) h2 with ⟨ha, hk, _⟩ | ⟨n, g, ha, hgn, hp, hg⟩
  · have ht : Told keep s₂ := by
      rcases h2' with ⟨_, e, _, rfl⟩ | ⟨m, e, _, hm, _⟩
      · intro; simp
      · omega
    rw [if_pos ha, runs_call] at h3
    obtain ⟨s₃, b, s₄, h4, h5, h6⟩ := h3
    rw [runs_errno, runs_ret] at h6
    obtain ⟨rfl, rfl⟩ := h6
    exact .inl ⟨rfl, h'.keeps (hk.trans (log_keeps (hR _ _ h4) h5)), _, rfl, ht.log (hR _ _ h4) h5⟩
  · rw [if_neg (by omega), ha, runs_call] at h3
    obtain ⟨s₃, b, s₄, h4, h5, h6⟩ := h3
    rw [runs_call] at h6
    obtain ⟨s₅, c, s₆, h7, h8, h9⟩ := h6
    have h5' := h5
    have hm2 : s₂.mine = [n] := by rw [hg.1]; simp [h.1]
    have hf2 : s₂.foreign = [] := by rw [hg.2.1]; exact h.2
    rcases getfd_cases (by simp [hm2]) hg.2.2.2.1 hgn hp (hR _ _ h4) h5 with ⟨hb, hk, _⟩ | ⟨m, f, hb, hg'⟩
    · have ht : Told keep s₄ := by
        rcases h5' with ⟨_, e, _, rfl⟩ | ⟨_, _, _, _, _, _, _, _, m, e, _, hm, _⟩
        · intro; simp
        · omega
      have hn := close_nothing h' (hk.grew hg) (hR _ _ h7) h8
      have ht6 := ht.close (hR _ _ h7) h8
      rw [if_pos hb, runs_call] at h9
      obtain ⟨s₇, d, s₈, i1, i2, i3⟩ := h9
      rw [runs_errno, runs_ret] at i3
      obtain ⟨rfl, rfl⟩ := i3
      exact .inl ⟨rfl, hn.keeps (log_keeps (hR _ _ i1) i2), _, rfl, ht6.log (hR _ _ i1) i2⟩
    · rw [if_neg (by omega), hb, runs_ret] at h9
      obtain ⟨rfl, rfl⟩ := h9
      have hmn := hg'.2.2.2.2.2.2 n (by simp [hm2]) (by simp [hg.2.2.2.1])
      have hc := close_mine (n := n) (f := g) (hR _ _ h7) (by rw [hg'.1, hm2]; simp) (hmn.2.trans hg.2.2.2.1) h8
      refine .inr ⟨rfl, _, f, rfl, ⟨m, rfl, ?_, ?_, ?_⟩, ?_⟩
      · rw [hc.1, hg'.1, hm2]
        simp [hmn.1]
      · rw [hc.2.1, hg'.2.1, hf2]
      · rw [hc.2.2.2 m (by rw [hg'.1]; simp) hmn.1, hg'.2.2.2.1]
      · rw [hc.2.2.1, hg'.2.2.1]; simp

/-! ## Why a call fails -/

theorem fileOpen_reason {path : Option (List Char)} (hR : ∀ s s', R s s' → Other s s')
    (hr : Runs keep R (fileOpen path) s (-1) s') : path = none ∨ s'.errs ≠ [] := by
  cases path with
  | none => exact .inl rfl
  | some p =>
    unfold fileOpen at hr
    rw [runs_call] at hr
    obtain ⟨s₁, a, s₂, h1, h2, h3⟩ := hr
    rcases h2 with h2 | ⟨f, _, h2⟩
    · exact .inr (runs_reported hR h3 h2.errs.2)
    · rw [if_neg h2.errs.2, runs_ret] at h3
      exact absurd h3.1.symm h2.errs.2

theorem fileOpenOrCreate_reason {path : Option (List Char)} (hR : ∀ s s', R s s' → Other s s')
    (hr : Runs keep R (fileOpenOrCreate path) s (-1) s') : path = none ∨ s'.errs ≠ [] := by
  cases path with
  | none => exact .inl rfl
  | some p =>
    unfold fileOpenOrCreate at hr
    rw [runs_call] at hr
    obtain ⟨s₁, a, s₂, h1, h2, h3⟩ := hr
    rcases h2 with h2 | ⟨f, _, h2⟩ | ⟨_, _, h2⟩
    · exact .inr (runs_reported hR h3 h2.errs.2)
    · rw [if_neg h2.errs.2] at h3
      exact absurd (logged_keeps hR h3).1.symm h2.errs.2
    · rw [if_neg h2.errs.2] at h3
      exact absurd (logged_keeps hR h3).1.symm h2.errs.2

theorem shmOpen_reason {name : Option (List Char)} (hR : ∀ s s', R s s' → Other s s')
    (hr : Runs keep R (shmOpen name) s (-1) s') : name = none ∨ s'.errs ≠ [] := by
  cases name with
  | none => exact .inl rfl
  | some p =>
    unfold shmOpen at hr
    rw [runs_call] at hr
    obtain ⟨s₁, a, s₂, h1, h2, h3⟩ := hr
    rcases h2 with h2 | ⟨f, _, h2⟩
    · exact .inr (runs_reported hR h3 h2.errs.2)
    · rw [if_neg h2.errs.2, runs_ret] at h3
      exact absurd h3.1.symm h2.errs.2

theorem devdax_reason {path : Option (List Char)} (hr : Runs keep Calm (devdaxOpen path) s (-1) s') :
    (∀ p, path = some p → ¬ "/dev/dax".toList <+: p) ∨ (∃ p f, path = some p ∧ s.path p = some f ∧ s.chr f = false) ∨
      s'.errs ≠ [] := by
  have hR : ∀ s s', Calm s s' → Other s s' := fun _ _ h => h.1
  cases path with
  | none => exact .inl (by simp)
  | some p =>
    unfold devdaxOpen at hr
    dsimp only at hr
    split at hr
    next hpre =>
      left
      rintro q ⟨rfl⟩ hq
      exact hpre ((strstr_zero _ _).2 hq)
    · right
      rw [runs_call] at hr
      obtain ⟨s₁, a, s₂, h1, h2, h3⟩ := hr
      rcases h2 with h2 | ⟨f, hf, h2⟩
      · exact .inr (runs_reported hR h3 h2.errs.2)
      · rw [if_neg h2.errs.2, runs_call] at h3
        obtain ⟨s₃, b, s₄, h4, h5, h6⟩ := h3
        rcases h5 with h5 | ⟨g, e, hg, rfl, _, rfl⟩
        · exact .inr (runs_reported hR h6 h5.errs.2)
        · rw [if_neg (by simp)] at h6
          split at h6
          next hc =>
            left
            refine ⟨p, g, rfl, ?_, ?_⟩
            · have h2p : s₂.path = s₁.path := by obtain ⟨_, _, _, _, _, rfl⟩ := h2; rfl
              rw [h4.2.1, h2p, h1.2.1] at hg
              exact hg
            · have h2c : s₂.chr = s₁.chr := by obtain ⟨_, _, _, _, _, rfl⟩ := h2; rfl
              have hc : s₃.chr g = false := hc
              rw [h4.1.keeps.2.2.2.2.1, h2c, h1.1.keeps.2.2.2.2.1] at hc
              exact hc
          · rw [runs_ret] at h6
            exact absurd h6.1.symm h2.errs.2

theorem shmCreate_reason {name : Option (List Char)} {size : Nat} (hR : ∀ s s', R s s' → Other s s')
    (hr : Runs keep R (shmCreate name size) s (-1) s') : name = none ∨ s'.errs ≠ [] := by
  cases name with
  | none => exact .inl rfl
  | some p =>
    right
    unfold shmCreate at hr
    dsimp only at hr
    rw [runs_call] at hr
    obtain ⟨_, _, _, _, _, hr⟩ := hr
    rw [runs_call] at hr
    obtain ⟨s₁, a, s₂, h1, h2, h3⟩ := hr
    rcases h2 with h2 | ⟨_, _, h2⟩
    · exact runs_reported hR h3 h2.errs.2
    · rw [if_neg h2.errs.2, runs_setErrno, runs_call] at h3
      obtain ⟨s₃, b, s₄, h4, h5, h6⟩ := h3
      rcases h5 with h5 | ⟨m, f, e, _, _, hb, _, rfl⟩
      · exact runs_reported hR h6 h5.errs.2
      · rw [runs_call] at h6
        obtain ⟨s₅, c, s₆, h7, h8, h9⟩ := h6
        rw [if_neg (by simp [hb]), runs_ret] at h9
        exact absurd h9.1.symm h2.errs.2

theorem memfdCreate_reason (hR : ∀ s s', R s s' → Other s s') (hr : Runs keep R memfdCreate s (-1) s') : s'.errs ≠ [] := by
  unfold memfdCreate at hr
  rw [runs_call] at hr
  obtain ⟨s₁, a, s₂, h1, h2, h3⟩ := hr
  rcases h2 with h2 | h2
  · exact runs_reported hR h3 h2.errs.2
  · rw [if_neg h2.errs.2] at h3
    split at h3
    · exact absurd (logged_keeps hR h3).1.symm h2.errs.2
    · rw [runs_ret] at h3
      exact absurd h3.1.symm h2.errs.2

theorem anonymousFd_reason {env : Option (List Char)} (hR : ∀ s s', R s s' → Other s s')
    (hr : Runs keep R (anonymousFd env) s (-1) s') : s'.errs ≠ [] := by
  unfold anonymousFd at hr
  split at hr
  · exact memfdCreate_reason hR hr
  · rw [runs_call] at hr
    obtain ⟨s₁, a, s₂, h1, h2, h3⟩ := hr
    rcases h2 with h2 | h2
    · exact runs_reported hR h3 h2.errs.2
    · rw [if_neg h2.errs.2] at h3
      split at h3
      · exact absurd (logged_keeps hR h3).1.symm h2.errs.2
      · exact memfdCreate_reason hR h3

theorem memfdCreate_more (hR : ∀ s s', R s s' → Other s s') (hr : Runs keep R memfdCreate s (-1) s') :
    s.errs.length < s'.errs.length := by
  unfold memfdCreate at hr
  rw [runs_call] at hr
  obtain ⟨s₁, a, s₂, h1, h2, h3⟩ := hr
  have he := (hR _ _ h1).2.2.2.2.2.2.2.2
  have hl := (runs_errs hR h3).length_le
  rcases h2 with ⟨_, e, _, rfl⟩ | h2
  · simp only [List.length_cons, he] at hl
    omega
  · rw [if_neg h2.errs.2] at h3
    split at h3
    · exact absurd (logged_keeps hR h3).1.symm h2.errs.2
    · rw [runs_ret] at h3
      exact absurd h3.1.symm h2.errs.2

theorem anonymousFd_both {env : Option (List Char)} (hR : ∀ s s', R s s' → Other s s')
    (h0 : ∀ s s', R s s' → s'.fds 0 ≠ none) (hv : ∀ v, env = some v → ¬ "memfd_create".toList <:+: v)
    (hr : Runs keep R (anonymousFd env) s (-1) s') : s.errs.length + 2 ≤ s'.errs.length := by
  unfold anonymousFd at hr
  split at hr
  next h =>
    cases env with
    | none => simp at h
    | some v => exact absurd ((strstr_some _ _).1 (by simpa [Option.isSome_iff_ne_none] using h)) (hv v rfl)
  · rw [runs_call] at hr
    obtain ⟨s₁, a, s₂, h1, h2, h3⟩ := hr
    have he := (hR _ _ h1).2.2.2.2.2.2.2.2
    rcases h2 with ⟨ha, e, _, rfl⟩ | h2
    · rw [if_pos ha, runs_call] at h3
      obtain ⟨s₃, b, s₄, h4, h5, h6⟩ := h3
      have h7 := memfdCreate_more hR h6
      have h8 := (kernel_errs h5).length_le
      rw [(hR _ _ h4).2.2.2.2.2.2.2.2] at h8
      simp only [List.length_cons, he] at h8
      omega
    · rw [if_neg h2.errs.2] at h3
      split at h3
      · exact absurd (logged_keeps hR h3).1.symm h2.errs.2
      next hz =>
        exfalso
        obtain ⟨m, e, hm, hm', _, _⟩ := h2
        have : m = 0 := by omega
        subst this
        exact h0 _ _ h1 hm

theorem duplicateFd_reason {pid fd : Nat} {x : Nat × Option Int} (hR : ∀ s s', R s s' → Other s s')
    (hr : Runs keep R (duplicateFd pid fd) s x s') (hx : x.1 ≠ 0) : s'.errs ≠ [] := by
  unfold duplicateFd at hr
  rw [runs_setErrno, runs_call] at hr
  obtain ⟨s₁, a, s₂, h1, h2, h3⟩ := hr
  rcases h2 with h2 | h2
  · exact runs_reported hR h3 h2.errs.2
  · rw [if_neg h2.errs.2, runs_call] at h3
    obtain ⟨s₃, b, s₄, h4, h5, h6⟩ := h3
    rcases h5 with h5 | ⟨_, _, _, _, _, _, _, _, h5⟩
    · exact runs_reported hR h6 h5.errs.2
    · rw [runs_call] at h6
      obtain ⟨s₅, c, s₆, h7, h8, h9⟩ := h6
      rw [if_neg h5.errs.2, runs_ret] at h9
      exact absurd (by rw [h9.1]) hx

end Verif.Files
