import Verif.Files.Proofs

/-! # Files without a name: what leaks at most -/
namespace Verif.Files

variable {keep : Bool} {R : St → St → Prop} {s s' : St} {r : Int}

theorem memfdCreate_run (hR : ∀ s s', R s s' → Other s s') (hr : Runs keep R memfdCreate s r s') :
    (r = -1 ∧ Keeps s s') ∨ ∃ n f : Nat, r = n ∧ s.next ≤ f ∧ Grew s .anonymous f n s' := by
  unfold memfdCreate at hr
  rw [runs_call] at hr
  obtain ⟨s₁, a, s₂, h1, h2, h3⟩ := hr
  rcases memfd_cases (hR _ _ h1) h2 with ⟨ha, hk⟩ | ⟨n, f, ha, hn, hg⟩
  · rw [if_pos ha] at h3
    obtain ⟨rfl, hk'⟩ := logged_keeps hR h3
    exact .inl ⟨ha, hk.trans hk'⟩
  · rw [if_neg (by omega), ha] at h3
    split at h3
    · obtain ⟨rfl, hk'⟩ := logged_keeps hR h3
      exact .inr ⟨n, f, rfl, hn, hk'.grew hg⟩
    · rw [runs_ret] at h3
      obtain ⟨rfl, rfl⟩ := h3
      exact .inr ⟨n, f, rfl, hn, hg⟩

/-- C90: in every case the descriptor returned stands for a new file, and besides it at most descriptor 0 is left open; no
descriptor of others is closed. -/
theorem C90_atMostZero {env : Option (List Char)} (h : Start s) (hr : Runs keep Other (anonymousFd env) s r s') :
    s'.foreign = [] ∧ ((r = -1 ∧ (s'.mine = [] ∨ s'.mine = [0])) ∨
      ∃ n f : Nat, r = n ∧ s.next ≤ f ∧ s'.fds n = some f ∧ (s'.mine = [n] ∨ s'.mine = [n, 0])) := by
  have hR : ∀ s s', Other s s' → Other s s' := fun _ _ h => h
  obtain ⟨hm, hfo, _, _⟩ := h
  unfold anonymousFd at hr
  split at hr
  · rcases memfdCreate_run hR hr with ⟨rfl, hk⟩ | ⟨n, f, rfl, hf, hg⟩
    · exact ⟨hk.2.1.trans hfo, .inl ⟨rfl, .inl (hk.1.trans hm)⟩⟩
    · exact ⟨hg.2.1.trans hfo, .inr ⟨n, f, rfl, hf, hg.2.2.2.1, .inl (by rw [hg.1, hm])⟩⟩
  · rw [runs_call] at hr
    obtain ⟨s₁, a, s₂, h1, h2, h3⟩ := hr
    rcases secret_cases h1 h2 with ⟨ha, hk⟩ | ⟨n, f, ha, hn, hg⟩
    · rw [if_pos ha, runs_call] at h3
      obtain ⟨s₃, b, s₄, h4, h5, h6⟩ := h3
      have hk4 := hk.trans (log_keeps h4 h5)
      rcases memfdCreate_run hR h6 with ⟨rfl, hk'⟩ | ⟨n, f, rfl, hf, hg⟩
      · have := hk4.trans hk'
        exact ⟨this.2.1.trans hfo, .inl ⟨rfl, .inl (this.1.trans hm)⟩⟩
      · have hg := hk4.before hg
        exact ⟨hg.2.1.trans hfo,
          .inr ⟨n, f, rfl, Nat.le_trans hk4.2.2.2.1 hf, hg.2.2.2.1, .inl (by rw [hg.1, hm])⟩⟩
    · rw [if_neg (by omega), ha] at h3
      split at h3
      · obtain ⟨rfl, hk'⟩ := logged_keeps hR h3
        have hg := hk'.grew hg
        exact ⟨hg.2.1.trans hfo, .inr ⟨n, f, rfl, hn, hg.2.2.2.1, .inl (by rw [hg.1, hm])⟩⟩
      next hz =>
        have : n = 0 := by omega
        subst this
        have hm2 : s₂.mine = [0] := by rw [hg.1, hm]
        rcases memfdCreate_run hR h3 with ⟨rfl, hk'⟩ | ⟨m, g, rfl, hf, hg'⟩
        · exact ⟨hk'.2.1.trans (hg.2.1.trans hfo), .inl ⟨rfl, .inr (hk'.1.trans hm2)⟩⟩
        · exact ⟨hg'.2.1.trans (hg.2.1.trans hfo),
            .inr ⟨m, g, rfl, Nat.le_trans hg.2.2.2.2.1 hf, hg'.2.2.2.1, .inr (by rw [hg'.1, hm2])⟩⟩

end Verif.Files
