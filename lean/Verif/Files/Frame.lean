import Verif.Files.Proofs

/-! # What the creation of shared memory leaves alone -/
namespace Verif.Files

variable {keep : Bool} {s s₁ s₂ s' : St} {r : Int} {a : Ans}

/-- Other names, all paths, and the sizes of the first `N` files are as before. -/
def Frame (n : List Char) (N : Nat) (s s' : St) : Prop :=
  (∀ m, m ≠ n → s'.shm m = s.shm m) ∧ s'.path = s.path ∧ ∀ f < N, s'.size f = s.size f

theorem Frame.trans {n : List Char} {N : Nat} {s₁ s₂ s₃ : St} (h : Frame n N s₁ s₂) (h' : Frame n N s₂ s₃) :
    Frame n N s₁ s₃ :=
  ⟨fun m hm => (h'.1 m hm).trans (h.1 m hm), h'.2.1.trans h.2.1, fun f hf => (h'.2.2 f hf).trans (h.2.2 f hf)⟩

theorem Frame.trans' {n : List Char} {N : Nat} {s₁ s₂ s₃ : St} (h' : Frame n N s₂ s₃) (h : Frame n N s₁ s₂) :
    Frame n N s₁ s₃ := h.trans h'

theorem Frame.of_eq {n : List Char} {N : Nat} (h1 : s'.shm = s.shm) (h2 : s'.path = s.path) (h3 : s'.size = s.size) :
    Frame n N s s' := ⟨fun _ _ => by rw [h1], h2, fun _ _ => by rw [h3]⟩

theorem Calm.frame {n : List Char} {N : Nat} (h : Calm s s') : Frame n N s s' := .of_eq h.2.2.1 h.2.1 h.2.2.2

theorem log_frame {n : List Char} {N : Nat} (h : Calm s s₁) (hk : Kernel keep s₁ .log a s₂) : Frame n N s s₂ := by
  obtain ⟨e, _, rfl⟩ := hk
  exact h.frame.trans (.of_eq rfl rfl rfl)

theorem close_frame {n : List Char} {N : Nat} {fd : Int} (h : Calm s s₁) (hk : Kernel keep s₁ (.close fd) a s₂) :
    Frame n N s s₂ := by
  rcases hk with ⟨_, _, _, _, _, _, rfl⟩ | ⟨_, _, _, _, rfl⟩ <;> exact h.frame.trans (.of_eq rfl rfl rfl)

theorem unlink_frame {n : List Char} {N : Nat} (h : Calm s s₁) (hk : Kernel keep s₁ (.shmUnlink n) a s₂) :
    Frame n N s s₂ := by
  rcases hk with ⟨_, _, rfl⟩ | ⟨_, _, _, rfl⟩
  · exact h.frame.trans (.of_eq rfl rfl rfl)
  · exact h.frame.trans ⟨fun m hm => by simp [upd, hm], rfl, fun _ _ => rfl⟩

theorem logged_frame {α : Type} {b x : α} {n : List Char} {N : Nat} (h : Runs keep Calm (logged b) s x s') :
    Frame n N s s' := by
  unfold logged at h
  rw [runs_call] at h
  obtain ⟨_, _, _, h1, h2, h3⟩ := h
  rw [runs_ret] at h3
  rw [h3.2]
  exact log_frame h1 h2

/-- C90: whether it succeeds or not, the creation of shared memory changes no other name, no path, and the size of no file
that existed, if nobody else does. -/
theorem C90_others {n : List Char} {size : Nat} (hr : Runs keep Calm (shmCreate (some n) size) s r s') :
    (∀ m, m ≠ n → s'.shm m = s.shm m) ∧ s'.path = s.path ∧ ∀ f < s.next, s'.size f = s.size f := by
  show Frame n s.next s s'
  unfold shmCreate at hr
  dsimp only at hr
  rw [runs_call] at hr
  obtain ⟨t₁, _, t₂, g1, g2, hr⟩ := hr
  have h0 := unlink_frame (N := s.next) g1 g2
  have hn0 : s.next ≤ t₂.next := (unlink_keeps g1.1 g2).2.2.2.1
  rw [runs_call] at hr
  obtain ⟨s₁, a, s₂, h1, h2, h3⟩ := hr
  have hn1 : s.next ≤ s₁.next := Nat.le_trans hn0 h1.1.2.2.2.1
  rcases h2 with ⟨ha, e, _, rfl⟩ | ⟨_, _, fd, e, hfd, ha, _, rfl⟩
  · rw [if_pos ha] at h3
    have h4 := logged_frame (n := n) (N := s.next) h3
    exact h0.trans (h1.frame.trans (h4.trans' (.of_eq rfl rfl rfl)))
  · rw [if_neg (by omega), runs_setErrno, runs_call] at h3
    obtain ⟨s₃, b, s₄, h4, h5, h6⟩ := h3
    have hs : Frame n s.next s s₃ := by
      have h5 := h4.frame (n := n) (N := s.next)
      refine h0.trans (h1.frame.trans (h5.trans' ⟨?_, rfl, ?_⟩))
      · intro m hm
        simp [upd, hm]
      · intro f hf
        have : f ≠ s₁.next := by omega
        simp [upd, this]
    have hf3 : s₃.fds fd = some s₁.next :=
      (h4.1.keeps.2.2.2.2.2.2 fd (by simp)).trans (by simp [upd])
    have h35 : Frame n s.next s₃ s₄ := by
      rcases h5 with ⟨_, _, _, rfl⟩ | ⟨m, f, e', hm, hf, _, _, rfl⟩
      · exact .of_eq rfl rfl rfl
      · have : m = fd := by omega
        subst this
        rw [hf3] at hf
        cases hf
        refine ⟨fun _ _ => rfl, rfl, fun f hf => ?_⟩
        have : f ≠ s₁.next := by omega
        simp [upd, this]
    rw [runs_call] at h6
    obtain ⟨s₅, c, s₆, h7, h8, h9⟩ := h6
    have h6 := hs.trans (h35.trans (log_frame h7 h8))
    split at h9
    · rw [runs_call] at h9
      obtain ⟨_, _, _, i1, i2, i3⟩ := h9
      rw [runs_call] at i3
      obtain ⟨_, _, _, i4, i5, i6⟩ := i3
      rw [runs_call] at i6
      obtain ⟨_, _, _, i7, i8, i9⟩ := i6
      rw [runs_ret] at i9
      rw [i9.2]
      exact h6.trans ((log_frame i1 i2).trans ((close_frame i4 i5).trans (unlink_frame i7 i8)))
    · rw [runs_ret] at h9
      rw [h9.2]
      exact h6

end Verif.Files
