import Verif.Files.Spec

/-! # What each call does to the descriptors of the caller -/
namespace Verif.Files

variable {keep : Bool} {R : St → St → Prop} {α : Type}

theorem runs_ret {a b : α} {s s' : St} : Runs keep R (.ret a) s b s' ↔ b = a ∧ s' = s :=
  ⟨fun h => by cases h; exact ⟨rfl, rfl⟩, fun ⟨h, h'⟩ => by subst h h'; exact .ret⟩

theorem runs_call {c : Sys} {k : Ans → Prog α} {s s' : St} {a : α} :
    Runs keep R (.call c k) s a s' ↔ ∃ s₁ b s₂, R s s₁ ∧ Kernel keep s₁ c b s₂ ∧ Runs keep R (k b) s₂ a s' :=
  ⟨fun h => by cases h with | call h₁ h₂ h₃ => exact ⟨_, _, _, h₁, h₂, h₃⟩, fun ⟨_, _, _, h₁, h₂, h₃⟩ => .call h₁ h₂ h₃⟩

theorem runs_setErrno {e : Nat} {p : Prog α} {s s' : St} {a : α} :
    Runs keep R (.setErrno e p) s a s' ↔ Runs keep R p { s with errno := e } a s' :=
  ⟨fun h => by cases h with | setErrno h => exact h, .setErrno⟩

theorem runs_errno {k : Nat → Prog α} {s s' : St} {a : α} :
    Runs keep R (.errno k) s a s' ↔ Runs keep R (k s.errno) s a s' :=
  ⟨fun h => by cases h with | errno h => exact h, .errno⟩

theorem Start.nothing {s : St} (h : Start s) : Nothing s := ⟨h.1, h.2.1⟩

/-- Nothing that concerns the call has changed. -/
def Keeps (s s' : St) : Prop :=
  s'.mine = s.mine ∧ s'.foreign = s.foreign ∧ s'.trace = s.trace ∧ s.next ≤ s'.next ∧ s'.chr = s.chr ∧
    (∀ f < s.next, s'.proc f = s.proc f) ∧ ∀ fd ∈ s.mine, s'.fds fd = s.fds fd

theorem Keeps.refl (s : St) : Keeps s s := ⟨rfl, rfl, rfl, Nat.le_refl _, rfl, fun _ _ => rfl, fun _ _ => rfl⟩

theorem Keeps.trans {s₁ s₂ s₃ : St} (h : Keeps s₁ s₂) (h' : Keeps s₂ s₃) : Keeps s₁ s₃ := by
  obtain ⟨a, b, c, d, e, f, g⟩ := h
  obtain ⟨a', b', c', d', e', f', g'⟩ := h'
  exact ⟨a'.trans a, b'.trans b, c'.trans c, Nat.le_trans d d', e'.trans e, fun x hx => (f' x (by omega)).trans (f x hx),
    fun x hx => (g' x (a ▸ hx)).trans (g x hx)⟩

theorem Other.keeps {s s' : St} (h : Other s s') : Keeps s s' :=
  ⟨h.1, h.2.1, h.2.2.1, h.2.2.2.1, h.2.2.2.2.1, h.2.2.2.2.2.1, h.2.2.2.2.2.2.1⟩

theorem keeps_errno (s : St) (e : Nat) : Keeps s { s with errno := e } :=
  ⟨rfl, rfl, rfl, Nat.le_refl _, rfl, fun _ _ => rfl, fun _ _ => rfl⟩

theorem Fails.keeps {s s' : St} {a : Ans} (h : Fails s a s') : Keeps s s' := by
  obtain ⟨_, e, _, rfl⟩ := h
  exact ⟨rfl, rfl, rfl, Nat.le_refl _, rfl, fun _ _ => rfl, fun _ _ => rfl⟩

/-- The call has opened one more descriptor. -/
def Grew (s : St) (src : Src) (f n : Nat) (s' : St) : Prop :=
  s'.mine = n :: s.mine ∧ s'.foreign = s.foreign ∧ s'.trace = (src, f) :: s.trace ∧ s'.fds n = some f ∧
    s.next ≤ s'.next ∧ s'.chr = s.chr ∧
    ∀ m ∈ s.mine, s.fds m ≠ none → n ≠ m ∧ s'.fds m = s.fds m

theorem Opened.grew {s s₀ s' : St} {src : Src} {f : Nat} {a : Ans} (h : Opened keep s src f a s') (h0 : Keeps s₀ s) :
    ∃ n : Nat, a.ret = n ∧ Grew s₀ src f n s' := by
  obtain ⟨n, e, hn, ha, _, rfl⟩ := h
  obtain ⟨a1, a2, a3, a4, a5, a6, a7⟩ := h0
  refine ⟨n, ha, ?_, a2, ?_, ?_, a4, a5, ?_⟩
  · simp [a1]
  · simp [a3]
  · simp [upd]
  · intro m hm hf
    have : n ≠ m := by
      rintro rfl
      exact hf ((a7 _ hm) ▸ hn)
    exact ⟨this, by simp [upd, Ne.symm this, a7 _ hm]⟩

/-- Doing something first. -/
theorem Keeps.before {s₁ s₂ s₃ : St} {src : Src} {f n : Nat} (h : Keeps s₁ s₂) (h' : Grew s₂ src f n s₃) :
    Grew s₁ src f n s₃ := by
  obtain ⟨b1, b2, b3, b4, b5, b6, b7⟩ := h'
  obtain ⟨a1, a2, a3, a4, a5, a6, a7⟩ := h
  refine ⟨by rw [b1, a1], b2.trans a2, by rw [b3, a3], b4, Nat.le_trans a4 b5, b6.trans a5, ?_⟩
  intro m hm hf
  have := b7 m (a1 ▸ hm) (by rw [a7 m hm]; exact hf)
  exact ⟨this.1, this.2.trans (a7 m hm)⟩

theorem Keeps.grew {s₁ s₂ s₃ : St} {src : Src} {f n : Nat} (h' : Grew s₁ src f n s₂) (h : Keeps s₂ s₃) :
    Grew s₁ src f n s₃ := by
  obtain ⟨b1, b2, b3, b4, b5, b6, b7⟩ := h'
  obtain ⟨a1, a2, a3, a4, a5, a6, a7⟩ := h
  refine ⟨a1.trans b1, a2.trans b2, a3.trans b3, (a7 n (by simp [b1])).trans b4, Nat.le_trans b5 a4, a5.trans b6, ?_⟩
  intro m hm hf
  exact ⟨(b7 m hm hf).1, (a7 m (by simp [b1, hm])).trans (b7 m hm hf).2⟩

variable {s s₁ s₂ s' : St} {a : Ans}

theorem log_keeps (h : Other s s₁) (hk : Kernel keep s₁ .log a s₂) : Keeps s s₂ := by
  obtain ⟨e, _, rfl⟩ := hk
  exact h.keeps.trans (keeps_errno _ e)

theorem stat_keeps {p : List Char} (h : Other s s₁) (hk : Kernel keep s₁ (.stat p) a s₂) : Keeps s s₂ := by
  rcases hk with hf | ⟨f, e, _, _, _, rfl⟩
  · exact h.keeps.trans hf.keeps
  · exact h.keeps.trans (keeps_errno _ e)

theorem unlink_keeps {n : List Char} (h : Other s s₁) (hk : Kernel keep s₁ (.shmUnlink n) a s₂) : Keeps s s₂ := by
  rcases hk with ⟨e, _, rfl⟩ | ⟨e, _, _, rfl⟩
  · exact h.keeps.trans (keeps_errno _ e)
  · exact h.keeps.trans ⟨rfl, rfl, rfl, Nat.le_refl _, rfl, fun _ _ => rfl, fun _ _ => rfl⟩

theorem truncate_keeps {fd : Int} {n : Nat} (h : Other s s₁) (hk : Kernel keep s₁ (.ftruncate fd n) a s₂) :
    Keeps s s₂ := by
  rcases hk with hf | ⟨m, f, e, _, _, _, _, rfl⟩
  · exact h.keeps.trans hf.keeps
  · exact h.keeps.trans ⟨rfl, rfl, rfl, Nat.le_refl _, rfl, fun _ _ => rfl, fun _ _ => rfl⟩

/-- Closing a descriptor that the call has opened. -/
theorem close_mine {n f : Nat} (h : Other s s₁) (hn : n ∈ s.mine) (hf : s.fds n = some f)
    (hk : Kernel keep s₁ (.close (n : Int)) a s₂) :
    s₂.mine = s.mine.erase n ∧ s₂.foreign = s.foreign ∧ s₂.trace = s.trace ∧
      (∀ m ∈ s.mine, m ≠ n → s₂.fds m = s.fds m) := by
  have hfd : s₁.fds n = some f := (h.keeps.2.2.2.2.2.2 n hn).trans hf
  have hm : s₁.mine = s.mine := h.1
  rcases hk with ⟨m, e, errs, hnm, _, _, rfl⟩ | ⟨hno, _⟩
  · have : m = n := by omega
    subst this
    refine ⟨by simp [hm], by simp [hm, hn, h.2.1], h.2.2.1, ?_⟩
    intro x hx hxn
    simpa [upd, hxn] using h.keeps.2.2.2.2.2.2 x hx
  · exact absurd (hno n rfl) (by simp [hfd])

/-- After its one descriptor is closed, nothing of the call is left. -/
theorem close_nothing {src : Src} {n f : Nat} {s₀ : St} (h0 : Nothing s₀) (hg : Grew s₀ src f n s) (h : Other s s₁)
    (hk : Kernel keep s₁ (.close (n : Int)) a s₂) : Nothing s₂ := by
  obtain ⟨h1, h2⟩ := h0
  have := close_mine h (n := n) (f := f) (by simp [hg.1]) hg.2.2.2.1 hk
  exact ⟨by simp [this.1, hg.1, h1], by rw [this.2.1, hg.2.1, h2]⟩

theorem Nothing.keeps (h : Nothing s) (hk : Keeps s s') : Nothing s' := ⟨hk.1.trans h.1, hk.2.1.trans h.2⟩

theorem Grew.just {src : Src} {n f : Nat} (h : Nothing s) (hg : Grew s src f n s') : Just s' (n : Int) f :=
  ⟨n, rfl, by rw [hg.1, h.1], by rw [hg.2.1, h.2], hg.2.2.2.1⟩

theorem Grew.traced {src : Src} {n f : Nat} (hg : Grew s src f n s') : (src, f) ∈ s'.trace := by
  rw [hg.2.2.1]; simp

theorem logged_keeps {b r : α} (hR : ∀ s s', R s s' → Other s s') (h : Runs keep R (logged b) s r s') :
    r = b ∧ Keeps s s' := by
  unfold logged at h
  rw [runs_call] at h
  obtain ⟨s₁, b', s₂, h1, h2, h3⟩ := h
  rw [runs_ret] at h3
  obtain ⟨rfl, rfl⟩ := h3
  exact ⟨rfl, log_keeps (hR _ _ h1) h2⟩

theorem open_cases {p : List Char} (h : Other s s₁) (hk : Kernel keep s₁ (.open p) a s₂) :
    (a.ret = -1 ∧ Keeps s s₂) ∨ ∃ n f : Nat, a.ret = n ∧ s₁.path p = some f ∧ s₂.path = s₁.path ∧ Grew s (.path p) f n s₂ := by
  rcases hk with hf | ⟨f, hp, ho⟩
  · exact .inl ⟨hf.1, h.keeps.trans hf.keeps⟩
  · obtain ⟨n, hn, hg⟩ := ho.grew h.keeps
    refine .inr ⟨n, f, hn, hp, ?_, hg⟩
    obtain ⟨_, _, _, _, _, rfl⟩ := ho
    rfl

theorem create_cases {p : List Char} (h : Other s s₁) (hk : Kernel keep s₁ (.openCreate p) a s₂) :
    (a.ret = -1 ∧ Keeps s s₂) ∨ ∃ n f : Nat, a.ret = n ∧ Grew s (.path p) f n s₂ := by
  rcases hk with hf | ⟨f, hp, ho⟩ | ⟨_, _, ho⟩
  · exact .inl ⟨hf.1, h.keeps.trans hf.keeps⟩
  · obtain ⟨n, hn, hg⟩ := ho.grew h.keeps
    exact .inr ⟨n, f, hn, hg⟩
  · obtain ⟨n, hn, hg⟩ := ho.grew (s₀ := s)
      (h.keeps.trans ⟨rfl, rfl, rfl, Nat.le_succ _, rfl, fun _ _ => rfl, fun _ _ => rfl⟩)
    exact .inr ⟨n, _, hn, hg⟩

theorem shmOpen_cases {p : List Char} (h : Other s s₁) (hk : Kernel keep s₁ (.shmOpen p) a s₂) :
    (a.ret = -1 ∧ Keeps s s₂) ∨ ∃ n f : Nat, a.ret = n ∧ Grew s (.shm p) f n s₂ := by
  rcases hk with hf | ⟨f, hp, ho⟩
  · exact .inl ⟨hf.1, h.keeps.trans hf.keeps⟩
  · obtain ⟨n, hn, hg⟩ := ho.grew h.keeps
    exact .inr ⟨n, f, hn, hg⟩

theorem shmCreate_cases {p : List Char} (h : Other s s₁) (hk : Kernel keep s₁ (.shmCreate p) a s₂) :
    (a.ret = -1 ∧ Keeps s s₂) ∨ ∃ n f : Nat, a.ret = n ∧ s.next ≤ f ∧ s₂.shm p = some f ∧ Grew s (.shm p) f n s₂ := by
  rcases hk with hf | ⟨_, _, ho⟩
  · exact .inl ⟨hf.1, h.keeps.trans hf.keeps⟩
  · obtain ⟨n, hn, hg⟩ := ho.grew (s₀ := s)
      (h.keeps.trans ⟨rfl, rfl, rfl, Nat.le_succ _, rfl, fun _ _ => rfl, fun _ _ => rfl⟩)
    refine .inr ⟨n, _, hn, h.keeps.2.2.2.1, ?_, hg⟩
    obtain ⟨_, _, _, _, _, rfl⟩ := ho
    simp [upd]

theorem secret_cases (h : Other s s₁) (hk : Kernel keep s₁ .memfdSecret a s₂) :
    (a.ret = -1 ∧ Keeps s s₂) ∨ ∃ n f : Nat, a.ret = n ∧ s.next ≤ f ∧ Grew s .anonymous f n s₂ := by
  rcases hk with hf | ho
  · exact .inl ⟨hf.1, h.keeps.trans hf.keeps⟩
  · obtain ⟨n, hn, hg⟩ := ho.grew (s₀ := s)
      (h.keeps.trans ⟨rfl, rfl, rfl, Nat.le_succ _, rfl, fun _ _ => rfl, fun _ _ => rfl⟩)
    exact .inr ⟨n, _, hn, h.keeps.2.2.2.1, hg⟩

theorem memfd_cases (h : Other s s₁) (hk : Kernel keep s₁ .memfdCreate a s₂) :
    (a.ret = -1 ∧ Keeps s s₂) ∨ ∃ n f : Nat, a.ret = n ∧ s.next ≤ f ∧ Grew s .anonymous f n s₂ :=
  secret_cases h hk

theorem pidfd_cases {pid : Nat} (h : Other s s₁) (hk : Kernel keep s₁ (.pidfdOpen pid) a s₂) :
    (a.ret = -1 ∧ Keeps s s₂ ∧ s₂.errno ≠ 0) ∨
      ∃ n f : Nat, a.ret = n ∧ f < s₂.next ∧ s₂.proc f = some pid ∧ Grew s (.process pid) f n s₂ := by
  rcases hk with hf | ho
  · refine .inl ⟨hf.1, h.keeps.trans hf.keeps, ?_⟩
    obtain ⟨_, e, he, rfl⟩ := hf
    exact he
  · obtain ⟨n, hn, hg⟩ := ho.grew (s₀ := s) (h.keeps.trans ⟨rfl, rfl, rfl, Nat.le_succ _, rfl,
      fun x hx => by simp only [upd, if_neg (Nat.ne_of_lt hx)], fun _ _ => rfl⟩)
    refine .inr ⟨n, _, hn, ?_, ?_, hg⟩ <;> obtain ⟨_, _, _, _, _, rfl⟩ := ho <;> simp [upd]

theorem getfd_cases {m fd g pid : Nat} (hm : m ∈ s.mine) (hg : s.fds m = some g) (hgn : g < s.next)
    (hp : s.proc g = some pid) (h : Other s s₁) (hk : Kernel keep s₁ (.pidfdGetfd (m : Int) fd) a s₂) :
    (a.ret = -1 ∧ Keeps s s₂ ∧ s₂.errno ≠ 0) ∨
      ∃ n f : Nat, a.ret = n ∧ Grew s (.remote pid fd) f n s₂ := by
  have h7 := h.keeps.2.2.2.2.2.2 m hm
  have h6 := h.keeps.2.2.2.2.2.1 g hgn
  rcases hk with hf | ⟨n, g', pid', f, hmn, hfd, hpr, _, ho⟩
  · refine .inl ⟨hf.1, h.keeps.trans hf.keeps, ?_⟩
    obtain ⟨_, e, he, rfl⟩ := hf
    exact he
  · have : n = m := by omega
    subst this
    rw [h7, hg] at hfd
    cases hfd
    rw [h6, hp] at hpr
    cases hpr
    obtain ⟨n', hn, hgr⟩ := ho.grew h.keeps
    exact .inr ⟨n', f, hn, hgr⟩

/-! ## Reported errors -/

theorem Fails.errs (h : Fails s a s') : s.errs <:+ s'.errs ∧ s'.errs ≠ [] := by
  obtain ⟨_, e, _, rfl⟩ := h; exact ⟨List.suffix_cons _ _, by simp⟩

theorem Opened.errs {src : Src} {f : Nat} (h : Opened keep s src f a s') : s'.errs = s.errs ∧ a.ret ≠ -1 := by
  obtain ⟨n, e, _, ha, _, rfl⟩ := h
  exact ⟨rfl, by omega⟩

theorem kernel_errs {c : Sys} (h : Kernel keep s c a s') : s.errs <:+ s'.errs := by
  cases c with
  | «open» p =>
    rcases h with h | ⟨f, _, h⟩
    · exact h.errs.1
    · rw [h.errs.1]; exact List.suffix_refl _
  | openCreate p =>
    rcases h with h | ⟨f, _, h⟩ | ⟨_, _, h⟩
    · exact h.errs.1
    · rw [h.errs.1]; exact List.suffix_refl _
    · rw [h.errs.1]; exact List.suffix_refl _
  | stat p =>
    rcases h with h | ⟨f, e, _, _, _, rfl⟩
    · exact h.errs.1
    · exact List.suffix_refl _
  | close fd =>
    rcases h with ⟨n, e, errs, _, _, ⟨_, _, rfl⟩ | ⟨_, _, rfl⟩, rfl⟩ | ⟨_, h⟩
    · exact List.suffix_refl _
    · exact List.suffix_cons _ _
    · exact h.errs.1
  | shmUnlink n =>
    rcases h with ⟨e, _, rfl⟩ | ⟨e, _, _, rfl⟩ <;> exact List.suffix_refl _
  | shmCreate n =>
    rcases h with h | ⟨_, _, h⟩
    · exact h.errs.1
    · rw [h.errs.1]; exact List.suffix_refl _
  | shmOpen n =>
    rcases h with h | ⟨f, _, h⟩
    · exact h.errs.1
    · rw [h.errs.1]; exact List.suffix_refl _
  | ftruncate fd n =>
    rcases h with h | ⟨m, f, e, _, _, _, _, rfl⟩
    · exact h.errs.1
    · exact List.suffix_refl _
  | memfdSecret =>
    rcases h with h | h
    · exact h.errs.1
    · rw [h.errs.1]; exact List.suffix_refl _
  | memfdCreate =>
    rcases h with h | h
    · exact h.errs.1
    · rw [h.errs.1]; exact List.suffix_refl _
  | pidfdOpen pid =>
    rcases h with h | h
    · exact h.errs.1
    · rw [h.errs.1]; exact List.suffix_refl _
  | pidfdGetfd m fd =>
    rcases h with h | ⟨_, _, _, _, _, _, _, _, h⟩
    · exact h.errs.1
    · rw [h.errs.1]; exact List.suffix_refl _
  | log =>
    obtain ⟨e, _, rfl⟩ := h
    exact List.suffix_refl _

theorem runs_errs {p : Prog α} {r : α} (hR : ∀ s s', R s s' → Other s s') (h : Runs keep R p s r s') :
    s.errs <:+ s'.errs := by
  induction h with
  | ret => exact List.suffix_refl _
  | call h1 h2 _ ih =>
    have := (hR _ _ h1).2.2.2.2.2.2.2.2
    exact this ▸ (kernel_errs h2).trans ih
  | setErrno _ ih => exact ih
  | errno _ ih => exact ih

/-- Once an error has been reported, it stays on record. -/
theorem runs_reported {p : Prog α} {r : α} (hR : ∀ s s', R s s' → Other s s') (h : Runs keep R p s r s')
    (he : s.errs ≠ []) : s'.errs ≠ [] := by
  intro h0
  have := runs_errs hR h
  rw [h0] at this
  exact he (List.suffix_nil.1 this)

end Verif.Files
