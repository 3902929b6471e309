import Verif.IpcExp.InvO

/-! # Blocks are allocated and freed -/
namespace Verif.IpcExp

theorem upd_same {α : Type} (f : Nat → α) (a : Nat) (x : α) : upd f a x a = x := by simp [upd]
theorem upd_ne {α : Type} (f : Nat → α) (a b : Nat) (x : α) (h : b ≠ a) : upd f a x b = f b := by simp [upd, h]

/-- Handles stay good as long as the regions, the cache, and the values in the cache stay. -/
theorem Good.frame (s s' : St) (x : Nat) (h : Handle) (hg : Good s x h)
    (hr : (h.base, h.size) ∈ s.regs → (h.base, h.size) ∈ s'.regs)
    (hc : s.cache h.base ≠ none → s'.cache h.base = s.cache h.base)
    (ho : ∀ v, s.cache h.base = some v → s'.obj v = s.obj v) : Good s' x h := by
  obtain ⟨h1, h2, h3, v, c, h4, h5, h6, h7⟩ := hg
  exact ⟨hr h1, h2, h3, v, c, by rw [hc (by rw [h4]; simp)]; exact h4, by rw [ho v h4]; exact h5, h6, h7⟩

/-- A thread takes a new block. -/
theorem InvO.take (L : Nat) (s : St) (given : List (Nat × Handle)) (held : List Nat) (own uo : Nat → Option Own) (t o : Nat)
    (p : Pc) (ob : Obj) (w : Own) (h : InvO L s given held own uo) (hn : s.obj o = none)
    (hc : call p = call (s.pc t))
    (hw : (w = .val t ∧ ob = .val none ∧ valOf (s.pc t) = none ∧ valOf p = some o ∧ dataOf p = dataOf (s.pc t)) ∨
      (w = .data t ∧ ob = .data none ∧ dataOf (s.pc t) = none ∧ dataOf p = some o ∧ valOf p = valOf (s.pc t)))
    (hu : upLoc (s.pc t) = none) (hu' : upLoc p = none) (hp : PcO L { s with obj := upd s.obj o (some ob) } p)
    (h1 : ∀ b sz, s.pc t ≠ .free1 b sz) :
    InvO L ({ s with obj := upd s.obj o (some ob) }.to t p) given held (upd own o (some w)) uo := by
  have ho : own o = none := (h.objOwn o).2 hn
  have hne : ∀ v, s.obj v ≠ none → v ≠ o := fun v hv e => hv (e ▸ hn)
  have hown : ∀ v x, own v = some x → v ≠ o := fun v x hv e => by rw [e, ho] at hv; cases hv
  have hgood : ∀ x hh, Good s x hh → Good ({ s with obj := upd s.obj o (some ob) }.to t p) x hh := by
    intro x hh hg
    refine hg.frame s _ x hh id (fun _ => rfl) (fun v hv => ?_)
    exact upd_ne _ _ _ _ (hown v _ ((h.cacheOwn _ _).1 hv))
  have hob : ∀ c, ob ≠ .val (some c) := by
    intro c e
    rcases hw with ⟨_, e', _⟩ | ⟨_, e', _⟩ <;> rw [e'] at e <;> cases e
  have hval : ∀ v c, upd s.obj o (some ob) v = some (.val (some c)) → s.obj v = some (.val (some c)) ∧ v ≠ o := by
    intro v c; unfold upd; split
    · intro e; exact absurd (Option.some.inj e) (hob c)
    · intro e; exact ⟨e, by assumption⟩
  refine ⟨h.bad, ?_, ?_, ?_, ?_, ?_, h.nodup, ?_, ?_, ?_, ?_, h.upsOwn, h.upsKind, ?_, ?_, ?_, ?_, ?_, ?_, ?_, ?_⟩
  · intro v; simp only [St.to]; unfold upd; split
    · simp
    · exact h.objOwn v
  · intro b v; simp only [St.to]; unfold upd; split
    · rename_i e; subst e
      constructor
      · intro hcv; have := (h.cacheOwn b v).1 hcv; rw [ho] at this; cases this
      · intro e; rcases hw with ⟨e', _⟩ | ⟨e', _⟩ <;> rw [e'] at e <;> cases e
    · exact h.cacheOwn b v
  · intro u v
    have := h.valOwn u v; have h2 := h.valOwn u o; rw [ho] at h2
    simp only [St.to]; unfold upd
    rcases hw with ⟨e1, e2, e3, e4, e5⟩ | ⟨e1, e2, e3, e4, e5⟩ <;> subst e1 <;> grind
  · intro u v
    have := h.dataOwn u v; have h2 := h.dataOwn u o; rw [ho] at h2
    simp only [St.to]; unfold upd
    rcases hw with ⟨e1, e2, e3, e4, e5⟩ | ⟨e1, e2, e3, e4, e5⟩ <;> subst e1 <;> grind
  · intro d
    have := h.userOwn d
    unfold upd
    rcases hw with ⟨e1, e2, e3, e4, e5⟩ | ⟨e1, e2, e3, e4, e5⟩ <;> subst e1 <;> grind
  · intro b v hcv
    obtain ⟨c, h2, h3⟩ := h.cacheK b v hcv
    exact ⟨c, by simp only [St.to]; rw [upd_ne _ _ _ _ (hne v (by rw [h2]; simp))]; exact h2, h3⟩
  · intro u v; simp only [St.to]; unfold upd; split
    · intro e; rcases hw with ⟨e1, e2, _⟩ | ⟨e1, e2, _⟩
      · exact ⟨none, by rw [e2]⟩
      · rw [e1] at e; cases e
    · exact h.valK u v
  · intro u v; simp only [St.to]; unfold upd; split
    · intro e; rcases hw with ⟨e1, e2, _⟩ | ⟨e1, e2, _⟩
      · rw [e1] at e; cases e
      · exact ⟨none, by rw [e2]⟩
    · exact h.dataK u v
  · intro v; simp only [St.to]; unfold upd; split
    · intro e; rcases hw with ⟨e1, e2, _⟩ | ⟨e1, e2, _⟩ <;> rw [e1] at e <;> cases e
    · exact h.userK v
  · intro q u
    rw [← h.upT q u]
    by_cases e : q = t
    · subst e
      simp only [UpIs, St.to, upd_same, hu, hu']
      simp
    · simp only [UpIs, St.to, upd_ne _ _ _ _ e]
      constructor
      · rintro (h2 | ⟨v, c, h2, h3, h4⟩)
        · exact Or.inl h2
        · exact Or.inr ⟨v, c, h2, (hval v c h3).1, h4⟩
      · rintro (h2 | ⟨v, c, h2, h3, h4⟩)
        · exact Or.inl h2
        · exact Or.inr ⟨v, c, h2, by rw [upd_ne _ _ _ _ (hne v (by rw [h3]; simp))]; exact h3, h4⟩
  · intro b u
    rw [← h.upC b u]
    simp only [St.to]
    constructor
    · rintro ⟨v, c, h2, h3, h4⟩; exact ⟨v, c, h2, (hval v c h3).1, h4⟩
    · rintro ⟨v, c, h2, h3, h4⟩
      exact ⟨v, c, h2, by rw [upd_ne _ _ _ _ (hne v (by rw [h3]; simp))]; exact h3, h4⟩
  · intro q u x b sz hq hloc
    by_cases e : q = t
    · subst e
      have h2 := (h.upT q u).2 hq
      simp [UpIs, hu] at h2
    · exact h.upV q u x b sz hq (by simpa [St.to, upd, e] using hloc)
  · intro b u hu2
    obtain ⟨sz, h2, h3⟩ := h.upCv b u hu2
    refine ⟨sz, h2, ?_⟩
    rcases h3 with h3 | ⟨q, h3⟩
    · exact Or.inl h3
    · refine Or.inr ⟨q, ?_⟩
      have e : q ≠ t := fun e => h1 b sz (e ▸ h3)
      simp [St.to, upd, e, h3]
  · intro v c hv; exact h.idLe v c (hval v c hv).1
  · intro v v' c c' hv hv'; exact h.idNe v v' c c' (hval v c hv).1 (hval v' c' hv').1
  · intro q
    by_cases e : q = t
    · subst e
      simp only [St.to, upd_same]
      exact PcO_frame L _ _ p (fun _ _ => rfl) (fun _ _ _ _ _ => rfl) (fun _ _ _ => ⟨rfl, fun _ h => h⟩) hp
    · simp only [St.to, upd_ne _ _ _ _ e]
      refine PcO_frame L s _ _ (fun v hv => ?_) (fun _ _ _ _ _ => rfl) (fun x d hd => ⟨?_, hgood x⟩) (h.pcs q)
      · exact upd_ne _ _ _ _ (hown v _ ((h.valOwn q v).1 hv))
      · exact upd_ne _ _ _ _ (hown d _ ((h.dataOwn q d).1 (by rw [hd]; rfl)))
  · intro x hh hg
    obtain ⟨h2, h3⟩ := h.giv x hh hg
    refine ⟨hgood x hh h2, fun f sz => ?_⟩
    by_cases e : f = t
    · subst e; simp only [St.to, upd_same]; rw [hc]; exact h3 f sz
    · simp only [St.to, upd_ne _ _ _ _ e]; exact h3 f sz

/-- A block is freed by its owner, a thread or the user. -/
theorem InvO.release (L : Nat) (s : St) (given : List (Nat × Handle)) (held held' : List Nat) (own uo : Nat → Option Own) (t o : Nat)
    (p : Pc) (w : Own) (h : InvO L s given held own uo) (hw : own o = some w) (hwc : ∀ b, w ≠ .cache b)
    (hc : call p = call (s.pc t))
    (hv : ∀ u v, v ≠ o → (valOf (upd s.pc t p u) = some v ↔ valOf (s.pc u) = some v))
    (hv0 : ∀ u, valOf (upd s.pc t p u) ≠ some o)
    (hd : ∀ u v, v ≠ o → (dataOf (upd s.pc t p u) = some v ↔ dataOf (s.pc u) = some v))
    (hd0 : ∀ u, dataOf (upd s.pc t p u) ≠ some o)
    (hh : ∀ d, d ∈ held' ↔ d ∈ held ∧ d ≠ o) (hnd : held'.Nodup)
    (hu : upLoc (s.pc t) = upLoc p) (hl : upLoc p ≠ none → locOf p = locOf (s.pc t))
    (huo : ∀ u v, upLoc (s.pc u) = some (.inr v) → v ≠ o) (hp : PcO L { s with obj := upd s.obj o none } p)
    (h1 : ∀ b sz, s.pc t = .free1 b sz → p = .free1 b sz) :
    InvO L ((s.gfree o).to t p) given held' (upd own o none) uo := by
  have hsome : ∃ x, s.obj o = some x := by
    cases e : s.obj o with
    | none => rw [(h.objOwn o).2 e] at hw; cases hw
    | some x => exact ⟨x, rfl⟩
  obtain ⟨ox, hox⟩ := hsome
  have hgf : s.gfree o = { s with obj := upd s.obj o none } := by unfold St.gfree; rw [hox]
  rw [hgf]
  have hcne : ∀ b v, s.cache b = some v → v ≠ o := by
    intro b v hcv e; subst e
    have := (h.cacheOwn b v).1 hcv; rw [hw] at this; exact hwc b (Option.some.inj this)
  have hgood : ∀ x hh, Good s x hh → Good ({ s with obj := upd s.obj o none }.to t p) x hh := by
    intro x hh hg
    exact hg.frame s _ x hh id (fun _ => rfl) (fun v hv => upd_ne _ _ _ _ (hcne _ _ hv))
  have hval : ∀ v c, upd s.obj o none v = some (.val (some c)) → s.obj v = some (.val (some c)) ∧ v ≠ o := by
    intro v c; unfold upd; split
    · intro e; cases e
    · intro e; exact ⟨e, by assumption⟩
  have hupd : ∀ v w', upd own o none v = some w' → own v = some w' ∧ v ≠ o := by
    intro v c; unfold upd; split
    · intro e; cases e
    · intro e; exact ⟨e, by assumption⟩
  have hupL : ∀ q, upLoc (upd s.pc t p q) = upLoc (s.pc q) := by
    intro q; unfold upd; split
    · rename_i e; rw [e]; exact hu.symm
    · rfl
  refine ⟨h.bad, ?_, ?_, ?_, ?_, ?_, hnd, ?_, ?_, ?_, ?_, h.upsOwn, h.upsKind, ?_, ?_, ?_, ?_, ?_, ?_, ?_, ?_⟩
  · intro v; simp only [St.to]; unfold upd; split
    · simp
    · exact h.objOwn v
  · intro b v; simp only [St.to]
    constructor
    · intro hcv; rw [upd_ne _ _ _ _ (hcne b v hcv)]; exact (h.cacheOwn b v).1 hcv
    · intro e; exact (h.cacheOwn b v).2 (hupd v _ e).1
  · intro u v; simp only [St.to]
    by_cases e : v = o
    · subst e; simp [upd_same, hv0 u]
    · rw [hv u v e, upd_ne _ _ _ _ e]; exact h.valOwn u v
  · intro u v; simp only [St.to]
    by_cases e : v = o
    · subst e; simp [upd_same, hd0 u]
    · rw [hd u v e, upd_ne _ _ _ _ e]; exact h.dataOwn u v
  · intro d; rw [hh]
    by_cases e : d = o
    · subst e; simp [upd_same]
    · rw [upd_ne _ _ _ _ e, ← h.userOwn d]; simp [e]
  · intro b v hcv
    obtain ⟨c, h2, h3⟩ := h.cacheK b v hcv
    exact ⟨c, by simp only [St.to]; rw [upd_ne _ _ _ _ (hcne b v hcv)]; exact h2, h3⟩
  · intro u v hv'
    obtain ⟨h2, h3⟩ := hupd _ _ hv'
    simp only [St.to]; rw [upd_ne _ _ _ _ h3]; exact h.valK u v h2
  · intro u v hv'
    obtain ⟨h2, h3⟩ := hupd _ _ hv'
    simp only [St.to]; rw [upd_ne _ _ _ _ h3]; exact h.dataK u v h2
  · intro v hv'
    obtain ⟨h2, h3⟩ := hupd _ _ hv'
    simp only [St.to]; rw [upd_ne _ _ _ _ h3]; exact h.userK v h2
  · intro q u
    rw [← h.upT q u]
    simp only [UpIs, St.to, hupL]
    constructor
    · rintro (h2 | ⟨v, c, h2, h3, h4⟩)
      · exact Or.inl h2
      · exact Or.inr ⟨v, c, h2, (hval v c h3).1, h4⟩
    · rintro (h2 | ⟨v, c, h2, h3, h4⟩)
      · exact Or.inl h2
      · exact Or.inr ⟨v, c, h2, by rw [upd_ne _ _ _ _ (huo q v h2)]; exact h3, h4⟩
  · intro b u
    rw [← h.upC b u]
    simp only [St.to]
    constructor
    · rintro ⟨v, c, h2, h3, h4⟩; exact ⟨v, c, h2, (hval v c h3).1, h4⟩
    · rintro ⟨v, c, h2, h3, h4⟩
      exact ⟨v, c, h2, by rw [upd_ne _ _ _ _ (hcne b v h2)]; exact h3, h4⟩
  · intro q u x b sz hq hloc
    by_cases e : q = t
    · subst e
      have h2 := (h.upT q u).2 hq
      have h3 : upLoc (s.pc q) ≠ none := by
        unfold UpIs at h2
        rcases h2 with h2 | ⟨v, c, h2, _⟩ <;> rw [h2] <;> simp
      have h4 : locOf p = some (x, b, sz) := by simpa [St.to, upd] using hloc
      exact h.upV q u x b sz hq (by rw [← hl (by rw [← hu]; exact h3)]; exact h4)
    · exact h.upV q u x b sz hq (by simpa [St.to, upd, e] using hloc)
  · intro b u hu2
    obtain ⟨sz, h2, h3⟩ := h.upCv b u hu2
    refine ⟨sz, h2, ?_⟩
    rcases h3 with h3 | ⟨q, h3⟩
    · exact Or.inl h3
    · refine Or.inr ⟨q, ?_⟩
      by_cases e : q = t
      · subst e; simp [St.to, upd, h1 b sz h3]
      · simp [St.to, upd, e, h3]
  · intro v c hv; exact h.idLe v c (hval v c hv).1
  · intro v v' c c' hv hv'; exact h.idNe v v' c c' (hval v c hv).1 (hval v' c' hv').1
  · intro q
    by_cases e : q = t
    · subst e
      simp only [St.to, upd_same]
      exact PcO_frame L _ _ p (fun _ _ => rfl) (fun _ _ _ _ _ => rfl) (fun _ _ _ => ⟨rfl, fun _ h => h⟩) hp
    · simp only [St.to, upd_ne _ _ _ _ e]
      refine PcO_frame L s _ _ (fun v hvq => ?_) (fun _ _ _ _ _ => rfl) (fun x d hdq => ⟨?_, hgood x⟩) (h.pcs q)
      · refine upd_ne _ _ _ _ (fun e' => ?_)
        subst e'; have := hv0 q; rw [upd_ne _ _ _ _ e] at this; exact this hvq
      · refine upd_ne _ _ _ _ (fun e' => ?_)
        subst e'; have := hd0 q; rw [upd_ne _ _ _ _ e, hdq] at this; exact this rfl
  · intro x hh hg
    obtain ⟨h2, h3⟩ := h.giv x hh hg
    refine ⟨hgood x hh h2, fun f sz => ?_⟩
    by_cases e : f = t
    · subst e; simp only [St.to, upd_same]; rw [hc]; exact h3 f sz
    · simp only [St.to, upd_ne _ _ _ _ e]; exact h3 f sz

end Verif.IpcExp
