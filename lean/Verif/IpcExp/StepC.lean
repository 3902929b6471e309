import Verif.IpcExp.StepB

/-! # Values enter and leave the cache, handles are written and returned, and regions come and go -/
namespace Verif.IpcExp

theorem upLoc_val (p : Pc) (v : Nat) (h : upLoc p = some (.inr v)) : valOf p = some v := by
  revert h; cases p <;> simp [upLoc, valOf]

/-- A thread puts its value into the cache. -/
theorem InvO.insert (L : Nat) (s : St) (given : List (Nat × Handle)) (held : List Nat) (own uo : Nat → Option Own) (t v : Nat)
    (g : Loc) (hr : InvR s) (h : InvO L s given held own uo) (hpc : s.pc t = .ins g v) (hn : s.cache g.b = none) :
    ∃ own' uo', InvO L ({ s with cache := upd s.cache g.b (some v) }.to t (.copy g v)) given held own' uo' := by
  have hown : own v = some (.val t) := (h.valOwn t v).1 (by rw [hpc]; rfl)
  have hpo := h.pcs t; rw [hpc] at hpo
  obtain ⟨hroom, c, hob, hlen⟩ := hpo
  have huo : uo c.prov = some (.val t) := (h.upT t c.prov).1 (Or.inr ⟨v, c, by rw [hpc]; rfl, hob, rfl⟩)
  have hups := h.upV t c.prov g.x g.b g.sz huo (by rw [hpc]; rfl)
  have hloc := hr.loc t g.x g.b g.sz (by rw [hpc]; rfl)
  have hnoc : ∀ w, own w ≠ some (.cache g.b) := by
    intro w e; have := (h.cacheOwn g.b w).2 e; rw [hn] at this; cases this
  have hnou : ∀ w, uo w ≠ some (.cache g.b) := by
    intro w e; obtain ⟨v', c', h2, _⟩ := (h.upC g.b w).2 e; rw [hn] at h2; cases h2
  refine ⟨upd own v (some (.cache g.b)), upd uo c.prov (some (.cache g.b)), ?_⟩
  have hvne : ∀ q w, q ≠ t → valOf (s.pc q) = some w → w ≠ v := by
    intro q w e hw e'; subst e'
    have := (h.valOwn q w).1 hw; rw [hown] at this; cases this; exact e rfl
  have hgood : ∀ x hh, Good s x hh → Good ({ s with cache := upd s.cache g.b (some v) }.to t (.copy g v)) x hh := by
    intro x hh hg
    refine hg.frame s _ x hh id (fun hcn => upd_ne _ _ _ _ (fun e => hcn (by rw [e]; exact hn))) (fun _ _ => rfl)
  refine ⟨h.bad, ?_, ?_, ?_, ?_, ?_, h.nodup, ?_, ?_, ?_, ?_, ?_, ?_, ?_, ?_, ?_, ?_, h.idLe, h.idNe, ?_, ?_⟩
  · intro w; simp only [St.to]; unfold upd; split
    · rename_i e; subst e; rw [hob]; simp
    · exact h.objOwn w
  · intro b w; simp only [St.to]
    by_cases e1 : b = g.b
    · subst e1; rw [upd_same]
      by_cases e2 : w = v
      · subst e2; simp [upd_same]
      · rw [upd_ne _ _ _ _ e2]
        constructor
        · intro e; cases e; exact absurd rfl e2
        · intro e; exact absurd e (hnoc w)
    · rw [upd_ne _ _ _ _ e1]
      by_cases e2 : w = v
      · subst e2; rw [upd_same, h.cacheOwn, hown]
        constructor
        · intro e; cases e
        · intro e; cases e; exact absurd rfl e1
      · rw [upd_ne _ _ _ _ e2]; exact h.cacheOwn b w
  · intro q w; simp only [St.to]
    by_cases e : q = t
    · subst e; rw [upd_same]
      have h2 := h.valOwn q w; rw [hpc] at h2
      by_cases e2 : w = v
      · subst e2; rw [upd_same]; simp [valOf]
      · rw [upd_ne _ _ _ _ e2, ← h2]; simp [valOf]; exact fun e => e2 e.symm
    · rw [upd_ne _ _ _ _ e]
      by_cases e2 : w = v
      · subst e2; rw [upd_same]
        constructor
        · intro h3; exact absurd rfl (hvne q w e h3)
        · intro h3; cases h3
      · rw [upd_ne _ _ _ _ e2]; exact h.valOwn q w
  · intro q w; simp only [St.to]
    have h2 := h.dataOwn q w
    have h3 : dataOf (upd s.pc t (.copy g v) q) = dataOf (s.pc q) := by
      unfold upd; split
      · rename_i e; rw [e, hpc]; rfl
      · rfl
    rw [h3, h2]
    by_cases e2 : w = v
    · subst e2; rw [upd_same, hown]; simp
    · rw [upd_ne _ _ _ _ e2]
  · intro w; rw [h.userOwn w]
    by_cases e2 : w = v
    · subst e2; rw [upd_same, hown]; simp
    · rw [upd_ne _ _ _ _ e2]
  · intro b w hw; simp only [St.to] at hw
    by_cases e1 : b = g.b
    · subst e1; rw [upd_same] at hw; cases hw; exact ⟨c, hob, hlen⟩
    · rw [upd_ne _ _ _ _ e1] at hw; exact h.cacheK b w hw
  · intro q w hw
    by_cases e2 : w = v
    · subst e2; rw [upd_same] at hw; cases hw
    · rw [upd_ne _ _ _ _ e2] at hw; exact h.valK q w hw
  · intro q w hw
    by_cases e2 : w = v
    · subst e2; rw [upd_same] at hw; cases hw
    · rw [upd_ne _ _ _ _ e2] at hw; exact h.dataK q w hw
  · intro w hw
    by_cases e2 : w = v
    · subst e2; rw [upd_same] at hw; cases hw
    · rw [upd_ne _ _ _ _ e2] at hw; exact h.userK w hw
  · intro w; simp only [St.to]; unfold upd; split
    · rename_i e; subst e; rw [hups]; simp
    · exact h.upsOwn w
  · intro w; unfold upd; split
    · simp
    · exact h.upsKind w
  · intro q w
    by_cases e : q = t
    · subst e
      have h2 := h.upT q w; rw [hpc] at h2
      simp only [UpIs, St.to, upd_same, upLoc] at h2 ⊢
      by_cases e2 : w = c.prov
      · subst e2; rw [upd_same]; simp
      · rw [upd_ne _ _ _ _ e2, ← h2]
        constructor
        · simp
        · rintro (h3 | ⟨v', c', h3, h4, h5⟩)
          · cases h3
          · cases h3; rw [hob] at h4; cases h4; exact absurd h5.symm e2
    · have h2 := h.upT q w
      simp only [UpIs, St.to, upd_ne _ _ _ _ e] at h2 ⊢
      by_cases e2 : w = c.prov
      · subst e2; rw [upd_same, h2, huo]
        constructor
        · intro h3; cases h3; exact absurd rfl e
        · intro h3; cases h3
      · rw [upd_ne _ _ _ _ e2]; exact h2
  · intro b w
    have h2 := h.upC b w
    simp only [St.to]
    by_cases e1 : b = g.b
    · subst e1; simp only [upd_same]
      by_cases e2 : w = c.prov
      · subst e2; rw [upd_same]
        constructor
        · intro _; rfl
        · intro _; exact ⟨v, c, rfl, hob, rfl⟩
      · rw [upd_ne _ _ _ _ e2]
        constructor
        · rintro ⟨v', c', h3, h4, h5⟩; cases h3; rw [hob] at h4; cases h4; exact absurd h5.symm e2
        · intro h3; exact absurd h3 (hnou w)
    · simp only [upd_ne _ _ _ _ e1]
      rw [h2]
      by_cases e2 : w = c.prov
      · subst e2; rw [upd_same, huo]
        constructor
        · intro h3; cases h3
        · intro h3; cases h3; exact absurd rfl e1
      · rw [upd_ne _ _ _ _ e2]
  · intro q w x b sz hq hl
    by_cases e2 : w = c.prov
    · subst e2; rw [upd_same] at hq; cases hq
    · rw [upd_ne _ _ _ _ e2] at hq
      have e : q ≠ t := by
        intro e; subst e
        rcases (h.upT q w).2 hq with h3 | ⟨v', c', h3, h4, h5⟩
        · rw [hpc] at h3; cases h3
        · rw [hpc] at h3; cases h3; rw [hob] at h4; cases h4; exact e2 h5.symm
      exact h.upV q w x b sz hq (by simpa [St.to, upd, e] using hl)
  · intro b w hw
    by_cases e2 : w = c.prov
    · subst e2; rw [upd_same] at hw; cases hw
      exact ⟨g.sz, hups, Or.inl hloc.1⟩
    · rw [upd_ne _ _ _ _ e2] at hw
      obtain ⟨sz, h5, h6⟩ := h.upCv b w hw
      refine ⟨sz, h5, ?_⟩
      rcases h6 with h6 | ⟨q, h6⟩
      · exact Or.inl h6
      · refine Or.inr ⟨q, ?_⟩
        have e : q ≠ t := fun e => by rw [← e, h6] at hpc; cases hpc
        simp [St.to, upd, e, h6]
  · intro q
    by_cases e : q = t
    · subst e; simp only [St.to, upd_same]
      exact ⟨hroom, upd_same _ _ _⟩
    · simp only [St.to, upd_ne _ _ _ _ e]
      refine PcO_frame _ s _ _ (fun _ _ => rfl) (fun _ b _ _ hcn => upd_ne _ _ _ _ (fun e => hcn (by rw [e]; exact hn)))
        (fun x d hd => ⟨rfl, hgood x⟩) (h.pcs q)
  · intro x hh hg
    obtain ⟨h2, h3⟩ := h.giv x hh hg
    refine ⟨hgood x hh h2, fun f sz => ?_⟩
    simp only [St.to, upd]; split
    · intro e; cases e
    · exact h3 f sz

/-- A freeing takes the value out of the cache. -/
theorem InvO.uncache (L : Nat) (s : St) (given : List (Nat × Handle)) (held : List Nat) (own uo : Nat → Option Own)
    (t b sz v : Nat) (hr : InvR s) (h : InvO L s given held own uo) (hpc : s.pc t = .free1 b sz) (hn : s.cache b = some v) :
    ∃ own' uo', InvO L ({ s with cache := upd s.cache b none }.to t (.freePut b sz v)) given held own' uo' := by
  have hown := (h.cacheOwn b v).1 hn
  obtain ⟨c, hob, hlen⟩ := h.cacheK b v hn
  have huo : uo c.prov = some (.cache b) := (h.upC b c.prov).1 ⟨v, c, hn, hob, rfl⟩
  have hout := hr.out t b sz (by rw [hpc]; rfl)
  have hnreg : ∀ sz', (b, sz') ∉ s.regs := by
    intro sz' hm
    have h1 := hout.2 b sz' hm; have h2 := hr.pos b sz' hm; have h3 := hout.1
    unfold Apart at h1; omega
  have hups : ∃ x, s.ups c.prov = some x := by
    cases e : s.ups c.prov with
    | none => rw [(h.upsOwn _).2 e] at huo; cases huo
    | some x => exact ⟨x, rfl⟩
  obtain ⟨ux, hux⟩ := hups
  refine ⟨upd own v (some (.val t)), upd uo c.prov (some (.val t)), ?_⟩
  have hcne : ∀ b' w, b' ≠ b → s.cache b' = some w → w ≠ v := by
    intro b' w e hw e'; subst e'
    have := (h.cacheOwn b' w).1 hw; rw [hown] at this; cases this; exact e rfl
  have hgood : ∀ x hh, Good s x hh → Good ({ s with cache := upd s.cache b none }.to t (.freePut b sz v)) x hh := by
    intro x hh hg
    refine hg.frame s _ x hh id (fun _ => upd_ne _ _ _ _ (fun e => ?_)) (fun _ _ => rfl)
    exact hnreg hh.size (by have := hg.1; rw [e] at this; exact this)
  refine ⟨h.bad, ?_, ?_, ?_, ?_, ?_, h.nodup, ?_, ?_, ?_, ?_, ?_, ?_, ?_, ?_, ?_, ?_, h.idLe, h.idNe, ?_, ?_⟩
  · intro w; simp only [St.to]; unfold upd; split
    · rename_i e; subst e; rw [hob]; simp
    · exact h.objOwn w
  · intro b' w; simp only [St.to]
    by_cases e1 : b' = b
    · subst e1; rw [upd_same]
      by_cases e2 : w = v
      · subst e2; simp [upd_same]
      · rw [upd_ne _ _ _ _ e2, ← h.cacheOwn, hn]
        constructor
        · intro e; cases e
        · intro e; cases e; exact absurd rfl e2
    · rw [upd_ne _ _ _ _ e1]
      by_cases e2 : w = v
      · subst e2; rw [upd_same]
        constructor
        · intro e; exact absurd rfl (hcne b' w e1 e)
        · intro e; cases e
      · rw [upd_ne _ _ _ _ e2]; exact h.cacheOwn b' w
  · intro q w; simp only [St.to]
    have h2 := h.valOwn q w
    by_cases e : q = t
    · subst e; rw [upd_same]
      by_cases e2 : w = v
      · subst e2; rw [upd_same]; simp [valOf]
      · rw [upd_ne _ _ _ _ e2]; rw [hpc] at h2
        rw [← h2]; simp [valOf]; exact fun e => e2 e.symm
    · rw [upd_ne _ _ _ _ e, h2]
      by_cases e2 : w = v
      · subst e2; rw [upd_same, hown]; simp; exact fun e' => e e'.symm
      · rw [upd_ne _ _ _ _ e2]
  · intro q w; simp only [St.to]
    have h2 := h.dataOwn q w
    have h3 : dataOf (upd s.pc t (.freePut b sz v) q) = dataOf (s.pc q) := by
      unfold upd; split
      · rename_i e; rw [e, hpc]; rfl
      · rfl
    rw [h3, h2]
    by_cases e2 : w = v
    · subst e2; rw [upd_same, hown]; simp
    · rw [upd_ne _ _ _ _ e2]
  · intro w; rw [h.userOwn w]
    by_cases e2 : w = v
    · subst e2; rw [upd_same, hown]; simp
    · rw [upd_ne _ _ _ _ e2]
  · intro b' w hw; simp only [St.to] at hw
    by_cases e1 : b' = b
    · subst e1; rw [upd_same] at hw; cases hw
    · rw [upd_ne _ _ _ _ e1] at hw; exact h.cacheK b' w hw
  · intro q w hw
    by_cases e2 : w = v
    · subst e2; exact ⟨_, hob⟩
    · rw [upd_ne _ _ _ _ e2] at hw; exact h.valK q w hw
  · intro q w hw
    by_cases e2 : w = v
    · subst e2; rw [upd_same] at hw; cases hw
    · rw [upd_ne _ _ _ _ e2] at hw; exact h.dataK q w hw
  · intro w hw
    by_cases e2 : w = v
    · subst e2; rw [upd_same] at hw; cases hw
    · rw [upd_ne _ _ _ _ e2] at hw; exact h.userK w hw
  · intro w; simp only [St.to]; unfold upd; split
    · rename_i e; subst e; rw [hux]; simp
    · exact h.upsOwn w
  · intro w; unfold upd; split
    · simp
    · exact h.upsKind w
  · intro q w
    by_cases e : q = t
    · subst e
      have h2 := h.upT q w; rw [hpc] at h2
      simp only [UpIs, St.to, upd_same, upLoc] at h2 ⊢
      by_cases e2 : w = c.prov
      · subst e2; rw [upd_same]
        constructor
        · intro _; rfl
        · intro _; exact Or.inr ⟨v, c, rfl, hob, rfl⟩
      · rw [upd_ne _ _ _ _ e2, ← h2]
        constructor
        · rintro (h3 | ⟨v', c', h3, h4, h5⟩)
          · cases h3
          · cases h3; rw [hob] at h4; cases h4; exact absurd h5.symm e2
        · simp
    · have h2 := h.upT q w
      simp only [UpIs, St.to, upd_ne _ _ _ _ e] at h2 ⊢
      by_cases e2 : w = c.prov
      · subst e2; rw [upd_same, h2, huo]
        constructor
        · intro h3; cases h3
        · intro h3; cases h3; exact absurd rfl e
      · rw [upd_ne _ _ _ _ e2]; exact h2
  · intro b' w
    have h2 := h.upC b' w
    simp only [St.to]
    by_cases e1 : b' = b
    · subst e1; simp only [upd_same]
      by_cases e2 : w = c.prov
      · subst e2; rw [upd_same]; simp
      · rw [upd_ne _ _ _ _ e2]
        constructor
        · rintro ⟨v', c', h3, _⟩; cases h3
        · intro h3
          obtain ⟨v', c', h4, h5, h6⟩ := h2.2 h3
          rw [hn] at h4; cases h4; rw [hob] at h5; cases h5; exact absurd h6.symm e2
    · simp only [upd_ne _ _ _ _ e1]
      rw [h2]
      by_cases e2 : w = c.prov
      · subst e2; rw [upd_same, huo]
        constructor
        · intro h3; cases h3; exact absurd rfl e1
        · intro h3; cases h3
      · rw [upd_ne _ _ _ _ e2]
  · intro q w x b' sz' hq hl
    by_cases e2 : w = c.prov
    · subst e2; rw [upd_same] at hq; cases hq
      simp [St.to, upd_same, locOf] at hl
    · rw [upd_ne _ _ _ _ e2] at hq
      by_cases e : q = t
      · subst e; simp [St.to, upd_same, locOf] at hl
      · exact h.upV q w x b' sz' hq (by simpa [St.to, upd, e] using hl)
  · intro b' w hw
    by_cases e2 : w = c.prov
    · subst e2; rw [upd_same] at hw; cases hw
    · rw [upd_ne _ _ _ _ e2] at hw
      obtain ⟨sz', h5, h6⟩ := h.upCv b' w hw
      refine ⟨sz', h5, ?_⟩
      rcases h6 with h6 | ⟨q, h6⟩
      · exact Or.inl h6
      · refine Or.inr ⟨q, ?_⟩
        have e : q ≠ t := by
          intro e; subst e; rw [hpc] at h6; cases h6
          obtain ⟨v', c', h7, h8, h9⟩ := (h.upC b w).2 hw
          rw [hn] at h7; cases h7; rw [hob] at h8; cases h8; exact e2 h9.symm
        simp [St.to, upd, e, h6]
  · intro q
    by_cases e : q = t
    · subst e; simp only [St.to, upd_same]
      exact ⟨c, hob, hlen⟩
    · simp only [St.to, upd_ne _ _ _ _ e]
      refine PcO_frame _ s _ _ (fun _ _ => rfl) (fun x b' sz' hl _ => upd_ne _ _ _ _ (fun e => ?_))
        (fun x d hd => ⟨rfl, hgood x⟩) (h.pcs q)
      exact hnreg sz' (by have := (hr.loc q x b' sz' hl).1; rw [e] at this; exact this)
  · intro x hh hg
    obtain ⟨h2, h3⟩ := h.giv x hh hg
    refine ⟨hgood x hh h2, fun f sz' => ?_⟩
    simp only [St.to, upd]; split
    · intro e; exact h3 t sz' (by rw [hpc]; exact e)
    · exact h3 f sz'

/-- The handle of the user is written. -/
theorem InvO.write (L : Nat) (s : St) (given : List (Nat × Handle)) (held : List Nat) (own uo : Nat → Option Own) (t v : Nat)
    (g : Loc) (hr : InvR s) (h : InvO L s given held own uo) (hpc : s.pc t = .copy g v) :
    InvO L ((s.copyV g v).to t (.done g.x (.handle g.d))) given held own uo := by
  have hpo := h.pcs t; rw [hpc] at hpo
  obtain ⟨hroom, hcv⟩ := hpo
  obtain ⟨c, hob, hlen⟩ := h.cacheK g.b v hcv
  have hown : own g.d = some (.data t) := (h.dataOwn t g.d).1 (by rw [hpc]; rfl)
  obtain ⟨h0, hod⟩ := h.dataK t g.d hown
  have hloc := hr.loc t g.x g.b g.sz (by rw [hpc]; rfl)
  have hce : s.copyV g v =
      { s with obj := upd s.obj g.d (some (.data (some ⟨c.id, g.b, g.sz, g.x - g.b, c.prov⟩))) } := by
    unfold St.copyV; rw [hob, hod]; dsimp only; rw [if_pos (by omega)]
  rw [hce]
  have e1 : ∀ q, valOf (upd s.pc t (.done g.x (.handle g.d)) q) = valOf (s.pc q) := by
    intro q; unfold upd; split
    · rename_i e; rw [e, hpc]; rfl
    · rfl
  have e2 : ∀ q, dataOf (upd s.pc t (.done g.x (.handle g.d)) q) = dataOf (s.pc q) := by
    intro q; unfold upd; split
    · rename_i e; rw [e, hpc]; rfl
    · rfl
  have e3 : ∀ q, upLoc (upd s.pc t (.done g.x (.handle g.d)) q) = upLoc (s.pc q) := by
    intro q; unfold upd; split
    · rename_i e; rw [e, hpc]; rfl
    · rfl
  have hne : ∀ w x, own w = some x → x ≠ .data t → w ≠ g.d := by
    intro w x hw hx e; subst e; rw [hown] at hw; exact hx (Option.some.inj hw).symm
  have hcne : ∀ b w, s.cache b = some w → w ≠ g.d := fun b w hw => hne w _ ((h.cacheOwn b w).1 hw) (by simp)
  have hval : ∀ w c', upd s.obj g.d (some (.data (some ⟨c.id, g.b, g.sz, g.x - g.b, c.prov⟩))) w = some (.val (some c')) ↔
      s.obj w = some (.val (some c')) := by
    intro w c'; unfold upd; split
    · rename_i e; subst e; rw [hod]; simp
    · rfl
  have hgood : ∀ x hh, Good s x hh → Good ({ s with
      obj := upd s.obj g.d (some (.data (some ⟨c.id, g.b, g.sz, g.x - g.b, c.prov⟩))) }.to t (.done g.x (.handle g.d))) x hh := by
    intro x hh hg
    exact hg.frame s _ x hh id (fun _ => rfl) (fun w hw => upd_ne _ _ _ _ (hcne _ _ hw))
  refine ⟨h.bad, ?_, h.cacheOwn, ?_, ?_, h.userOwn, h.nodup, ?_, ?_, ?_, ?_, h.upsOwn, h.upsKind,
    ?_, ?_, ?_, ?_, ?_, ?_, ?_, ?_⟩
  · intro w; simp only [St.to]; unfold upd; split
    · rename_i e; subst e; rw [hown]; simp
    · exact h.objOwn w
  · intro q w; simp only [St.to]; rw [e1]; exact h.valOwn q w
  · intro q w; simp only [St.to]; rw [e2]; exact h.dataOwn q w
  · intro b w hw
    obtain ⟨c', h2, h3⟩ := h.cacheK b w hw
    exact ⟨c', (hval w c').2 h2, h3⟩
  · intro q w hw; simp only [St.to]
    rw [upd_ne _ _ _ _ (hne w _ hw (by simp))]; exact h.valK q w hw
  · intro q w hw; simp only [St.to]; unfold upd; split
    · exact ⟨_, rfl⟩
    · exact h.dataK q w hw
  · intro w hw; simp only [St.to]
    rw [upd_ne _ _ _ _ (hne w _ hw (by simp))]; exact h.userK w hw
  · intro q w
    rw [← h.upT q w]
    simp only [UpIs, St.to, e3, hval]
  · intro b w
    rw [← h.upC b w]
    simp only [St.to, hval]
  · intro q w x b sz hq hl
    by_cases e : q = t
    · subst e; simp [St.to, upd_same, locOf] at hl
    · exact h.upV q w x b sz hq (by simpa [St.to, upd, e] using hl)
  · intro b w hw
    obtain ⟨sz, h5, h6⟩ := h.upCv b w hw
    refine ⟨sz, h5, ?_⟩
    rcases h6 with h6 | ⟨q, h6⟩
    · exact Or.inl h6
    · refine Or.inr ⟨q, ?_⟩
      have e : q ≠ t := fun e => by rw [← e, h6] at hpc; cases hpc
      simp [St.to, upd, e, h6]
  · intro w c' hw; exact h.idLe w c' ((hval w c').1 hw)
  · intro w w' c1 c2 hw hw'; exact h.idNe w w' c1 c2 ((hval w c1).1 hw) ((hval w' c2).1 hw')
  · intro q
    by_cases e : q = t
    · subst e; simp only [St.to, upd_same]
      intro d e; cases e
      exact ⟨_, upd_same _ _ _, hloc.1, hloc.2, rfl, v, c, hcv, (hval v c).2 hob, rfl, rfl⟩
    · simp only [St.to, upd_ne _ _ _ _ e]
      refine PcO_frame _ s _ _ (fun w hw => upd_ne _ _ _ _ (hne w _ ((h.valOwn q w).1 hw) (by simp))) (fun _ _ _ _ _ => rfl)
        (fun x d hd => ⟨upd_ne _ _ _ _ (hne d _ ((h.dataOwn q d).1 (by rw [hd]; rfl)) (by simpa using e)), hgood x⟩) (h.pcs q)
  · intro x hh hg
    obtain ⟨h2, h3⟩ := h.giv x hh hg
    refine ⟨hgood x hh h2, fun f sz => ?_⟩
    simp only [St.to, upd]; split
    · intro e; cases e
    · exact h3 f sz

/-- The regions of the tracker change, but not those of handles that are in use. -/
theorem InvO.regions (L : Nat) (s : St) (given : List (Nat × Handle)) (held : List Nat) (own uo : Nat → Option Own)
    (rg : List (Nat × Nat)) (h : InvO L s given held own uo)
    (hg : ∀ x hh, Good s x hh → ((∃ t d, s.pc t = .done x (.handle d)) ∨ (x, hh) ∈ given) → (hh.base, hh.size) ∈ rg)
    (hk : ∀ b sz, s.cache b ≠ none → (b, sz) ∈ s.regs → (b, sz) ∈ rg ∨ ∃ t, s.pc t = .free1 b sz) :
    InvO L { s with regs := rg } given held own uo := by
  refine ⟨h.bad, h.objOwn, h.cacheOwn, h.valOwn, h.dataOwn, h.userOwn, h.nodup, h.cacheK, h.valK, h.dataK, h.userK, h.upsOwn,
    h.upsKind, h.upT, h.upC, h.upV, ?_, h.idLe, h.idNe, ?_, ?_⟩
  · intro b w hw
    obtain ⟨sz, h5, h6⟩ := h.upCv b w hw
    refine ⟨sz, h5, ?_⟩
    rcases h6 with h6 | h6
    · obtain ⟨v, c, h7, _⟩ := (h.upC b w).2 hw
      exact hk b sz (by rw [h7]; simp) h6
    · exact Or.inr h6
  · intro q
    have hpq := h.pcs q
    show PcO L _ (s.pc q)
    cases e : s.pc q with
    | done x r =>
      rw [e] at hpq
      intro d e'; subst e'
      obtain ⟨hh, h2, h3⟩ := hpq d rfl
      exact ⟨hh, h2, hg x hh h3 (Or.inl ⟨q, d, e⟩), h3.2⟩
    | _ => rw [e] at hpq; exact hpq
  · intro x hh hm
    obtain ⟨h2, h3⟩ := h.giv x hh hm
    exact ⟨⟨hg x hh h2 (Or.inr hm), h2.2⟩, h3⟩

/-- A handle is returned. -/
theorem InvO.give (L : Nat) (s : St) (given : List (Nat × Handle)) (held : List Nat) (own uo : Nat → Option Own) (t x d : Nat)
    (hh : Handle) (hr : InvR s) (h : InvO L s given held own uo) (hpc : s.pc t = .done x (.handle d))
    (hob : s.obj d = some (.data (some hh))) :
    InvO L (s.to t .idle) ((x, hh) :: given) (d :: held) (upd own d (some .user)) uo := by
  have hown : own d = some (.data t) := (h.dataOwn t d).1 (by rw [hpc]; rfl)
  have hpo := h.pcs t; rw [hpc] at hpo
  obtain ⟨hh', h2, hgood⟩ := hpo d rfl
  rw [hob] at h2; cases h2
  have e1 : ∀ q, valOf (upd s.pc t .idle q) = valOf (s.pc q) := by
    intro q; unfold upd; split
    · rename_i e; rw [e, hpc]; rfl
    · rfl
  have e3 : ∀ q, upLoc (upd s.pc t .idle q) = upLoc (s.pc q) := by
    intro q; unfold upd; split
    · rename_i e; rw [e, hpc]; rfl
    · rfl
  have hdh : d ∉ held := by
    intro hm; have := (h.userOwn d).1 hm; rw [hown] at this; cases this
  refine ⟨h.bad, ?_, ?_, ?_, ?_, ?_, List.nodup_cons.2 ⟨hdh, h.nodup⟩, h.cacheK, ?_, ?_, ?_, h.upsOwn, h.upsKind,
    ?_, h.upC, ?_, ?_, h.idLe, h.idNe, ?_, ?_⟩
  · intro w; simp only [St.to]; unfold upd; split
    · rename_i e; subst e; rw [hob]; simp
    · exact h.objOwn w
  · intro b w; simp only [St.to]; rw [h.cacheOwn]
    by_cases e2 : w = d
    · subst e2; rw [upd_same, hown]; simp
    · rw [upd_ne _ _ _ _ e2]
  · intro q w; simp only [St.to]; rw [e1, h.valOwn]
    by_cases e2 : w = d
    · subst e2; rw [upd_same, hown]; simp
    · rw [upd_ne _ _ _ _ e2]
  · intro q w; simp only [St.to]
    have h2 := h.dataOwn q w
    by_cases e : q = t
    · subst e; rw [upd_same]; rw [hpc] at h2
      by_cases e2 : w = d
      · subst e2; rw [upd_same]; simp [dataOf]
      · rw [upd_ne _ _ _ _ e2, ← h2]; simp [dataOf]; exact fun e => e2 e.symm
    · rw [upd_ne _ _ _ _ e, h2]
      by_cases e2 : w = d
      · subst e2; rw [upd_same, hown]; simp; exact fun e' => e e'.symm
      · rw [upd_ne _ _ _ _ e2]
  · intro w
    by_cases e2 : w = d
    · subst e2; rw [upd_same]; simp
    · rw [upd_ne _ _ _ _ e2, ← h.userOwn]; simp [e2]
  · intro q w hw
    by_cases e2 : w = d
    · subst e2; rw [upd_same] at hw; cases hw
    · rw [upd_ne _ _ _ _ e2] at hw; exact h.valK q w hw
  · intro q w hw
    by_cases e2 : w = d
    · subst e2; rw [upd_same] at hw; cases hw
    · rw [upd_ne _ _ _ _ e2] at hw; exact h.dataK q w hw
  · intro w hw
    by_cases e2 : w = d
    · subst e2; exact ⟨_, hob⟩
    · rw [upd_ne _ _ _ _ e2] at hw; exact h.userK w hw
  · intro q w
    rw [← h.upT q w]
    simp only [UpIs, St.to, e3]
  · intro q w x b sz hq hl
    by_cases e : q = t
    · subst e; simp [St.to, upd_same, locOf] at hl
    · exact h.upV q w x b sz hq (by simpa [St.to, upd, e] using hl)
  · intro b w hw
    obtain ⟨sz, h5, h6⟩ := h.upCv b w hw
    refine ⟨sz, h5, ?_⟩
    rcases h6 with h6 | ⟨q, h6⟩
    · exact Or.inl h6
    · refine Or.inr ⟨q, ?_⟩
      have e : q ≠ t := fun e => by rw [← e, h6] at hpc; cases hpc
      simp [St.to, upd, e, h6]
  · intro q; simp only [St.to, upd]; split
    · trivial
    · exact PcO_frame L s _ _ (fun _ _ => rfl) (fun _ _ _ _ _ => rfl) (fun _ _ _ => ⟨rfl, fun _ h => h⟩) (h.pcs q)
  · intro y k hm
    have hcall : ∀ f b sz, call ((s.to t .idle).pc f) = .free b sz → call (s.pc f) = .free b sz := by
      intro f b sz; simp only [St.to, upd]; split
      · intro e; cases e
      · exact id
    rcases List.mem_cons.1 hm with e | e
    · cases e
      refine ⟨hgood, fun f sz hc => ?_⟩
      have hc' := hcall f _ _ hc
      by_cases h0 : s.pc f = .free0 hh.base sz
      · have h3 := hr.f0 f _ _ h0
        have hx := hr.excl t f x hh.base sz (by rw [hpc]; rfl) hc'
        by_cases hs : sz = hh.size
        · subst hs; exact hx hgood.2.1
        · have h4 := hr.disj _ _ _ _ h3 hgood.1 (fun e => hs (by cases e; rfl))
          have h5 := hr.pos _ _ h3; have h6 := hr.pos _ _ hgood.1
          unfold Apart at h4; omega
      · have ho : outOf (s.pc f) = some (hh.base, sz) := by
          revert hc' h0; cases s.pc f <;> simp [call, outOf]
        obtain ⟨h5, h6⟩ := hr.out f _ _ ho
        have h7 := h6 _ _ hgood.1; have h8 := hr.pos _ _ hgood.1
        unfold Apart at h7; omega
    · obtain ⟨h2, h3⟩ := h.giv y k e
      exact ⟨h2, fun f sz hc => h3 f sz (hcall f _ _ hc)⟩

end Verif.IpcExp
