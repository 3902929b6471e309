import Verif.IpcExp.StepA

/-! # Upstream handles are taken and put back, values are filled in, and handles are written -/
namespace Verif.IpcExp

/-- The upstream provider makes a handle. -/
theorem InvO.upGet (L : Nat) (s : St) (given : List (Nat × Handle)) (held : List Nat) (own uo : Nat → Option Own) (t u v len : Nat)
    (g : Loc) (h : InvO L s given held own uo) (hpc : s.pc t = .upget g v len) (hn : s.ups u = none) :
    InvO L ({ s with ups := upd s.ups u (some (g.b, g.sz)) }.to t (.fill g v len u)) given held own (upd uo u (some (.val t))) := by
  have hu : uo u = none := (h.upsOwn u).2 hn
  have e1 : ∀ q, valOf (upd s.pc t (.fill g v len u) q) = valOf (s.pc q) := by
    intro q; unfold upd; split
    · rename_i e; rw [e, hpc]; rfl
    · rfl
  have e2 : ∀ q, dataOf (upd s.pc t (.fill g v len u) q) = dataOf (s.pc q) := by
    intro q; unfold upd; split
    · rename_i e; rw [e, hpc]; rfl
    · rfl
  have hpo := h.pcs t; rw [hpc] at hpo
  refine ⟨h.bad, h.objOwn, h.cacheOwn, ?_, ?_, h.userOwn, h.nodup, h.cacheK, h.valK, h.dataK, h.userK, ?_, ?_,
    ?_, ?_, ?_, ?_, h.idLe, h.idNe, ?_, ?_⟩
  · intro q w; simp only [St.to]; rw [e1]; exact h.valOwn q w
  · intro q w; simp only [St.to]; rw [e2]; exact h.dataOwn q w
  · intro w; simp only [St.to]; unfold upd; split
    · simp
    · exact h.upsOwn w
  · intro w; unfold upd; split
    · simp
    · exact h.upsKind w
  · intro q w
    by_cases e : q = t
    · subst e
      have h2 := h.upT q w
      rw [hpc] at h2
      simp only [UpIs, St.to, upd_same, upLoc] at h2 ⊢
      unfold upd; split
      · rename_i e; subst e; simp
      · rename_i e
        rw [← h2]; simp; intro e'; exact e e'.symm
    · simp only [UpIs, St.to, upd_ne _ _ _ _ e]
      have h2 := h.upT q w
      by_cases e' : w = u
      · subst e'
        rw [hu] at h2
        simp only [UpIs] at h2
        simp only [upd_same]
        constructor
        · intro h3; exact absurd (h2.1 h3) (by simp)
        · intro h3; cases h3; exact absurd rfl e
      · rw [upd_ne _ _ _ _ e']; exact h2
  · intro b w
    have h2 := h.upC b w
    simp only [St.to]
    rw [h2]
    by_cases e' : w = u
    · subst e'; rw [hu, upd_same]; simp
    · rw [upd_ne _ _ _ _ e']
  · intro q w x b sz hq hloc
    by_cases e' : w = u
    · subst e'
      rw [upd_same] at hq; cases hq
      simp only [St.to, upd_same, locOf, Option.some.injEq, Prod.mk.injEq] at hloc ⊢
      obtain ⟨_, rfl, rfl⟩ := hloc; simp
    · rw [upd_ne _ _ _ _ e'] at hq
      simp only [St.to]; rw [upd_ne _ _ _ _ e']
      by_cases e : q = t
      · subst e
        have := (h.upT q w).2 hq
        rw [hpc] at this; simp [UpIs, upLoc] at this
      · exact h.upV q w x b sz hq (by simpa [St.to, upd, e] using hloc)
  · intro b w hw
    have e' : w ≠ u := by
      intro e; subst e; rw [upd_same] at hw; cases hw
    rw [upd_ne _ _ _ _ e'] at hw
    obtain ⟨sz, h2, h3⟩ := h.upCv b w hw
    refine ⟨sz, by simp only [St.to]; rw [upd_ne _ _ _ _ e']; exact h2, ?_⟩
    rcases h3 with h3 | ⟨q, h3⟩
    · exact Or.inl h3
    · refine Or.inr ⟨q, ?_⟩
      have e : q ≠ t := fun e => by rw [e, hpc] at h3; cases h3
      simp [St.to, upd, e, h3]
  · intro q; simp only [St.to, upd]; split
    · exact hpo
    · exact PcO_frame L s _ _ (fun _ _ => rfl) (fun _ _ _ _ _ => rfl) (fun _ _ _ => ⟨rfl, fun _ h => h⟩) (h.pcs q)
  · intro x hh hg
    obtain ⟨h2, h3⟩ := h.giv x hh hg
    refine ⟨h2, fun f sz => ?_⟩
    simp only [St.to, upd]; split
    · intro e; cases e
    · exact h3 f sz

/-- An upstream handle is put back by the thread that owns it. -/
theorem InvO.upPut (L : Nat) (s : St) (given : List (Nat × Handle)) (held : List Nat) (own uo : Nat → Option Own) (t v : Nat)
    (p : Pc) (h : InvO L s given held own uo) (hu : upLoc (s.pc t) = some (.inr v)) (hf : Filled L s v)
    (hc : call p = call (s.pc t)) (hv : valOf p = valOf (s.pc t)) (hd : dataOf p = dataOf (s.pc t))
    (hu' : upLoc p = none) (hp : PcO L s p) :
    ∃ uo', InvO L ((s.uput v).to t p) given held own uo' := by
  obtain ⟨c, hob, hlen⟩ := hf
  have hown : uo c.prov = some (.val t) := (h.upT t c.prov).1 (Or.inr ⟨v, c, hu, hob, rfl⟩)
  have hups : ∃ x, s.ups c.prov = some x := by
    cases e : s.ups c.prov with
    | none => rw [(h.upsOwn _).2 e] at hown; cases hown
    | some x => exact ⟨x, rfl⟩
  obtain ⟨ux, hux⟩ := hups
  have hup : s.uput v = { s with ups := upd s.ups c.prov none } := by
    unfold St.uput; rw [hob]; dsimp only; rw [hux]
  rw [hup]
  refine ⟨upd uo c.prov none, ?_⟩
  have e1 : ∀ q, valOf (upd s.pc t p q) = valOf (s.pc q) := by
    intro q; unfold upd; split
    · rename_i e; rw [e]; exact hv
    · rfl
  have e2 : ∀ q, dataOf (upd s.pc t p q) = dataOf (s.pc q) := by
    intro q; unfold upd; split
    · rename_i e; rw [e]; exact hd
    · rfl
  have hsub : ∀ w x, upd uo c.prov none w = some x → uo w = some x ∧ w ≠ c.prov := by
    intro w x; unfold upd; split
    · intro e; cases e
    · intro e; exact ⟨e, by assumption⟩
  refine ⟨h.bad, h.objOwn, h.cacheOwn, ?_, ?_, h.userOwn, h.nodup, h.cacheK, h.valK, h.dataK, h.userK, ?_, ?_,
    ?_, ?_, ?_, ?_, h.idLe, h.idNe, ?_, ?_⟩
  · intro q w; simp only [St.to]; rw [e1]; exact h.valOwn q w
  · intro q w; simp only [St.to]; rw [e2]; exact h.dataOwn q w
  · intro w; simp only [St.to]; unfold upd; split
    · simp
    · exact h.upsOwn w
  · intro w; unfold upd; split
    · simp
    · exact h.upsKind w
  · intro q w
    by_cases e : q = t
    · subst e
      simp only [UpIs, St.to, upd_same, hu']
      constructor
      · simp
      · intro h2
        obtain ⟨h3, h4⟩ := hsub _ _ h2
        rcases (h.upT q w).2 h3 with h5 | ⟨v', c', h5, h6, h7⟩
        · rw [hu] at h5; cases h5
        · rw [hu] at h5; cases h5
          rw [hob] at h6; cases h6
          exact absurd h7.symm h4
    · simp only [UpIs, St.to, upd_ne _ _ _ _ e]
      have h2 := h.upT q w
      by_cases e' : w = c.prov
      · subst e'
        rw [hown] at h2
        simp only [UpIs] at h2
        simp only [upd_same]
        constructor
        · intro h3; have := h2.1 h3; cases this; exact absurd rfl e
        · intro h3; cases h3
      · rw [upd_ne _ _ _ _ e']; exact h2
  · intro b w
    have h2 := h.upC b w
    simp only [St.to]
    rw [h2]
    by_cases e' : w = c.prov
    · subst e'; rw [hown, upd_same]; simp
    · rw [upd_ne _ _ _ _ e']
  · intro q w x b sz hq hloc
    obtain ⟨h3, h4⟩ := hsub _ _ hq
    simp only [St.to]; rw [upd_ne _ _ _ _ h4]
    by_cases e : q = t
    · subst e
      rcases (h.upT q w).2 h3 with h5 | ⟨v', c', h5, h6, h7⟩
      · rw [hu] at h5; cases h5
      · rw [hu] at h5; cases h5
        rw [hob] at h6; cases h6
        exact absurd h7.symm h4
    · exact h.upV q w x b sz h3 (by simpa [St.to, upd, e] using hloc)
  · intro b w hw
    obtain ⟨h3, h4⟩ := hsub _ _ hw
    obtain ⟨sz, h5, h6⟩ := h.upCv b w h3
    refine ⟨sz, by simp only [St.to]; rw [upd_ne _ _ _ _ h4]; exact h5, ?_⟩
    rcases h6 with h6 | ⟨q, h6⟩
    · exact Or.inl h6
    · refine Or.inr ⟨q, ?_⟩
      have e : q ≠ t := fun e => by rw [← e, h6] at hu; cases hu
      simp [St.to, upd, e, h6]
  · intro q; simp only [St.to, upd]; split
    · exact PcO_frame L s _ _ (fun _ _ => rfl) (fun _ _ _ _ _ => rfl) (fun _ _ _ => ⟨rfl, fun _ h => h⟩) hp
    · exact PcO_frame L s _ _ (fun _ _ => rfl) (fun _ _ _ _ _ => rfl) (fun _ _ _ => ⟨rfl, fun _ h => h⟩) (h.pcs q)
  · intro x hh hg
    obtain ⟨h2, h3⟩ := h.giv x hh hg
    refine ⟨h2, fun f sz => ?_⟩
    simp only [St.to, upd]; split
    · rw [hc]; exact h3 t sz
    · exact h3 f sz

/-- The id and the length are written into the value. -/
theorem InvO.fillIn (L : Nat) (s : St) (given : List (Nat × Handle)) (held : List Nat) (own uo : Nat → Option Own)
    (t v len u : Nat) (g : Loc) (h : InvO L s given held own uo) (hpc : s.pc t = .fill g v len u) :
    InvO L ((s.fillV v len u).to t (.ins g v)) given held own uo := by
  have hown : own v = some (.val t) := (h.valOwn t v).1 (by rw [hpc]; rfl)
  obtain ⟨c0, hob⟩ := h.valK t v hown
  have hpo := h.pcs t; rw [hpc] at hpo
  obtain ⟨hroom, hlen⟩ := hpo
  subst hlen
  have hfe : s.fillV v len u =
      { s with obj := upd s.obj v (some (.val (some ⟨s.nextId + 1, len, u⟩))), nextId := s.nextId + 1 } := by
    unfold St.fillV; rw [hob]
  rw [hfe]
  have e1 : ∀ q, valOf (upd s.pc t (.ins g v) q) = valOf (s.pc q) := by
    intro q; unfold upd; split
    · rename_i e; rw [e, hpc]; rfl
    · rfl
  have e2 : ∀ q, dataOf (upd s.pc t (.ins g v) q) = dataOf (s.pc q) := by
    intro q; unfold upd; split
    · rename_i e; rw [e, hpc]; rfl
    · rfl
  have hne : ∀ w x, own w = some x → x ≠ .val t → w ≠ v := by
    intro w x hw hx e; subst e; rw [hown] at hw; exact hx (Option.some.inj hw).symm
  have hcne : ∀ b w, s.cache b = some w → w ≠ v := fun b w hw => hne w _ ((h.cacheOwn b w).1 hw) (by simp)
  have hvne : ∀ q w, q ≠ t → valOf (s.pc q) = some w → w ≠ v :=
    fun q w e hw => hne w _ ((h.valOwn q w).1 hw) (by simpa using e)
  have hune : ∀ q w, q ≠ t → upLoc (s.pc q) = some (.inr w) → w ≠ v := by
    intro q w e hw
    refine hvne q w e ?_
    revert hw; cases s.pc q <;> simp [upLoc, valOf]
  have hgood : ∀ x hh, Good s x hh → Good ({ s with
      obj := upd s.obj v (some (.val (some ⟨s.nextId + 1, len, u⟩)))
      nextId := s.nextId + 1 }.to t (.ins g v)) x hh := by
    intro x hh hg
    exact hg.frame s _ x hh id (fun _ => rfl) (fun w hw => upd_ne _ _ _ _ (hcne _ _ hw))
  refine ⟨h.bad, ?_, h.cacheOwn, ?_, ?_, h.userOwn, h.nodup, ?_, ?_, ?_, ?_, h.upsOwn, h.upsKind,
    ?_, ?_, ?_, ?_, ?_, ?_, ?_, ?_⟩
  · intro w; simp only [St.to]; unfold upd; split
    · rename_i e; subst e; rw [hown]; simp
    · exact h.objOwn w
  · intro q w; simp only [St.to]; rw [e1]; exact h.valOwn q w
  · intro q w; simp only [St.to]; rw [e2]; exact h.dataOwn q w
  · intro b w hw
    obtain ⟨c, h2, h3⟩ := h.cacheK b w hw
    exact ⟨c, by simp only [St.to]; rw [upd_ne _ _ _ _ (hcne b w hw)]; exact h2, h3⟩
  · intro q w hw; simp only [St.to]; unfold upd; split
    · exact ⟨_, rfl⟩
    · exact h.valK q w hw
  · intro q w hw; simp only [St.to]
    rw [upd_ne _ _ _ _ (hne w _ hw (by simp))]; exact h.dataK q w hw
  · intro w hw; simp only [St.to]
    rw [upd_ne _ _ _ _ (hne w _ hw (by simp))]; exact h.userK w hw
  · intro q w
    rw [← h.upT q w]
    by_cases e : q = t
    · subst e
      rw [hpc]
      simp only [UpIs, St.to, upd_same, upLoc]
      constructor
      · rintro (h2 | ⟨v', c, h2, h3, h4⟩)
        · cases h2
        · cases h2; rw [upd_same] at h3; cases h3; left; rw [← h4]
      · rintro (h2 | ⟨v', c, h2, h3, h4⟩)
        · cases h2; exact Or.inr ⟨v, _, rfl, upd_same _ _ _, rfl⟩
        · cases h2
    · simp only [UpIs, St.to, upd_ne _ _ _ _ e]
      constructor
      · rintro (h2 | ⟨v', c, h2, h3, h4⟩)
        · exact Or.inl h2
        · rw [upd_ne _ _ _ _ (hune q v' e h2)] at h3; exact Or.inr ⟨v', c, h2, h3, h4⟩
      · rintro (h2 | ⟨v', c, h2, h3, h4⟩)
        · exact Or.inl h2
        · exact Or.inr ⟨v', c, h2, by rw [upd_ne _ _ _ _ (hune q v' e h2)]; exact h3, h4⟩
  · intro b w
    rw [← h.upC b w]
    simp only [St.to]
    constructor
    · rintro ⟨v', c, h2, h3, h4⟩
      rw [upd_ne _ _ _ _ (hcne b v' h2)] at h3; exact ⟨v', c, h2, h3, h4⟩
    · rintro ⟨v', c, h2, h3, h4⟩
      exact ⟨v', c, h2, by rw [upd_ne _ _ _ _ (hcne b v' h2)]; exact h3, h4⟩
  · intro q w x b sz hq hloc
    refine h.upV q w x b sz hq ?_
    by_cases e : q = t
    · subst e; rw [hpc]; simpa [St.to, upd, locOf] using hloc
    · simpa [St.to, upd, e] using hloc
  · intro b w hw
    obtain ⟨sz, h5, h6⟩ := h.upCv b w hw
    refine ⟨sz, h5, ?_⟩
    rcases h6 with h6 | ⟨q, h6⟩
    · exact Or.inl h6
    · refine Or.inr ⟨q, ?_⟩
      have e : q ≠ t := fun e => by rw [← e, h6] at hpc; cases hpc
      simp [St.to, upd, e, h6]
  · intro w c; simp only [St.to]; unfold upd; split
    · intro e; cases e; simp
    · intro e; have := h.idLe w c e; omega
  · intro w w' c c'; simp only [St.to]; unfold upd; split <;> split
    · rename_i e1 e2; intro _ _ e3; exact absurd (e1.trans e2.symm) e3
    · intro e3 e4 _; cases e3; have := h.idLe _ _ e4; simp only; omega
    · intro e3 e4 _; cases e4; have := h.idLe _ _ e3; simp only; omega
    · exact h.idNe w w' c c'
  · intro q
    by_cases e : q = t
    · subst e; simp only [St.to, upd_same]
      exact ⟨hroom, ⟨_, upd_same _ _ _, rfl⟩⟩
    · simp only [St.to, upd_ne _ _ _ _ e]
      refine PcO_frame _ s _ _ (fun w hw => upd_ne _ _ _ _ (hvne q w e hw)) (fun _ _ _ _ _ => rfl)
        (fun x d hd => ⟨upd_ne _ _ _ _ (hne d _ ((h.dataOwn q d).1 (by rw [hd]; rfl)) (by simp)), hgood x⟩) (h.pcs q)
  · intro x hh hg
    obtain ⟨h2, h3⟩ := h.giv x hh hg
    refine ⟨hgood x hh h2, fun f sz => ?_⟩
    simp only [St.to, upd]; split
    · intro e; cases e
    · exact h3 f sz

end Verif.IpcExp
