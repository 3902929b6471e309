import Verif.IpcExp.StepC

/-! # The invariants hold in every world that threads can reach -/
namespace Verif.IpcExp

theorem InvO.init (L : Nat) : InvO L St.init [] [] (fun _ => none) (fun _ => none) := by
  refine ⟨rfl, ?_, ?_, ?_, ?_, ?_, List.nodup_nil, ?_, ?_, ?_, ?_, ?_, ?_, ?_, ?_, ?_, ?_, ?_, ?_, ?_, ?_⟩ <;>
    simp [St.init, valOf, dataOf, UpIs, upLoc, PcO]

/-- A base has one region. -/
theorem InvR.one (s : St) (hr : InvR s) (b sz sz' : Nat) (h : (b, sz) ∈ s.regs) (h' : (b, sz') ∈ s.regs) : sz = sz' := by
  by_cases e : sz = sz'
  · exact e
  · have h1 := hr.disj b sz b sz' h h' (fun e' => e (by cases e'; rfl))
    have h2 := hr.pos _ _ h; have h3 := hr.pos _ _ h'
    unfold Apart at h1; omega

theorem InvO.step (L : Nat) (s : St) (given : List (Nat × Handle)) (held : List Nat) (own uo : Nat → Option Own) (t : Nat) (a : Ans)
    (hr : InvR s) (h : InvO L s given held own uo) (he : EnvOk L s t a) :
    ∃ own' uo', InvO L (step s t a) given held own' uo' := by
  have hpo := h.pcs t
  cases hp : s.pc t with
  | idle => simp only [IpcExp.step, hp]; exact ⟨own, uo, h⟩
  | lookup x =>
    simp only [IpcExp.step, hp]
    split <;> exact ⟨own, uo, h.move L s given held own uo t _ (by simp [call]) (by rw [hp]; rfl) (by rw [hp]; rfl)
      (by rw [hp]; rfl) (by simp [upLoc]) (by simp [PcO]) (by rw [hp]; simp)⟩
  | size1 x b sz =>
    simp only [IpcExp.step, hp]
    cases a with
    | yes n =>
      have hn : n = L := by have := he n rfl; rw [hp] at this; exact this
      exact ⟨own, uo, h.move L s given held own uo t _ (by simp [call]) (by rw [hp]; rfl) (by rw [hp]; rfl)
        (by rw [hp]; rfl) (by simp [upLoc]) hn (by rw [hp]; simp)⟩
    | no c =>
      exact ⟨own, uo, h.move L s given held own uo t _ (by simp [call]) (by rw [hp]; rfl) (by rw [hp]; rfl)
        (by rw [hp]; rfl) (by simp [upLoc]) (by simp [PcO]) (by rw [hp]; simp)⟩
  | alloc1 x b sz room =>
    rw [hp] at hpo
    simp only [IpcExp.step, hp]
    cases a with
    | yes d =>
      have hn : s.obj d = none := by have := he d rfl; rw [hp] at this; exact this
      exact ⟨_, uo, h.take L s given held own uo t d _ (.data none) (.data t) hn (by rw [hp]; rfl)
        (Or.inr ⟨rfl, rfl, by rw [hp]; rfl, rfl, by rw [hp]; rfl⟩) (by rw [hp]; rfl) rfl hpo (by rw [hp]; simp)⟩
    | no c =>
      exact ⟨own, uo, h.move L s given held own uo t _ (by simp [call]) (by rw [hp]; rfl) (by rw [hp]; rfl)
        (by rw [hp]; rfl) (by simp [upLoc]) (by simp [PcO]) (by rw [hp]; simp)⟩
  | look g =>
    rw [hp] at hpo
    simp only [IpcExp.step, hp]
    split
    · rename_i v hcv
      exact ⟨own, uo, h.move L s given held own uo t _ (by simp [call]) (by rw [hp]; rfl) (by rw [hp]; rfl)
        (by rw [hp]; rfl) (by simp [upLoc]) ⟨hpo, hcv⟩ (by rw [hp]; simp)⟩
    · exact ⟨own, uo, h.move L s given held own uo t _ (by simp [call]) (by rw [hp]; rfl) (by rw [hp]; rfl)
        (by rw [hp]; rfl) (by simp [upLoc]) hpo (by rw [hp]; simp)⟩
  | size2 g =>
    rw [hp] at hpo
    simp only [IpcExp.step, hp]
    cases a with
    | yes n =>
      have hn : n = L := by have := he n rfl; rw [hp] at this; exact this
      exact ⟨own, uo, h.move L s given held own uo t _ (by simp [call]) (by rw [hp]; rfl) (by rw [hp]; rfl)
        (by rw [hp]; rfl) (by simp [upLoc]) ⟨hpo, hn⟩ (by rw [hp]; simp)⟩
    | no c =>
      exact ⟨own, uo, h.move L s given held own uo t _ (by simp [call]) (by rw [hp]; rfl) (by rw [hp]; rfl)
        (by rw [hp]; rfl) (by simp [upLoc]) (by simp [PcO]) (by rw [hp]; simp)⟩
  | alloc2 g len =>
    rw [hp] at hpo
    simp only [IpcExp.step, hp]
    cases a with
    | yes v =>
      have hn : s.obj v = none := by have := he v rfl; rw [hp] at this; exact this
      exact ⟨_, uo, h.take L s given held own uo t v _ (.val none) (.val t) hn (by rw [hp]; rfl)
        (Or.inl ⟨rfl, rfl, by rw [hp]; rfl, rfl, by rw [hp]; rfl⟩) (by rw [hp]; rfl) rfl hpo (by rw [hp]; simp)⟩
    | no c =>
      exact ⟨own, uo, h.move L s given held own uo t _ (by simp [call]) (by rw [hp]; rfl) (by rw [hp]; rfl)
        (by rw [hp]; rfl) (by simp [upLoc]) (by simp [PcO]) (by rw [hp]; simp)⟩
  | upget g v len =>
    rw [hp] at hpo
    simp only [IpcExp.step, hp]
    cases a with
    | yes u =>
      have hn : s.ups u = none := by have := he u rfl; rw [hp] at this; exact this
      exact ⟨own, _, h.upGet L s given held own uo t u v len g hp hn⟩
    | no c =>
      exact ⟨own, uo, h.move L s given held own uo t _ (by simp [call]) (by rw [hp]; rfl) (by rw [hp]; rfl)
        (by rw [hp]; rfl) (by simp [upLoc]) ⟨hpo.1, by simp, by simp⟩ (by rw [hp]; simp)⟩
  | fill g v len u =>
    simp only [IpcExp.step, hp]
    exact ⟨own, uo, h.fillIn L s given held own uo t v len u g hp⟩
  | ins g v =>
    rw [hp] at hpo
    simp only [IpcExp.step, hp]
    split
    · rename_i w hcv
      exact ⟨own, uo, h.move L s given held own uo t _ (by simp [call]) (by rw [hp]; rfl) (by rw [hp]; rfl)
        (by rw [hp]; rfl) (by rw [hp]; simp [locOf]) ⟨hpo.1, hpo.2, fun _ => by rw [hcv]; simp⟩ (by rw [hp]; simp)⟩
    · rename_i hcv
      cases a with
      | yes n => exact h.insert L s given held own uo t v g hr hp hcv
      | no c =>
        exact ⟨own, uo, h.move L s given held own uo t _ (by simp [call]) (by rw [hp]; rfl) (by rw [hp]; rfl)
          (by rw [hp]; rfl) (by rw [hp]; simp [locOf]) ⟨hpo.1, hpo.2, by simp⟩ (by rw [hp]; simp)⟩
  | put g v full =>
    rw [hp] at hpo
    simp only [IpcExp.step, hp]
    cases a with
    | yes n =>
      obtain ⟨uo', h'⟩ := h.upPut L s given held own uo t v (.freeV g v (if full then some .oom else none)) (by rw [hp]; rfl)
        hpo.2.1 (by rw [hp]; rfl) (by rw [hp]; rfl) (by rw [hp]; rfl) rfl
        ⟨hpo.1, by cases full <;> simp_all [PcO], by cases full <;> simp⟩
      exact ⟨own, uo', h'⟩
    | no c =>
      obtain ⟨uo', h'⟩ := h.upPut L s given held own uo t v (.freeV g v (some (.upstream c))) (by rw [hp]; rfl)
        hpo.2.1 (by rw [hp]; rfl) (by rw [hp]; rfl) (by rw [hp]; rfl) rfl ⟨hpo.1, by simp, by simp⟩
      exact ⟨own, uo', h'⟩
  | freeV g v r =>
    rw [hp] at hpo
    have hw : own v = some (.val t) := (h.valOwn t v).1 (by rw [hp]; rfl)
    have hdw : own g.d = some (.data t) := (h.dataOwn t g.d).1 (by rw [hp]; rfl)
    have hvd : g.d ≠ v := fun e => by rw [e, hw] at hdw; cases hdw
    have key : ∀ p, call p = .get g.x → valOf p = none → dataOf p = some g.d → upLoc p = none →
        PcO L { s with obj := upd s.obj v none } p →
        InvO L ((s.gfree v).to t p) given held (upd own v none) uo := by
      intro p hc1 hv1 hd1 hu1 hpo1
      refine h.release L s given held held own uo t v p (.val t) hw (by simp) (by rw [hp, hc1]; rfl) ?_ ?_ ?_ ?_ ?_ h.nodup
        (by rw [hp, hu1]; rfl) (by rw [hu1]; simp) ?_ hpo1 (by rw [hp]; simp)
      · intro u w hne; unfold upd; split
        · rename_i e; subst e; rw [hv1, hp]; simp [valOf]; exact fun e => hne e.symm
        · rfl
      · intro u; unfold upd; split
        · rw [hv1]; simp
        · rename_i hne; intro e; have := (h.valOwn u v).1 e; rw [hw] at this; cases this; exact hne rfl
      · intro u w hne; unfold upd; split
        · rename_i e; subst e; rw [hd1, hp]; rfl
        · rfl
      · intro u e
        have e' : dataOf (s.pc u) = some v := by
          revert e; unfold upd; split
          · rw [hd1]; intro e; exact absurd (Option.some.inj e) hvd
          · exact id
        have := (h.dataOwn u v).1 e'; rw [hw] at this; cases this
      · intro d; constructor
        · intro hd; refine ⟨hd, fun e => ?_⟩
          subst e; have := (h.userOwn d).1 hd; rw [hw] at this; cases this
        · exact fun hd => hd.1
      · intro u w hu e
        subst e
        have := (h.valOwn u w).1 (upLoc_val _ _ hu); rw [hw] at this; cases this
        rw [hp] at hu; cases hu
    simp only [IpcExp.step, hp]
    cases r with
    | some r => exact ⟨_, uo, key (.freeD g r) rfl rfl rfl rfl (fun d e => hpo.2.2 d (by rw [e]))⟩
    | none => exact ⟨_, uo, key (.look g) rfl rfl rfl rfl hpo.1⟩
  | copy g v =>
    simp only [IpcExp.step, hp]
    exact ⟨own, uo, h.write L s given held own uo t v g hr hp⟩
  | freeD g r =>
    rw [hp] at hpo
    have hw : own g.d = some (.data t) := (h.dataOwn t g.d).1 (by rw [hp]; rfl)
    have hdn : dataOf (.done g.x r) = none := by
      cases r with
      | handle d => exact absurd rfl (hpo d)
      | _ => rfl
    simp only [IpcExp.step, hp]
    refine ⟨_, uo, h.release L s given held held own uo t g.d (.done g.x r) (.data t) hw (by simp) (by rw [hp]; rfl)
      ?_ ?_ ?_ ?_ ?_ h.nodup (by rw [hp]; rfl) (by simp [upLoc]) ?_ (fun d e => absurd e (hpo d)) (by rw [hp]; simp)⟩
    · intro u w hne; unfold upd; split
      · rename_i e; subst e; rw [hp]; rfl
      · rfl
    · intro u e
      have e' : valOf (s.pc u) = some g.d := by
        revert e; unfold upd; split
        · intro e; cases e
        · exact id
      have := (h.valOwn u g.d).1 e'; rw [hw] at this; cases this
    · intro u w hne; unfold upd; split
      · rename_i e; subst e; rw [hdn, hp]; simp [dataOf]; exact fun e => hne e.symm
      · rfl
    · intro u; unfold upd; split
      · rw [hdn]; simp
      · rename_i hne; intro e; have := (h.dataOwn u g.d).1 e; rw [hw] at this; cases this; exact hne rfl
    · intro d; constructor
      · intro hd; refine ⟨hd, fun e => ?_⟩
        subst e; have := (h.userOwn g.d).1 hd; rw [hw] at this; cases this
      · exact fun hd => hd.1
    · intro u w hu e
      subst e
      have := (h.valOwn u g.d).1 (upLoc_val _ _ hu); rw [hw] at this; cases this
  | done x r => simp only [IpcExp.step, hp]; exact ⟨own, uo, h⟩
  | free0 b sz =>
    have hin := hr.f0 t b sz hp
    have h1 := h.move L s given held own uo t (.free1 b sz) (by rw [hp]; exact fun _ _ e => e) (by rw [hp]; rfl)
      (by rw [hp]; rfl) (by rw [hp]; rfl) (by simp [upLoc]) trivial (by rw [hp]; simp)
    simp only [IpcExp.step, hp]
    refine ⟨own, uo, h1.regions L (s.to t (.free1 b sz)) given held own uo _ ?_ ?_⟩
    · intro x hh hg hor
      refine List.mem_filter.2 ⟨hg.1, ?_⟩
      simp only [ne_eq, decide_eq_true_eq]
      intro e
      rcases hor with ⟨q, d, hq⟩ | hm
      · have hq' : s.pc q = .done x (.handle d) := by
          simp only [St.to, upd] at hq; split at hq
          · cases hq
          · exact hq
        have h2 := hr.excl q t x b sz (by rw [hq']; rfl) (by rw [hp]; rfl)
        have h3 : (b, hh.size) ∈ s.regs := by rw [← e]; exact hg.1
        have h4 := hr.one s b _ _ h3 hin
        exact h2 (by rw [← h4, ← e]; exact hg.2.1)
      · exact (h.giv x hh hm).2 t sz (by rw [hp, e]; rfl)
    · intro b' sz' _ hm
      by_cases e : b' = b
      · subst e
        have := hr.one s b' _ _ hm hin
        subst this
        exact Or.inr ⟨t, by simp [St.to, upd]⟩
      · exact Or.inl (List.mem_filter.2 ⟨hm, by simpa using e⟩)
  | free1 b sz =>
    simp only [IpcExp.step, hp]
    split
    · rename_i v hcv
      exact h.uncache L s given held own uo t b sz v hr hp hcv
    · rename_i hcv
      exact ⟨own, uo, h.move L s given held own uo t _ (by rw [hp]; exact fun _ _ e => e) (by rw [hp]; rfl) (by rw [hp]; rfl)
        (by rw [hp]; rfl) (by simp [upLoc]) trivial (by
          rw [hp]; intro b' sz' e; cases e; exact Or.inr hcv)⟩
  | freePut b sz v =>
    rw [hp] at hpo
    simp only [IpcExp.step, hp]
    obtain ⟨uo', h'⟩ := h.upPut L s given held own uo t v (.freeVal b sz v) (by rw [hp]; rfl)
      hpo (by rw [hp]; rfl) (by rw [hp]; rfl) (by rw [hp]; rfl) rfl trivial
    exact ⟨own, uo', h'⟩
  | freeVal b sz v =>
    have hw : own v = some (.val t) := (h.valOwn t v).1 (by rw [hp]; rfl)
    simp only [IpcExp.step, hp]
    refine ⟨_, uo, h.release L s given held held own uo t v (.freeUp b sz) (.val t) hw (by simp) (by rw [hp]; rfl)
      ?_ ?_ ?_ ?_ ?_ h.nodup (by rw [hp]; rfl) (by simp [upLoc]) ?_ trivial (by rw [hp]; simp)⟩
    · intro u w hne; unfold upd; split
      · rename_i e; subst e; rw [hp]; simp [valOf]; exact fun e => hne e.symm
      · rfl
    · intro u; unfold upd; split
      · simp [valOf]
      · rename_i hne; intro e; have := (h.valOwn u v).1 e; rw [hw] at this; cases this; exact hne rfl
    · intro u w hne; unfold upd; split
      · rename_i e; subst e; rw [hp]; rfl
      · rfl
    · intro u e
      have e' : dataOf (s.pc u) = some v := by
        revert e; unfold upd; split
        · intro e; cases e
        · exact id
      have := (h.dataOwn u v).1 e'; rw [hw] at this; cases this
    · intro d; constructor
      · intro hd; refine ⟨hd, fun e => ?_⟩
        subst e; have := (h.userOwn d).1 hd; rw [hw] at this; cases this
      · exact fun hd => hd.1
    · intro u w hu e
      subst e
      have := (h.valOwn u w).1 (upLoc_val _ _ hu); rw [hw] at this; cases this
      rw [hp] at hu; cases hu
  | freeUp b sz =>
    simp only [IpcExp.step, hp]
    split
    · exact ⟨own, uo, h.move L s given held own uo t _ (by simp [call]) (by rw [hp]; rfl) (by rw [hp]; rfl)
        (by rw [hp]; rfl) (by simp [upLoc]) trivial (by rw [hp]; simp)⟩
    · exact ⟨own, uo, h.move L s given held own uo t _ (by rw [hp]; exact fun _ _ e => e) (by rw [hp]; rfl) (by rw [hp]; rfl)
        (by rw [hp]; rfl) (by simp [upLoc]) trivial (by rw [hp]; simp)⟩
  | freeAdd b sz c =>
    have h1 := h.move L s given held own uo t (.freed b sz (.upstream c)) (by simp [call]) (by rw [hp]; rfl) (by rw [hp]; rfl)
        (by rw [hp]; rfl) (by simp [upLoc]) trivial (by rw [hp]; simp)
    simp only [IpcExp.step, hp]
    split
    · exact ⟨own, uo, h1.regions L _ given held own uo _ (fun _ _ hg _ => List.mem_cons_of_mem _ hg.1)
        (fun _ _ _ hm => Or.inl (List.mem_cons_of_mem _ hm))⟩
    · exact ⟨own, uo, h1⟩
  | freed b sz r => simp only [IpcExp.step, hp]; exact ⟨own, uo, h⟩

/-- The handles that were given for a region that is now freed do not count any more. -/
theorem InvO.forget (L : Nat) (s : St) (given given' : List (Nat × Handle)) (held : List Nat) (own uo : Nat → Option Own) (t b sz : Nat)
    (h : InvO L s given held own uo) (hi : s.pc t = .idle)
    (hg : ∀ x hh, (x, hh) ∈ given' → (x, hh) ∈ given ∧ hh.base ≠ b) :
    InvO L (s.to t (.free0 b sz)) given' held own uo := by
  have h0 : InvO L s given' held own uo := { h with giv := fun x hh hm => h.giv x hh (hg x hh hm).1 }
  have h1 : InvO L (s.to t .idle) given' held own uo := h0.move L s given' held own uo t .idle (by simp [call])
    (by rw [hi]) (by rw [hi]) (by rw [hi]) (by simp [upLoc]) trivial (by rw [hi]; simp)
  have e1 : ∀ q, valOf ((s.to t (.free0 b sz)).pc q) = valOf (s.pc q) := by
    intro q; simp only [St.to, upd]; split
    · rename_i e; rw [e, hi]; rfl
    · rfl
  have e2 : ∀ q, dataOf ((s.to t (.free0 b sz)).pc q) = dataOf (s.pc q) := by
    intro q; simp only [St.to, upd]; split
    · rename_i e; rw [e, hi]; rfl
    · rfl
  have e3 : ∀ q, upLoc ((s.to t (.free0 b sz)).pc q) = upLoc (s.pc q) := by
    intro q; simp only [St.to, upd]; split
    · rename_i e; rw [e, hi]; rfl
    · rfl
  refine ⟨h.bad, h.objOwn, h.cacheOwn, ?_, ?_, h.userOwn, h.nodup, h.cacheK, h.valK, h.dataK, h.userK, h.upsOwn,
    h.upsKind, ?_, h.upC, ?_, ?_, h.idLe, h.idNe, ?_, ?_⟩
  · intro q w; rw [e1]; exact h.valOwn q w
  · intro q w; rw [e2]; exact h.dataOwn q w
  · intro q w; rw [← h.upT q w]; unfold UpIs; rw [e3]; rfl
  · intro q w x b' sz' hq hl
    by_cases e : q = t
    · subst e; simp [St.to, upd_same, locOf] at hl
    · exact h.upV q w x b' sz' hq (by simpa [St.to, upd, e] using hl)
  · intro b' w hw
    obtain ⟨sz', h5, h6⟩ := h.upCv b' w hw
    refine ⟨sz', h5, ?_⟩
    rcases h6 with h6 | ⟨q, h6⟩
    · exact Or.inl h6
    · refine Or.inr ⟨q, ?_⟩
      have e : q ≠ t := fun e => by rw [← e, h6] at hi; cases hi
      simp [St.to, upd, e, h6]
  · intro q; simp only [St.to, upd]; split
    · trivial
    · exact PcO_frame L s _ _ (fun _ _ => rfl) (fun _ _ _ _ _ => rfl) (fun _ _ _ => ⟨rfl, fun _ h => h⟩) (h.pcs q)
  · intro x hh hm
    obtain ⟨hm1, hm2⟩ := hg x hh hm
    obtain ⟨h2, h3⟩ := h.giv x hh hm1
    refine ⟨h2, fun f sz' => ?_⟩
    simp only [St.to, upd]; split
    · intro e; cases e; exact hm2 rfl
    · exact h3 f sz'

theorem InvO.next (L : Nat) (l : Option Nat) (w w' : World) (own uo : Nat → Option Own) (hr : InvR w.s)
    (h : InvO L w.s w.given w.held own uo) (hn : Next L l w w') :
    ∃ own' uo', InvO L w'.s w'.given w'.held own' uo' := by
  cases hn with
  | alloc _ b sz hsz hr' hf =>
    exact ⟨own, uo, h.regions L _ _ _ own uo _ (fun _ _ hg _ => List.mem_cons_of_mem _ hg.1)
      (fun _ _ _ hm => Or.inl (List.mem_cons_of_mem _ hm))⟩
  | callGet _ t x hi hf =>
    exact ⟨own, uo, h.move L _ _ _ own uo t _ (by simp [call]) (by rw [hi]; rfl) (by rw [hi]; rfl)
      (by rw [hi]; rfl) (by simp [upLoc]) trivial (by rw [hi]; simp)⟩
  | retHandle _ t x d hh hp ho => exact ⟨_, uo, h.give L _ _ _ own uo t x d hh hr hp ho⟩
  | retError _ t x r hp hne =>
    have hdn : dataOf (.done x r) = none := by
      cases r with
      | handle d => exact absurd rfl (hne d)
      | _ => rfl
    exact ⟨own, uo, h.move L _ _ _ own uo t _ (by simp [call]) (by rw [hp]; rfl) (by rw [hp, hdn]; rfl)
      (by rw [hp]; rfl) (by simp [upLoc]) trivial (by rw [hp]; simp)⟩
  | callFree _ t b sz hi hr' hg hf =>
    refine ⟨own, uo, h.forget L _ _ _ _ own uo t b sz hi (fun x hh hm => ?_)⟩
    obtain ⟨h1, h2⟩ := List.mem_filter.1 hm
    exact ⟨h1, by simpa using h2⟩
  | retFree _ t b sz r hp =>
    exact ⟨own, uo, h.move L _ _ _ own uo t _ (by simp [call]) (by rw [hp]; rfl) (by rw [hp]; rfl)
      (by rw [hp]; rfl) (by simp [upLoc]) trivial (by rw [hp]; simp)⟩
  | put _ d hd =>
    have hw := (h.userOwn d).1 hd
    -- thread 0 stays where it is
    have h1 := h.release L w.s w.given w.held (w.held.erase d) own uo 0 d (w.s.pc 0) .user hw (by simp) rfl
      (by intro u v _; unfold upd; split
          · rename_i e; rw [e]
          · rfl)
      (by intro u e
          have e' : valOf (w.s.pc u) = some d := by
            revert e; unfold upd; split
            · rename_i e; rw [e]; exact id
            · exact id
          have := (h.valOwn u d).1 e'; rw [hw] at this; cases this)
      (by intro u v _; unfold upd; split
          · rename_i e; rw [e]
          · rfl)
      (by intro u e
          have e' : dataOf (w.s.pc u) = some d := by
            revert e; unfold upd; split
            · rename_i e; rw [e]; exact id
            · exact id
          have := (h.dataOwn u d).1 e'; rw [hw] at this; cases this)
      (by intro v; rw [h.nodup.mem_erase_iff]; exact And.comm)
      (h.nodup.erase d) rfl (fun _ => rfl)
      (by intro u v hu e; subst e
          have := (h.valOwn u v).1 (upLoc_val _ _ hu); rw [hw] at this; cases this)
      (PcO_frame L w.s _ _
        (fun v hv => upd_ne _ _ _ _ (fun e => by
          subst e; have := (h.valOwn 0 v).1 hv; rw [hw] at this; cases this))
        (fun _ _ _ _ _ => rfl)
        (fun x d' hd' => ⟨upd_ne _ _ _ _ (fun e => by
            subst e; have := (h.dataOwn 0 d').1 (by rw [hd']; rfl); rw [hw] at this; cases this),
          fun hh hg => hg.frame w.s _ x hh id (fun _ => rfl) (fun v hv => upd_ne _ _ _ _ (fun e => by
            subst e; have := (h.cacheOwn _ _).1 hv; rw [hw] at this; cases this))⟩)
        (h.pcs 0))
      (fun _ _ e => e)
    have h2 : (w.s.gfree d).to 0 (w.s.pc 0) = w.s.gfree d := by
      have h3 := (gfree_frame w.s d).2.1
      have h4 : upd (w.s.gfree d).pc 0 (w.s.pc 0) = (w.s.gfree d).pc := by
        funext q; unfold upd; split
        · rename_i e; rw [e, h3]
        · rfl
      unfold St.to; rw [h4]
    rw [h2] at h1
    exact ⟨_, uo, h1⟩
  | step _ t a he => exact h.step L _ _ _ own uo t a hr he

theorem Reach.inv (L : Nat) (w : World) (h : Reach L w) : InvR w.s ∧ ∃ own uo, InvO L w.s w.given w.held own uo := by
  induction h with
  | init => exact ⟨InvR.init, _, _, InvO.init L⟩
  | next w w' l _ hn ih =>
    obtain ⟨h1, own, uo, h2⟩ := ih
    exact ⟨h1.next L l w w' hn, h2.next L l w w' own uo h1 hn⟩

end Verif.IpcExp
