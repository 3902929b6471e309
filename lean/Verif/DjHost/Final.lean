import Verif.DjHost.Destroy
/-!
# Lemmas for the disjoint pool's own memory: a pool is destroyed
-/
namespace Verif.DjHost

theorem Inv.own {s : St} {A : World} {e : Addr → Nat} (h : Inv s A e) : Own s := by
  refine ⟨fun x d hx => (h.data.mem x d.data (data_some hx)).1, fun x y d d' hx hy hm => ?_⟩
  exact h.data.memInj x y d.data d'.data (data_some hx) (data_some hy) hm

theorem freeLimits_app {s : St} {a : Addr} {c : Limits} (hc : s.lims a = some c) :
    freeLimits a s = some ((), { s with lims := upd s.lims a none }) := by
  simp only [freeLimits, hc]
theorem freeCrit_app {s : St} {a : Addr} {c : List (Addr × Addr)} (hc : s.crits a = some c) :
    freeCrit a s = some ((), { s with crits := upd s.crits a none }) := by
  simp only [freeCrit, hc]
theorem freePool_app {s : St} {a : Addr} {c : Pool} (hc : s.pools a = some c) :
    freePool a s = some ((), { s with pools := upd s.pools a none }) := by
  simp only [freePool, hc]

theorem upd_none_back {α : Type} {f : Addr → Option α} {a b : Addr} {v : α} (h : upd f a none b = some v) : b ≠ a ∧ f b = some v := by
  by_cases e : b = a
  · rw [e, upd_same] at h
    cases h
  · rw [upd_ne _ _ e] at h
    exact ⟨e, h⟩

theorem hasLim_upd {s : St} {a l : Addr} (h : (upd s.lims a none l).isSome = true) : l ≠ a ∧ s.hasLim l = true := by
  obtain ⟨v, hv⟩ := Option.isSome_iff_exists.1 h
  obtain ⟨h1, h2⟩ := upd_none_back hv
  exact ⟨h1, by simp [St.hasLim, h2]⟩

/-- The pool and everything it owns is gone. -/
theorem inv_destroyed {s s' : St} {A : World} {p : Addr} {P : Pool} {I : Info} {L X : List Addr} (h : Inv0 s A)
    (hP : s.pools p = some P) (hI : A.pools p = some I) (hok : PoolOk s.arrs s.frame s.hasLim A p P I L) (r : Rem s s' X)
    (hb1 : ∀ b ∈ L, s'.bucks b = none) (hb2 : ∀ b, b ∉ L → s'.bucks b = s.bucks b)
    (hX : ∀ x, x ∈ X ↔ ∃ d, s.slabs x = some d ∧ d.bucket ∈ L) :
    Inv0 { s' with pools := upd s'.pools p none, crits := upd s'.crits P.known none, lims := upd s'.lims P.default none }
      { A with pools := upd A.pools p none } := by
  -- what is still there
  have bback : ∀ b c, s'.bucks b = some c → b ∉ L ∧ s.bucks b = some c := by
    intro b c hc
    have : b ∉ L := by
      intro hm
      rw [hb1 b hm] at hc
      cases hc
    rw [hb2 b this] at hc
    exact ⟨this, hc⟩
  have kback : ∀ b c, s'.frame b = some c → b ∉ L ∧ s.frame b = some c := by
    intro b c hc
    obtain ⟨c', h1, rfl⟩ := frame_back hc
    obtain ⟨h2, h3⟩ := bback b c' h1
    exact ⟨h2, frame_some h3⟩
  have kfwd : ∀ b c, s.frame b = some c → c.pool ≠ p → b ∉ L ∧ s'.frame b = some c := by
    intro b c hc hne
    have : b ∉ L := by
      intro hm
      obtain ⟨c', h1, h2, _⟩ := hok.buck b hm
      rw [hc] at h1
      cases h1
      exact hne h2
    refine ⟨this, ?_⟩
    unfold St.frame at hc ⊢
    rw [hb2 b this]
    exact hc
  have kpool : ∀ b c, s'.frame b = some c → c.pool ≠ p := by
    intro b c hc hp
    obtain ⟨h1, h2⟩ := kback b c hc
    exact h1 (hok.onto b c h2 hp)
  have sback : ∀ x d, s'.slabs x = some d → x ∉ X ∧ s.slabs x = some d := by
    intro x d hx
    have : x ∉ X := by
      intro hm
      rw [r.gone x hm] at hx
      cases hx
    rw [r.keep x this] at hx
    exact ⟨this, hx⟩
  have dback : ∀ x d, s'.data x = some d → d.bucket ∉ L ∧ x ∉ X ∧ s.data x = some d := by
    intro x d hx
    obtain ⟨d', h1, rfl⟩ := data_back hx
    obtain ⟨h2, h3⟩ := sback x d' h1
    exact ⟨fun hm => h2 ((hX x).2 ⟨d', h3, hm⟩), h2, data_some h3⟩
  have dfwd : ∀ x d, s.data x = some d → d.bucket ∉ L → s'.data x = some d := by
    intro x d hx hne
    obtain ⟨d', h1, rfl⟩ := data_back hx
    have : x ∉ X := by
      intro hm
      obtain ⟨d2, h2, h3⟩ := (hX x).1 hm
      rw [h1] at h2
      cases h2
      exact hne h3
    have : s'.slabs x = some d' := by rw [r.keep x this]; exact h1
    exact data_some this
  have pfwd : ∀ p' P', s.pools p' = some P' → p' ≠ p → upd s'.pools p none p' = some P' := by
    intro p' P' h1 h2
    rw [upd_ne _ _ h2, r.pools]
    exact h1
  have pback : ∀ p' P', upd s'.pools p none p' = some P' → p' ≠ p ∧ s.pools p' = some P' := by
    intro p' P' h1
    obtain ⟨h2, h3⟩ := upd_none_back h1
    rw [r.pools] at h3
    exact ⟨h2, h3⟩
  refine ⟨⟨?_, ?_, ?_, h.shape.lim0, ?_, ?_, ?_, ?_, ?_⟩, ⟨?_, ?_, ?_, ?_, ?_, ?_, ?_, ?_, ?_⟩, ?_⟩
  · intro p' hp'
    by_cases e : p' = p
    · rw [e]
      exact upd_same _ _ _
    · dsimp only at hp' ⊢
      rw [upd_ne _ _ e] at hp' ⊢
      rw [r.pools]
      exact h.shape.known p' hp'
  · intro p' J hJ
    obtain ⟨e, hJ⟩ := upd_none_back hJ
    obtain ⟨Q, M, hQ, hk⟩ := h.shape.pool p' J hJ
    refine ⟨Q, M, pfwd p' Q hQ e, ⟨hk.nz, ?_, hk.len, hk.classes, hk.nodup, ?_, ?_, ?_, hk.mine, hk.shared, hk.limit⟩⟩
    · show s'.arrs _ = _
      rw [r.arrs]
      exact hk.arr
    · intro b hb
      obtain ⟨c, h1, h2, h3⟩ := hk.buck b hb
      exact ⟨c, (kfwd b c h1 (by rw [h2]; exact e)).2, h2, h3⟩
    · intro b c hc hp'
      exact hk.onto b c (kback b c hc).2 hp'
    · have hne : Q.default ≠ P.default := fun hd => e (h.shape.defInj _ _ _ _ hQ hP hd)
      show (upd s'.lims P.default none Q.default).isSome = true
      rw [upd_ne _ _ hne, r.lims]
      exact hk.dflt
  · intro b c hc
    obtain ⟨J, hJ⟩ := h.shape.buck b c (kback b c hc).2
    exact ⟨J, by dsimp only; rw [upd_ne _ _ (kpool b c hc)]; exact hJ⟩
  · intro l hl
    have hne : l ≠ P.default := by
      rintro rfl
      rw [hok.mine] at hl
      cases hl
    show (upd s'.lims P.default none l).isSome = true
    rw [upd_ne _ _ hne, r.lims]
    exact h.shape.lims l hl
  · intro l hl
    have hl : (upd s'.lims P.default none l).isSome = true := hl
    rw [r.lims] at hl
    obtain ⟨h1, h2⟩ := hasLim_upd hl
    rcases h.shape.limOwner l h2 with h3 | ⟨p', P', h3, h4⟩
    · exact Or.inl h3
    · refine Or.inr ⟨p', P', pfwd p' P' h3 ?_, h4⟩
      rintro rfl
      rw [hP] at h3
      cases h3
      exact h1 h4.symm
  · intro t ht
    have ht : (upd s'.crits P.known none t).isSome = true := ht
    rw [r.crits] at ht
    obtain ⟨v, hv⟩ := Option.isSome_iff_exists.1 ht
    obtain ⟨h1, h2⟩ := upd_none_back hv
    obtain ⟨p', P', h3, h4⟩ := h.shape.critOwner t (by simp [St.hasCrit, h2])
    refine ⟨p', P', pfwd p' P' h3 ?_, h4⟩
    rintro rfl
    rw [hP] at h3
    cases h3
    exact h1 h4.symm
  · intro p1 p2 P1 P2 h1 h2
    exact h.shape.knownInj p1 p2 P1 P2 (pback _ _ h1).2 (pback _ _ h2).2
  · intro p1 p2 P1 P2 h1 h2
    exact h.shape.defInj p1 p2 P1 P2 (pback _ _ h1).2 (pback _ _ h2).2
  · show s'.data 0 = none
    cases e : s'.data 0 with
    | none => rfl
    | some d =>
      have := (dback 0 d e).2.2
      rw [h.data.nz] at this
      cases this
  · intro x d hx
    obtain ⟨h1, h2, h3⟩ := dback x d hx
    obtain ⟨c, h4, h5⟩ := h.data.buck x d h3
    exact ⟨c, (kfwd _ _ h4 (fun hp => h1 (hok.onto _ _ h4 hp))).2, h5⟩
  · intro x d hx
    obtain ⟨h1, h2, h3⟩ := dback x d hx
    obtain ⟨h4, h5⟩ := h.data.mem x d h3
    refine ⟨?_, h5⟩
    show s'.prov d.mem = _
    rw [r.pkeep d.mem]
    · exact h4
    · intro y hy d' hd' hm
      have := h.data.memInj y x d'.data d (data_some hd') h3 hm
      subst this
      exact h2 hy
  · intro x d hx
    exact h.data.total x d (dback x d hx).2.2
  · intro x y d d' hx hy
    exact h.data.memInj x y d d' (dback x d hx).2.2 (dback y d' hy).2.2
  · intro m n hm
    have hm : s'.prov m = some n := hm
    by_cases e : ∃ y ∈ X, ∃ d, s.slabs y = some d ∧ d.mem = m
    · obtain ⟨y, hy, d, hd, rfl⟩ := e
      rw [r.pgone y hy d hd] at hm
      cases hm
    · rw [r.pkeep m fun y hy d hd hm' => e ⟨y, hy, d, hd, hm'⟩] at hm
      obtain ⟨x, d, h1, h2⟩ := h.data.prov m n hm
      refine ⟨x, d, dfwd x d h1 ?_, h2⟩
      intro hL
      obtain ⟨d', h3, rfl⟩ := data_back h1
      exact e ⟨x, (hX x).2 ⟨d', h3, hL⟩, d', h3, h2⟩
  · intro x d c J hx hc hJ
    exact h.data.live x d c J (dback x d hx).2.2 (kback _ _ hc).2 (upd_none_back hJ).2
  · intro p' J x hJ hx
    obtain ⟨e, hJ⟩ := upd_none_back hJ
    obtain ⟨d, c, h1, h2, h3⟩ := h.data.liveMem p' J x hJ hx
    obtain ⟨h4, h5⟩ := kfwd _ _ h2 (by rw [h3]; exact e)
    exact ⟨d, c, dfwd x d h1 h4, h5, h3⟩
  · intro p' Q hQ
    obtain ⟨e, hQ⟩ := pback _ _ hQ
    obtain ⟨l, h1, h2⟩ := h.data.crit p' Q hQ
    refine ⟨l, ?_, fun k y => ?_⟩
    · have hne : Q.known ≠ P.known := fun hd => e (h.shape.knownInj _ _ _ _ hQ hP hd)
      show upd s'.crits P.known none Q.known = _
      rw [upd_ne _ _ hne, r.crits]
      exact h1
    · rw [h2]
      constructor
      · rintro ⟨d, c, g1, g2, g3, g4⟩
        obtain ⟨g5, g6⟩ := kfwd _ _ g3 (by rw [g4]; exact e)
        exact ⟨d, c, dfwd y d g1 g5, g2, g6, g4⟩
      · rintro ⟨d, c, g1, g2, g3, g4⟩
        exact ⟨d, c, (dback y d g1).2.2, g2, (kback _ _ g3).2, g4⟩
  · intro b c hc
    obtain ⟨h1, h2⟩ := bback b c hc
    obtain ⟨la, lu, hl⟩ := h.lists b c h2
    refine ⟨la, lu, binv_other hl ?_ ?_⟩
    · intro x d hx hd
      show s'.slabs x = _
      rw [r.keep x]
      · exact hx
      · intro hm
        obtain ⟨d', h3, h4⟩ := (hX x).1 hm
        rw [hx] at h3
        cases h3
        rw [hd] at h4
        exact h1 h4
    · intro x d hx hd
      exact (sback x d hx).2

theorem finalize_ok {s : St} {A : World} {p : Addr} {I : Info} (h : Inv0 s A) (hI : A.pools p = some I) :
    ∃ n s', (∀ fuel, n ≤ fuel → finalize fuel p s = some ((.success, 0), s')) ∧ Inv0 s' { A with pools := upd A.pools p none } ∧
      s'.arrs = s.arrs := by
  obtain ⟨P, L, hP, hok⟩ := h.shape.pool p I hI
  have hbk : ∀ b ∈ L, ∃ c, s.bucks b = some c ∧ c.pool = p := by
    intro b hb
    obtain ⟨c, h1, h2, _⟩ := hok.buck b hb
    obtain ⟨c', h3, rfl⟩ := frame_back h1
    exact ⟨c', h3, h2⟩
  obtain ⟨n, s1, X, e1, e2, e3, e4, e5⟩ := finalLoop_ok (arr := P.buckets) (L := L) P.num 0 hok.arr (by rw [hok.len]; omega)
    h.own (by simpa using hok.nodup) (fun b hb => by
      obtain ⟨c, h1, h2⟩ := hbk b (by simpa using hb)
      obtain ⟨la, lu, hl⟩ := h.lists b c h1
      exact ⟨c, P, la, lu, 0, h1, by rw [h2]; exact hP, hl⟩)
  simp only [List.drop_zero] at e3 e4 e5
  obtain ⟨v, hv⟩ := hasLim_back hok.dflt
  obtain ⟨l, hl, _⟩ := h.data.crit p P hP
  refine ⟨n, _, ?_, inv_destroyed h hP hI hok e2 e3 e4 e5, e2.arrs⟩
  intro fuel hf
  have tail : (do
      finalLoop fuel P.buckets P.num 0
      freeLimits P.default
      freeCrit P.known
      freePool p
      pure (.success, 0) : M Out) s = some ((.success, 0), { s1 with pools := upd s1.pools p none, crits := upd s1.crits P.known none, lims := upd s1.lims P.default none }) := by
    rw [bind_app, e1 fuel hf]
    dsimp only
    rw [bind_app, freeLimits_app (c := v) (by rw [e2.lims]; exact hv)]
    dsimp only
    rw [bind_app, freeCrit_app (c := l) (by dsimp only; rw [e2.crits]; exact hl)]
    dsimp only
    rw [bind_app, freePool_app (c := P) (by dsimp only; rw [e2.pools]; exact hP)]
    rfl
  unfold finalize
  rw [bind_app, getP_app hP]
  dsimp only
  by_cases ht : P.trace > 1
  · rw [if_pos ht, bind_app, statsLoop_ok hok.arr (fun b hb => by
      obtain ⟨c, h1, _⟩ := hbk b hb
      exact ⟨c, h1⟩) P.num 0 (by rw [hok.len]; omega)]
    dsimp only
    obtain ⟨w, hw⟩ : ∃ w, s.lims (if P.shared ≠ 0 then P.shared else P.default) = some w := by
      by_cases hs : P.shared ≠ 0
      · rw [if_pos hs]
        rcases hok.limit with h1 | h1
        · exact absurd h1 hs
        · exact hasLim_back (h.shape.lims _ h1)
      · rw [if_neg hs]
        exact ⟨v, hv⟩
    rw [bind_app, getL_app hw]
    exact tail
  · rw [if_neg ht]
    exact tail

end Verif.DjHost
