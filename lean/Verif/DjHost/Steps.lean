import Verif.DjHost.Create3
/-!
# Lemmas for the disjoint pool's own memory: the calls
-/
namespace Verif.DjHost

theorem inv_limCreate {s : St} {A : World} {l : Addr} {v : Limits} (h : Inv0 s A) (hl0 : l ≠ 0) (hl : s.lims l = none) :
    A.lims l = false ∧ Inv0 { s with lims := upd s.lims l (some v) } { A with lims := upd A.lims l true } := by
  have hAl : A.lims l = false := by
    cases e : A.lims l with
    | false => rfl
    | true =>
      have := h.shape.lims l e
      simp [St.hasLim, hl] at this
  refine ⟨hAl, ⟨h.shape.known, ?_, h.shape.buck, ?_, ?_, ?_, h.shape.critOwner, h.shape.knownInj, h.shape.defInj⟩,
    ⟨h.data.nz, h.data.buck, h.data.mem, h.data.total, h.data.memInj, h.data.prov, h.data.live, h.data.liveMem, h.data.crit⟩, h.lists⟩
  · intro p I hI
    obtain ⟨P, L, h1, hk⟩ := h.shape.pool p I hI
    have hne : P.default ≠ l := by
      intro e
      have := hk.dflt
      rw [e] at this
      simp [St.hasLim, hl] at this
    refine ⟨P, L, h1, ⟨hk.nz, hk.arr, hk.len, hk.classes, hk.nodup, hk.buck, hk.onto, ?_, ?_, hk.shared, ?_⟩⟩
    · show (upd s.lims l _ P.default).isSome = true
      rw [upd_ne _ _ hne]
      exact hk.dflt
    · show upd A.lims l true P.default = false
      rw [upd_ne _ _ hne]
      exact hk.mine
    · rcases hk.limit with h2 | h2
      · exact Or.inl h2
      · right
        show upd A.lims l true P.shared = true
        by_cases e : P.shared = l
        · rw [e, upd_same]
        · rw [upd_ne _ _ e]
          exact h2
  · show upd A.lims l true 0 = false
    rw [upd_ne _ _ (Ne.symm hl0)]
    exact h.shape.lim0
  · intro l' h1
    show (upd s.lims l _ l').isSome = true
    by_cases e : l' = l
    · rw [e, upd_same]
      rfl
    · rw [upd_ne _ _ e]
      have h1 : upd A.lims l true l' = true := h1
      rw [upd_ne _ _ e] at h1
      exact h.shape.lims l' h1
  · intro l' h1
    by_cases e : l' = l
    · left
      rw [e]
      exact upd_same _ _ _
    · have h1 : (upd s.lims l (some v) l').isSome = true := h1
      rw [upd_ne _ _ e] at h1
      rcases h.shape.limOwner l' h1 with h2 | h2
      · left
        show upd A.lims l true l' = true
        rw [upd_ne _ _ e]
        exact h2
      · exact Or.inr h2

theorem inv_limDestroy {s : St} {A : World} {l : Addr} (h : Inv0 s A) (hl : A.lims l = true)
    (hu : ∀ p I, A.pools p = some I → I.shared ≠ l) :
    Inv0 { s with lims := upd s.lims l none } { A with lims := upd A.lims l false } := by
  refine ⟨⟨h.shape.known, ?_, h.shape.buck, ?_, ?_, ?_, h.shape.critOwner, h.shape.knownInj, h.shape.defInj⟩,
    ⟨h.data.nz, h.data.buck, h.data.mem, h.data.total, h.data.memInj, h.data.prov, h.data.live, h.data.liveMem, h.data.crit⟩, h.lists⟩
  · intro p I hI
    obtain ⟨P, L, h1, hk⟩ := h.shape.pool p I hI
    have hne : P.default ≠ l := by
      rintro rfl
      rw [hk.mine] at hl
      cases hl
    refine ⟨P, L, h1, ⟨hk.nz, hk.arr, hk.len, hk.classes, hk.nodup, hk.buck, hk.onto, ?_, ?_, hk.shared, ?_⟩⟩
    · show (upd s.lims l _ P.default).isSome = true
      rw [upd_ne _ _ hne]
      exact hk.dflt
    · show upd A.lims l false P.default = false
      rw [upd_ne _ _ hne]
      exact hk.mine
    · rcases hk.limit with h2 | h2
      · exact Or.inl h2
      · right
        show upd A.lims l false P.shared = true
        rw [upd_ne _ _ (by rw [hk.shared]; exact hu p I hI)]
        exact h2
  · show upd A.lims l false 0 = false
    by_cases e : 0 = l
    · rw [e, upd_same]
    · rw [upd_ne _ _ e]
      exact h.shape.lim0
  · intro l' h1
    have h1 : upd A.lims l false l' = true := h1
    show (upd s.lims l _ l').isSome = true
    by_cases e : l' = l
    · rw [e, upd_same] at h1
      cases h1
    · rw [upd_ne _ _ e] at h1 ⊢
      exact h.shape.lims l' h1
  · intro l' h1
    obtain ⟨h1, h2⟩ := hasLim_upd (s := s) h1
    rcases h.shape.limOwner l' h2 with h3 | h3
    · left
      show upd A.lims l false l' = true
      rw [upd_ne _ _ h1]
      exact h3
    · exact Or.inr h3

theorem world_live {A : World} {p : Addr} {I : Info} (hI : A.pools p = some I) (f : List Addr → List Addr) :
    ({ A with pools := fun p' => if p' = p then (A.pools p).map fun I => { I with live := f I.live } else A.pools p' } : World) =
    { A with pools := upd A.pools p (some { I with live := f I.live }) } := by
  congr 1
  funext p'
  unfold upd
  split
  · rw [hI]
    rfl
  · rfl

theorem step_ok {s : St} {A : World} {op : Op} {a : Answers} (h : Inv0 s A) (hL : Legal A op) :
    ∃ out s', Runs s op a out s' ∧ Answered A op out ∧ Inv0 s' (A.next op out) := by
  have h' : Inv0 { s with host := a.host, give := a.give, room := a.room } A := h.ans _ _ _
  cases op with
  | create args q =>
    obtain ⟨out, s', e1, ⟨e2, ⟨e3, e4⟩ | ⟨e3, e4, e5, e6⟩⟩ | ⟨e2, e3, e4⟩⟩ := initialize_ok (args := args) h' hL
    · refine ⟨out, s', ⟨29, e1⟩, Or.inl ⟨e2, Or.inl e3⟩, ?_⟩
      rw [e3]
      exact e4.inv h'
    · refine ⟨out, s', ⟨29, e1⟩, Or.inl ⟨e2, Or.inr ⟨e3, e4, e5⟩⟩, ?_⟩
      unfold World.next
      dsimp only
      rw [if_pos e3]
      exact e6
    · refine ⟨out, s', ⟨29, e1⟩, Or.inr ⟨e2, e3⟩, ?_⟩
      rw [e3, e4]
      exact h'
  | malloc p i =>
    obtain ⟨I, hI, hi⟩ := hL
    obtain ⟨out, s', e1, ⟨e2, e3, e4⟩ | ⟨e2, e3, e4⟩⟩ := malloc_ok h' hI hi
    · refine ⟨out, s', ⟨0, fun _ _ => e1⟩, Or.inl e2, ?_⟩
      rw [e2]
      exact e3.inv h'
    · refine ⟨out, s', ⟨0, fun _ _ => e1⟩, Or.inr ⟨e2, e3⟩, ?_⟩
      unfold World.next
      dsimp only
      rw [if_pos e2, world_live hI (fun l => out.2 :: l)]
      exact e4
  | free p x =>
    obtain ⟨I, hI, hx⟩ := hL
    obtain ⟨s', e1, e2⟩ := free_ok h' hI hx
    refine ⟨_, s', ⟨0, fun _ _ => e1⟩, rfl, ?_⟩
    unfold World.next
    dsimp only
    rw [world_live hI (fun l => l.erase x)]
    exact e2
  | destroy p =>
    obtain ⟨I, hI⟩ := hL
    obtain ⟨n, s', e1, e2, _⟩ := finalize_ok h' hI
    exact ⟨_, s', ⟨n, e1⟩, rfl, e2⟩
  | limCreate n =>
    rcases limitsCreate_app n { s with host := a.host, give := a.give, room := a.room } with e1 | ⟨l, hl0, hlf, e1⟩
    · refine ⟨(.oom, 0), _, ⟨0, fun fuel _ => ?_⟩, Or.inl rfl, h.ans a.host.tail a.give a.room⟩
      unfold step Op.code
      dsimp only
      rw [bind_app, e1]
      rfl
    · rw [fresh_iff] at hlf
      obtain ⟨g1, g2⟩ := inv_limCreate (v := ⟨n, 0⟩) h hl0 hlf.2.2.1
      refine ⟨(.success, l), _, ⟨0, fun fuel _ => ?_⟩, Or.inr ⟨rfl, hl0, g1⟩, g2.ans a.host.tail a.give a.room⟩
      unfold step Op.code
      dsimp only
      rw [bind_app, e1]
      dsimp only
      rw [if_neg hl0]
      rfl
  | limDestroy l =>
    by_cases hl0 : l = 0
    · refine ⟨(.success, 0), { s with host := a.host, give := a.give, room := a.room }, ⟨0, fun fuel _ => ?_⟩, rfl, ?_⟩
      · unfold step Op.code
        dsimp only
        rw [if_pos hl0]
        rfl
      · have : A.next (.limDestroy l) (.success, 0) = A := by
          unfold World.next
          dsimp only
          congr 1
          funext l'
          split
          · rename_i e
            rw [e, hl0, h.shape.lim0]
          · rfl
        rw [this]
        exact h'
    · rcases hL with h1 | ⟨h1, h2⟩
      · exact absurd h1 hl0
      · obtain ⟨v, hv⟩ := hasLim_back (h.shape.lims l h1)
        refine ⟨(.success, 0), _, ⟨0, fun fuel _ => ?_⟩, rfl, (inv_limDestroy h h1 h2).ans a.host a.give a.room⟩
        unfold step Op.code
        dsimp only
        rw [if_neg hl0, bind_app, freeLimits_app (c := v) (by exact hv)]
        rfl

theorem runs_det {s : St} {op : Op} {a : Answers} {out out' : Out} {s1 s2 : St} (h1 : Runs s op a out s1) (h2 : Runs s op a out' s2) :
    out = out' ∧ s1 = s2 := by
  obtain ⟨n, h1⟩ := h1
  obtain ⟨m, h2⟩ := h2
  have e := (h1 (max n m) (by omega)).symm.trans (h2 (max n m) (by omega))
  simp only [Option.some.injEq, Prod.mk.injEq] at e
  exact e

theorem reach_inv {s : St} {A : World} (h : Reach s A) : Inv0 s A := by
  induction h with
  | init => exact inv_init
  | step _ hL hr ih =>
    obtain ⟨out, s', e1, _, e3⟩ := step_ok ih hL
    obtain ⟨rfl, rfl⟩ := runs_det hr e1
    exact e3

end Verif.DjHost
