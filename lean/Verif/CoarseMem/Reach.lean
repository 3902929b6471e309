import Verif.CoarseMem.Calls
/-!
# Lemmas for the coarse allocator, pointer by pointer: histories, destruction and counting
-/
namespace Verif.CoarseMem
open Verif.Coarse (Res Check Cfg)
open Verif.Coarse.Index (Elem Ent cls Chain mem_cls)
open Verif.Ravl (Slot Pred)

variable {s s' : St} {A F : List (Addr × Nat × Addr)} {E : List Ent}

/-- What holds after any history. -/
structure Good (u : User) (s : St) (held : List Nat) : Prop where
  inv : ∃ A E, Inv s A E
  held : ∀ p ∈ held, Solid s p
  clean : u = .zeroed → Clean s

theorem Solid.host {p : Nat} {ho : List (Addr × Bool)} (h : Solid s p) : Solid { s with host := ho } p := h

theorem holds_init (t : Tr) : Holds St.init t [] :=
  ⟨.nil, ⟨rfl, trivial, List.nodup_nil, fun _ ha => absurd rfl ha⟩, trivial, rfl, List.Pairwise.nil⟩

theorem init_good (u : User) : Good u St.init [] := by
  refine ⟨⟨[], [], ?_, nofun, ?_, ⟨[], ?_, nofun, ?_, nofun, nofun, .nil, ?_, nofun, ?_⟩, ?_⟩, nofun, ?_⟩
  · exact holds_init _
  · intro b h
    exact absurd rfl h
  · exact holds_init _
  · intro b h
    exact absurd rfl h
  · intro b h
    exact absurd rfl h
  · intro b B h
    cases h
  · intro _ h e
    cases e
  · intro _ b B h
    cases h

/-- A call is undefined only when a list is empty and a block is looked for; otherwise it returns, and everything still holds. -/
theorem step_good {u : User} {held : List Nat} {cfg : Cfg} {op : Op} {env : Env} {host : List (Addr × Bool)} (h : Good u s held)
    (ha : Allowed u held op host) :
    (Undef cfg s op env host ∧ ¬ NoEmpty s ∧ ((∃ size a, op = .alloc size a) ∨ ∃ size, op = .addUpstream size)) ∨
    ∃ r s', Runs cfg s op env host r s' ∧ Good u s' (heldAfter held op r) ∧ (∀ size a, op = .alloc size a → r.res = .success → r.ptr ∉ held) := by
  obtain ⟨⟨A, E, hI⟩, hH, hC⟩ := h
  have hI' : Inv { s with host := host } A E := hI.same rfl rfl rfl rfl fun h => h
  have hz : u = .zeroed → Zero { s with host := host } := by
    rintro rfl
    exact ha
  have hC' : u = .zeroed → Clean { s with host := host } := hC
  have hsafe : ∀ p, (u = .careful → p = 0 ∨ p ∈ held) → p ≠ 0 → ∀ b B, s.blk b = some B → B.data = p → B.used = true → B.fl = 0 := by
    intro p hp hp0 b B hb hd hu
    cases u with
    | careful =>
      obtain ⟨c, C, c1, c2, c3, c4⟩ := hH p ((hp rfl).resolve_left hp0)
      have := hI.data_inj hb c1 (hd.trans c2.symm)
      rw [this, c1] at hb
      cases hb
      exact c4
    | zeroed => exact hC rfl b B hb hu
  cases op with
  | alloc size a =>
    rcases alloc_inv cfg env size a hI' with ⟨hx, hy⟩ | ⟨r, s', A', E', g1, g2, g3, g4, g5, -⟩
    · exact .inl ⟨hy, hx, .inl ⟨size, a, rfl⟩⟩
    · have hk : ∀ p ∈ held, Solid s' p := fun p hp => g3.solid (hH p hp).host fun _ _ _ _ h => h
      refine .inr ⟨r, s', g1, ⟨⟨A', E', g2⟩, ?_, fun e => g4 (hC' e) (hz e)⟩, fun _ _ _ hr hin => ?_⟩
      · intro p hp
        unfold heldAfter at hp
        dsimp only at hp
        by_cases hr : r.res = .success
        · rw [if_pos hr] at hp
          rcases List.mem_cons.1 hp with rfl | hp
          · obtain ⟨c, c1, -⟩ := g5 hr
            exact ⟨c, c1⟩
          · exact hk p hp
        · rw [if_neg hr] at hp
          exact hk p hp
      · obtain ⟨c, ⟨C, c1, c2, c3, c4⟩, c5⟩ := g5 hr
        obtain ⟨d, D, d1, d2, d3, d4⟩ := hH _ hin
        have := g2.data_inj c1 (g3.keep d D d1 d3 d4 fun h => h) (c2.trans d2.symm)
        subst this
        exact c5 D d1 d3 d4
  | free p bytes =>
    right
    by_cases hp0 : p = 0
    · subst hp0
      refine ⟨{ res := .success }, { s with host := host }, ⟨0, fun _ _ => rfl⟩, ⟨⟨A, E, hI'⟩, ?_, hC'⟩, nofun⟩
      intro q hq
      exact hH q (List.mem_of_mem_filter hq)
    · obtain ⟨r, s', A', E', g1, g2, g3, g4, g5, -⟩ := free_inv env p bytes hI' (hsafe p (fun e => by subst e; exact ha) hp0)
      refine ⟨r, s', g1, ⟨⟨A', E', g2⟩, ?_, fun e => g4 (hC' e)⟩, nofun⟩
      intro q hq
      unfold heldAfter at hq
      dsimp only at hq
      by_cases hr : r.res = .invalidArgument
      · rw [if_pos hr] at hq
        rw [g5 hr]
        exact (hH q hq).host
      · rw [if_neg hr] at hq
        have hne : q ≠ p := by
          have := (List.mem_filter.1 hq).2
          simpa using this
        refine g3.solid (hH q (List.mem_of_mem_filter hq)).host ?_
        rintro b B hb hd ⟨C, hc, hd'⟩
        rw [hb] at hc
        cases hc
        exact hne (hd.symm.trans hd')
  | split p total first =>
    right
    by_cases hp0 : p = 0
    · subst hp0
      refine ⟨{ res := .invalidArgument }, { s with host := host }, ⟨0, fun _ _ => ?_⟩, ⟨⟨A, E, hI'⟩, ?_, hC'⟩, nofun⟩
      · unfold step run split
        dsimp only
        rw [if_pos (.inl rfl)]
        rfl
      · intro q hq
        exact hH q hq
    · obtain ⟨r, s', A', g1, g2, g3, g4, g5, -⟩ := split_inv env p total first hI' (hsafe p (fun e => by subst e; exact ha) hp0)
      refine ⟨r, s', g1, ⟨⟨A', E, g2⟩, ?_, fun e => g3 (hC' e)⟩, nofun⟩
      have hk : ∀ q ∈ held, Solid s' q := by
        intro q hq
        by_cases hr : r.res = .success
        · by_cases hqp : q = p
          · rw [hqp]
            exact (g5 hr).1
          · refine g4.solid (hH q hq).host ?_
            rintro b B hb hd ⟨-, C, hc, hd'⟩
            rw [hb] at hc
            cases hc
            exact hqp (hd.symm.trans hd')
        · exact g4.solid (hH q hq).host fun _ _ _ _ h => hr h.1
      intro q hq
      unfold heldAfter at hq
      dsimp only at hq
      by_cases hr : r.res = .success
      · rw [if_pos hr] at hq
        rcases List.mem_cons.1 hq with rfl | hq
        · exact (g5 hr).2
        · exact hk q hq
      · rw [if_neg hr] at hq
        exact hk q hq
  | merge low high total =>
    right
    obtain ⟨r, s', A', E', g1, g2, g3, g4, g5, g6, -⟩ := merge_inv env low high total hI'
    refine ⟨r, s', g1, ⟨⟨A', E', g2⟩, ?_, fun e => g3 (hC' e)⟩, nofun⟩
    intro q hq
    unfold heldAfter at hq
    dsimp only at hq
    by_cases hr : r.res = .success
    · rw [if_pos hr] at hq
      have hne : q ≠ high := by
        have := (List.mem_filter.1 hq).2
        simpa using this
      by_cases hql : q = low
      · rw [hql]
        exact g6 hr
      · refine g4.solid (hH q (List.mem_of_mem_filter hq)).host ?_
        rintro b B hb hd ⟨C, hc, hd'⟩
        rw [hb] at hc
        cases hc
        rcases hd' with hd' | hd'
        · exact hql (hd.symm.trans hd')
        · exact hne (hd.symm.trans hd')
    · rw [if_neg hr] at hq
      rw [g5 hr]
      exact (hH q hq).host
  | addFixed addr size =>
    right
    obtain ⟨r, s', A', E', g1, g2, g3, g4, -⟩ := addFixed_inv cfg env addr size hI'
    exact ⟨r, s', g1, ⟨⟨A', E', g2⟩, fun q hq => g3.solid (hH q hq).host fun _ _ _ _ h => h, fun e => g4 (hC' e)⟩, nofun⟩
  | addUpstream size =>
    rcases addUpstream_inv cfg env size hI' with ⟨hx, hy⟩ | ⟨r, s', A', E', g1, g2, g3, g4, -⟩
    · exact .inl ⟨hy, hx, .inr ⟨size, rfl⟩⟩
    · exact .inr ⟨r, s', g1, ⟨⟨A', E', g2⟩, fun q hq => g3.solid (hH q hq).host fun _ _ _ _ h => h, fun e => g4 (hC' e) (hz e)⟩, nofun⟩

theorem reach_good {cfg : Cfg} {u : User} {held : List Nat} (h : Reach cfg u s held) : Good u s held := by
  induction h with
  | init => exact init_good u
  | step h1 ha hr ih =>
    rcases step_good (cfg := cfg) ih ha with ⟨hx, -⟩ | ⟨r, s', g1, g2, -⟩
    · exact absurd hx (Ev.not (m := run cfg _ _) hr)
    · obtain ⟨rfl, rfl⟩ := Ev.unique (m := run cfg _ _) hr g1
      exact g2

/-! ## Destruction -/

theorem deleteN_ev {t : Tr} {L : List (Addr × Nat × Addr)} (h : Holds s t L) :
    ∃ T, Ev (deleteN t) s () { s with tree := updT s.tree t T } ∧ ∀ n, T.h n = none := by
  obtain ⟨w, hs, hk, hL, hsort⟩ := h
  have hb := fun m (hm : RavlMem.size w < m) => RavlMem.foreachNode_rep true (fuel := m) hs.rep hs.nd hm
  refine ⟨⟨(s.tree t).root, fun _ => none⟩, ⟨RavlMem.size w + 1, fun m hm => ?_⟩, fun _ => rfl⟩
  obtain ⟨s1, e1, r1, a1, b1⟩ := hb m (by omega)
  unfold deleteN RavlMem.deleteCb
  rw [hs.root, e1]
  have h1 : s1.h = fun _ => none := by
    funext a
    by_cases ha : a ∈ RavlMem.adrs w
    · exact b1 a ha
    · rw [a1 a ha]
      exact Classical.byContradiction fun e => ha (hs.all a e)
  obtain ⟨root1, hp1⟩ := s1
  dsimp only at h1 r1
  rw [h1, r1, hs.root]
  rfl

theorem cbRm_ok {b : Addr} {B : Blk} (hI : Ix s F E) (hb : s.blk b = some B) :
    ∃ s' F' E', Ev (cbRm b) s (B.data, B.size) s' ∧ Ix s' F' E' ∧ s'.blk = upd s.blk b none ∧ s'.tree .all = s.tree .all ∧
      (∀ h, s'.hd h = some 0 → s.hd h = some 0) := by
  have key : ∃ s1 F' E', Ev (cbUnlist b) s () s1 ∧ Ix s1 F' E' ∧ s1.blk = upd s.blk b (some { B with fl := 0 }) ∧ s1.tree .all = s.tree .all ∧
      (∀ h, s1.hd h = some 0 → s.hd h = some 0) := by
    by_cases hf : B.fl = 0
    · refine ⟨s, F, E, ?_, hI, (upd_id (by rw [hb, ← hf])).symm, rfl, fun _ h => h⟩
      unfold cbUnlist
      exact Ev.bind (getB_ev hb) (Ev.ite_neg (fun e => e hf) (.pure _ _))
    · obtain ⟨m, hm, rfl⟩ := hI.fl b B hb hf
      obtain ⟨C, c1, c2, -⟩ := hI.ent m hm
      rw [hb] at c1
      cases c1
      obtain ⟨s1, F', X, Y, -, g1, g2, g3, g4, g5⟩ := rmNode_ok hI hm hb
      refine ⟨s1, F', X ++ Y, ?_, g3, g4, g2.all, g5⟩
      unfold cbUnlist
      rw [← c2] at g1
      exact Ev.bind (getB_ev hb) (Ev.ite_pos hf (Ev.bind g1 (.pure _ _)))
  obtain ⟨s1, F', E', g1, g2, g3, g4, g5⟩ := key
  have hs1 : s1.blk b = some { B with fl := 0 } := by rw [g3, upd_same]
  refine ⟨{ s1 with
    usedSize := s1.usedSize - (if B.used = true then B.size else 0)
    allocSize := s1.allocSize - B.size
    blk := upd s1.blk b none }, F', E', ?_, ?_, ?_, g4, g5⟩
  · unfold cbRm
    exact Ev.bind (getB_ev hb) (Ev.bind g1 (Ev.bind (.of fun _ => rfl) (Ev.bind (getB_ev (s := { s1 with
      usedSize := s1.usedSize - (if B.used = true then B.size else 0)
      allocSize := s1.allocSize - B.size }) hs1) (Ev.bind (freeB_ev (s := { s1 with
      usedSize := s1.usedSize - (if B.used = true then B.size else 0)
      allocSize := s1.allocSize - B.size }) hs1) (.pure _ _)))))
  · refine g2.congr rfl rfl rfl (fun y hy C hC => ⟨C, ?_, rfl, rfl⟩) fun c C hC hc0 => ?_
    · dsimp only
      rw [upd_ne _ _ ?_]
      · exact hC
      · intro e
        obtain ⟨D, d1, d2, -⟩ := g2.ent y hy
        rw [e, hs1] at d1
        cases d1
        exact (g2.elem hy).1 d2.symm
    · dsimp only at hC
      by_cases e : c = b
      · rw [e, upd_same] at hC
        cases hC
      · rw [upd_ne _ _ e] at hC
        exact ⟨C, hC, hc0⟩
  · dsimp only
    rw [g3]
    funext c
    by_cases e : c = b
    · rw [e, upd_same, upd_same]
    · rw [upd_ne _ _ e, upd_ne _ _ e, upd_ne _ _ e]

theorem rmAll_ok : ∀ {l : List (Nat × Addr)} {s : St} {F : List (Addr × Nat × Addr)} {E : List Ent}, Ix s F E →
    (∀ x ∈ l, ∃ B, s.blk x.2 = some B ∧ B.data = x.1) → (l.map (·.2)).Nodup → (∀ b, s.blk b ≠ none → b ∈ l.map (·.2)) →
    ∃ r s' F', Ev (rmAll l) s r s' ∧ Ix s' F' [] ∧ (∀ b, s'.blk b = none) ∧ s'.tree .all = s.tree .all ∧
      (∀ h, s'.hd h = some 0 → s.hd h = some 0) ∧ r.map (·.1) = l.map (·.1) ∧
      ∀ p, p ∈ r ↔ ∃ b B, s.blk b = some B ∧ p = (B.data, B.size) := by
  intro l
  induction l with
  | nil =>
    intro s F E hI h1 h2 h3
    have hb : ∀ b, s.blk b = none := fun b => Classical.byContradiction fun h => nomatch h3 b h
    have hE : E = [] := by
      cases E with
      | nil => rfl
      | cons y E =>
        obtain ⟨B, b1, -⟩ := hI.ent y (by simp)
        rw [hb] at b1
        cases b1
    subst hE
    refine ⟨[], s, F, .pure _ _, hI, hb, rfl, fun _ h => h, rfl, fun p => ⟨nofun, ?_⟩⟩
    rintro ⟨b, B, h, -⟩
    rw [hb] at h
    cases h
  | cons x l ih =>
    intro s F E hI h1 h2 h3
    obtain ⟨B, b1, b2⟩ := h1 x (by simp)
    obtain ⟨s1, F1, E1, g1, g2, g3, g4, g5⟩ := cbRm_ok hI b1
    rw [List.map_cons, List.nodup_cons] at h2
    have hne : ∀ y ∈ l, y.2 ≠ x.2 := fun y hy e => h2.1 (e ▸ List.mem_map_of_mem hy)
    obtain ⟨r, s2, F2, k1, k2, k3, k4, k5, k6, k7⟩ := ih g2 (fun y hy => by
        obtain ⟨C, c1, c2⟩ := h1 y (by simp [hy])
        exact ⟨C, by rw [g3, upd_ne _ _ (hne y hy)]; exact c1, c2⟩) h2.2 (fun b hb => by
        rw [g3] at hb
        by_cases e : b = x.2
        · rw [e, upd_same] at hb
          exact absurd rfl hb
        · rw [upd_ne _ _ e] at hb
          have := h3 b hb
          rw [List.map_cons, List.mem_cons] at this
          exact this.resolve_left e)
    refine ⟨(B.data, B.size) :: r, s2, F2, ?_, k2, k3, k4.trans g4, fun h hh => g5 h (k5 h hh), ?_, fun p => ?_⟩
    · unfold rmAll
      exact Ev.bind g1 (Ev.bind k1 (.pure _ _))
    · rw [List.map_cons, List.map_cons, k6, b2]
    · rw [List.mem_cons, k7]
      constructor
      · rintro (rfl | ⟨b, C, c1, rfl⟩)
        · exact ⟨x.2, B, b1, rfl⟩
        · refine ⟨b, C, ?_, rfl⟩
          rw [g3] at c1
          by_cases e : b = x.2
          · rw [e, upd_same] at c1
            cases c1
          · rw [upd_ne _ _ e] at c1
            exact c1
      · rintro ⟨b, C, c1, rfl⟩
        by_cases e : b = x.2
        · rw [e, b1] at c1
          cases c1
          exact .inl rfl
        · refine .inr ⟨b, C, ?_, rfl⟩
          rw [g3, upd_ne _ _ e]
          exact c1

theorem delete_ok (cfg : Cfg) (h : Inv s A E) : ∃ calls s', Ev (delete cfg) s calls s' ∧ (∀ a, s'.blk a = none) ∧ (∀ a, s'.elm a = none) ∧
    (∀ t a, (s'.tree t).h a = none) ∧ (∀ a, s'.hd a ≠ none → s'.hd a = some 0 ∧ s.hd a = some 0) ∧
    (cfg.hasFree = false → calls = []) ∧
    (cfg.hasFree = true → (calls.map (·.1)).Pairwise (· < ·) ∧ ∀ p, p ∈ calls ↔ ∃ b B, s.blk b = some B ∧ p = (B.data, B.size)) := by
  obtain ⟨F, hI⟩ := h.lists
  have hp := (RavlMem.inv_view h.all).2.1
  have hp' : (A.map (·.2)).Pairwise (fun x y => x.1 < y.1) := by
    rw [List.pairwise_map]
    exact hp
  have hnd : ((A.map (·.2)).map (·.2)).Nodup := by
    rw [List.Nodup, List.pairwise_map]
    refine List.Pairwise.imp_of_mem ?_ hp'
    intro x y hx hy hlt e
    obtain ⟨-, B, b1, b2⟩ := h.desc x hx
    obtain ⟨-, C, c1, c2⟩ := h.desc y hy
    rw [e, c1] at b1
    cases b1
    omega
  obtain ⟨r, s1, F', g1, g2, g3, g4, g5, g6, g7⟩ := rmAll_ok hI (fun x hx => (h.desc x hx).2) hnd (fun b hb => by
    obtain ⟨d, hd⟩ := h.only b hb
    exact List.mem_map.2 ⟨(d, b), hd, rfl⟩)
  have hall : Holds s1 .all A := by
    show RavlMem.Inv _ (s1.tree .all) A
    rw [g4]
    exact h.all
  obtain ⟨T1, k1, k2⟩ := deleteN_ev hall
  have hfre : Holds { s1 with tree := updT s1.tree .all T1 } .fre F' := by
    show RavlMem.Inv _ (updT s1.tree .all T1 .fre) F'
    rw [updT_ne (t := Tr.all) (u := Tr.fre) s1.tree T1 (by decide)]
    exact g2.fre
  obtain ⟨T2, j1, j2⟩ := deleteN_ev hfre
  refine ⟨if cfg.hasFree = true then r else [], { s1 with tree := updT (updT s1.tree .all T1) .fre T2 }, ?_, g3, ?_, ?_, ?_, ?_, ?_⟩
  · unfold delete
    exact Ev.bind (foreach_ev h.all) (Ev.bind g1 (Ev.bind k1 (Ev.bind j1 (.pure _ _))))
  · exact fun a => Classical.byContradiction fun h => nomatch g2.elemOnly a h
  · intro t a
    cases t with
    | all =>
      show (updT (updT s1.tree .all T1) .fre T2 .all).h a = none
      rw [updT_ne (t := Tr.fre) (u := Tr.all) _ T2 (by decide), updT_same]
      exact k2 a
    | fre =>
      show (updT (updT s1.tree .all T1) .fre T2 .fre).h a = none
      rw [updT_same]
      exact j2 a
  · intro a ha
    obtain ⟨x, hx, rfl⟩ := g2.headOnly a ha
    obtain ⟨f, f1, f2⟩ := g2.heads x hx
    have f2 : f = 0 := f2
    rw [f2] at f1
    exact ⟨f1, g5 _ f1⟩
  · intro hf
    rw [hf]
    rfl
  · intro hf
    rw [if_pos hf]
    refine ⟨?_, g7⟩
    rw [g6, List.pairwise_map]
    exact hp'

/-! ## Counting -/

theorem countList_ok {l : List Ent} : ∀ {cur prev : Nat}, Chain s.elm cur prev l → ∀ n k, l.length < n → countList n cur k s = some (l.length, s) := by
  induction l with
  | nil =>
    intro cur prev h n k hn
    obtain ⟨n, rfl⟩ : ∃ i, n = i + 1 := ⟨n - 1, by simp at hn; omega⟩
    have h : cur = 0 := h
    subst h
    rfl
  | cons y l ih =>
    rintro cur prev ⟨h1, h2, nx, h3, h4⟩ n k hn
    obtain ⟨n, rfl⟩ : ∃ i, n = i + 1 := ⟨n - 1, by simp at hn; omega⟩
    subst h1
    rw [countList, if_neg h2]
    rw [bind_some (a := ⟨y.blk, nx, prev⟩) (s' := s) (by unfold getE; rw [if_neg h2, h3]; rfl)]
    dsimp only
    rw [bind_some (ih h4 n k (by simp at hn; omega))]
    rfl

theorem countHeads_ok (hI : Ix s F E) : ∀ {K : List (Nat × Addr)}, (∀ x ∈ K, x ∈ F.map (·.2)) →
    Ev (countHeads K) s ((K.map fun x => (cls x.1 E).length).sum) s := by
  intro K
  induction K with
  | nil => intro _; exact .pure _ _
  | cons x K ih =>
    intro h
    obtain ⟨f, f1, f2⟩ := hI.heads x (h x (by simp))
    unfold countHeads
    exact Ev.bind (getH_ev f1) (Ev.bind (m := countAll f) ⟨(cls x.1 E).length + 1, fun n hn => countList_ok f2 n n hn⟩
      (Ev.bind (ih fun y hy => h y (by simp [hy])) (.pure _ _)))

theorem filter_or {α : Type} (p q : α → Bool) : ∀ {l : List α}, (∀ x ∈ l, p x = true → q x = true → False) →
    (l.filter fun x => p x || q x).length = (l.filter p).length + (l.filter q).length := by
  intro l
  induction l with
  | nil => intro _; rfl
  | cons x l ih =>
    intro h
    have ih := ih fun y hy => h y (by simp [hy])
    have hx := h x (by simp)
    rw [List.filter_cons, List.filter_cons, List.filter_cons]
    cases hp : p x <;> cases hq : q x <;> simp [hp, hq, ih] at hx ⊢ <;> omega

theorem sum_cls (E : List Ent) : ∀ {K : List (Nat × Addr)}, K.Pairwise (fun x y => x.1 < y.1) →
    (K.map fun x => (cls x.1 E).length).sum = (E.filter fun n => decide (∃ x ∈ K, x.1 = n.size)).length := by
  intro K
  induction K with
  | nil => intro _; simp
  | cons x K ih =>
    intro h
    rw [List.pairwise_cons] at h
    rw [List.map_cons, List.sum_cons, ih h.2]
    unfold cls
    rw [← filter_or]
    · congr 1
      apply List.filter_congr
      intro n _
      rw [Bool.eq_iff_iff]
      simp only [Bool.or_eq_true, beq_iff_eq, decide_eq_true_eq, List.mem_cons]
      constructor
      · rintro (e | ⟨y, hy, e⟩)
        · exact ⟨x, .inl rfl, e.symm⟩
        · exact ⟨y, .inr hy, e⟩
      · rintro ⟨y, rfl | hy, e⟩
        · exact .inl e.symm
        · exact .inr ⟨y, hy, e⟩
    · intro n _ h1 h2
      simp only [beq_iff_eq] at h1
      simp only [decide_eq_true_eq] at h2
      obtain ⟨y, hy, e⟩ := h2
      have : x.1 < y.1 := h.1 y hy
      omega

theorem stats_ok (h : Inv s A E) (hI : Ix s F E) : Ev stats s (A.length, E.length) s := by
  unfold stats
  have hp := (RavlMem.inv_view hI.fre).2.1
  have hp' : (F.map (·.2)).Pairwise (fun x y => x.1 < y.1) := by
    rw [List.pairwise_map]
    exact hp
  have hc := countHeads_ok hI (K := F.map (·.2)) fun _ h => h
  rw [sum_cls E hp', List.filter_eq_self.2 (fun n hn => by
    rw [decide_eq_true_eq]
    exact hI.full n hn)] at hc
  rw [← List.length_map (as := A) (·.2)]
  exact Ev.bind (foreach_ev h.all) (Ev.bind (foreach_ev hI.fre) (Ev.bind hc (.pure _ _)))

/-- The nodes of a tree are one for each live thing it holds. -/
theorem nodes_ok {t : Tr} {L : List (Addr × Nat × Addr)} (h : Holds s t L) {P : Addr → Prop} (h1 : ∀ x ∈ L.map (·.2), P x.2)
    (h2 : ∀ b, P b → ∃ x ∈ L.map (·.2), x.2 = b) (h3 : ∀ x ∈ L.map (·.2), ∀ y ∈ L.map (·.2), x.2 = y.2 → x = y) :
    ∃ node : Addr → Addr, (∀ b, P b → (s.tree t).h (node b) ≠ none) ∧
      (∀ n, (s.tree t).h n ≠ none → ∃ b, P b ∧ node b = n) ∧ ∀ b c, P b → P c → node b = node c → b = c := by
  classical
  obtain ⟨hn, hp, hv⟩ := RavlMem.inv_view h
  have : ∀ b, ∃ n, P b → ∃ d, (n, d, b) ∈ L := by
    intro b
    by_cases hb : P b
    · obtain ⟨x, hx, rfl⟩ := h2 b hb
      obtain ⟨y, hy, rfl⟩ := List.mem_map.1 hx
      exact ⟨y.1, fun _ => ⟨y.2.1, hy⟩⟩
    · exact ⟨0, fun h => absurd h hb⟩
  choose node hnode using this
  refine ⟨node, fun b hb => ?_, fun n hn' => ?_, fun b c hb hc e => ?_⟩
  · obtain ⟨d, hd⟩ := hnode b hb
    exact (holds_ne h hd).2
  · obtain ⟨c, hc⟩ := Option.ne_none_iff_exists'.1 hn'
    have hm := (hv n c.data).1 ⟨c, hc, rfl⟩
    have hP : P c.data.2 := h1 c.data (List.mem_map.2 ⟨_, hm, rfl⟩)
    obtain ⟨d, hd⟩ := hnode _ hP
    refine ⟨c.data.2, hP, ?_⟩
    have e := h3 (d, c.data.2) (List.mem_map.2 ⟨_, hd, rfl⟩) c.data (List.mem_map.2 ⟨_, hm, rfl⟩) rfl
    exact congrArg Prod.fst (holds_uniq h hd hm (congrArg Prod.fst e))
  · obtain ⟨d, hd⟩ := hnode b hb
    obtain ⟨d', hd'⟩ := hnode c hc
    rw [e] at hd
    obtain ⟨x, x1, x2⟩ := (hv _ _).2 hd
    obtain ⟨y, y1, y2⟩ := (hv _ _).2 hd'
    rw [x1] at y1
    cases y1
    rw [x2] at y2
    exact congrArg Prod.snd y2

end Verif.CoarseMem
