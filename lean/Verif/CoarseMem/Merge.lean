import Verif.CoarseMem.Inv
/-!
# Lemmas for the coarse allocator, pointer by pointer: merging
-/
namespace Verif.CoarseMem
open Verif.Coarse (Res Check aligned alignUp effAlign Cfg Strategy)
open Verif.Coarse.Index (Elem Ent cls Chain)
open Verif.Ravl (Slot Pred)
open Verif.RavlMem.Spec (nodeOf)

variable {s s' : St} {A : List (Addr × Nat × Addr)} {E : List Ent}

/-- A block on no list leaves the tree of all blocks and its descriptor is freed. -/
theorem drop_inv {P Q : List (Addr × Nat × Addr)} {n d b : Addr} {B : Blk} (h : Inv s (P ++ (n, d, b) :: Q) E) (hb : s.blk b = some B) (hf : B.fl = 0) :
    ∃ T Q', Ev (ravlRm d) s b { s with tree := updT s.tree .all T } ∧ Q'.map (·.2) = Q.map (·.2) ∧
      Inv { s with
        tree := updT s.tree .all T
        blk := upd s.blk b none } (P ++ Q') E := by
  obtain ⟨F, hI⟩ := h.lists
  have hmem : (n, d, b) ∈ P ++ (n, d, b) :: Q := by simp
  obtain ⟨h0, B', b1, b2⟩ := h.block hmem
  rw [hb] at b1
  cases b1
  obtain ⟨m, hm, hm0, hev⟩ := h.find hb
  rw [b2] at hm hev
  cases holds_uniq h.all hm hmem rfl
  obtain ⟨T, Q', hev2, hT, hQ⟩ := remove_ev h.all
  refine ⟨T, Q', ?_, hQ, ?_, ?_, ?_, ⟨F, ?_⟩, h.heads⟩
  · unfold ravlRm
    exact Ev.bind hev (Ev.ite_pos hm0 (Ev.bind (dataOf_ev h.all hmem) (Ev.bind hev2 (.pure _ _))))
  · show RavlMem.Inv _ (updT s.tree .all T .all) _
    rw [updT_same]
    exact hT
  · intro x hx
    have hx' : x ∈ (P ++ (n, d, b) :: Q).map (·.2) := by
      rw [List.map_append, hQ, List.mem_append] at hx
      rw [List.map_append, List.map_cons, List.mem_append, List.mem_cons]
      rcases hx with hx | hx
      · exact .inl hx
      · exact .inr (.inr hx)
    obtain ⟨g0, C, c1, c2⟩ := h.desc x hx'
    refine ⟨g0, C, ?_, c2⟩
    dsimp only
    rw [upd_ne _ _ ?_]
    · exact c1
    · intro e
      rw [e, hb] at c1
      cases c1
      have hxd : x.1 = d := c2.symm.trans b2
      have hp := (RavlMem.inv_view h.all).2.1
      rw [List.pairwise_append, List.pairwise_cons] at hp
      rw [List.map_append, hQ, List.mem_append] at hx
      rcases hx with hx | hx
      · obtain ⟨y, hy, rfl⟩ := List.mem_map.1 hx
        have h' : y.2.1 < d := hp.2.2 y hy _ List.mem_cons_self
        exact Nat.ne_of_lt h' hxd
      · obtain ⟨y, hy, rfl⟩ := List.mem_map.1 hx
        have h' : d < y.2.1 := hp.2.1.1 y hy
        exact Nat.ne_of_gt h' hxd
  · intro c hc
    dsimp only at hc
    by_cases e : c = b
    · rw [e, upd_same] at hc
      exact absurd rfl hc
    · rw [upd_ne _ _ e] at hc
      obtain ⟨d', hd'⟩ := h.only c hc
      refine ⟨d', ?_⟩
      rw [List.map_append, List.map_cons, List.mem_append, List.mem_cons] at hd'
      rw [List.map_append, hQ, List.mem_append]
      rcases hd' with hd' | hd' | hd'
      · exact .inl hd'
      · exact absurd (congrArg Prod.snd hd') e
      · exact .inr hd'
  · refine hI.congr (updT_ne (t := Tr.all) (u := Tr.fre) s.tree T (by decide)) rfl rfl (fun y hy C hC => ⟨C, ?_, rfl, rfl⟩) fun c C hC hc0 => ?_
    · dsimp only
      rw [upd_ne _ _ ?_]
      · exact hC
      · intro e
        obtain ⟨D, d1, d2, -⟩ := hI.ent y hy
        rw [e, hb] at d1
        cases d1
        exact (hI.elem hy).1 (d2.symm.trans hf)
    · dsimp only at hC
      by_cases e : c = b
      · rw [e, upd_same] at hC
        cases hC
      · rw [upd_ne _ _ e] at hC
        exact ⟨C, hC, hc0⟩

/-- `user_block_merge` for neighbours. -/
theorem userBlockMerge_inv {P Q : List (Addr × Nat × Addr)} {n1 d1 b1 n2 d2 b2 : Addr} {B1 B2 : Blk} {env : Env} (u : Bool)
    (h : Inv s (P ++ (n1, d1, b1) :: (n2, d2, b2) :: Q) E) (h1 : s.blk b1 = some B1) (h2 : s.blk b2 = some B2) :
    ∃ r s', Ev (userBlockMerge env n1 n2 u) s r s' ∧ ((r ≠ .success ∧ s' = s ∧
        ∀ ho g st, Coarse.userBlockMerge (cenv env ho g) st (viewB B1) (viewB B2) u = (st, r)) ∨
      r = .success ∧ B1.used = u ∧ B2.used = u ∧ b1 ≠ b2 ∧ B2.data = d2 ∧ ∃ Q' E', Q'.map (·.2) = Q.map (·.2) ∧ Inv s' (P ++ (n1, d1, b1) :: Q') E' ∧
        s'.blk = upd (upd s.blk b1 (some { B1 with size := B1.size + B2.size, fl := 0 })) b2 none ∧ Step (fun c => c = b1 ∨ c = b2) s s' ∧
        ∀ ho g, Coarse.userBlockMerge (cenv env ho g) (abs s (P ++ (n1, d1, b1) :: (n2, d2, b2) :: Q) E) (viewB B1) (viewB B2) u =
          (abs s' (P ++ (n1, d1, b1) :: Q') E', .success)) := by
  have m1 : (n1, d1, b1) ∈ P ++ (n1, d1, b1) :: (n2, d2, b2) :: Q := by simp
  have m2 : (n2, d2, b2) ∈ P ++ (n1, d1, b1) :: (n2, d2, b2) :: Q := by simp
  have e1 := dataOf_ev h.all m1
  have e2 := dataOf_ev h.all m2
  by_cases hc : ¬ (B1.used = u ∧ B2.used = u) ∨ B1.data + B1.size ≠ B2.data
  · refine ⟨.invalidArgument, s, ?_, .inl ⟨by decide, rfl, fun ho g st => ?_⟩⟩
    · unfold userBlockMerge
      exact Ev.bind e1 (Ev.bind e2 (Ev.bind (getB_ev h1) (Ev.bind (getB_ev h2) (Ev.ite_pos hc (.pure _ _)))))
    · unfold Coarse.userBlockMerge
      exact if_pos hc
  · by_cases hm : env.mergeCb B1.data B2.data (B1.size + B2.size) = .success
    · obtain ⟨-, C1, c1, c2⟩ := h.block m1
      rw [h1] at c1
      cases c1
      obtain ⟨-, C2, c1, c3⟩ := h.block m2
      rw [h2] at c1
      cases c1
      have hp := (RavlMem.inv_view h.all).2.1
      rw [List.pairwise_append, List.pairwise_cons] at hp
      have hlt : d1 < d2 := hp.2.1.1 (n2, d2, b2) List.mem_cons_self
      have hbb : b1 ≠ b2 := by
        rintro rfl
        rw [h1] at h2
        cases h2
        exact Nat.ne_of_lt hlt (c2.symm.trans c3)
      obtain ⟨s1, E1, a1, a2, a3, a4, a5, a6⟩ := unlistIf_inv h h1
      have h2' : s1.blk b2 = some B2 := by rw [a3, upd_ne _ _ hbb.symm]; exact h2
      obtain ⟨s2, E2, f1, f2, f3, f4, f5, f6⟩ := unlistIf_inv a2 h2'
      have h1' : s2.blk b1 = some { B1 with fl := 0 } := by rw [f3, upd_ne _ _ hbb, a3, upd_same]
      have h2'' : s2.blk b2 = some { B2 with fl := 0 } := by rw [f3, upd_same]
      have h3 := f2.mod h1' (C := { B1 with size := B1.size + B2.size, fl := 0 }) rfl rfl (.inl rfl)
      obtain ⟨T, Q', g1, g2, g3⟩ := drop_inv (P := P ++ [(n1, d1, b1)]) (Q := Q) (n := n2) (d := d2) (b := b2) (B := { B2 with fl := 0 })
        (by rw [List.append_assoc]; exact h3) (by dsimp only; rw [upd_ne _ _ hbb.symm]; exact h2'') rfl
      rw [List.append_assoc] at g3
      have hblk : upd (upd s2.blk b1 (some { B1 with size := B1.size + B2.size, fl := 0 })) b2 none =
          upd (upd s.blk b1 (some { B1 with size := B1.size + B2.size, fl := 0 })) b2 none := by
        funext c
        by_cases e2 : c = b2
        · rw [e2, upd_same, upd_same]
        · rw [upd_ne _ _ e2, upd_ne _ _ e2]
          by_cases e1 : c = b1
          · rw [e1, upd_same, upd_same]
          · rw [upd_ne _ _ e1, upd_ne _ _ e1, f3, upd_ne _ _ e2, a3, upd_ne _ _ e1]
      refine ⟨.success, _, ?_, .inr ⟨rfl, ?_, ?_, hbb, c3, Q', E2, g2, g3, hblk, ?_, ?_⟩⟩
      · unfold userBlockMerge
        refine Ev.bind e1 (Ev.bind e2 (Ev.bind (getB_ev h1) (Ev.bind (getB_ev h2) (Ev.ite_neg hc (Ev.ite_pos hm
          (Ev.bind a1 (Ev.bind f1 (Ev.bind (getB_ev h2'') (Ev.bind (modB_ev _ h1') ?_)))))))))
        dsimp only
        rw [c3]
        exact Ev.bind g1 (Ev.bind (freeB_ev (B := { B2 with fl := 0 }) (by dsimp only; rw [upd_ne _ _ hbb.symm]; exact h2'')) (.pure _ _))
      · exact Classical.byContradiction fun h' => hc (.inl fun h'' => h' h''.1)
      · exact Classical.byContradiction fun h' => hc (.inl fun h'' => h' h''.2)
      · refine ⟨fun c C hcc _ _ hn => ?_, fun x hx => a4.host x (f4.host x hx), fun h' => a4.ref (f4.ref h')⟩
        dsimp only
        rw [hblk, upd_ne _ _ fun e => hn (.inr e), upd_ne _ _ fun e => hn (.inl e)]
        exact hcc
      · intro ho g
        subst c3
        unfold Coarse.userBlockMerge
        rw [if_neg (c := ¬ ((viewB B1).used = u ∧ (viewB B2).used = u) ∨ (viewB B1).data + (viewB B1).size ≠ (viewB B2).data) hc,
          show (cenv env ho g).mergeCb (viewB B1).data (viewB B2).data ((viewB B1).size + (viewB B2).size) = .success from hm]
        have k1 := h.modify (s' := { s with blk := upd s.blk b1 (some { B1 with size := B1.size + B2.size, fl := 0 }) })
          (f := fun b => { b with size := B1.size + B2.size, listed := false }) (C := { B1 with size := B1.size + B2.size, fl := 0 }) h1
          (by unfold viewB; simp) rfl
        have k2 : Keyed { s with blk := upd s.blk b1 (some { B1 with size := B1.size + B2.size, fl := 0 }) } (P ++ (n1, d1, b1) :: (n2, B2.data, b2) :: Q) :=
          h.keyed.congr fun x _ => upd_data (C := { B1 with size := B1.size + B2.size, fl := 0 }) h1 rfl x.2.2
        rw [List.append_cons] at k2
        have k3 := remove_abs (s' := { s2 with
            tree := updT s2.tree .all T
            blk := upd (upd s2.blk b1 (some { B1 with size := B1.size + B2.size, fl := 0 })) b2 none }) k2 g2 (by dsimp only; rw [hblk])
        have k4 : absF { s2 with
            tree := updT s2.tree .all T
            blk := upd (upd s2.blk b1 (some { B1 with size := B1.size + B2.size, fl := 0 })) b2 none } E2 = absF s2 E2 := by
          refine absF_congr fun n hn => ?_
          obtain ⟨F, hI⟩ := f2.lists
          obtain ⟨D, q1, q2, -⟩ := hI.ent n hn
          unfold dataAt
          dsimp only
          have q3 : ∀ c C, s2.blk c = some C → C.fl = 0 → n.blk ≠ c := by
            rintro c C hc h0 rfl
            rw [q1] at hc
            cases hc
            exact (hI.elem hn).1 (q2.symm.trans h0)
          rw [upd_ne _ _ (q3 b2 _ h2'' rfl), upd_ne _ _ (q3 b1 _ h1' rfl)]
        dsimp only
        refine Prod.ext ?_ rfl
        dsimp only
        unfold abs
        dsimp only
        rw [← List.append_cons, ← List.append_cons] at k3
        rw [k4, ← k3, f5, a5, f6.1, f6.2, a6.1, a6.2]
        show Coarse.St.mk (Coarse.removeBlock B2.data (Coarse.modify B1.data _ _)) _ _ _ = _
        rw [show (fun b : Coarse.Block => ({ b with size := (viewB B1).size + (viewB B2).size, listed := false } : Coarse.Block)) =
          fun b => { b with size := B1.size + B2.size, listed := false } from rfl, k1]
        rfl
    · refine ⟨env.mergeCb B1.data B2.data (B1.size + B2.size), s, ?_, .inl ⟨hm, rfl, fun ho g st => ?_⟩⟩
      · unfold userBlockMerge
        exact Ev.bind e1 (Ev.bind e2 (Ev.bind (getB_ev h1) (Ev.bind (getB_ev h2) (Ev.ite_neg hc (Ev.ite_neg hm (.pure _ _))))))
      · unfold Coarse.userBlockMerge
        rw [if_neg (c := ¬ ((viewB B1).used = u ∧ (viewB B2).used = u) ∨ (viewB B1).data + (viewB B1).size ≠ (viewB B2).data) hc]
        show (match env.mergeCb B1.data B2.data (B1.size + B2.size) with | .success => _ | r => (st, r)) = _
        cases hr : env.mergeCb B1.data B2.data (B1.size + B2.size) <;> first | rfl | exact absurd hr hm

theorem clean_merge {b1 b2 : Addr} {C : Blk} (h : Clean s) (hC : C.fl = 0) (hb : s'.blk = upd (upd s.blk b1 (some C)) b2 none) : Clean s' := by
  intro c D hc hu
  rw [hb] at hc
  by_cases e : c = b2
  · rw [e, upd_same] at hc
    cases hc
  · rw [upd_ne _ _ e] at hc
    by_cases e1 : c = b1
    · rw [e1, upd_same] at hc
      cases hc
      exact hC
    · rw [upd_ne _ _ e1] at hc
      exact h c D hc hu

theorem nodeOf_last {P : List (Addr × Nat × Addr)} (h : ∀ x ∈ P, x.1 ≠ 0) :
    (P = [] ∧ nodeOf P.getLast? = 0) ∨ ∃ P' p, P = P' ++ [p] ∧ nodeOf P.getLast? = p.1 ∧ p.1 ≠ 0 := by
  rcases List.eq_nil_or_concat P with rfl | ⟨P', p, rfl⟩
  · exact .inl ⟨rfl, rfl⟩
  · rw [List.concat_eq_append] at *
    refine .inr ⟨P', p, rfl, ?_, h p (by simp)⟩
    rw [List.getLast?_append]
    rfl

/-- `free_block_merge_with_prev`. -/
theorem mergePrev_inv {n d b : Addr} {B : Blk} (env : Env) (h : Inv s A E) (hn : (n, d, b) ∈ A) (hb : s.blk b = some B) (hf : B.fl = 0) :
    ∃ n' s' A' d' b' B' E', Ev (mergePrev env n) s n' s' ∧ Inv s' A' E' ∧ (n', d', b') ∈ A' ∧ s'.blk b' = some B' ∧ B'.fl = 0 ∧ B'.used = B.used ∧
      Step (· = b) s s' ∧ (Clean s → Clean s') ∧ (b' = b ∨ ∃ D, s.blk b' = some D ∧ D.used = false) ∧
      ∀ ho g, Coarse.mergePrev (cenv env ho g) (abs s A E) d = (abs s' A' E', d') := by
  have hl : Coarse.lookup d (abs s A E).blocks = some (viewB B) := lookup_abs h.keyed hn hb
  obtain ⟨P, Q, rfl⟩ := List.append_of_mem hn
  have hp : Coarse.prevOf d (abs s (P ++ (n, d, b) :: Q) E).blocks = P.getLast?.map fun x => absB s x.2.2 := prevOf_abs h.keyed
  have hev := prev_ev h.all
  rcases nodeOf_last (P := P) (fun x hx => (holds_ne h.all (x := x) (by simp [hx])).1) with ⟨rfl, e⟩ | ⟨P', ⟨p, d', b'⟩, rfl, e, h0⟩
  · rw [e] at hev
    refine ⟨n, s, _, d, b, B, E, ?_, h, hn, hb, hf, rfl, .rfl, fun h => h, .inl rfl, fun ho g => ?_⟩
    · unfold mergePrev
      exact Ev.bind hev (Ev.ite_pos rfl (.pure _ _))
    · unfold Coarse.mergePrev
      rw [hl, hp]
      rfl
  · rw [e] at hev
    dsimp only at hev h0
    have hp' : Coarse.prevOf d (abs s (P' ++ [(p, d', b')] ++ (n, d, b) :: Q) E).blocks = some (absB s b') := by
      rw [hp, List.getLast?_append]
      rfl
    rw [List.append_assoc] at h hn hl hp'
    obtain ⟨-, D, d1, d2⟩ := h.block (n := p) (d := d') (b := b') (by simp)
    rw [absB_eq d1] at hp'
    obtain ⟨r, s', g1, g2⟩ := userBlockMerge_inv (env := env) (Q := Q) false h d1 hb
    rw [List.append_assoc]
    rcases g2 with ⟨g2, rfl, g3⟩ | ⟨rfl, u1, u2, hbb, -, Q', E', q1, q2, q3, q4, q5⟩
    · refine ⟨n, _, _, d, b, B, E, ?_, h, hn, hb, hf, rfl, .rfl, fun h => h, .inl rfl, fun ho g => ?_⟩
      · unfold mergePrev
        have := Ev.bind (f := fun r => pure (if r = Res.success then p else n)) g1 (.pure _ _)
        rw [if_neg g2] at this
        exact Ev.bind hev (Ev.ite_neg h0 this)
      · unfold Coarse.mergePrev
        rw [hl, hp']
        dsimp only
        rw [g3]
        cases r <;> first | rfl | exact absurd rfl g2
    · refine ⟨p, s', _, d', b', { D with size := D.size + B.size, fl := 0 }, E', ?_, q2, by simp, ?_, rfl, u1.trans u2.symm, ?_, ?_, .inr ⟨D, d1, u1⟩, fun ho g => ?_⟩
      · unfold mergePrev
        have := Ev.bind (f := fun r => pure (if r = Res.success then p else n)) g1 (.pure _ _)
        rw [if_pos rfl] at this
        exact Ev.bind hev (Ev.ite_neg h0 this)
      · rw [q3, upd_ne _ _ hbb, upd_same]
      · refine q4.mono fun c C hc hu _ hor => ?_
        rcases hor with rfl | rfl
        · rw [d1] at hc
          cases hc
          rw [u1] at hu
          cases hu
        · rfl
      · exact fun h => clean_merge h rfl q3
      · unfold Coarse.mergePrev
        rw [hl, hp']
        have hd : (viewB D).data = d' := d2
        have := q5 ho g
        simp only [List.cons_append, List.nil_append] at this ⊢
        rw [this, hd]

/-- `free_block_merge_with_next`. -/
theorem mergeNext_inv {n d b : Addr} {B : Blk} (env : Env) (h : Inv s A E) (hn : (n, d, b) ∈ A) (hb : s.blk b = some B) (hf : B.fl = 0) :
    ∃ s' A' B' E', Ev (mergeNext env n) s n s' ∧ Inv s' A' E' ∧ (n, d, b) ∈ A' ∧ s'.blk b = some B' ∧ B'.fl = 0 ∧ B'.used = B.used ∧
      Step (· = b) s s' ∧ (Clean s → Clean s') ∧ ∀ ho g, Coarse.mergeNext (cenv env ho g) (abs s A E) d = abs s' A' E' := by
  have hl : Coarse.lookup d (abs s A E).blocks = some (viewB B) := lookup_abs h.keyed hn hb
  obtain ⟨P, Q, rfl⟩ := List.append_of_mem hn
  have hp : Coarse.nextOf d (abs s (P ++ (n, d, b) :: Q) E).blocks = Q.head?.map fun x => absB s x.2.2 := nextOf_abs h.keyed
  have hev := next_ev h.all
  cases Q with
  | nil =>
    refine ⟨s, _, B, E, ?_, h, hn, hb, hf, rfl, .rfl, fun h => h, fun ho g => ?_⟩
    · unfold mergeNext
      exact Ev.bind hev (Ev.ite_pos rfl (.pure _ _))
    · unfold Coarse.mergeNext
      rw [hl, hp]
      rfl
  | cons q Q =>
    obtain ⟨p, d', b'⟩ := q
    change Ev _ s p s at hev
    have h0 : p ≠ 0 := (holds_ne h.all (x := (p, d', b')) (by simp)).1
    obtain ⟨-, D, d1, d2⟩ := h.block (n := p) (d := d') (b := b') (by simp)
    obtain ⟨r, s', g1, g2⟩ := userBlockMerge_inv (env := env) (Q := Q) false h hb d1
    have hev' : Ev (mergeNext env n) s n s' := by
      unfold mergeNext
      exact Ev.bind hev (Ev.ite_neg h0 (Ev.bind g1 (.pure _ _)))
    have hp' : Coarse.nextOf d (abs s (P ++ (n, d, b) :: (p, d', b') :: Q) E).blocks = some (viewB D) := by
      rw [hp, ← absB_eq d1]
      rfl
    rcases g2 with ⟨g2, rfl, g3⟩ | ⟨rfl, u1, u2, hbb, -, Q', E', q1, q2, q3, q4, q5⟩
    · refine ⟨_, _, B, E, hev', h, hn, hb, hf, rfl, .rfl, fun h => h, fun ho g => ?_⟩
      unfold Coarse.mergeNext
      rw [hl, hp']
      dsimp only
      rw [g3]
      cases r <;> first | rfl | exact absurd rfl g2
    · refine ⟨s', _, { B with size := B.size + D.size, fl := 0 }, E', hev', q2, by simp, ?_, rfl, rfl, ?_, ?_, fun ho g => ?_⟩
      · rw [q3, upd_ne _ _ hbb, upd_same]
      · refine q4.mono fun c C hc hu _ hor => ?_
        rcases hor with rfl | rfl
        · rfl
        · rw [d1] at hc
          cases hc
          rw [u2] at hu
          cases hu
      · exact fun h => clean_merge h rfl q3
      · unfold Coarse.mergeNext
        rw [hl, hp']
        dsimp only
        rw [q5 ho g]

/-- Merging with both neighbours and putting the block on its list. -/
theorem mergeAdd_inv {n d b : Addr} {B : Blk} (env : Env) (h : Inv s A E) (hn : (n, d, b) ∈ A) (hb : s.blk b = some B) (hf : B.fl = 0) :
    ∃ r s' A' E', Ev (mergeAdd env n) s r s' ∧ Inv s' A' E' ∧ Step (· = b) s s' ∧ (Clean s → B.used = false → Clean s') ∧
      (s'.refused = false → r = true) ∧ ∀ ho g, ho .reAdd = r → Coarse.mergeAndAdd (cenv env ho g) (abs s A E) d = (abs s' A' E', r) := by
  obtain ⟨n1, s1, A1, d1, b1, B1, E1, a1, a2, a3, a4, a5, a6, a7, a8, a9, a10⟩ := mergePrev_inv env h hn hb hf
  obtain ⟨s2, A2, B2, E2, f1, f2, f3, f4, f5, f6, f7, f8, f9⟩ := mergeNext_inv env a2 a3 a4 a5
  obtain ⟨r, s3, e, E3, g1, g2, g3, g4, g5, g6, g7, g8⟩ := freeAdd_inv f2 f4 f5
  have hY : ∀ c C, s.blk c = some C → C.used = true → C.fl = 0 → c = b1 → c = b := by
    intro c C hc hu _ e
    rcases a9 with h' | ⟨D, h', hD⟩
    · exact e.trans h'
    · rw [e, h'] at hc
      cases hc
      rw [hD] at hu
      cases hu
  refine ⟨r, s3, A2, E3, ?_, g2, (a7.trans' f7 hY).trans' g4 hY, fun hC hu => ?_, g6, fun ho g hr => ?_⟩
  · unfold mergeAdd
    exact Ev.bind a1 (Ev.bind f1 (Ev.bind (dataOf_ev f2.all f3) g1))
  · refine clean_upd (f8 (a8 hC)) (fun h' => ?_) g3
    have : B2.used = true := h'
    rw [f6, a6, hu] at this
    cases this
  · obtain ⟨-, D, q1, q2⟩ := f2.block f3
    rw [f4] at q1
    cases q1
    have g9 := g8 env ho g .reAdd hr
    rw [q2] at g9
    unfold Coarse.mergeAndAdd
    rw [a10]
    dsimp only
    rw [f9, g9]
    cases r with
    | true => rfl
    | false => rw [g7 rfl]; rfl

/-- `free_blocks_re_add`. -/
theorem reAdd_inv {b : Addr} {B : Blk} (env : Env) (h : Inv s A E) (hb : s.blk b = some B) (hf : B.fl = 0) :
    ∃ r s' A' E', Ev (reAdd env b) s r s' ∧ Inv s' A' E' ∧ Step (· = b) s s' ∧ (Clean s → B.used = false → Clean s') ∧
      (s'.refused = false → r = true) ∧ ∀ ho g, ho .reAdd = r → Coarse.mergeAndAdd (cenv env ho g) (abs s A E) B.data = (abs s' A' E', r) := by
  obtain ⟨n, hn, -, hev⟩ := h.find hb
  obtain ⟨r, s', A', E', h1, h2⟩ := mergeAdd_inv env h hn hb hf
  refine ⟨r, s', A', E', ?_, h2⟩
  unfold reAdd
  exact Ev.bind (getB_ev hb) (Ev.bind hev h1)

end Verif.CoarseMem
