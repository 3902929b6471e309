import Verif.RavlMem.Rotate
/-!
# Lemmas for the ordered tree in memory: ranks and balancing
-/
namespace Verif.RavlMem
open Verif.Ravl (Slot Pred Tree Frame Path zip foreachOrder pathPre pathPost)

variable {α : Type} {s : St α}

/-- No node has a negative rank. -/
def Rk : T α → Prop
  | .nil => True
  | .node l _ k r => 0 ≤ k ∧ Rk l ∧ Rk r

def RkP (p : P α) : Prop := ∀ f ∈ p, 0 ≤ f.rank ∧ Rk f.sibling

theorem rk_at {t : Slot} {x y : T α} {d : Addr × α} {k : Int} : Rk (Tree.at t x y d k) ↔ 0 ≤ k ∧ Rk x ∧ Rk y := by
  cases t
  · rfl
  · constructor
    · rintro ⟨h1, h2, h3⟩; exact ⟨h1, h3, h2⟩
    · rintro ⟨h1, h2, h3⟩; exact ⟨h1, h3, h2⟩

theorem rkP_cons {f : Frame (Addr × α)} {p : P α} : RkP (f :: p) ↔ (0 ≤ f.rank ∧ Rk f.sibling) ∧ RkP p := by
  unfold RkP
  simp

theorem rk_zip {t : T α} {p : P α} : Rk (zip t p) ↔ Rk t ∧ RkP p := by
  induction p generalizing t with
  | nil => simp [zip, RkP]
  | cons f p ih =>
    show Rk (zip (f.plug t) p) ↔ _
    rw [ih, plug_eq, rk_at, rkP_cons]
    constructor
    · rintro ⟨⟨h1, h2, h3⟩, h4⟩; exact ⟨h2, ⟨h1, h3⟩, h4⟩
    · rintro ⟨h2, ⟨h1, h3⟩, h4⟩; exact ⟨⟨h1, h2, h3⟩, h4⟩

theorem rk_rank {t : T α} (h : Rk t) : -1 ≤ t.rank := by
  cases t with
  | nil => exact Int.le_refl _
  | node l d k r =>
    have := h.1
    show -1 ≤ k
    omega

theorem zip_down {t : Slot} {x y : T α} {d : Addr × α} {k : Int} {p : P α} : zip x (⟨t, d, k, y⟩ :: p) = zip (Tree.at t x y d k) p := by
  show zip (Frame.plug _ x) p = _
  rw [plug_eq]

theorem loc_down {t : Slot} {x y : T α} {d : Addr × α} {k : Int} {p : P α} : Loc s (Tree.at t x y d k) p ↔ Loc s x (⟨t, d, k, y⟩ :: p) := by
  rw [← shape_loc, ← shape_loc, zip_down]

theorem loc_downOpp {t : Slot} {x y : T α} {d : Addr × α} {k : Int} {p : P α} :
    Loc s (Tree.at t x y d k) p ↔ Loc s y (⟨t.opposite, d, k, x⟩ :: p) := by
  rw [← loc_down, Tree.at_swap]

/-- The node at a place. -/
theorem loc_node {t : Slot} {x y : T α} {d : Addr × α} {k : Int} {p : P α} (hl : Loc s (Tree.at t x y d k) p) :
    d.1 ≠ 0 ∧ s.h d.1 = some (Node.at t (paddr p) (addr x) (addr y) k d.2) := by
  obtain ⟨h1, h2, -, -⟩ := rep_at.1 hl.rep
  exact ⟨h1, h2⟩

theorem loc_parent {n : T α} {f : Frame (Addr × α)} {p : P α} (hl : Loc s n (f :: p)) :
    f.data.1 ≠ 0 ∧ s.h f.data.1 = some (Node.at f.slot (paddr p) (addr n) (addr f.sibling) f.rank f.data.2) := ⟨hl.path.1, hl.path.2.1⟩

/-- Another rank and data in a node. -/
theorem loc_set {t : Slot} {x y : T α} {d : Addr × α} {k : Int} {p : P α} (hl : Loc s (Tree.at t x y d k) p) (k' : Int) (e : α) :
    Loc { s with h := upd s.h d.1 (some (Node.at t (paddr p) (addr x) (addr y) k' e)) } (Tree.at t x y (d.1, e) k') p := by
  obtain ⟨n0, hn, hx, hy⟩ := rep_at.1 hl.rep
  obtain ⟨⟨dx, dy⟩, nx, ny, xy⟩ := nodup_at.1 hl.nt
  refine ⟨?_, ?_, ?_, hl.np, ?_, ?_⟩
  · rw [rep_at]
    refine ⟨n0, upd_same _ _ _, hx.congr ?_, hy.congr ?_⟩
    · intro a ha
      exact upd_ne _ _ (fun h => dx (h ▸ ha))
    · intro a ha
      exact upd_ne _ _ (fun h => dy (h ▸ ha))
  · rw [addr_at]
    have := hl.path
    rw [addr_at] at this
    refine this.congr fun a ha => upd_ne _ _ ?_
    rintro rfl
    exact hl.sep _ (mem_at.2 (Or.inl rfl)) ha
  · exact nodup_at.2 ⟨⟨dx, dy⟩, nx, ny, xy⟩
  · intro a ha
    exact hl.sep a (mem_at.2 (mem_at (d := (d.1, e)).1 ha))
  · intro a ha
    by_cases e' : a = d.1
    · exact Or.inl (mem_at.2 (Or.inl e'))
    · rcases hl.all a (by rw [← upd_ne s.h _ e']; exact ha) with h | h
      · exact Or.inl (mem_at.2 (mem_at (d := d).1 h))
      · exact Or.inr h

theorem promote_loc {t : Slot} {x y : T α} {d : Addr × α} {k : Int} {p : P α} (hl : Loc s (Tree.at t x y d k) p) :
    ∃ s', promote s d.1 = some s' ∧ Loc s' (Tree.at t x y d (k + 1)) p := by
  obtain ⟨h0, h1⟩ := loc_node hl
  refine ⟨_, ?_, loc_set hl (k + 1) d.2⟩
  unfold promote
  rw [change_eq h0 h1]
  simp

theorem demote_loc {t : Slot} {x y : T α} {d : Addr × α} {k : Int} {p : P α} (hl : Loc s (Tree.at t x y d k) p) (hk : k > 0) :
    ∃ s', demote s d.1 = some s' ∧ Loc s' (Tree.at t x y d (k + -1)) p := by
  obtain ⟨h0, h1⟩ := loc_node hl
  refine ⟨_, ?_, loc_set hl (k + -1) d.2⟩
  unfold demote
  rw [get_eq h0 h1, change_eq h0 h1]
  simp [hk, Int.sub_eq_add_neg]

theorem rankOf_rep {t : T α} {par : Addr} (h : Rep s.h t par) : rankOf s (addr t) = some t.rank := by
  cases t with
  | nil => rfl
  | node l d k r =>
    obtain ⟨h0, h1, -, -⟩ := h
    show rankOf s d.1 = some k
    unfold rankOf
    rw [if_neg h0, get_eq h0 h1]
    rfl

theorem rankOf_node {a : Addr} {c : Node α} (h0 : a ≠ 0) (h : s.h a = some c) : rankOf s a = some c.rank := by
  unfold rankOf
  rw [if_neg h0, get_eq h0 h]
  rfl

theorem diff_eq {p n : Addr} {a b : Int} (hp : rankOf s p = some a) (hn : rankOf s n = some b) (hb : -1 ≤ b) : diff s p n = some (a - b) := by
  unfold diff
  rw [hp, hn]
  simp only [Option.bind_eq_bind, Option.bind_some]
  rw [if_pos (by omega)]

theorem is01_loc {n : T α} {f : Frame (Addr × α)} {p : P α} (hl : Loc s n (f :: p)) (hn : Rk n) (hf : Rk f.sibling) :
    is01 s f.data.1 = some (Ravl.parentIs01 n f) := by
  obtain ⟨p0, hp⟩ := loc_parent hl
  have r0 := rankOf_node p0 hp
  rw [Node.at_rank] at r0
  have d1 := diff_eq r0 (rankOf_rep hl.rep) (rk_rank hn)
  have d2 := diff_eq r0 (rankOf_rep hl.path.2.2.1) (rk_rank hf)
  unfold is01 Ravl.parentIs01
  rw [get_eq p0 hp]
  simp only [Option.bind_eq_bind, Option.bind_some]
  cases e : f.slot with
  | left =>
    simp only [Node.at]
    rw [d1, d2]
    rfl
  | right =>
    simp only [Node.at]
    rw [d1, d2]
    simp only [Option.bind_some]
    congr 1
    cases (f.rank - n.rank == 0) <;> cases (f.rank - n.rank == 1) <;> cases (f.rank - f.sibling.rank == 0) <;>
      cases (f.rank - f.sibling.rank == 1) <;> rfl

theorem addr_of_ne_nil {t : T α} (h : t ≠ .nil) : ∃ l d k r, t = .node l d k r := by
  cases t with
  | nil => exact absurd rfl h
  | node l d k r => exact ⟨l, d, k, r, rfl⟩

theorem loc_get {n : T α} {p : P α} (hl : Loc s n p) (hn : n ≠ .nil) : ∃ c, get s (addr n) = some c ∧ c.parent = paddr p := by
  obtain ⟨l, d, k, r, rfl⟩ := addr_of_ne_nil hn
  obtain ⟨h0, h1⟩ := loc_node (t := .left) hl
  exact ⟨_, get_eq h0 h1, rfl⟩

/-- The loop that promotes. -/
theorem promoteLoop_loc {p : P α} : ∀ {s : St α} {n : T α} {fuel : Nat}, Loc s n p → n ≠ .nil → Rk n → RkP p → p.length < fuel →
    ∃ s' n' p', promoteLoop fuel s (addr n) = some (s', addr n') ∧ Ravl.promoteLoop n p = (n', p') ∧ Loc s' n' p' ∧ n' ≠ .nil ∧ Rk n' ∧ RkP p' := by
  induction p with
  | nil =>
    intro s n fuel hl hn h1 h2 hf
    obtain ⟨fuel, rfl⟩ : ∃ m, fuel = m + 1 := ⟨fuel - 1, by simp only [List.length_nil] at hf; omega⟩
    obtain ⟨c, hc, hp⟩ := loc_get hl hn
    refine ⟨s, n, [], ?_, rfl, hl, hn, h1, h2⟩
    unfold promoteLoop
    rw [hc]
    simp only [Option.bind_eq_bind, Option.bind_some]
    rw [if_pos (by rw [hp]; rfl)]
  | cons f p ih =>
    intro s n fuel hl hn h1 h2 hf
    obtain ⟨fuel, rfl⟩ : ∃ m, fuel = m + 1 := ⟨fuel - 1, by simp only [List.length_cons] at hf; omega⟩
    obtain ⟨c, hc, hp⟩ := loc_get hl hn
    obtain ⟨p0, hpn⟩ := loc_parent hl
    obtain ⟨⟨k1, k2⟩, k3⟩ := rkP_cons.1 h2
    have e01 := is01_loc hl h1 k2
    unfold promoteLoop Ravl.promoteLoop
    rw [hc]
    simp only [Option.bind_eq_bind, Option.bind_some]
    rw [if_neg (by rw [hp]; exact p0), hp, show paddr (f :: p) = f.data.1 from rfl, e01]
    simp only [Option.bind_some]
    cases Ravl.parentIs01 n f with
    | false => exact ⟨s, n, f :: p, by simp, by simp, hl, hn, h1, h2⟩
    | true =>
      have hl' : Loc s (Tree.at f.slot n f.sibling f.data f.rank) p := loc_down.2 hl
      obtain ⟨s', e', hs'⟩ := promote_loc hl'
      obtain ⟨s'', n', p', g1, g2, g3⟩ := ih (fuel := fuel) hs' (by cases f.slot <;> exact fun h => (nomatch h))
        (rk_at.2 ⟨by omega, h1, k2⟩) k3 (by simp only [List.length_cons] at hf; omega)
      refine ⟨s'', n', p', ?_, ?_, g3⟩
      · simp only [if_true, e', Option.bind_some]
        rw [addr_at] at g1
        exact g1
      · simp only [if_true]
        rw [← g2, plug_eq]
        congr 1
        cases f.slot <;> rfl

theorem rot_at {f : Frame (Addr × α)} {A B : T α} {d : Addr × α} {k : Int} :
    Ravl.rotate (Tree.at f.slot A B d k) f = Tree.at f.slot A (Tree.at f.slot B f.sibling f.data f.rank) d k := by
  unfold Ravl.rotate
  cases f.slot <;> rfl

theorem mapChild_opp {t : Slot} {x y : T α} {d : Addr × α} {k : Int} (g : T α → T α) :
    (Tree.at t x y d k).mapChild t.opposite g = Tree.at t x (g y) d k := by cases t <;> rfl

theorem mapChild_both {t : Slot} {x y : T α} {d : Addr × α} {k : Int} (g : T α → T α) :
    ((Tree.at t x y d k).mapChild .left g).mapChild .right g = Tree.at t (g x) (g y) d k := by cases t <;> rfl

theorem addRank_at {t : Slot} {x y : T α} {d : Addr × α} {k i : Int} : (Tree.at t x y d k).addRank i = Tree.at t x y d (k + i) := by cases t <;> rfl

/-- `n == NULL` is address 0. -/
theorem addr_zero {t : T α} {par : Addr} (h : Rep s.h t par) : addr t = 0 ↔ t = .nil := by
  cases t with
  | nil => exact ⟨fun _ => rfl, fun _ => rfl⟩
  | node l d k r => exact ⟨fun e => absurd e h.1, fun e => (nomatch e)⟩

theorem loc_ne_sib {n : T α} {f : Frame (Addr × α)} {p : P α} (hl : Loc s n (f :: p)) (hn : n ≠ .nil) : addr n ≠ addr f.sibling := by
  have h0 : addr n ≠ 0 := fun h => hn ((addr_zero hl.rep).1 h)
  exact addr_ne h0 fun h => hl.sep _ (addr_node h0) (mem_padrs.2 (Or.inr (Or.inl h)))

theorem slotType_loc {n : T α} {f : Frame (Addr × α)} {p : P α} (hl : Loc s n (f :: p)) (hn : n ≠ .nil) : slotType s (addr n) = some (some f.slot) := by
  obtain ⟨c, hc, hcp⟩ := loc_get hl hn
  obtain ⟨p0, hp⟩ := loc_parent hl
  have h0 : addr n ≠ 0 := fun h => hn ((addr_zero hl.rep).1 h)
  have hc' : s.h (addr n) = some c := by
    unfold get at hc
    rw [if_neg h0] at hc
    exact hc
  exact slotType_eq h0 hc' hcp p0 hp (loc_ne_sib hl hn)

theorem slotType_top {n : T α} (hl : Loc s n []) (hn : n ≠ .nil) : slotType s (addr n) = some none := by
  obtain ⟨c, hc, hcp⟩ := loc_get hl hn
  unfold slotType
  rw [hc]
  dsimp only
  rw [if_pos (by rw [hcp]; rfl)]

theorem sibling_loc {n : T α} {f : Frame (Addr × α)} {p : P α} (hl : Loc s n (f :: p)) (hn : n ≠ .nil) : sibling s (addr n) = some (addr f.sibling) := by
  obtain ⟨c, hc, hcp⟩ := loc_get hl hn
  obtain ⟨p0, hp⟩ := loc_parent hl
  unfold sibling
  rw [slotType_loc hl hn]
  dsimp only
  rw [hc]
  dsimp only
  rw [hcp, show paddr (f :: p) = f.data.1 from rfl, get_eq p0 hp]
  simp

theorem sibling_top {n : T α} (hl : Loc s n []) (hn : n ≠ .nil) : sibling s (addr n) = some 0 := by
  unfold sibling
  rw [slotType_top hl hn]

/-- The end of `ravl_balance`. -/
theorem fixup_loc {n : T α} {p : P α} (hl : Loc s n p) (hn : n ≠ .nil) (h1 : Rk n) (h2 : RkP p) :
    ∃ s', fixup s (addr n) = some s' ∧ Shape s' (Ravl.fixup n p) ∧ Rk (Ravl.fixup n p) := by
  cases p with
  | nil =>
    obtain ⟨c, hc, hcp⟩ := loc_get hl hn
    refine ⟨s, ?_, ?_, ?_⟩
    · unfold fixup
      rw [hc, sibling_top hl hn]
      simp only [Option.bind_eq_bind, Option.bind_some]
      have r0 : rankOf s c.parent = some (-1) := by rw [hcp]; rfl
      rw [diff_eq r0 (rankOf_rep hl.rep) (rk_rank h1), diff_eq r0 (show rankOf s 0 = some (-1) from rfl) (Int.le_refl _)]
      simp only [Option.bind_some]
      rw [if_neg]
      rintro ⟨-, h⟩
      exact absurd h (by decide)
    · have e : Ravl.fixup n [] = zip n [] := by
        unfold Ravl.fixup
        rfl
      rw [e]
      exact shape_loc.2 hl
    · have e : Ravl.fixup n [] = n := by
        unfold Ravl.fixup
        rfl
      rw [e]
      exact h1
  | cons f q =>
    obtain ⟨⟨k1, k2⟩, k3⟩ := rkP_cons.1 h2
    obtain ⟨l, d, k, r, rfl⟩ := addr_of_ne_nil hn
    obtain ⟨c, hc, hcp⟩ := loc_get hl hn
    obtain ⟨p0, hp⟩ := loc_parent hl
    have r0 := rankOf_node p0 hp
    rw [Node.at_rank] at r0
    have d1 := diff_eq r0 (rankOf_rep hl.rep) (rk_rank h1)
    have d2 := diff_eq r0 (rankOf_rep hl.path.2.2.1) (rk_rank k2)
    have hst := slotType_loc hl hn
    have hsame : ∃ s', (some s : Option (St α)) = some s' ∧ Shape s' (zip (.node l d k r) (f :: q)) ∧ Rk (zip (.node l d k r) (f :: q)) :=
      ⟨s, rfl, shape_loc.2 hl, rk_zip.2 ⟨h1, h2⟩⟩
    unfold fixup Ravl.fixup
    rw [hc, sibling_loc hl hn]
    simp only [Option.bind_eq_bind, Option.bind_some]
    rw [hcp, show paddr (f :: q) = f.data.1 from rfl, d1, d2]
    simp only [Option.bind_some]
    by_cases hcond : f.rank - (Ravl.Tree.node l d k r).rank = 0 ∧ f.rank - f.sibling.rank > 1
    · rw [if_pos hcond, if_pos hcond, hst]
      simp only [Option.bind_some]
      have hsr := rk_rank k2
      obtain ⟨c1, c2⟩ := hcond
      rw [show (Ravl.Tree.node l d k r).rank = k from rfl] at c1 ⊢
      rw [node_at f.slot l r d k] at hl h1 hc ⊢
      generalize (Ravl.Tree.node l d k r).child f.slot = A at *
      generalize (Ravl.Tree.node l d k r).child f.slot.opposite = B at *
      obtain ⟨n0, hnn⟩ := loc_node hl
      rw [addr_at] at hc ⊢
      rw [get_eq n0 hnn] at hc
      cases hc
      obtain ⟨j1, j2, j3⟩ := rk_at.1 h1
      have hBrep := (rep_at.1 hl.rep).2.2.2
      simp only [Node.at_opp, at_childOpp, at_child]
      have single : ∃ s', (rotate s d.1).bind (fun s => demote s f.data.1) = some s' ∧
          Shape s' (zip ((Ravl.rotate (Tree.at f.slot A B d k) f).mapChild f.slot.opposite (·.addRank (-1))) q) ∧
          Rk (zip ((Ravl.rotate (Tree.at f.slot A B d k) f).mapChild f.slot.opposite (·.addRank (-1))) q) := by
        obtain ⟨s1, e1, l1⟩ := rotate_loc hl
        obtain ⟨s2, e2, l2⟩ := demote_loc (loc_downOpp.1 l1) (by omega)
        refine ⟨s2, by rw [e1]; exact e2, ?_, ?_⟩
        · rw [rot_at, mapChild_opp, addRank_at]
          exact shape_loc.2 (loc_downOpp.2 l2)
        · rw [rot_at, mapChild_opp, addRank_at]
          exact rk_zip.2 ⟨rk_at.2 ⟨j1, j2, rk_at.2 ⟨by omega, j3, k2⟩⟩, k3⟩
      by_cases hz : addr B = 0
      · rw [if_pos hz, if_pos (Or.inl (by rw [(addr_zero hBrep).1 hz]; rfl))]
        exact single
      · have hBn : B ≠ .nil := fun h => hz ((addr_zero hBrep).2 h)
        have hBi : ¬ B.isNil = true := by
          obtain ⟨bl, bd, bk, br, rfl⟩ := addr_of_ne_nil hBn
          exact fun h => (nomatch h)
        have rn := rankOf_node n0 hnn
        rw [Node.at_rank] at rn
        rw [if_neg hz, diff_eq rn (rankOf_rep hBrep) (rk_rank j3)]
        simp only [Option.bind_some]
        by_cases e2 : k - B.rank = 2
        · rw [if_pos e2, if_pos (Or.inr e2)]
          exact single
        · rw [if_neg e2, if_neg (show ¬ (B.isNil = true ∨ k - B.rank = 2) from fun h => h.elim hBi e2)]
          by_cases e1 : k - B.rank = 1
          · rw [if_pos e1, if_pos e1]
            obtain ⟨bl, bd, bk, br, rfl⟩ := addr_of_ne_nil hBn
            rw [node_at f.slot.opposite bl br bd bk] at hl h1 j3 ⊢
            generalize (Ravl.Tree.node bl bd bk br).child f.slot.opposite = C at *
            generalize (Ravl.Tree.node bl bd bk br).child f.slot.opposite.opposite = D at *
            obtain ⟨u1, u2, u3⟩ := rk_at.1 j3
            rw [addr_at]
            obtain ⟨s1, g1, l1⟩ := rotate_loc (f := ⟨f.slot.opposite, d, k, A⟩) (loc_downOpp.1 hl)
            have l1' : Loc s1 (Tree.at f.slot (Tree.at f.slot A D d k) C bd bk) (f :: q) := by
              simpa only [Tree.at_swap] using l1
            obtain ⟨s2, g2, l2⟩ := rotate_loc l1'
            obtain ⟨s3, g3, l3⟩ := promote_loc l2
            obtain ⟨s4, g4, l4⟩ := demote_loc (loc_down.1 l3) (by omega)
            obtain ⟨s5, g5, l5⟩ := demote_loc (loc_downOpp.1 (loc_down.2 l4)) (by omega)
            have er : Ravl.rotate (Ravl.rotate (Tree.at f.slot.opposite C D bd bk) ⟨f.slot.opposite, d, k, A⟩) f =
                Tree.at f.slot (Tree.at f.slot A D d k) (Tree.at f.slot C f.sibling f.data f.rank) bd bk := by
              rw [rot_at (f := ⟨f.slot.opposite, d, k, A⟩)]
              dsimp only
              rw [Tree.at_swap, Tree.at_swap, rot_at]
            refine ⟨s5, ?_, ?_, ?_⟩
            · rw [g1]
              simp only [Option.bind_some]
              rw [g2]
              simp only [Option.bind_some]
              rw [g3]
              simp only [Option.bind_some]
              rw [g4]
              simp only [Option.bind_some]
              exact g5
            · rw [er, addRank_at, mapChild_both, addRank_at, addRank_at]
              exact shape_loc.2 (loc_downOpp.2 l5)
            · rw [er, addRank_at, mapChild_both, addRank_at, addRank_at]
              exact rk_zip.2 ⟨rk_at.2 ⟨by omega, rk_at.2 ⟨by omega, j2, u3⟩, rk_at.2 ⟨by omega, u2, k2⟩⟩, k3⟩
          · rw [if_neg e1, if_neg e1]
            have hz2 := zip_down (t := f.slot) (x := Tree.at f.slot A B d k) (y := f.sibling) (d := f.data) (k := f.rank) (p := q)
            exact ⟨s, rfl, shape_loc.2 hl, rk_zip.2 ⟨h1, h2⟩⟩
    · rw [if_neg hcond, if_neg hcond]
      exact hsame

end Verif.RavlMem
