import Verif.RavlMem.Find
/-!
# Lemmas for the ordered tree in memory: removal and traversal
-/
namespace Verif.RavlMem
open Verif.Ravl (Slot Pred Tree Frame Path zip foreachOrder pathPre pathPost)

variable {α : Type} {s : St α}

theorem paddr_mem {p : P α} (h : paddr p ≠ 0) : paddr p ∈ padrs p := by
  cases p with
  | nil => exact absurd rfl h
  | cons f p => exact mem_padrs.2 (Or.inl rfl)

/-- What `ravl_remove` does to a node with one child or none: the child takes its place. -/
def unlink (s : St α) (n : Addr) : Option (St α) := do
  let c ← get s n
  let r := if c.left ≠ 0 then c.left else c.right
  let s ← if r = 0 then some s else change s r (·.withParent c.parent)
  let ref ← nodeRef s n
  let s ← write s ref r
  free s n

theorem unlink_loc {t : Slot} {B : T α} {d : Addr × α} {k : Int} {q : P α} (hl : Loc s (Tree.at t B .nil d k) q) :
    ∃ s', unlink s d.1 = some s' ∧ Loc s' B q := by
  obtain ⟨n0, hn, hB, -⟩ := rep_at.1 hl.rep
  obtain ⟨⟨dB, -⟩, nB, -, -⟩ := nodup_at.1 hl.nt
  have hpath := hl.path
  rw [addr_at] at hpath
  have dq : d.1 ∉ padrs q := hl.sep _ (mem_at.2 (Or.inl rfl))
  have Bq : ∀ a ∈ adrs B, a ∉ padrs q := fun a ha => hl.sep _ (mem_at.2 (Or.inr (Or.inl ha)))
  have hr : (if (Node.at t (paddr q) (addr B) (addr (.nil : T α)) k d.2).left ≠ 0 then (Node.at t (paddr q) (addr B) (addr (.nil : T α)) k d.2).left
      else (Node.at t (paddr q) (addr B) (addr (.nil : T α)) k d.2).right) = addr B := by
    cases t with
    | left =>
      show (if addr B ≠ 0 then addr B else 0) = addr B
      by_cases e : addr B = 0
      · rw [if_neg (fun h => h e), e]
      · rw [if_pos e]
    | right => exact if_neg (fun h => h rfl)
  -- the child gets its new parent
  obtain ⟨s1, e1, r1, a1, b1⟩ : ∃ s1, (if addr B = 0 then some s else change s (addr B) (·.withParent (paddr q))) = some s1 ∧ s1.root = s.root ∧
      (∀ x, (addr B ≠ 0 → x ≠ addr B) → s1.h x = s.h x) ∧ (∀ c, addr B ≠ 0 → s.h (addr B) = some c → s1.h (addr B) = some (c.withParent (paddr q))) := by
    by_cases e : addr B = 0
    · exact ⟨s, by rw [if_pos e], rfl, fun _ _ => rfl, fun _ h => absurd e h⟩
    · obtain ⟨cb, hcb⟩ := rep_addr hB e
      refine ⟨{ s with h := upd s.h (addr B) (some (cb.withParent (paddr q))) }, by rw [if_neg e]; exact change_eq e hcb _, rfl, fun x hx => upd_ne _ _ (hx e), ?_⟩
      intro c _ hc
      rw [hcb] at hc
      cases hc
      exact upd_same _ _ _
  have h1n : s1.h d.1 = some (Node.at t (paddr q) (addr B) 0 k d.2) := by
    rw [a1 d.1 (fun h e => dB (by rw [e]; exact addr_node h))]
    exact hn
  have h1q : ∀ a ∈ padrs q, s1.h a = s.h a := fun a ha => a1 a (fun h e => Bq _ (addr_node h) (by rw [← e]; exact ha))
  have hp1 : RepP s1.h s1.root q d.1 := by
    rw [r1]
    exact hpath.congr h1q
  -- the place gets the child
  obtain ⟨s2, e2, hp2, a2⟩ : ∃ s2, ((nodeRef s1 d.1).bind fun ref => write s1 ref (addr B)) = some s2 ∧ RepP s2.h s2.root q (addr B) ∧
      (∀ x, x ∉ padrs q → s2.h x = s1.h x) ∧ (∀ x ∈ padrs q, s1.h x ≠ none) ∧ (∀ x ∈ padrs q, s2.h x ≠ none) := by
    cases q with
    | nil =>
      refine ⟨{ s1 with root := addr B }, ?_, rfl, fun _ _ => rfl, fun x hx => (nomatch hx), fun x hx => (nomatch hx)⟩
      unfold nodeRef
      rw [slotType_root n0 h1n (by rw [Node.at_parent]; rfl)]
      rfl
    | cons f q =>
      obtain ⟨p0, hp, hS, hq⟩ := hp1
      have hst : slotType s1 d.1 = some (some f.slot) := by
        refine slotType_eq n0 h1n (by rw [Node.at_parent]; rfl) p0 hp (addr_ne n0 ?_)
        exact fun h => dq (mem_padrs.2 (Or.inr (Or.inl h)))
      have hret : RepP (upd s1.h f.data.1 (some ((Node.at f.slot (paddr q) d.1 (addr f.sibling) f.rank f.data.2).put f.slot (addr B)))) s1.root (f :: q) (addr B) := by
        refine ⟨p0, by rw [upd_same, Node.at_put], hS.congr fun a ha => upd_ne _ _ ?_, hq.congr fun a ha => upd_ne _ _ ?_⟩
        · rintro rfl; exact hl.np.1 ha
        · rintro rfl; exact hl.np.2.1 ha
      have hnn : ∀ x ∈ padrs (f :: q), s1.h x ≠ none := by
        intro x hx
        rw [h1q x hx]
        exact (rep_get (shape_loc.2 hl).rep x (mem_zip.2 (Or.inr hx))).2
      refine ⟨{ s1 with h := upd s1.h f.data.1 (some ((Node.at f.slot (paddr q) d.1 (addr f.sibling) f.rank f.data.2).put f.slot (addr B))) },
        ?_, hret, ?_, hnn, ?_⟩
      · unfold nodeRef
        rw [hst, get_eq n0 h1n]
        dsimp only [Option.bind]
        rw [Node.at_parent]
        exact change_eq p0 hp _
      · intro x hx
        exact upd_ne _ _ (fun h => hx (mem_padrs.2 (Or.inl h)))
      · intro x hx
        dsimp only
        by_cases e : x = f.data.1
        · rw [e, upd_same]; exact fun h => (nomatch h)
        · rw [upd_ne _ _ e]; exact hnn x hx
  have h2n : s2.h d.1 = some (Node.at t (paddr q) (addr B) 0 k d.2) := by rw [a2.1 _ dq]; exact h1n
  refine ⟨{ s2 with h := upd s2.h d.1 none }, ?_, ?_, ?_, nB, hl.np, Bq, ?_⟩
  · unfold unlink
    rw [get_eq n0 hn]
    simp only [Option.bind_eq_bind, Option.bind_some]
    rw [hr, Node.at_parent]
    have fin : ((nodeRef s1 d.1).bind fun ref => (write s1 ref (addr B)).bind fun s => free s d.1) = some { s2 with h := upd s2.h d.1 none } := by
      cases er : nodeRef s1 d.1 with
      | none => rw [er] at e2; cases e2
      | some ref =>
        rw [er] at e2
        simp only [Option.bind_some] at e2 ⊢
        rw [e2]
        simp only [Option.bind_some]
        unfold free
        rw [get_eq n0 h2n]
    by_cases e : addr B = 0
    · rw [if_pos e] at e1 ⊢
      cases e1
      exact fin
    · rw [if_neg e] at e1 ⊢
      rw [e1]
      exact fin
  · refine rep_reparent hB nB ?_ ?_
    · intro c h0 hc
      dsimp only
      rw [upd_ne _ _ (fun h => dB (by rw [← h]; exact addr_node h0)), a2.1 _ (Bq _ (addr_node h0))]
      exact b1 c h0 hc
    · intro a ha hne
      dsimp only
      rw [upd_ne _ _ (fun h => dB (by rw [← h]; exact ha)), a2.1 _ (Bq _ ha)]
      exact a1 a (fun _ => hne)
  · refine hp2.congr fun a ha => upd_ne _ _ ?_
    rintro rfl
    exact dq ha
  · intro a ha
    dsimp only at ha
    by_cases e : a = d.1
    · rw [e, upd_same] at ha
      exact absurd rfl ha
    rw [upd_ne _ _ e] at ha
    by_cases e2 : a ∈ padrs q
    · exact Or.inr e2
    rw [a2.1 _ e2] at ha
    by_cases e3 : a ∈ adrs B
    · exact Or.inl e3
    rw [a1 a (fun h e => e3 (by rw [e]; exact addr_node h))] at ha
    rcases hl.all a ha with h | h
    · rcases mem_at.1 h with h | h | h
      · exact absurd h e
      · exact Or.inl h
      · cases h
    · exact Or.inr h

theorem remove_one {c : Node α} {n : Addr} (fuel : Nat) (n0 : n ≠ 0) (hn : s.h n = some c) (h : ¬ (c.left ≠ 0 ∧ c.right ≠ 0)) :
    remove (fuel + 1) s n = unlink s n := by
  unfold remove unlink
  rw [get_eq n0 hn]
  simp only [Option.bind_eq_bind, Option.bind_some]
  rw [if_neg h]

/-- The left-most node of a tree, as a place. -/
theorem leftmost {t : T α} (hn : t ≠ .nil) : ∀ p : P α, ∃ d k r q t', Ravl.typeMost .left t = some d ∧ Ravl.unlinkLeftmost t = some (d, t') ∧
    zip (.node .nil d k r) q = zip t p ∧ zip r q = zip t' p := by
  induction t with
  | nil => exact absurd rfl hn
  | node l d k r ihl _ =>
    intro p
    cases l with
    | nil => exact ⟨d, k, r, p, r, rfl, rfl, rfl, rfl⟩
    | node ll ld lk lr =>
      obtain ⟨d', k', r', q, t', h1, h2, h3, h4⟩ := ihl (fun h => (nomatch h)) (⟨.left, d, k, r⟩ :: p)
      refine ⟨d', k', r', q, .node t' d k r, ?_, ?_, h3, h4⟩
      · unfold Ravl.typeMost
        dsimp only
        rw [h1]
      · unfold Ravl.unlinkLeftmost
        rw [h2]

/-- The tree without the element of its root; the root keeps its node when it has two children. -/
def cut : T α → T α
  | .nil => .nil
  | .node l d k r =>
    match l, r with
    | .nil, r => r
    | l, .nil => l
    | l, r =>
      match Ravl.unlinkLeftmost r with
      | none => .node l d k r
      | some (x, r') => .node l (d.1, x.2) k r'

/-- `ravl_remove` of a node. -/
theorem remove_loc {l r : T α} {d : Addr × α} {k : Int} {p : P α} {fuel : Nat} (hl : Loc s (.node l d k r) p)
    (h1 : size (.node l d k r) + p.length + 1 < fuel) : ∃ s', remove fuel s d.1 = some s' ∧ Loc s' (cut (.node l d k r)) p := by
  obtain ⟨fuel, rfl⟩ : ∃ m, fuel = m + 1 := ⟨fuel - 1, by omega⟩
  obtain ⟨n0, hn, hL, hR⟩ := hl.rep
  cases l with
  | nil =>
    rw [remove_one fuel n0 hn (fun h => h.1 rfl)]
    exact unlink_loc (t := .right) hl
  | node ll ld lk lr =>
    cases r with
    | nil =>
      rw [remove_one fuel n0 hn (fun h => h.2 rfl)]
      exact unlink_loc (t := .left) hl
    | node rl rd rk rr =>
      rw [size_node] at h1
      obtain ⟨m, km, rm, q, t', g1, g2, g3, g4⟩ := leftmost (t := .node rl rd rk rr) (fun h => (nomatch h)) (⟨.right, d, k, .node ll ld lk lr⟩ :: p)
      have hc : cessor .right fuel s d.1 = some m.1 := by
        have hcl := cessor_loc .right (fuel := fuel) hl (fun h => (nomatch h)) (by rw [size_node]; omega) (by omega)
        rw [show Ravl.cessor .right (.node (.node ll ld lk lr) d k (.node rl rd rk rr)) p = some m from g1] at hcl
        exact hcl
      -- the successor, before the data is copied
      have hlm : Loc s (.node .nil m km rm) q := by
        rw [← shape_loc, g3]
        exact shape_loc.2 (loc_down.1 (show Loc s (Tree.at .right (.node rl rd rk rr) (.node ll ld lk lr) d k) p from hl))
      obtain ⟨m0, hm, -, -⟩ := hlm.rep
      have hset := loc_down.1 (loc_set (t := .right) (x := .node rl rd rk rr) (y := .node ll ld lk lr) hl k m.2)
      obtain ⟨m', km', rm', q', t'', u1, u2, u3, u4⟩ := leftmost (t := .node rl rd rk rr) (fun h => (nomatch h))
        (⟨.right, (d.1, m.2), k, .node ll ld lk lr⟩ :: p)
      have em : m' = m := by rw [g1] at u1; exact (Option.some.inj u1).symm
      subst em
      have et : t'' = t' := by rw [g2] at u2; cases u2; rfl
      subst et
      have hlm' := shape_loc.2 hset
      rw [← u3] at hlm'
      replace hlm' := shape_loc.1 hlm'
      obtain ⟨m0', hm', -, -⟩ := hlm'.rep
      obtain ⟨s', e', l'⟩ := unlink_loc (t := .right) hlm'
      refine ⟨s', ?_, ?_⟩
      · unfold remove
        rw [get_eq n0 hn]
        simp only [Option.bind_eq_bind, Option.bind_some]
        rw [if_pos ⟨hL.1, hR.1⟩, hc]
        simp only [Option.bind_some]
        rw [get_eq m0 hm]
        simp only [Option.bind_some]
        rw [change_eq n0 hn]
        simp only [Option.bind_some]
        obtain ⟨fuel, rfl⟩ : ∃ m, fuel = m + 1 := ⟨fuel - 1, by omega⟩
        rw [← e']
        exact remove_one (s := { s with h := upd s.h d.1 (some (Node.at .right (paddr p) rd.1 ld.1 k m'.2)) }) fuel m0' hm' (fun h => h.1 rfl)
      · have hz := shape_loc.2 l'
        rw [u4] at hz
        have := shape_loc.1 hz
        unfold cut
        dsimp only
        rw [u2]
        exact loc_down.2 this

/-- What is left after a removal, in order: one element less, one node less. -/
theorem cut_list {l r : T α} {d : Addr × α} {k : Int} :
    foreachOrder (cut (.node l d k r)) = foreachOrder l ++ foreachOrder r ∨
    ∃ m r', foreachOrder r = m :: r' ∧ l ≠ .nil ∧ foreachOrder (cut (.node l d k r)) = foreachOrder l ++ (d.1, m.2) :: r' := by
  cases l with
  | nil => exact Or.inl rfl
  | node ll ld lk lr =>
    cases r with
    | nil => left; simp [cut, foreachOrder]
    | node rl rd rk rr =>
      right
      have h := Ravl.unlinkLeftmost_spec (.node rl rd rk rr)
      cases e : Ravl.unlinkLeftmost (.node rl rd rk rr) with
      | none =>
        rw [e] at h
        simp at h
      | some x =>
        obtain ⟨m, r'⟩ := x
        rw [e] at h
        refine ⟨m, foreachOrder r', h, fun h => (nomatch h), ?_⟩
        unfold cut
        dsimp only
        rw [e]
        rfl

theorem rk_cut {l r : T α} {d : Addr × α} {k : Int} (h : Rk (.node l d k r)) : Rk (cut (.node l d k r)) := by
  cases l with
  | nil => exact h.2.2
  | node ll ld lk lr =>
    cases r with
    | nil => exact h.2.1
    | node rl rd rk rr =>
      have key : ∀ {t : T α} {x t'}, Rk t → Ravl.unlinkLeftmost t = some (x, t') → Rk t' := by
        intro t
        induction t with
        | nil => intro x t' _ h; cases h
        | node l d k r ihl _ =>
          intro x t' hk he
          cases l with
          | nil =>
            unfold Ravl.unlinkLeftmost at he
            cases he
            exact hk.2.2
          | node ll ld lk lr =>
            unfold Ravl.unlinkLeftmost at he
            cases e : Ravl.unlinkLeftmost (.node ll ld lk lr) with
            | none => rw [e] at he; cases he
            | some y =>
              rw [e] at he
              cases he
              exact ⟨hk.1, ihl hk.2.1 e, hk.2.2⟩
      unfold cut
      dsimp only
      cases e : Ravl.unlinkLeftmost (.node rl rd rk rr) with
      | none => exact h
      | some x => exact ⟨h.1, h.2.1, key h.2.2 e⟩

/-- The traversal: in order; with `free_node`, every node of the tree is freed and nothing else. -/
theorem foreachNode_rep (b : Bool) {t : T α} : ∀ {s : St α} {par : Addr} {fuel : Nat}, Rep s.h t par → (adrs t).Nodup → size t < fuel →
    ∃ s', foreachNode b fuel s (addr t) = some (s', (foreachOrder t).map (·.2)) ∧ s'.root = s.root ∧
      (∀ a, a ∉ adrs t → s'.h a = s.h a) ∧ (∀ a ∈ adrs t, s'.h a = if b = true then none else s.h a) := by
  induction t with
  | nil =>
    intro s par fuel _ _ hf
    obtain ⟨fuel, rfl⟩ : ∃ m, fuel = m + 1 := ⟨fuel - 1, by omega⟩
    exact ⟨s, rfl, rfl, fun _ _ => rfl, fun a ha => (nomatch ha)⟩
  | node l d k r ihl ihr =>
    intro s par fuel hr hnd hf
    obtain ⟨fuel, rfl⟩ : ∃ m, fuel = m + 1 := ⟨fuel - 1, by omega⟩
    rw [size_node] at hf
    obtain ⟨n0, hn, hL, hR⟩ := hr
    rw [show Ravl.Tree.node l d k r = Tree.at .left l r d k from rfl] at hnd
    obtain ⟨⟨dl, dr⟩, nl, nr, lr⟩ := nodup_at.1 hnd
    obtain ⟨s1, e1, r1, a1, b1⟩ := ihl (fuel := fuel) hL nl (by omega)
    have hn1 : s1.h d.1 = some ⟨par, addr l, addr r, k, d.2⟩ := by rw [a1 _ dl]; exact hn
    have hR1 : Rep s1.h r d.1 := hR.congr fun a ha => a1 a (fun h => lr a h ha)
    obtain ⟨s2, e2, r2, a2, b2⟩ := ihr (fuel := fuel) hR1 nr (by omega)
    have hn2 : s2.h d.1 = some ⟨par, addr l, addr r, k, d.2⟩ := by rw [a2 _ dr]; exact hn1
    have hmem : ∀ a, a ∈ adrs (Ravl.Tree.node l d k r) ↔ a = d.1 ∨ a ∈ adrs l ∨ a ∈ adrs r := fun a => mem_at (t := .left)
    have hlist : (foreachOrder (Ravl.Tree.node l d k r)).map (·.2) = (foreachOrder l).map (·.2) ++ d.2 :: (foreachOrder r).map (·.2) := by
      simp [foreachOrder]
    have hout : ∀ a, a ∉ adrs (Ravl.Tree.node l d k r) → s2.h a = s.h a := by
      intro a ha
      rw [hmem] at ha
      rw [a2 a (fun h => ha (Or.inr (Or.inr h))), a1 a (fun h => ha (Or.inr (Or.inl h)))]
    have hin : ∀ a, a ∈ adrs l ∨ a ∈ adrs r → s2.h a = if b = true then none else s.h a := by
      rintro a (ha | ha)
      · rw [a2 a (lr a ha)]; exact b1 a ha
      · rw [b2 a ha, a1 a (fun h => lr a h ha)]
    unfold foreachNode
    rw [show addr (Ravl.Tree.node l d k r) = d.1 from rfl, if_neg n0, get_eq n0 hn]
    simp only [Option.bind_eq_bind, Option.bind_some]
    rw [e1]
    simp only [Option.bind_some]
    rw [get_eq n0 hn1]
    simp only [Option.bind_some]
    rw [e2]
    simp only [Option.bind_some]
    rw [hlist]
    cases b with
    | false =>
      refine ⟨s2, by simp, by rw [r2, r1], hout, ?_⟩
      intro a ha
      rcases (hmem a).1 ha with rfl | h
      · rw [hn2, ← hn]; simp
      · exact hin a h
    | true =>
      refine ⟨{ s2 with h := upd s2.h d.1 none }, ?_, by rw [← r1, ← r2], ?_, ?_⟩
      · unfold free
        rw [get_eq n0 hn2]
        simp
      · intro a ha
        dsimp only
        rw [upd_ne _ _ (fun h => ha ((hmem a).2 (Or.inl h)))]
        exact hout a ha
      · intro a ha
        dsimp only
        by_cases e : a = d.1
        · rw [e, upd_same, if_pos rfl]
        · rw [upd_ne _ _ e]
          exact hin a (((hmem a).1 ha).resolve_left e)

end Verif.RavlMem
