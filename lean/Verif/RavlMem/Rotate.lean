import Verif.RavlMem.Shape
/-!
# Lemmas for the ordered tree in memory: rotations
-/
namespace Verif.RavlMem
open Verif.Ravl (Slot Pred Tree Frame Path zip foreachOrder pathPre pathPost)

variable {α : Type} {s : St α}

theorem get_eq {n : Addr} {c : Node α} (h0 : n ≠ 0) (h : s.h n = some c) : get s n = some c := by
  unfold get
  rw [if_neg h0, h]

theorem change_eq {n : Addr} {c : Node α} (h0 : n ≠ 0) (h : s.h n = some c) (f : Node α → Node α) :
    change s n f = some { s with h := upd s.h n (some (f c)) } := by
  unfold change
  rw [get_eq h0 h]

theorem slotType_eq {n p gp sp : Addr} {t : Slot} {c : Node α} {k : Int} {d : α} (h0 : n ≠ 0) (hn : s.h n = some c) (hc : c.parent = p) (hp0 : p ≠ 0)
    (hp : s.h p = some (Node.at t gp n sp k d)) (hs : n ≠ sp) : slotType s n = some (some t) := by
  subst hc
  unfold slotType
  rw [get_eq h0 hn]
  dsimp only
  rw [if_neg hp0, get_eq hp0 hp]
  cases t with
  | left => simp [Node.at]
  | right => simp [Node.at, Ne.symm hs]

theorem slotType_root {n : Addr} {c : Node α} (h0 : n ≠ 0) (hn : s.h n = some c) (hc : c.parent = 0) : slotType s n = some none := by
  unfold slotType
  rw [get_eq h0 hn]
  dsimp only
  rw [if_pos hc]

/-- What `ravl_rotate` does to the nodes. -/
theorem rotate_eq {n p gp a b sp : Addr} {t : Slot} {k kp : Int} {d dp : α} {cb : Node α} {tg : Slot} {gg sg : Addr} {kg : Int} {dg : α}
    (n0 : n ≠ 0) (hn : s.h n = some (Node.at t p a b k d)) (p0 : p ≠ 0) (hp : s.h p = some (Node.at t gp n sp kp dp))
    (np : n ≠ p) (ns : n ≠ sp) (hb : b ≠ 0 → s.h b = some cb ∧ b ≠ n ∧ b ≠ p)
    (hg : gp ≠ 0 → s.h gp = some (Node.at tg gg p sg kg dg) ∧ gp ≠ n ∧ gp ≠ p ∧ gp ≠ b ∧ p ≠ sg) :
    ∃ s', rotate s n = some s' ∧ s'.root = (if gp = 0 then n else s.root) ∧ s'.h n = some (Node.at t gp a p k d) ∧
      s'.h p = some (Node.at t n b sp kp dp) ∧ (b ≠ 0 → s'.h b = some (cb.withParent p)) ∧
      (gp ≠ 0 → s'.h gp = some (Node.at tg gg n sg kg dg)) ∧
      ∀ x, x ≠ n → x ≠ p → (b ≠ 0 → x ≠ b) → (gp ≠ 0 → x ≠ gp) → s'.h x = s.h x := by
  have pn : p ≠ n := Ne.symm np
  have st := slotType_eq n0 hn (by simp) p0 hp ns
  by_cases b0 : b = 0 <;> by_cases g0 : gp = 0
  · have sp' := slotType_root p0 hp (by simpa using g0)
    simp [rotate, get, change, nodeRef, write, n0, p0, hn, hp, st, sp', b0, g0, upd, np, pn]
    intro x hx1 hx2
    simp [hx1, hx2]
  · obtain ⟨hg1, hg2, hg3, hg4, hg5⟩ := hg g0
    have sp' := slotType_eq p0 hp (by simp) g0 hg1 hg5
    simp [rotate, get, change, nodeRef, write, n0, p0, hn, hp, st, sp', b0, g0, upd, np, pn, hg1, hg2, hg3, Ne.symm hg2, Ne.symm hg3]
    intro x hx1 hx2 hx3
    simp [hx1, hx2, hx3]
  · obtain ⟨hb1, hb2, hb3⟩ := hb b0
    have sp' := slotType_root p0 hp (by simpa using g0)
    simp [rotate, get, change, nodeRef, write, n0, p0, hn, hp, st, sp', b0, g0, upd, np, pn, hb1, hb2, hb3, Ne.symm hb2, Ne.symm hb3]
    intro x hx1 hx2 hx3
    simp [hx1, hx2, hx3]
  · obtain ⟨hb1, hb2, hb3⟩ := hb b0
    obtain ⟨hg1, hg2, hg3, hg4, hg5⟩ := hg g0
    have sp' := slotType_eq p0 hp (by simp) g0 hg1 hg5
    simp [rotate, get, change, nodeRef, write, n0, p0, hn, hp, st, sp', b0, g0, upd, np, pn, hb1, hb2, hb3, Ne.symm hb2, Ne.symm hb3, hg1, hg2, hg3,
      hg4, Ne.symm hg2, Ne.symm hg3, Ne.symm hg4]
    intro x hx1 hx2 hx3 hx4
    simp [hx1, hx2, hx3, hx4]

theorem addr_ne {t : T α} {a : Addr} (h0 : a ≠ 0) (h : a ∉ adrs t) : a ≠ addr t := by
  cases t with
  | nil => exact h0
  | node l d k r =>
    rintro rfl
    exact h (addr_mem (fun h => (nomatch h)))

theorem addr_cases (t : T α) : addr t = 0 ∨ addr t ∈ adrs t := by
  cases t with
  | nil => exact Or.inl rfl
  | node l d k r => exact Or.inr (addr_mem (fun h => (nomatch h)))

theorem addr_node {t : T α} (h : addr t ≠ 0) : addr t ∈ adrs t := (addr_cases t).resolve_left h

theorem rep_addr {h : Addr → Option (Node α)} {t : T α} {par : Addr} (hr : Rep h t par) (h0 : addr t ≠ 0) : ∃ c, h (addr t) = some c := by
  have := (rep_get hr _ (addr_node h0)).2
  cases e : h (addr t) with
  | none => exact absurd e this
  | some c => exact ⟨c, rfl⟩

/-- The root of a tree gets another parent. -/
theorem rep_reparent {h h' : Addr → Option (Node α)} {t : T α} {par q : Addr} (hr : Rep h t par) (hn : (adrs t).Nodup)
    (h1 : ∀ c, addr t ≠ 0 → h (addr t) = some c → h' (addr t) = some (c.withParent q))
    (h2 : ∀ a ∈ adrs t, a ≠ addr t → h' a = h a) : Rep h' t q := by
  cases t with
  | nil => trivial
  | node l d k r =>
    obtain ⟨g1, g2, g3, g4⟩ := hr
    rw [show Ravl.Tree.node l d k r = Tree.at .left l r d k from rfl] at hn
    obtain ⟨⟨k1, k2⟩, k3, k4, k5⟩ := nodup_at.1 hn
    have key : ∀ a, a ∈ adrs l ∨ a ∈ adrs r → h' a = h a := by
      intro a ha
      refine h2 a ?_ ?_
      · rw [show Ravl.Tree.node l d k r = Tree.at .left l r d k from rfl]
        exact mem_at.2 (Or.inr ha)
      · rintro rfl
        rcases ha with ha | ha
        · exact k1 ha
        · exact k2 ha
    exact ⟨g1, h1 _ g1 g2, g3.congr fun a ha => key a (Or.inl ha), g4.congr fun a ha => key a (Or.inr ha)⟩

/-- The place of a path gets another node. -/
theorem repP_retarget {h h' : Addr → Option (Node α)} {root root' : Addr} {p : P α} {n m : Addr} (hr : RepP h root p n) (hn : PNodup p)
    (h1 : root' = if paddr p = 0 then m else root)
    (h2 : ∀ t gp sp k d, paddr p ≠ 0 → h (paddr p) = some (Node.at t gp n sp k d) → (∃ f q, p = f :: q ∧ t = f.slot ∧ sp = addr f.sibling) →
      h' (paddr p) = some (Node.at t gp m sp k d))
    (h3 : ∀ a ∈ padrs p, a ≠ paddr p → h' a = h a) : RepP h' root' p m := by
  cases p with
  | nil => exact h1
  | cons f q =>
    obtain ⟨g1, g2, g3, g4⟩ := hr
    obtain ⟨k1, k2, k3, k4, k5⟩ := hn
    have hroot : root' = root := by rw [h1, if_neg (by exact g1)]
    refine ⟨g1, h2 _ _ _ _ _ g1 g2 ⟨f, q, rfl, rfl, rfl⟩, g3.congr ?_, ?_⟩
    · intro a ha
      refine h3 a (mem_padrs.2 (Or.inr (Or.inl ha))) ?_
      rintro rfl
      exact k1 ha
    · rw [hroot]
      refine g4.congr ?_
      intro a ha
      refine h3 a (mem_padrs.2 (Or.inr (Or.inr ha))) ?_
      rintro rfl
      exact k2 ha

/-- `ravl_rotate` is the rotation of trees. -/
theorem rotate_loc {f : Frame (Addr × α)} {A B : T α} {d : Addr × α} {k : Int} {q : P α} (hl : Loc s (Tree.at f.slot A B d k) (f :: q)) :
    ∃ s', rotate s d.1 = some s' ∧ Loc s' (Tree.at f.slot A (Tree.at f.slot B f.sibling f.data f.rank) d k) q := by
  obtain ⟨n0, hn, hA, hB⟩ := rep_at.1 hl.rep
  obtain ⟨p0, hp, hS, hq⟩ := hl.path
  rw [addr_at] at hp
  obtain ⟨⟨dA, dB⟩, nA, nB, AB⟩ := nodup_at.1 hl.nt
  obtain ⟨pS, pq, nS, Sq, nq⟩ := hl.np
  have sep := hl.sep
  simp only [mem_at, mem_padrs] at sep
  have np : d.1 ≠ f.data.1 := fun e => sep _ (Or.inl rfl) (Or.inl e)
  have nS' : d.1 ∉ adrs f.sibling := fun e => sep _ (Or.inl rfl) (Or.inr (Or.inl e))
  have nq' : d.1 ∉ padrs q := fun e => sep _ (Or.inl rfl) (Or.inr (Or.inr e))
  have Ap : f.data.1 ∉ adrs A := fun e => sep _ (Or.inr (Or.inl e)) (Or.inl rfl)
  have Bp : f.data.1 ∉ adrs B := fun e => sep _ (Or.inr (Or.inr e)) (Or.inl rfl)
  have AS : ∀ a ∈ adrs A, a ∉ adrs f.sibling := fun a ha e => sep _ (Or.inr (Or.inl ha)) (Or.inr (Or.inl e))
  have BS : ∀ a ∈ adrs B, a ∉ adrs f.sibling := fun a ha e => sep _ (Or.inr (Or.inr ha)) (Or.inr (Or.inl e))
  have Aq : ∀ a ∈ adrs A, a ∉ padrs q := fun a ha e => sep _ (Or.inr (Or.inl ha)) (Or.inr (Or.inr e))
  have Bq : ∀ a ∈ adrs B, a ∉ padrs q := fun a ha e => sep _ (Or.inr (Or.inr ha)) (Or.inr (Or.inr e))
  have gq : paddr q ≠ 0 → paddr q ∈ padrs q := by
    cases q with
    | nil => exact fun h => absurd rfl h
    | cons g q' => exact fun _ => mem_padrs.2 (Or.inl rfl)
  obtain ⟨cb, hcb⟩ : ∃ cb, addr B ≠ 0 → s.h (addr B) = some cb := by
    by_cases b0 : addr B = 0
    · exact ⟨Node.at f.slot 0 0 0 k d.2, fun h => absurd b0 h⟩
    · obtain ⟨c, hc⟩ := rep_addr hB b0
      exact ⟨c, fun _ => hc⟩
  obtain ⟨tg, gg, sg, kg, dg, hgp⟩ : ∃ tg gg sg kg dg, paddr q ≠ 0 → s.h (paddr q) = some (Node.at tg gg f.data.1 sg kg dg) ∧ f.data.1 ≠ sg := by
    cases q with
    | nil => exact ⟨f.slot, 0, 0, k, d.2, fun h => absurd rfl h⟩
    | cons g q' =>
      refine ⟨g.slot, paddr q', addr g.sibling, g.rank, g.data.2, fun _ => ⟨hq.2.1, addr_ne p0 ?_⟩⟩
      exact fun e => pq (mem_padrs.2 (Or.inr (Or.inl e)))
  have b0' : ∀ x ∈ adrs B, x ≠ d.1 ∧ x ≠ f.data.1 := fun x hx => ⟨fun e => dB (e ▸ hx), fun e => Bp (e ▸ hx)⟩
  obtain ⟨s', e, hroot, r1, r2, r3, r4, r5⟩ := rotate_eq (s := s) (cb := cb) (tg := tg) (gg := gg) (sg := sg) (kg := kg) (dg := dg) n0 hn p0 hp np
    (addr_ne n0 nS') (fun h => ⟨hcb h, b0' _ (addr_node h)⟩)
    (fun h => ⟨(hgp h).1, fun e => nq' (e ▸ gq h), fun e => pq (by have h5 := gq h; rw [e] at h5; exact h5), by
      rcases addr_cases B with hb | hb
      · rw [hb]; exact h
      · exact fun e => Bq _ hb (e ▸ gq h), (hgp h).2⟩)
  have same : ∀ x, x ≠ d.1 → x ≠ f.data.1 → (x ∈ adrs B → x ≠ addr B) → (x ∈ padrs q → x ≠ paddr q) → s'.h x = s.h x := by
    intro x h1 h2 h3 h4
    refine r5 x h1 h2 ?_ ?_
    · rintro h rfl
      exact h3 (addr_node h) rfl
    · rintro h rfl
      exact h4 (gq h) rfl
  refine ⟨s', e, ?_, ?_, ?_, nq, ?_, ?_⟩
  · rw [rep_at, rep_at, addr_at]
    refine ⟨n0, r1, ?_, p0, r2, ?_, ?_⟩
    · refine hA.congr fun a ha => same a ?_ ?_ ?_ ?_
      · rintro rfl; exact dA ha
      · rintro rfl; exact Ap ha
      · exact fun h => absurd h (AB a ha)
      · exact fun h => absurd h (Aq a ha)
    · refine rep_reparent hB nB ?_ ?_
      · intro c h0 hc
        rw [hcb h0] at hc
        cases hc
        exact r3 h0
      · intro a ha hne
        exact same a (b0' a ha).1 (b0' a ha).2 (fun _ => hne) (fun h => absurd h (Bq a ha))
    · refine hS.congr fun a ha => same a ?_ ?_ ?_ ?_
      · rintro rfl; exact nS' ha
      · rintro rfl; exact pS ha
      · exact fun h => absurd ha (BS a h)
      · exact fun h => absurd h (Sq a ha)
  · rw [addr_at]
    refine repP_retarget hq nq hroot ?_ ?_
    · intro t gp sp k' d' h0 hc hex
      have hh := r4 h0
      rw [(hgp h0).1] at hc
      obtain ⟨g, q', rfl, rfl, rfl⟩ := hex
      have h2 := hq.2.1
      rw [show g.data.1 = paddr (g :: q') from rfl, (hgp h0).1] at h2
      -- both descriptions of the node are the same node
      have h3 : tg = g.slot := by
        have e1 := Option.some.inj h2
        by_cases et : tg = g.slot
        · exact et
        · exfalso
          have : tg = g.slot.opposite := by
            cases tg <;> cases hg : g.slot <;> simp_all [Slot.opposite]
          rw [this, Node.at_swap] at e1
          have := congrArg (·.slot g.slot) e1
          simp only [Node.at_slot] at this
          exact (hgp h0).2 this.symm
      subst h3
      have e1 := Option.some.inj hc
      have a1 := congrArg (·.parent) e1
      have a2 := congrArg (·.slot g.slot.opposite) e1
      have a3 := congrArg (·.rank) e1
      have a4 := congrArg (·.data) e1
      simp only [Node.at_parent, Node.at_opp, Node.at_rank, Node.at_data] at a1 a2 a3 a4
      rw [hh, a1, a2, a3, a4]
    · intro a ha hne
      refine same a ?_ ?_ ?_ (fun _ => hne)
      · rintro rfl; exact nq' ha
      · rintro rfl; exact pq ha
      · exact fun h => absurd ha (Bq a h)
  · simp only [nodup_at, mem_at]
    refine ⟨⟨dA, ?_⟩, nA, ⟨⟨Bp, pS⟩, nB, nS, BS⟩, ?_⟩
    · rintro (h | h | h)
      · exact np h
      · exact dB h
      · exact nS' h
    · rintro a ha (h | h | h)
      · exact Ap (h ▸ ha)
      · exact AB a ha h
      · exact AS a ha h
  · simp only [mem_at]
    rintro a (rfl | h | rfl | h | h)
    · exact nq'
    · exact Aq a h
    · exact pq
    · exact Bq a h
    · exact Sq a h
  · intro a ha
    simp only [mem_at]
    by_cases e1 : a = d.1
    · simp [e1]
    by_cases e2 : a = f.data.1
    · simp [e2]
    by_cases e3 : a ∈ adrs B
    · simp [e3]
    by_cases e4 : a ∈ padrs q
    · simp [e4]
    rw [same a e1 e2 (fun h => absurd h e3) (fun h => absurd h e4)] at ha
    have := hl.all a ha
    simp only [mem_at, mem_padrs] at this
    rcases this with (h | h | h) | h | h | h <;> simp [h]

end Verif.RavlMem
