import Verif.Ravl.Lemmas
/-! Rank invariants of the ravl model. -/
set_option linter.unusedSimpArgs false
namespace Verif.Ravl
variable {α : Type}

@[simp] theorem rank_nil : (Tree.nil : Tree α).rank = -1 := rfl
@[simp] theorem rank_node (l : Tree α) (d : α) (k : Int) (r : Tree α) :
    (Tree.node l d k r).rank = k := rfl

/-- Conditions on the two rank differences of a node. `b = false`: both positive.
`b = true`: additionally at most 2 and not both 2 (AVL shape). -/
def DiffOK (b : Bool) (dl dr : Int) : Prop :=
  1 ≤ dl ∧ 1 ≤ dr ∧ (b = true → dl ≤ 2 ∧ dr ≤ 2 ∧ (dl = 1 ∨ dr = 1))

/-- Every node of the tree satisfies the rank conditions. -/
def RankOK (b : Bool) : Tree α → Prop
  | .nil => True
  | .node l _ k r => RankOK b l ∧ RankOK b r ∧ DiffOK b (k - l.rank) (k - r.rank)

theorem rank_ge (b : Bool) (t : Tree α) (h : RankOK b t) : -1 ≤ t.rank := by
  cases t with
  | nil => simp [rank_nil, rank_node]
  | node l d k r =>
    have := h.2.2.1
    have hl : -1 ≤ l.rank := rank_ge b l h.1
    simp only [rank_nil, rank_node]; omega

/-- Rank conditions for the surroundings of a hole whose occupant has rank `k`. -/
def PathOK (b : Bool) (k : Int) : Path α → Prop
  | [] => True
  | f :: p => RankOK b f.sibling ∧ DiffOK b (f.rank - k) (f.rank - f.sibling.rank) ∧
      PathOK b f.rank p

theorem DiffOK.symm {b : Bool} {x y : Int} (h : DiffOK b x y) : DiffOK b y x := by
  obtain ⟨h1, h2, h3⟩ := h
  exact ⟨h2, h1, fun hb => by have := h3 hb; omega⟩

theorem RankOK_zip (b : Bool) (t : Tree α) (p : Path α) :
    RankOK b (zip t p) ↔ RankOK b t ∧ PathOK b t.rank p := by
  induction p generalizing t with
  | nil => simp [zip, PathOK]
  | cons f p ih =>
    rw [zip, ih]
    unfold Frame.plug
    cases hs : f.slot
    · simp only [RankOK, PathOK, rank_nil, rank_node]
      constructor
      · rintro ⟨⟨a, b, c⟩, d⟩; exact ⟨a, b, c, d⟩
      · rintro ⟨a, b, c, d⟩; exact ⟨⟨a, b, c⟩, d⟩
    · simp only [RankOK, PathOK, rank_nil, rank_node]
      constructor
      · rintro ⟨⟨a, b, c⟩, d⟩; exact ⟨b, a, c.symm, d⟩
      · rintro ⟨a, b, c, d⟩; exact ⟨⟨b, a, c.symm⟩, d⟩

/-- What the promotion loop maintains about the current node: it is a fresh leaf or has
rank differences 1 and 2. -/
def Fresh (t : Tree α) : Prop :=
  match t with
  | .nil => False
  | .node l _ k r => (l = .nil ∧ r = .nil ∧ k = 0) ∨ (k - l.rank = 1 ∧ k - r.rank = 2) ∨
      (k - l.rank = 2 ∧ k - r.rank = 1)

/-- The loop of `ravl_balance` has stopped: the parent is not a (0,1) node. -/
def Stopped (n : Tree α) : Path α → Prop
  | [] => True
  | f :: _ => parentIs01 n f = false

theorem RankOK_addRank_plug (b : Bool) (n : Tree α) (f : Frame α) (hn : RankOK b n)
    (hs : RankOK b f.sibling) (h0 : f.rank - n.rank = 0) (h1 : f.rank - f.sibling.rank = 1) :
    RankOK b ((f.plug n).addRank 1) ∧ Fresh ((f.plug n).addRank 1) ∧
      ((f.plug n).addRank 1).rank = f.rank + 1 := by
  unfold Frame.plug
  cases f.slot
  · simp only [Tree.addRank, RankOK, Fresh, DiffOK, rank_nil, rank_node]
    exact ⟨⟨hn, hs, by omega, by omega, fun _ => by omega⟩, Or.inr (by omega), trivial⟩
  · simp only [Tree.addRank, RankOK, Fresh, DiffOK, rank_nil, rank_node]
    exact ⟨⟨hs, hn, by omega, by omega, fun _ => by omega⟩, Or.inr (by omega), trivial⟩

/-- The state of the loop: `n` sits in a hole that was fine for rank `n.rank - 1`. -/
theorem promoteLoop_spec (b : Bool) (n : Tree α) (p : Path α) (hn : RankOK b n) (hf : Fresh n)
    (hp : PathOK b (n.rank - 1) p) :
    RankOK b (promoteLoop n p).1 ∧ Fresh (promoteLoop n p).1 ∧
    PathOK b ((promoteLoop n p).1.rank - 1) (promoteLoop n p).2 ∧
    Stopped (promoteLoop n p).1 (promoteLoop n p).2 := by
  induction p generalizing n with
  | nil => exact ⟨hn, hf, hp, trivial⟩
  | cons f p ih =>
    unfold promoteLoop
    by_cases h : parentIs01 n f = true
    · rw [if_pos h]
      obtain ⟨hs, hd, hp'⟩ := hp
      have h01 : f.rank - n.rank = 0 ∧ f.rank - f.sibling.rank = 1 := by
        simp only [parentIs01, Bool.or_eq_true, Bool.and_eq_true, beq_iff_eq] at h
        have := hd.2.1
        omega
      obtain ⟨h1, h2, h3⟩ := RankOK_addRank_plug b n f hn hs h01.1 h01.2
      exact ih _ h1 h2 (by rw [h3]; have : f.rank + 1 - 1 = f.rank := by omega
                           rw [this]; exact hp')
    · rw [if_neg h]
      exact ⟨hn, hf, hp, by simpa [Stopped] using h⟩

theorem fixup_eq (l : Tree α) (d : α) (k : Int) (r : Tree α) (f : Frame α) (p : Path α) :
    fixup (.node l d k r) (f :: p) =
    if f.rank - k = 0 ∧ f.rank - f.sibling.rank > 1 then
      if ((Tree.node l d k r).child f.slot.opposite).isNil = true ∨
          k - ((Tree.node l d k r).child f.slot.opposite).rank = 2 then
        zip ((rotate (.node l d k r) f).mapChild f.slot.opposite (·.addRank (-1))) p
      else if k - ((Tree.node l d k r).child f.slot.opposite).rank = 1 then
        zip ((((rotate (rotate ((Tree.node l d k r).child f.slot.opposite)
          ⟨f.slot.opposite, d, k, (Tree.node l d k r).child f.slot⟩) f).addRank 1).mapChild .left
            (·.addRank (-1))).mapChild .right (·.addRank (-1))) p
      else zip (.node l d k r) (f :: p)
    else zip (.node l d k r) (f :: p) := rfl

theorem fixup_spec (b : Bool) (n : Tree α) (p : Path α) (hn : RankOK b n) (hf : Fresh n)
    (hp : PathOK b (n.rank - 1) p)
    (hno : Stopped n p) :
    RankOK b (fixup n p) := by
  cases p with
  | nil => cases n <;> exact hn
  | cons f p =>
    cases n with
    | nil => cases hf
    | node l d k r =>
      obtain ⟨hs, hd, hp'⟩ := hp
      simp only [Stopped, parentIs01, Bool.or_eq_false_iff, Bool.and_eq_false_iff, beq_eq_false_iff_ne,
        ne_eq, rank_nil, rank_node] at hno
      simp only [rank_nil, rank_node] at hd
      obtain ⟨hl, hr, hdn⟩ := hn
      have hsr := rank_ge b f.sibling hs
      have hlr := rank_ge b l hl
      have hrr := rank_ge b r hr
      have hd1 := hd.1
      have hd2 := hd.2.1
      rw [fixup_eq]
      by_cases hc : f.rank - k = 0 ∧ f.rank - f.sibling.rank > 1
      · rw [if_pos hc]
        have hshape : (k - l.rank = 1 ∧ k - r.rank = 2) ∨ (k - l.rank = 2 ∧ k - r.rank = 1) := by
          rcases hf with ⟨rfl, rfl, hk⟩ | h | h
          · omega
          · exact Or.inl h
          · exact Or.inr h
        have hsib : b = true → f.rank - f.sibling.rank = 2 := fun hb => by
          have := hd.2.2 hb; omega
        by_cases hz : ((Tree.node l d k r).child f.slot.opposite).isNil = true ∨
            k - ((Tree.node l d k r).child f.slot.opposite).rank = 2
        · rw [if_pos hz]
          rw [RankOK_zip]
          cases hsl : f.slot
          · -- n is a left child, z = r
            simp only [hsl, Slot.opposite, Tree.child] at hz ⊢
            have hz2 : k - l.rank = 1 ∧ k - r.rank = 2 := by
              rcases hz with hz | hz
              · cases r with
                | nil => simp only [rank_nil, rank_node] at hshape ⊢; omega
                | node => cases hz
              · omega
            simp only [rotate, hsl, Tree.mapChild, Tree.addRank, RankOK, rank_nil, rank_node, DiffOK]
            refine ⟨⟨hl, ⟨hr, hs, by omega, by omega, fun hb => ?_⟩, by omega, by omega, fun _ => by omega⟩, ?_⟩
            · have := hsib hb; omega
            · have : k = f.rank := by omega
              rw [this]; exact hp'
          · simp only [hsl, Slot.opposite, Tree.child] at hz ⊢
            have hz2 : k - l.rank = 2 ∧ k - r.rank = 1 := by
              rcases hz with hz | hz
              · cases l with
                | nil => simp only [rank_nil, rank_node] at hshape ⊢; omega
                | node => cases hz
              · omega
            simp only [rotate, hsl, Tree.mapChild, Tree.addRank, RankOK, rank_nil, rank_node, DiffOK]
            refine ⟨⟨⟨hs, hl, by omega, by omega, fun hb => ?_⟩, hr, by omega, by omega, fun _ => by omega⟩, ?_⟩
            · have := hsib hb; omega
            · have : k = f.rank := by omega
              rw [this]; exact hp'
        · rw [if_neg hz]
          by_cases hz1 : k - ((Tree.node l d k r).child f.slot.opposite).rank = 1
          · rw [if_pos hz1]
            rw [RankOK_zip]
            cases hsl : f.slot
            · simp only [hsl, Slot.opposite, Tree.child] at hz hz1 ⊢
              cases r with
              | nil => simp [Tree.isNil] at hz
              | node zl zd zk zr =>
                simp only [rank_nil, rank_node] at hz1 hshape hrr
                obtain ⟨hzl, hzr, hdz⟩ := hr
                have hz3 := hdz.1
                have hz4 := hdz.2.1
                simp only [rotate, hsl, Tree.mapChild, Tree.addRank, RankOK, rank_nil, rank_node, DiffOK]
                refine ⟨⟨⟨hl, hzl, by omega, by omega, fun hb => ?_⟩,
                  ⟨hzr, hs, by omega, by omega, fun hb => ?_⟩, by omega, by omega, fun _ => by omega⟩, ?_⟩
                · have := hdz.2.2 hb; omega
                · have := hdz.2.2 hb; have := hsib hb; omega
                · have : zk + 1 = f.rank := by omega
                  rw [this]; exact hp'
            · simp only [hsl, Slot.opposite, Tree.child] at hz hz1 ⊢
              cases l with
              | nil => simp [Tree.isNil] at hz
              | node zl zd zk zr =>
                simp only [rank_nil, rank_node] at hz1 hshape hlr
                obtain ⟨hzl, hzr, hdz⟩ := hl
                have hz3 := hdz.1
                have hz4 := hdz.2.1
                simp only [rotate, hsl, Tree.mapChild, Tree.addRank, RankOK, rank_nil, rank_node, DiffOK]
                refine ⟨⟨⟨hs, hzl, by omega, by omega, fun hb => ?_⟩,
                  ⟨hzr, hr, by omega, by omega, fun hb => ?_⟩, by omega, by omega, fun _ => by omega⟩, ?_⟩
                · have := hdz.2.2 hb; have := hsib hb; omega
                · have := hdz.2.2 hb; omega
                · have : zk + 1 = f.rank := by omega
                  rw [this]; exact hp'
          · exfalso
            cases hsl : f.slot
            · simp only [hsl, Slot.opposite, Tree.child, not_or] at hz hz1; omega
            · simp only [hsl, Slot.opposite, Tree.child, not_or] at hz hz1; omega
      · rw [if_neg hc]
        rw [RankOK_zip]
        refine ⟨⟨hl, hr, hdn⟩, hs, ⟨?_, hd2, fun hb => ?_⟩, hp'⟩
        · simp only [rank_nil, rank_node]; omega
        · have := hd.2.2 hb; simp only [rank_nil, rank_node]; omega

theorem RankOK_emplace (b : Bool) (key : α → Nat) (ok : Bool) (t t' : Tree α) (x : α)
    (ht : RankOK b t) (h : emplace key ok t x = some t') : RankOK b t' := by
  unfold emplace at h
  cases ok
  · simp at h
  · simp only [if_true] at h
    have key1 : ∀ (t : Tree α) (p p' : Path α), RankOK b t → PathOK b t.rank p →
        descend key x t p = some p' → PathOK b (-1) p' := by
      intro t
      induction t with
      | nil => intro p p' _ hp h; cases h; exact hp
      | node l d k r ihl ihr =>
        intro p p' ht hp h
        obtain ⟨hl, hr, hd⟩ := ht
        unfold descend at h
        split at h
        · cases h
        · split at h
          · exact ihr (⟨.right, d, k, l⟩ :: p) _ hr ⟨hl, hd.symm, hp⟩ h
          · exact ihl (⟨.left, d, k, r⟩ :: p) _ hl ⟨hr, hd, hp⟩ h
    cases hdsc : descend key x t [] with
    | none => rw [hdsc] at h; cases h
    | some p =>
      rw [hdsc] at h
      cases h
      have hp := key1 t [] p ht trivial hdsc
      have h1 : RankOK b (Tree.node .nil x 0 .nil) := by
        simp [RankOK, DiffOK, rank_nil, rank_node]
      have h2 : Fresh (Tree.node (α := α) .nil x 0 .nil) := Or.inl ⟨rfl, rfl, rfl⟩
      have hs := promoteLoop_spec b (Tree.node .nil x 0 .nil) p h1 h2 (by simpa [rank_nil, rank_node] using hp)
      exact fixup_spec b _ _ hs.1 hs.2.1 hs.2.2.1 hs.2.2.2

/-- Removing never raises the rank of the subtree and keeps every difference positive. -/
theorem RankOK_unlinkLeftmost (t : Tree α) (x : α) (t' : Tree α) (h : RankOK false t)
    (hu : unlinkLeftmost t = some (x, t')) : RankOK false t' ∧ t'.rank ≤ t.rank := by
  fun_induction unlinkLeftmost t generalizing x t' with
  | case1 => cases hu
  | case2 d k r =>
    cases hu
    obtain ⟨_, hr, hd⟩ := h
    have := hd.2.1
    exact ⟨hr, by simp only [rank_nil, rank_node]; omega⟩
  | case3 ll ld lk lr d k r hn ih => cases hu
  | case4 ll ld lk lr d k r y l' hn ih =>
    cases hu
    obtain ⟨hl, hr, hd⟩ := h
    obtain ⟨h1, h2⟩ := ih _ _ hl hn
    refine ⟨⟨h1, hr, ?_, hd.2.1, by simp⟩, Int.le_refl _⟩
    have := hd.1; omega

theorem RankOK_removeRoot (t : Tree α) (h : RankOK false t) :
    RankOK false (removeRoot t) ∧ (removeRoot t).rank ≤ t.rank := by
  unfold removeRoot
  split
  · exact ⟨trivial, Int.le_refl _⟩
  · obtain ⟨_, hr, hd⟩ := h
    have := hd.2.1
    exact ⟨hr, by simp only [rank_nil, rank_node]; omega⟩
  · obtain ⟨hl, _, hd⟩ := h
    have := hd.1
    exact ⟨hl, by simp only [rank_nil, rank_node]; omega⟩
  · split
    · exact ⟨h, Int.le_refl _⟩
    · rename_i hu
      obtain ⟨hl, hr, hd⟩ := h
      obtain ⟨h1, h2⟩ := RankOK_unlinkLeftmost _ _ _ hr hu
      refine ⟨⟨hl, h1, hd.1, ?_, by simp⟩, Int.le_refl _⟩
      have := hd.2.1; omega

theorem RankOK_remove (key : α → Nat) (q : Nat) (t : Tree α) (h : RankOK false t) :
    ∀ x t', remove key q t = some (x, t') → RankOK false t' ∧ t'.rank ≤ t.rank := by
  induction t with
  | nil => intro x t' h; cases h
  | node l d k r ihl ihr =>
    intro x t' hr
    unfold remove at hr
    split at hr
    · cases hr; exact RankOK_removeRoot _ h
    · obtain ⟨hl, hrr, hd⟩ := h
      have hd1 := hd.1
      have hd2 := hd.2.1
      split at hr
      · split at hr
        · cases hr
        · rename_i hrem; cases hr
          obtain ⟨h1, h2⟩ := ihr hrr _ _ hrem
          exact ⟨⟨hl, h1, hd1, by omega, by simp⟩, Int.le_refl _⟩
      · split at hr
        · cases hr
        · rename_i hrem; cases hr
          obtain ⟨h1, h2⟩ := ihl hl _ _ hrem
          exact ⟨⟨h1, hrr, by omega, hd2, by simp⟩, Int.le_refl _⟩

/-- Height is bounded by rank. -/
theorem height_le_rank (b : Bool) (t : Tree α) (h : RankOK b t) : (height t : Int) ≤ t.rank + 1 := by
  induction t with
  | nil => simp [height, rank_nil, rank_node]
  | node l d k r ihl ihr =>
    obtain ⟨hl, hr, hd⟩ := h
    have := ihl hl; have := ihr hr; have := hd.1; have := hd.2.1
    simp only [height, rank_nil, rank_node]
    omega

/-- An AVL-shaped tree of rank `k` has at least `2^((k+1)/2) - 1` nodes. -/
theorem size_ge (t : Tree α) (h : RankOK true t) (m : Nat) (hm : (m : Int) = t.rank + 1) :
    2 ^ (m / 2) ≤ (foreachOrder t).length + 1 := by
  induction t generalizing m with
  | nil => simp only [rank_nil, rank_node] at hm; have : m = 0 := by omega
           subst this; simp [foreachOrder]
  | node l d k r ihl ihr =>
    obtain ⟨hl, hr, hd⟩ := h
    have h3 := hd.2.2 rfl
    have h1 := hd.1
    have h2 := hd.2.1
    simp only [rank_nil, rank_node] at hm
    have hlr := rank_ge true l hl
    have hrr := rank_ge true r hr
    simp only [foreachOrder, List.length_append, List.length_cons]
    have e1 := ihl hl (l.rank + 1).toNat (by omega)
    have e2 := ihr hr (r.rank + 1).toNat (by omega)
    by_cases hm1 : m = 1
    · subst hm1
      have : 2 ^ (1 / 2) = 1 := rfl
      omega
    · have hm2 : 2 ≤ m := by omega
      have hp : 2 ^ (m / 2) = 2 ^ ((m - 2) / 2) * 2 := by
        rw [← Nat.pow_succ]; congr 1; omega
      have g1 : 2 ^ ((m - 2) / 2) ≤ 2 ^ ((l.rank + 1).toNat / 2) :=
        Nat.pow_le_pow_right (by decide) (by omega)
      have g2 : 2 ^ ((m - 2) / 2) ≤ 2 ^ ((r.rank + 1).toNat / 2) :=
        Nat.pow_le_pow_right (by decide) (by omega)
      omega

end Verif.Ravl
