import Batteries.Data.List.Perm
import Verif.Ravl.Rank
import Verif.Ravl.Spec
/-! # Properties C08 (ordered-tree lookups are exact) and C09 (balance) -/
set_option linter.unusedSimpArgs false
namespace Verif.Ravl
open Spec
variable {α : Type}

/-- The same requests against the tree of the code. -/
def treeStep (key : α → Nat) (t : Tree α) : Op α → Tree α × Out α
  | .insert x ok =>
    match emplace key ok t x with
    | none => (t, .inserted false)
    | some t' => (t', .inserted true)
  | .remove q =>
    match remove key q t with
    | none => (t, .removed none)
    | some (x, t') => (t', .removed (some x))

/-- A history of requests against the tree. -/
def treeRun (key : α → Nat) (t : Tree α) : List (Op α) → Tree α × List (Out α)
  | [] => (t, [])
  | op :: ops => ((treeRun key (treeStep key t op).1 ops).1,
      (treeStep key t op).2 :: (treeRun key (treeStep key t op).1 ops).2)

/-- List-level description of `emplace`. -/
theorem emplace_spec (key : α → Nat) (ok : Bool) (t : Tree α) (x : α)
    (hs : Sorted key (foreachOrder t)) :
    match emplace key ok t x with
    | none => ok = false ∨ ∃ y ∈ foreachOrder t, key y = key x
    | some t' => ok = true ∧ (∀ y ∈ foreachOrder t, key y ≠ key x) ∧
        ∃ a b, foreachOrder t = a ++ b ∧ foreachOrder t' = a ++ x :: b ∧
          (∀ y ∈ a, key y < key x) ∧ (∀ y ∈ b, key x < key y) := by
  unfold emplace
  cases ok
  · simp
  · simp only [if_true]
    have h := descend_spec key x t [] hs (by simp [pathPre]) (by simp [pathPost])
    cases hd : descend key x t [] with
    | none => rw [hd] at h; exact Or.inr h
    | some p =>
      rw [hd] at h
      obtain ⟨h1, h2, h3⟩ := h
      rw [toList_zip] at h1
      simp only [zip, foreachOrder, List.append_nil] at h1
      refine ⟨trivial, ?_, pathPre p, pathPost p, h1.symm, ?_, h2, h3⟩
      · intro y hy
        rw [← h1, List.mem_append] at hy
        rcases hy with hy | hy
        · have := h2 y hy; omega
        · have := h3 y hy; omega
      · rw [toList_balance]; simp [foreachOrder]

/-- Tree and set agree: increasing traversal and the same elements. -/
def Agree (key : α → Nat) (t : Tree α) (s : List α) : Prop :=
  Sorted key (foreachOrder t) ∧ (∀ y, y ∈ foreachOrder t ↔ y ∈ s) ∧
    (s.Pairwise fun a b => key a ≠ key b)

private theorem key_unique (key : α → Nat) (l : List α) (h : l.Pairwise fun a b => key a ≠ key b)
    (x y : α) (hx : x ∈ l) (hy : y ∈ l) (hk : key x = key y) : x = y := by
  induction l with
  | nil => cases hx
  | cons z l ih =>
    rw [List.pairwise_cons] at h
    rw [List.mem_cons] at hx hy
    rcases hx with rfl | hx <;> rcases hy with rfl | hy
    · rfl
    · exact absurd hk (h.1 _ hy)
    · exact absurd hk.symm (h.1 _ hx)
    · exact ih h.2 hx hy

private theorem agree_step (key : α → Nat) (t : Tree α) (s : List α) (op : Op α)
    (h : Agree key t s) :
    Agree key (treeStep key t op).1 (step key s op).1 ∧
      (treeStep key t op).2 = (step key s op).2 := by
  obtain ⟨hs, hm, hu⟩ := h
  cases op with
  | insert x ok =>
    have he := emplace_spec key ok t x hs
    unfold treeStep step
    simp only
    cases hd : emplace key ok t x with
    | none =>
      rw [hd] at he
      have hc : (ok && s.all fun y => key y != key x) = false := by
        rcases he with rfl | ⟨y, hy, hk⟩
        · simp
        · rw [Bool.and_eq_false_iff]; right
          rw [List.all_eq_false]
          exact ⟨y, (hm y).1 hy, by simp [hk]⟩
      rw [hc]
      exact ⟨⟨hs, hm, hu⟩, rfl⟩
    | some t' =>
      rw [hd] at he
      obtain ⟨rfl, hne, a, b, hab, ht', ha, hb⟩ := he
      have hc : (true && s.all fun y => key y != key x) = true := by
        simp only [Bool.true_and, List.all_eq_true, bne_iff_ne]
        exact fun y hy => hne y ((hm y).2 hy)
      rw [hc]
      refine ⟨⟨?_, ?_, ?_⟩, rfl⟩
      · simp only [if_true]
        rw [ht', Sorted.append_iff, Sorted.cons_iff]
        rw [hab, Sorted.append_iff] at hs
        refine ⟨hs.1, ⟨hb, hs.2.1⟩, ?_⟩
        intro u hu v hv
        rw [List.mem_cons] at hv
        rcases hv with rfl | hv
        · exact ha u hu
        · exact hs.2.2 u hu v hv
      · intro y
        simp only [if_true]
        rw [ht', List.mem_cons, ← hm y, hab]
        simp only [List.mem_append, List.mem_cons]
        constructor
        · rintro (h | h | h)
          · exact Or.inr (Or.inl h)
          · exact Or.inl h
          · exact Or.inr (Or.inr h)
        · rintro (h | h | h)
          · exact Or.inr (Or.inl h)
          · exact Or.inl h
          · exact Or.inr (Or.inr h)
      · simp only [if_true]
        rw [List.pairwise_cons]
        exact ⟨fun y hy => (hne y ((hm y).2 hy)).symm, hu⟩
  | remove q =>
    have he := remove_spec key q t hs
    unfold treeStep step
    simp only
    cases hd : remove key q t with
    | none =>
      rw [hd] at he
      have hall : ∀ y ∈ s, key y ≠ q := fun y hy => he y ((hm y).2 hy)
      have hf : s.filter (fun y => key y != q) = s :=
        List.filter_eq_self.2 fun y hy => by simp [hall y hy]
      have hn : s.find? (fun y => key y == q) = none :=
        List.find?_eq_none.2 fun y hy => by simp [hall y hy]
      rw [hf, hn]
      exact ⟨⟨hs, hm, hu⟩, rfl⟩
    | some p =>
      obtain ⟨x, t'⟩ := p
      rw [hd] at he
      obtain ⟨hk, a, b, hab, ht'⟩ := he
      have hxs : x ∈ s := (hm x).1 (by rw [hab]; simp)
      have hfind : s.find? (fun y => key y == q) = some x := by
        cases hf : s.find? (fun y => key y == q) with
        | none =>
          have := List.find?_eq_none.1 hf x hxs
          simp [hk] at this
        | some z =>
          have h1 := List.find?_some hf
          have h2 := List.mem_of_find?_eq_some hf
          simp only [beq_iff_eq] at h1
          rw [key_unique key s hu z x h2 hxs (by omega)]
      rw [hfind]
      rw [hab, Sorted.append_iff, Sorted.cons_iff] at hs
      obtain ⟨ha, ⟨hxb, hb⟩, hlt⟩ := hs
      refine ⟨⟨?_, ?_, hu.filter _⟩, rfl⟩
      · simp only
        rw [ht', Sorted.append_iff]
        exact ⟨ha, hb, fun u hu v hv => hlt u hu v (List.mem_cons_of_mem _ hv)⟩
      · intro y
        simp only
        rw [ht', List.mem_filter, ← hm y, hab]
        simp only [List.mem_append, List.mem_cons, bne_iff_ne]
        constructor
        · rintro (h | h)
          · have := hlt y h x (by simp); exact ⟨Or.inl h, by omega⟩
          · have := hxb y h; exact ⟨Or.inr (Or.inr h), by omega⟩
        · rintro ⟨h | h | h, hne⟩
          · exact Or.inl h
          · subst h; exact absurd hk hne
          · exact Or.inr h

private theorem agree_run (key : α → Nat) (ops : List (Op α)) (t : Tree α) (s : List α)
    (h : Agree key t s) :
    Agree key (treeRun key t ops).1 (run key s ops).1 ∧
      (treeRun key t ops).2 = (run key s ops).2 := by
  induction ops generalizing t s with
  | nil => exact ⟨h, rfl⟩
  | cons op ops ih =>
    have h1 := agree_step key t s op h
    have h2 := ih _ _ h1.1
    exact ⟨h2.1, by simp only [treeRun, run]; rw [h1.2, h2.2]⟩

theorem answers_of_agree (key : α → Nat) (t : Tree α) (s : List α) (h : Agree key t s)
    (q : Nat) (fl : Pred)
    (hfl : fl ∈ [⟨true, false, false⟩, ⟨false, true, false⟩, ⟨false, false, true⟩,
      ⟨true, true, false⟩, ⟨true, false, true⟩]) :
    Answers key s q fl (find key t q fl) := by
  obtain ⟨hs, hm, hu⟩ := h
  have hG : ∀ eq : Bool, Answers key s q ⟨eq, true, false⟩ (find key t q ⟨eq, true, false⟩) := by
    intro eq
    unfold find
    rw [findLoop_greater key q eq t [] none hs rfl (by simp [pathPost])]
    simp only [pathPost, List.append_nil]
    cases hf : (foreachOrder t).find? (fun y => q < key y || (eq && q == key y)) with
    | none =>
      intro y hy hh
      have := List.find?_eq_none.1 hf y ((hm y).2 hy)
      simp only [Holds] at hh
      simp at this
      rcases hh with ⟨h1, h2⟩ | ⟨_, h2⟩ | ⟨h1, _⟩
      · exact this.2 h1 h2.symm
      · omega
      · cases h1
    | some x =>
      have h1 := List.find?_some hf
      rw [List.find?_eq_some_iff_append] at hf
      obtain ⟨_, as, bs, hab, hno⟩ := hf
      simp at h1
      refine ⟨(hm x).1 (by rw [hab]; simp), ?_, ?_⟩
      · rcases h1 with h1 | ⟨h1, h2⟩
        · exact Or.inr (Or.inl ⟨rfl, h1⟩)
        · exact Or.inl ⟨h1, h2.symm⟩
      · intro y hy hh
        refine ⟨fun _ => ?_, fun h => by cases h⟩
        have hy' := (hm y).2 hy
        rw [hab, List.mem_append, List.mem_cons] at hy'
        rw [hab, Sorted.append_iff, Sorted.cons_iff] at hs
        rcases hy' with hy' | rfl | hy'
        · have := hno y hy'
          simp at this
          simp only [Holds] at hh
          rcases hh with ⟨h1, h2⟩ | ⟨_, h2⟩ | ⟨h1, _⟩
          · rcases this.2 with h | h
            · rw [h] at h1; cases h1
            · exact absurd h2.symm h
          · omega
          · cases h1
        · exact Nat.le_refl _
        · exact Nat.le_of_lt (hs.2.1.1 y hy')
  have hL : ∀ eq : Bool, Answers key s q ⟨eq, false, true⟩ (find key t q ⟨eq, false, true⟩) := by
    intro eq
    unfold find
    rw [findLoop_less key q eq t [] none hs rfl (by simp [pathPre])]
    simp only [pathPre, List.nil_append]
    cases hf : (foreachOrder t).reverse.find? (fun y => key y < q || (eq && q == key y)) with
    | none =>
      intro y hy hh
      have := List.find?_eq_none.1 hf y (List.mem_reverse.2 ((hm y).2 hy))
      simp only [Holds] at hh
      simp at this
      rcases hh with ⟨h1, h2⟩ | ⟨h1, _⟩ | ⟨_, h2⟩
      · exact this.2 h1 h2.symm
      · cases h1
      · omega
    | some x =>
      have h1 := List.find?_some hf
      rw [List.find?_eq_some_iff_append] at hf
      obtain ⟨_, as, bs, hab, hno⟩ := hf
      have hab' : foreachOrder t = bs.reverse ++ x :: as.reverse := by
        rw [← List.reverse_reverse (foreachOrder t), hab]; simp
      simp at h1
      refine ⟨(hm x).1 (by rw [hab']; simp), ?_, ?_⟩
      · rcases h1 with h1 | ⟨h1, h2⟩
        · exact Or.inr (Or.inr ⟨rfl, h1⟩)
        · exact Or.inl ⟨h1, h2.symm⟩
      · intro y hy hh
        refine ⟨fun h => (by cases h), fun _ => ?_⟩
        have hy' := (hm y).2 hy
        rw [hab', List.mem_append, List.mem_cons] at hy'
        rw [hab', Sorted.append_iff, Sorted.cons_iff] at hs
        rcases hy' with hy' | rfl | hy'
        · exact Nat.le_of_lt (hs.2.2 y hy' x (by simp))
        · exact Nat.le_refl _
        · have := hno y (List.mem_reverse.1 hy')
          simp at this
          simp only [Holds] at hh
          rcases hh with ⟨h1, h2⟩ | ⟨h1, _⟩ | ⟨_, h2⟩
          · rcases this.2 with h | h
            · rw [h] at h1; cases h1
            · exact absurd h2.symm h
          · cases h1
          · omega
  simp only [List.mem_cons, List.not_mem_nil, or_false] at hfl
  rcases hfl with rfl | rfl | rfl | rfl | rfl
  · unfold find
    rw [findLoop_equal key q t [] hs]
    cases hf : (foreachOrder t).find? (fun y => decide (q = key y)) with
    | none =>
      intro y hy hh
      have := List.find?_eq_none.1 hf y ((hm y).2 hy)
      simp at this
      rcases hh with ⟨_, h2⟩ | ⟨h1, _⟩ | ⟨h1, _⟩
      · exact this h2.symm
      · cases h1
      · cases h1
    | some x =>
      have h1 := List.find?_some hf
      simp at h1
      exact ⟨(hm x).1 (List.mem_of_find?_eq_some hf), Or.inl ⟨rfl, h1.symm⟩,
        fun y _ _ => ⟨fun h => (by cases h), fun h => (by cases h)⟩⟩
  · exact hG false
  · exact hL false
  · exact hG true
  · exact hL true

/-- **C08.** After any history of insertions (including failing ones) and removals on an
empty tree: every request was answered as the ordered set answers it; every lookup with
predicate =, <, >, ≤ or ≥ returns the set's answer; the traversal visits exactly the elements
of the set, each once, in strictly increasing key order; first/last are its ends. -/
theorem C08_orderedTree (key : α → Nat) (ops : List (Op α)) :
    let t := (treeRun key .nil ops).1
    let s := (run key [] ops).1
    (treeRun key .nil ops).2 = (run key [] ops).2 ∧
    (foreachOrder t).Pairwise (fun a b => key a < key b) ∧
    (∀ y, y ∈ foreachOrder t ↔ y ∈ s) ∧
    (∀ q, ∀ fl ∈ [⟨true, false, false⟩, ⟨false, true, false⟩, ⟨false, false, true⟩,
        ⟨true, true, false⟩, ⟨true, false, true⟩], Answers key s q fl (find key t q fl)) ∧
    first t = (foreachOrder t).head? ∧ last t = (foreachOrder t).getLast? := by
  have h := agree_run key ops (.nil : Tree α) [] ⟨List.Pairwise.nil, by simp [foreachOrder],
    List.Pairwise.nil⟩
  exact ⟨h.2, h.1.1, h.1.2.1, fun q fl hfl => answers_of_agree key _ _ h.1 q fl hfl,
    typeMost_left _, typeMost_right _⟩

/-- A history with a duplicate, a failing allocation, a two-child removal and rotations. -/
example :
    let ops : List (Op Nat) := [.insert 5 true, .insert 3 true, .insert 4 true, .insert 9 true,
      .insert 5 true, .insert 7 false, .insert 10 true, .insert 1 true, .remove 4, .remove 8]
    (treeRun id .nil ops).2 = [.inserted true, .inserted true, .inserted true, .inserted true,
      .inserted false, .inserted false, .inserted true, .inserted true, .removed (some 4),
      .removed none] ∧
    foreachOrder (treeRun id .nil ops).1 = [1, 3, 5, 9, 10] ∧
    find id (treeRun id .nil ops).1 6 ⟨false, true, false⟩ = some 9 ∧
    find id (treeRun id .nil ops).1 5 ⟨false, false, true⟩ = some 3 ∧
    find id (treeRun id .nil ops).1 5 ⟨true, false, true⟩ = some 5 ∧
    find id (treeRun id .nil ops).1 11 ⟨true, true, false⟩ = none := by decide

/-- The insertions of a list of elements, none failing on the host side. -/
def insertAll (key : α → Nat) (xs : List α) : Tree α :=
  (treeRun key .nil (xs.map fun x => .insert x true)).1

private theorem rankOK_run (b : Bool) (key : α → Nat) (ops : List (Op α)) (t : Tree α)
    (hb : b = true → ∀ op ∈ ops, ∃ x ok, op = .insert x ok) (h : RankOK b t) :
    RankOK b (treeRun key t ops).1 := by
  induction ops generalizing t with
  | nil => exact h
  | cons op ops ih =>
    refine ih _ (fun hb' op hop => hb hb' op (List.mem_cons_of_mem _ hop)) ?_
    cases op with
    | insert x ok =>
      simp only [treeStep]
      cases he : emplace key ok t x with
      | none => exact h
      | some t' => exact RankOK_emplace b key ok t t' x h he
    | remove q =>
      cases b with
      | true => obtain ⟨x, ok, hx⟩ := hb rfl _ (List.mem_cons_self); cases hx
      | false =>
        simp only [treeStep]
        cases he : remove key q t with
        | none => exact h
        | some p => exact (RankOK_remove key q t h p.1 p.2 he).1

/-- **C09.** After any sequence of insertions into an empty tree, the number of nodes on the
longest path (so the number of comparisons of any lookup) is at most `2·log₂(n+1)+1`, where `n`
is the number of elements stored; stated without logarithms. -/
theorem C09_height (key : α → Nat) (ops : List (Op α))
    (hins : ∀ op ∈ ops, ∃ x ok, op = .insert x ok) :
    2 ^ (height (treeRun key .nil ops).1 / 2) ≤ (run key [] ops).1.length + 1 := by
  have hr : RankOK true (treeRun key (.nil : Tree α) ops).1 :=
    rankOK_run true key ops .nil (fun _ => hins) trivial
  have hlen : (foreachOrder (treeRun key (.nil : Tree α) ops).1).length
      ≤ (run key [] ops).1.length := by
    have h := agree_run key ops (.nil : Tree α) [] ⟨List.Pairwise.nil, by simp [foreachOrder],
      List.Pairwise.nil⟩
    have hnd : (foreachOrder (treeRun key (.nil : Tree α) ops).1).Nodup :=
      h.1.1.imp (fun {a b} hab he => by subst he; omega)
    exact (List.subperm_of_subset hnd (fun y hy => (h.1.2.1 y).1 hy)).length_le
  have h1 := height_le_rank true _ hr
  have h2 := rank_ge true _ hr
  have h3 := size_ge _ hr ((treeRun key (.nil : Tree α) ops).1.rank + 1).toNat (by omega)
  have h4 : 2 ^ (height (treeRun key (.nil : Tree α) ops).1 / 2) ≤
      2 ^ (((treeRun key (.nil : Tree α) ops).1.rank + 1).toNat / 2) :=
    Nat.pow_le_pow_right (by decide) (by omega)
  omega

/-- Ascending insertion, the worst case of an unbalanced tree: 12 elements, height 4. -/
example : height (insertAll id [1, 2, 3, 4, 5, 6, 7, 8, 9, 10, 11, 12]) = 4 := by decide

end Verif.Ravl
