import Verif.Tracker.Lemmas
/-! # The tracker's operations preserve the invariant -/
set_option linter.unusedSimpArgs false
namespace Verif.Tracker
open Mem

instance (r : Region) (x : Nat) : Decidable (Has r x) :=
  inferInstanceAs (Decidable (_ ∧ _))

theorem setLevel_lv (st : St) (l i : Nat) (es : List Entry) :
    (setLevel st l es).lv i = if i = l then es else st.lv i := rfl

theorem cnt_append (l1 l2 : List Node) (l : Nat) (r : Region) :
    cnt (l1 ++ l2) l r = cnt l1 l r + cnt l2 l r := by simp [cnt]

theorem cnt_cons (n : Node) (G : List Node) (l : Nat) (r : Region) :
    cnt (n :: G) l r = (if n.level = l ∧ Has r n.ptr then 1 else 0) + cnt G l r := by
  unfold cnt
  rw [List.countP_cons]
  by_cases h : n.level = l ∧ Has r n.ptr
  · rw [if_pos h, if_pos (by simp [h.1, inR_iff.2 h.2])]; omega
  · rw [if_neg h, if_neg]
    · omega
    · simp only [Bool.and_eq_true, decide_eq_true_eq, inR_iff]; exact h

/-- Where a new region goes: level and parent. -/
def Place (G : List Node) (x lvl : Nat) (parent : Option Nat) : Prop :=
  ((∀ n ∈ G, ¬ Has n.rg x) ∧ lvl = 0 ∧ parent = none) ∨
  (∃ n, Deepest G x n ∧ n.level < 7 ∧ lvl = n.level + 1 ∧ parent = some n.ptr)

theorem Place.lt {G : List Node} {x lvl : Nat} {parent : Option Nat} (h : Place G x lvl parent) :
    ∀ m ∈ G, Has m.rg x → m.level < lvl := by
  rcases h with ⟨h1, _⟩ | ⟨n, h1, _, h3, _⟩
  · intro m hm hx; exact absurd hx (h1 m hm)
  · intro m hm hx; have := h1.max m hm hx; omega

theorem mem_mid {α : Type} {x a : α} {l1 l2 : List α} : x ∈ l1 ++ a :: l2 ↔ x = a ∨ x ∈ l1 ++ l2 := by
  simp only [List.mem_append, List.mem_cons]
  constructor
  · rintro (h | h | h)
    · exact Or.inr (Or.inl h)
    · exact Or.inl h
    · exact Or.inr (Or.inr h)
  · rintro (h | h | h)
    · exact Or.inr (Or.inl h)
    · exact Or.inl h
    · exact Or.inr (Or.inr h)

theorem pw_mid {α : Type} {R : α → α → Prop} {a : α} {l1 l2 : List α} :
    (l1 ++ a :: l2).Pairwise R ↔
      (l1 ++ l2).Pairwise R ∧ (∀ b ∈ l1, R b a) ∧ (∀ b ∈ l2, R a b) := by
  rw [List.pairwise_append, List.pairwise_cons, List.pairwise_append]
  constructor
  · rintro ⟨h1, ⟨h2, h3⟩, h4⟩
    exact ⟨⟨h1, h3, fun x hx y hy => h4 x hx y (by simp [hy])⟩, fun b hb => h4 b hb a (by simp), h2⟩
  · rintro ⟨⟨h1, h2, h3⟩, h4, h5⟩
    refine ⟨h1, ⟨h5, h2⟩, ?_⟩
    intro x hx y hy
    rw [List.mem_cons] at hy
    rcases hy with rfl | hy
    · exact h4 x hx
    · exact h3 x hx y hy

theorem bumpParent_lv (st : St) (level : Nat) (k : Nat) (f : Nat → Nat) (i : Nat) :
    (bumpParent st level (some k) f).lv i =
      if i = level - 1 then
        (st.lv (level - 1)).map fun e => if e.key = k then { e with nch := f e.nch } else e
      else st.lv i := rfl

/-- Inserting a region at its place. -/
theorem inv_insert {st : St} {l1 l2 : List Node} {x size pool lvl : Nat} {parent : Option Nat}
    (h : Inv st (l1 ++ l2)) (hx : 0 < x) (hs : 0 < size) (hb : x + size < 2 ^ 64)
    (h1 : ∀ b ∈ l1, Disjoint b.rg (x, size))
    (h2 : ∀ a ∈ l2, Disjoint (x, size) a.rg ∨ Inside (x, size) a.rg)
    (hp : Place (l1 ++ l2) x lvl parent) :
    (addAtLevel st lvl pool x size parent true).2 = .success ∧
    Inv (addAtLevel st lvl pool x size parent true).1 (l1 ++ ⟨x, size, pool, lvl⟩ :: l2) := by
  have hself : Has (x, size) x := ⟨Nat.le_refl _, by show x < x + size; omega⟩
  have hnotin : ∀ n ∈ l1 ++ l2, Has (x, size) n.ptr → n.level < lvl := by
    intro n hn hin
    have hno := h.ok n hn
    rw [List.mem_append] at hn
    rcases hn with hn | hn
    · exact (h1 n hn n.ptr ⟨has_self hno, hin⟩).elim
    · rcases h2 n hn with h3 | h3
      · exact (h3 n.ptr ⟨hin, has_self hno⟩).elim
      · exact hp.lt n (by simp [hn]) (h3 x hself)
  have hkey : hasKey (st.lv lvl) x = false := by
    cases hk : hasKey (st.lv lvl) x with
    | false => rfl
    | true =>
      unfold hasKey at hk
      rw [List.any_eq_true] at hk
      obtain ⟨e, he, hek⟩ := hk
      simp only [beq_iff_eq] at hek
      have hm := (h.sound lvl e he).1
      have := hp.lt _ hm (by
        have := has_self (h.ok _ hm)
        rw [← hek]
        exact this)
      simp at this
  have hlvl8 : lvl < 8 := by
    rcases hp with ⟨_, h3, _⟩ | ⟨n, _, h3, h4, _⟩ <;> omega
  have hres : addAtLevel st lvl pool x size parent true =
      (bumpParent (setLevel st lvl (⟨x, pool, size, 0⟩ :: st.lv lvl)) lvl parent (· + 1), .success) := by
    unfold addAtLevel
    rw [if_neg (by simp), hkey]; simp
  rw [hres]
  refine ⟨rfl, ?_⟩
  have hcntne : ∀ l r, l ≠ lvl →
      cnt (l1 ++ ⟨x, size, pool, lvl⟩ :: l2) l r = cnt (l1 ++ l2) l r := by
    intro l r hne
    rw [cnt_append, cnt_cons, cnt_append, if_neg (by rintro ⟨h3, _⟩; exact hne h3.symm)]
    omega
  have hcnt : ∀ r, cnt (l1 ++ ⟨x, size, pool, lvl⟩ :: l2) lvl r =
      cnt (l1 ++ l2) lvl r + if Has r x then 1 else 0 := by
    intro r
    rw [cnt_append, cnt_cons, cnt_append]
    by_cases hr : Has r x
    · rw [if_pos ⟨rfl, hr⟩, if_pos hr]; omega
    · rw [if_neg (by rintro ⟨_, h3⟩; exact hr h3), if_neg hr]; omega
  have hnew0 : cnt (l1 ++ ⟨x, size, pool, lvl⟩ :: l2) (lvl + 1) (x, size) = 0 := by
    rw [hcntne _ _ (by omega)]
    unfold cnt
    rw [List.countP_eq_zero]
    intro n hn hc
    simp only [Bool.and_eq_true, decide_eq_true_eq, inR_iff] at hc
    have := hnotin n hn hc.2
    omega
  exact {
    lt8 := by
      intro n hn
      rw [mem_mid] at hn
      rcases hn with rfl | hn
      · exact hlvl8
      · exact h.lt8 n hn
    ok := by
      intro n hn
      rw [mem_mid] at hn
      rcases hn with rfl | hn
      · exact ⟨hx, hs, hb⟩
      · exact h.ok n hn
    ord := by
      rw [pw_mid]
      refine ⟨h.ord, fun b hb => Or.inl (h1 b hb), fun a ha => ?_⟩
      rcases h2 a ha with h3 | h3
      · exact Or.inl h3
      · exact Or.inr ⟨h3, hp.lt a (by simp [ha]) (h3 x hself)⟩
    par := by
      intro n hn
      rw [mem_mid] at hn
      rcases hn with rfl | hn
      · rcases hp with ⟨_, h3, _⟩ | ⟨n, h3, _, h4, _⟩
        · exact Or.inl h3
        · refine Or.inr ⟨n, mem_mid.2 (Or.inr h3.mem), h4.symm, ?_⟩
          have hm := h3.mem
          rw [List.mem_append] at hm
          rcases hm with hm | hm
          · exact (h1 n hm x ⟨h3.has, hself⟩).elim
          · rcases h2 n hm with h5 | h5
            · exact (h5 x ⟨hself, h3.has⟩).elim
            · exact h5
      · rcases h.par n hn with h3 | ⟨m, hm, h4⟩
        · exact Or.inl h3
        · exact Or.inr ⟨m, mem_mid.2 (Or.inr hm), h4⟩
    sound := by
      intro l e he
      have hold : ∀ e0 ∈ st.lv l, l + 1 ≠ lvl → ⟨e0.key, e0.size, e0.pool, l⟩ ∈
          l1 ++ (⟨x, size, pool, lvl⟩ : Node) :: l2 ∧
          e0.nch = cnt (l1 ++ ⟨x, size, pool, lvl⟩ :: l2) (l + 1) (e0.key, e0.size) := by
        intro e0 he0 hne
        obtain ⟨h3, h4⟩ := h.sound l e0 he0
        exact ⟨mem_mid.2 (Or.inr h3), by rw [hcntne _ _ hne]; exact h4⟩
      rcases hp with ⟨hno, h3, h4⟩ | ⟨n, hd, h3, h4, h5⟩
      · subst h4
        change e ∈ (setLevel st lvl (⟨x, pool, size, 0⟩ :: st.lv lvl)).lv l at he
        rw [setLevel_lv] at he
        by_cases hl : l = lvl
        · rw [if_pos hl] at he
          rw [List.mem_cons] at he
          rcases he with rfl | he
          · exact ⟨mem_mid.2 (Or.inl (by simp [hl])), by rw [hl]; exact hnew0.symm⟩
          · exact hold e (by rw [hl]; exact he) (by omega)
        · rw [if_neg hl] at he
          exact hold e he (by omega)
      · subst h5
        rw [bumpParent_lv] at he
        by_cases hl : l = lvl - 1
        · rw [if_pos hl, setLevel_lv, if_neg (by omega)] at he
          rw [List.mem_map] at he
          obtain ⟨e0, he0, rfl⟩ := he
          have he0' : e0 ∈ st.lv l := by rw [hl]; exact he0
          obtain ⟨h6, h7⟩ := h.sound l e0 he0'
          have hll : l + 1 = lvl := by omega
          have hnl : n.level = l := by omega
          by_cases hk : e0.key = n.ptr
          · rw [if_pos hk]
            have hmn := uniq h h6 hd.mem (by simp [hnl]) (x := n.ptr)
              (by rw [← hk]; exact has_self (h.ok _ h6))
              (has_self (h.ok _ hd.mem))
            have hhas : Has (e0.key, e0.size) x := by
              have := hd.has
              rw [← hmn] at this
              exact this
            refine ⟨mem_mid.2 (Or.inr h6), ?_⟩
            show e0.nch + 1 = _
            rw [hll, hcnt, if_pos hhas, h7, hll]
          · rw [if_neg hk]
            refine ⟨mem_mid.2 (Or.inr h6), ?_⟩
            have hnh : ¬ Has (e0.key, e0.size) x := by
              intro hhas
              have hmn := uniq h h6 hd.mem (by simp [hnl]) hhas hd.has
              exact hk (congrArg Node.ptr hmn)
            rw [hll, hcnt, if_neg hnh, h7, hll]
            rfl
        · rw [if_neg hl, setLevel_lv] at he
          by_cases hl2 : l = lvl
          · rw [if_pos hl2] at he
            rw [List.mem_cons] at he
            rcases he with rfl | he
            · exact ⟨mem_mid.2 (Or.inl (by simp [hl2])), by rw [hl2]; exact hnew0.symm⟩
            · exact hold e (by rw [hl2]; exact he) (by omega)
          · rw [if_neg hl2] at he
            exact hold e he (by omega)
    complete := by
      intro n hn
      have hbase : ∃ e ∈ (setLevel st lvl (⟨x, pool, size, 0⟩ :: st.lv lvl)).lv n.level,
          e.key = n.ptr := by
        rw [mem_mid] at hn
        rcases hn with rfl | hn
        · exact ⟨⟨x, pool, size, 0⟩, by simp [setLevel_lv], rfl⟩
        · obtain ⟨e, he, hk⟩ := h.complete n hn
          refine ⟨e, ?_, hk⟩
          rw [setLevel_lv]
          split
          · rename_i h3; rw [h3] at he; simp [he]
          · exact he
      obtain ⟨e, he, hk⟩ := hbase
      cases parent with
      | none => exact ⟨e, he, hk⟩
      | some k =>
        rw [bumpParent_lv]
        by_cases h3 : n.level = lvl - 1
        · rw [if_pos h3]
          rw [h3] at he
          refine ⟨_, List.mem_map_of_mem he, ?_⟩
          split <;> exact hk
        · rw [if_neg h3]
          exact ⟨e, he, hk⟩ }

/-- Facts about a live allocation without newer ones inside. -/
theorem leaf_facts {st : St} {l1 l2 : List Node} {a : Node} (h : Inv st (l1 ++ a :: l2))
    (h1 : ∀ b ∈ l1, Disjoint b.rg a.rg) :
    (∀ x, Has a.rg x → Deepest (l1 ++ a :: l2) x a) ∧
    cnt (l1 ++ a :: l2) (a.level + 1) a.rg = 0 ∧
    (∀ n ∈ l1 ++ l2, Has a.rg n.ptr → n.level < a.level) ∧
    (∀ n ∈ l1 ++ l2, ∀ x, Has a.rg x → Has n.rg x → n.level < a.level ∧ Inside a.rg n.rg) := by
  have ham : a ∈ l1 ++ a :: l2 := by simp
  have hord := (pw_mid.1 h.ord).2.2
  have key : ∀ n ∈ l1 ++ l2, ∀ x, Has a.rg x → Has n.rg x → n.level < a.level ∧ Inside a.rg n.rg := by
    intro n hn x hax hnx
    rw [List.mem_append] at hn
    rcases hn with hn | hn
    · exact (h1 n hn x ⟨hnx, hax⟩).elim
    · rcases hord n hn with h3 | h3
      · exact (h3 x ⟨hax, hnx⟩).elim
      · exact ⟨h3.2, h3.1⟩
  have key2 : ∀ n ∈ l1 ++ l2, Has a.rg n.ptr → n.level < a.level := by
    intro n hn hx
    exact (key n hn n.ptr hx (has_self (h.ok n (mem_mid.2 (Or.inr hn))))).1
  refine ⟨?_, ?_, key2, key⟩
  · intro x hx
    refine ⟨ham, hx, ?_⟩
    intro m hm hmx
    rw [mem_mid] at hm
    rcases hm with rfl | hm
    · exact Nat.le_refl _
    · have := (key m hm x hx hmx).1; omega
  · unfold cnt
    rw [List.countP_eq_zero]
    intro n hn hc
    simp only [Bool.and_eq_true, decide_eq_true_eq, inR_iff] at hc
    rw [mem_mid] at hn
    rcases hn with rfl | hn
    · omega
    · have := key2 n hn hc.2; omega

/-- `get_most_nested_alloc_segment` finds such an allocation. -/
theorem mostNested_leaf {st : St} {l1 l2 : List Node} {a : Node} (h : Inv st (l1 ++ a :: l2))
    (h1 : ∀ b ∈ l1, Disjoint b.rg a.rg) (nc : Bool) :
    ∃ e p, mostNested st a.ptr nc = some (a.level, p, e) ∧ Ent (l1 ++ a :: l2) a e ∧ e.nch = 0 ∧
      Place (l1 ++ l2) a.ptr a.level p ∧
      (∀ k, p = some k → ∃ m ∈ l1 ++ l2, m.level + 1 = a.level ∧ Inside a.rg m.rg ∧ k = m.ptr) := by
  obtain ⟨f1, f2, f3, f4⟩ := leaf_facts h h1
  have ham : a ∈ l1 ++ a :: l2 := by simp
  have hself := has_self (h.ok a ham)
  have hd := f1 a.ptr hself
  obtain ⟨e, hent, hcase⟩ := nestedLoop_spec h hd 8 0 none none (by omega) (by omega)
  rcases hcase with ⟨h0, par', hl, hpc⟩ | ⟨h0, _⟩
  · have hm : mostNested st a.ptr nc = some (a.level, par', e) := by
      unfold mostNested
      rw [hl]
      simp only
      rw [if_neg (by simp [hent.1]), if_neg (by rintro ⟨_, h3⟩; omega)]
    have hin8 := h.lt8 a ham
    refine ⟨e, par', hm, hent, h0, ?_, ?_⟩
    · rcases hpc with ⟨h3, h4⟩ | ⟨h3, m, hm, h5, h6, h7⟩
      · refine Or.inl ⟨?_, h3, h4⟩
        intro n hn hx
        have := (f4 n hn a.ptr hself hx).1
        omega
      · rw [mem_mid] at hm
        rcases hm with rfl | hm
        · omega
        · refine Or.inr ⟨m, ⟨hm, h6, ?_⟩, by omega, h5.symm, h7⟩
          intro n hn hx
          have := (f4 n hn a.ptr hself hx).1
          omega
    · intro k hk
      rcases hpc with ⟨h3, h4⟩ | ⟨h3, m, hm, h5, h6, h7⟩
      · rw [h4] at hk; cases hk
      · rw [mem_mid] at hm
        rcases hm with rfl | hm
        · omega
        · rw [hk] at h7
          cases h7
          exact ⟨m, hm, h5, (f4 m hm a.ptr hself h6).2, rfl⟩
  · exfalso
    apply h0
    rw [hent.2.2.2]
    exact f2

/-- Removing such an allocation. -/
theorem inv_remove {st : St} {l1 l2 : List Node} {a : Node} (h : Inv st (l1 ++ a :: l2))
    (h1 : ∀ b ∈ l1, Disjoint b.rg a.rg) :
    (remove st a.ptr).2 = .success ∧ Inv (remove st a.ptr).1 (l1 ++ l2) := by
  obtain ⟨f1, f2, f3, f4⟩ := leaf_facts h h1
  have ham : a ∈ l1 ++ a :: l2 := by simp
  have hself := has_self (h.ok a ham)
  obtain ⟨e, p, hm, hent, h0, hpl, hpk⟩ := mostNested_leaf h h1 true
  have hres : remove st a.ptr = (bumpParent (setLevel st a.level
      ((st.lv a.level).filter fun e => e.key ≠ a.ptr)) a.level p (· - 1), .success) := by
    unfold remove
    rw [hm]
  rw [hres]
  refine ⟨rfl, ?_⟩
  have hcntne : ∀ l r, l ≠ a.level → cnt (l1 ++ a :: l2) l r = cnt (l1 ++ l2) l r := by
    intro l r hne
    rw [cnt_append, cnt_cons, cnt_append, if_neg (by rintro ⟨h3, _⟩; exact hne h3.symm)]
    omega
  have hcnt : ∀ r, cnt (l1 ++ a :: l2) a.level r =
      cnt (l1 ++ l2) a.level r + if Has r a.ptr then 1 else 0 := by
    intro r
    rw [cnt_append, cnt_cons, cnt_append]
    by_cases hr : Has r a.ptr
    · rw [if_pos ⟨rfl, hr⟩, if_pos hr]; omega
    · rw [if_neg (by rintro ⟨_, h3⟩; exact hr h3), if_neg hr]; omega
  -- entries other than that of `a` belong to the remaining nodes
  have hrest : ∀ l, ∀ e0 ∈ st.lv l, (l ≠ a.level ∨ e0.key ≠ a.ptr) →
      (⟨e0.key, e0.size, e0.pool, l⟩ : Node) ∈ l1 ++ l2 := by
    intro l e0 he0 hne
    have hm := (h.sound l e0 he0).1
    rw [mem_mid] at hm
    rcases hm with hm | hm
    · exfalso
      have e1 : e0.key = a.ptr := congrArg Node.ptr hm
      have e2 : l = a.level := congrArg Node.level hm
      rcases hne with h3 | h3
      · exact h3 e2
      · exact h3 e1
    · exact hm
  exact {
    lt8 := fun n hn => h.lt8 n (mem_mid.2 (Or.inr hn))
    ok := fun n hn => h.ok n (mem_mid.2 (Or.inr hn))
    ord := (pw_mid.1 h.ord).1
    par := by
      intro n hn
      rcases h.par n (mem_mid.2 (Or.inr hn)) with h3 | ⟨m, hm, h4, h5⟩
      · exact Or.inl h3
      · rw [mem_mid] at hm
        rcases hm with rfl | hm
        · exfalso
          have := f3 n hn (h5 _ (has_self (h.ok n (mem_mid.2 (Or.inr hn)))))
          omega
        · exact Or.inr ⟨m, hm, h4, h5⟩
    sound := by
      intro l e' he'
      have hold : ∀ e0 ∈ st.lv l, l + 1 ≠ a.level → (l ≠ a.level ∨ e0.key ≠ a.ptr) →
          (⟨e0.key, e0.size, e0.pool, l⟩ : Node) ∈ l1 ++ l2 ∧
          e0.nch = cnt (l1 ++ l2) (l + 1) (e0.key, e0.size) := by
        intro e0 he0 hne hnk
        refine ⟨hrest l e0 he0 hnk, ?_⟩
        rw [← hcntne _ _ hne]
        exact (h.sound l e0 he0).2
      have hlev : ∀ l, ∀ e0 ∈ (setLevel st a.level ((st.lv a.level).filter fun e => e.key ≠ a.ptr)).lv l,
          e0 ∈ st.lv l ∧ (l ≠ a.level ∨ e0.key ≠ a.ptr) := by
        intro l e0 he0
        rw [setLevel_lv] at he0
        by_cases h3 : l = a.level
        · rw [if_pos h3, List.mem_filter] at he0
          rw [h3]
          exact ⟨he0.1, Or.inr (by simpa using he0.2)⟩
        · rw [if_neg h3] at he0
          exact ⟨he0, Or.inl h3⟩
      rcases hpl with ⟨hno, h3, h4⟩ | ⟨n, hd, h3, h4, h5⟩
      · subst h4
        obtain ⟨h5, h6⟩ := hlev l e' he'
        exact hold e' h5 (by omega) h6
      · subst h5
        rw [bumpParent_lv] at he'
        by_cases hl : l = a.level - 1
        · rw [if_pos hl, setLevel_lv, if_neg (by omega)] at he'
          rw [List.mem_map] at he'
          obtain ⟨e0, he0, rfl⟩ := he'
          have he0' : e0 ∈ st.lv l := by rw [hl]; exact he0
          have h6 := hrest l e0 he0' (Or.inl (by omega))
          have h7 := (h.sound l e0 he0').2
          have hll : l + 1 = a.level := by omega
          have hnl : n.level = l := by omega
          rw [hll, hcnt] at h7
          have h6' := mem_mid (a := a).2 (Or.inr h6)
          have hn' := mem_mid (a := a).2 (Or.inr hd.mem)
          by_cases hk : e0.key = n.ptr
          · rw [if_pos hk]
            have hmn := uniq h h6' hn' (by simp [hnl]) (x := n.ptr)
              (by rw [← hk]; exact has_self (h.ok _ h6'))
              (has_self (h.ok _ hn'))
            have hhas : Has (e0.key, e0.size) a.ptr := by
              have := hd.has
              rw [← hmn] at this
              exact this
            rw [if_pos hhas] at h7
            refine ⟨h6, ?_⟩
            show e0.nch - 1 = _
            rw [hll]
            simp only
            omega
          · rw [if_neg hk]
            rw [if_neg] at h7
            · exact ⟨h6, by rw [hll]; omega⟩
            · intro hhas
              have hmn := uniq h h6' hn' (by simp [hnl]) hhas hd.has
              exact hk (congrArg Node.ptr hmn)
        · rw [if_neg hl] at he'
          obtain ⟨h6, h7⟩ := hlev l e' he'
          exact hold e' h6 (by omega) h7
    complete := by
      intro n hn
      have hbase : ∃ e0 ∈ (setLevel st a.level ((st.lv a.level).filter fun e => e.key ≠ a.ptr)).lv n.level,
          e0.key = n.ptr := by
        obtain ⟨e0, he0, hk⟩ := h.complete n (mem_mid.2 (Or.inr hn))
        refine ⟨e0, ?_, hk⟩
        rw [setLevel_lv]
        split
        · rename_i h3
          rw [List.mem_filter]
          rw [h3] at he0
          refine ⟨he0, ?_⟩
          simp only [decide_eq_true_eq]
          intro hka
          have hnm := mem_mid (a := a).2 (Or.inr hn)
          have : n.ptr = a.ptr := by rw [← hk, hka]
          have := f3 n hn (by rw [this]; exact hself)
          omega
        · exact he0
      obtain ⟨e0, he0, hk⟩ := hbase
      cases p with
      | none => exact ⟨e0, he0, hk⟩
      | some k =>
        rw [bumpParent_lv]
        by_cases h3 : n.level = a.level - 1
        · rw [if_pos h3]
          rw [h3] at he0
          refine ⟨_, List.mem_map_of_mem he0, ?_⟩
          split <;> exact hk
        · rw [if_neg h3]
          exact ⟨e0, he0, hk⟩ }

theorem hasKey_of_mem {l : List Entry} {e : Entry} (h : e ∈ l) : hasKey l e.key = true := by
  unfold hasKey
  rw [List.any_eq_true]
  exact ⟨e, h, by simp⟩

/-- Replacing such an allocation by one that starts at the same address and is not longer. -/
theorem inv_replace {st : St} {l1 l2 : List Node} {a : Node} (h : Inv st (l1 ++ a :: l2))
    (h1 : ∀ b ∈ l1, Disjoint b.rg a.rg) (size pool : Nat) (hs : 0 < size) (hle : size ≤ a.size) :
    Inv (setLevel st a.level (upsert (st.lv a.level) ⟨a.ptr, pool, size, 0⟩))
      (l1 ++ ⟨a.ptr, size, pool, a.level⟩ :: l2) := by
  obtain ⟨f1, f2, f3, f4⟩ := leaf_facts h h1
  have ham : a ∈ l1 ++ a :: l2 := by simp
  have hself := has_self (h.ok a ham)
  have haok := h.ok a ham
  obtain ⟨ea, hea, hka⟩ := h.complete a ham
  have hup : upsert (st.lv a.level) ⟨a.ptr, pool, size, 0⟩ =
      (st.lv a.level).map fun f => if f.key = a.ptr then ⟨a.ptr, pool, size, 0⟩ else f := by
    unfold upsert
    rw [if_pos (by show hasKey _ a.ptr = true; rw [← hka]; exact hasKey_of_mem hea)]
  rw [hup]
  have hins : Inside (a.ptr, size) a.rg := inside_of (Nat.le_refl _)
    (by show a.ptr + size ≤ a.ptr + a.size; omega)
  have hcnt : ∀ l r, cnt (l1 ++ ⟨a.ptr, size, pool, a.level⟩ :: l2) l r = cnt (l1 ++ a :: l2) l r := by
    intro l r
    rw [cnt_append, cnt_cons, cnt_append, cnt_cons]
  exact {
    lt8 := by
      intro n hn
      rw [mem_mid] at hn
      rcases hn with rfl | hn
      · exact h.lt8 a ham
      · exact h.lt8 n (mem_mid.2 (Or.inr hn))
    ok := by
      intro n hn
      rw [mem_mid] at hn
      rcases hn with rfl | hn
      · exact ⟨haok.ptr, hs, by have := haok.bound; show a.ptr + size < 2 ^ 64; omega⟩
      · exact h.ok n (mem_mid.2 (Or.inr hn))
    ord := by
      obtain ⟨g1, g2, g3⟩ := pw_mid.1 h.ord
      rw [pw_mid]
      refine ⟨g1, fun b hb => Or.inl (disjoint_of_inside (h1 b hb) (fun _ h => h) hins), ?_⟩
      intro b hb
      rcases g3 b hb with h3 | h3
      · exact Or.inl (disjoint_of_inside h3 hins (fun _ h => h))
      · exact Or.inr ⟨fun x hx => h3.1 x (hins x hx), h3.2⟩
    par := by
      intro n hn
      rw [mem_mid] at hn
      rcases hn with rfl | hn
      · rcases h.par a ham with h3 | ⟨m, hm, h4, h5⟩
        · exact Or.inl h3
        · rw [mem_mid] at hm
          rcases hm with rfl | hm
          · omega
          · exact Or.inr ⟨m, mem_mid.2 (Or.inr hm), h4, fun x hx => h5 x (hins x hx)⟩
      · rcases h.par n (mem_mid.2 (Or.inr hn)) with h3 | ⟨m, hm, h4, h5⟩
        · exact Or.inl h3
        · rw [mem_mid] at hm
          rcases hm with rfl | hm
          · exfalso
            have := f3 n hn (h5 _ (has_self (h.ok n (mem_mid.2 (Or.inr hn)))))
            omega
          · exact Or.inr ⟨m, mem_mid.2 (Or.inr hm), h4, h5⟩
    sound := by
      intro l e he
      rw [setLevel_lv] at he
      have hold : ∀ e0 ∈ st.lv l, (l ≠ a.level ∨ e0.key ≠ a.ptr) →
          (⟨e0.key, e0.size, e0.pool, l⟩ : Node) ∈ l1 ++ (⟨a.ptr, size, pool, a.level⟩ : Node) :: l2 ∧
          e0.nch = cnt (l1 ++ ⟨a.ptr, size, pool, a.level⟩ :: l2) (l + 1) (e0.key, e0.size) := by
        intro e0 he0 hne
        obtain ⟨h3, h4⟩ := h.sound l e0 he0
        rw [hcnt]
        refine ⟨?_, h4⟩
        rw [mem_mid] at h3 ⊢
        rcases h3 with h3 | h3
        · exfalso
          have e1 : e0.key = a.ptr := congrArg Node.ptr h3
          have e2 : l = a.level := congrArg Node.level h3
          rcases hne with h5 | h5
          · exact h5 e2
          · exact h5 e1
        · exact Or.inr h3
      by_cases hl : l = a.level
      · rw [if_pos hl, List.mem_map] at he
        obtain ⟨e0, he0, rfl⟩ := he
        by_cases hk : e0.key = a.ptr
        · rw [if_pos hk]
          refine ⟨mem_mid.2 (Or.inl (by simp [hl])), ?_⟩
          rw [hcnt, hl]
          show 0 = cnt (l1 ++ a :: l2) (a.level + 1) (a.ptr, size)
          symm
          unfold cnt at f2 ⊢
          rw [List.countP_eq_zero] at f2 ⊢
          intro n hn hc
          apply f2 n hn
          simp only [Bool.and_eq_true, decide_eq_true_eq, inR_iff] at hc ⊢
          exact ⟨hc.1, hins _ hc.2⟩
        · rw [if_neg hk]
          exact hold e0 (by rw [hl]; exact he0) (Or.inr hk)
      · rw [if_neg hl] at he
        exact hold e he (Or.inl hl)
    complete := by
      intro n hn
      have : ∃ e ∈ st.lv n.level, e.key = n.ptr := by
        rw [mem_mid] at hn
        rcases hn with rfl | hn
        · exact h.complete a ham
        · exact h.complete n (mem_mid.2 (Or.inr hn))
      obtain ⟨e, he, hk⟩ := this
      rw [setLevel_lv]
      by_cases hl : n.level = a.level
      · rw [if_pos hl]
        rw [hl] at he
        refine ⟨_, List.mem_map_of_mem he, ?_⟩
        split
        · rename_i h3; show a.ptr = n.ptr; rw [← h3, hk]
        · exact hk
      · rw [if_neg hl]; exact ⟨e, he, hk⟩ }

end Verif.Tracker
