import Verif.Coarse.IndexModel
import Verif.Ravl.Props
import Mathlib.Data.List.Nodup
import Mathlib.Data.List.Pairwise
/-! # The index of free blocks: representation and the linked lists -/
set_option linter.unusedSimpArgs false
namespace Verif.Coarse.Index
open Function (update)

theorem upd_eq {α β : Type} [DecidableEq α] {f : α → β} {a : α} {b : β} : update f a b a = b :=
  Function.update_self ..

theorem upd_ne {α β : Type} [DecidableEq α] {f : α → β} {a x : α} {b : β} (h : x ≠ a) :
    update f a b x = f x := Function.update_of_ne h ..

/-- An entry of the index: size, element, block. -/
structure Ent where
  size : Nat
  elem : Nat
  blk : Nat
deriving DecidableEq, Repr

/-- The entries of one size. -/
def cls (k : Nat) (g : List Ent) : List Ent := g.filter fun n => n.size == k

/-- The list that starts at `cur`, whose first element points back to `prev`. -/
def Chain (m : Nat → Option Elem) : Nat → Nat → List Ent → Prop
  | cur, _, [] => cur = 0
  | cur, prev, n :: l => cur = n.elem ∧ n.elem ≠ 0 ∧
      ∃ nx, m n.elem = some ⟨n.blk, nx, prev⟩ ∧ Chain m nx n.elem l

/-- What the structure stands for: `g`, newest entry first. -/
structure Rep (x : Idx) (g : List Ent) : Prop where
  sorted : Ravl.Sorted Prod.fst (Ravl.foreachOrder x.tree)
  heads : ∀ kh ∈ Ravl.foreachOrder x.tree, ∃ hd, x.heads kh.2 = some hd ∧
    Chain x.elems hd 0 (cls kh.1 g)
  full : ∀ n ∈ g, ∃ h, (n.size, h) ∈ Ravl.foreachOrder x.tree
  some : ∀ kh ∈ Ravl.foreachOrder x.tree, cls kh.1 g ≠ []
  inj : ∀ kh ∈ Ravl.foreachOrder x.tree, ∀ kh' ∈ Ravl.foreachOrder x.tree, kh.2 = kh'.2 → kh = kh'
  nodup : (g.map Ent.elem).Nodup
  fl : ∀ n ∈ g, x.fl n.blk = n.elem
  fl0 : ∀ d, d ∉ g.map Ent.blk → x.fl d = 0

theorem Chain.frame {m m' : Nat → Option Elem} {cur prev : Nat} {l : List Ent}
    (h : Chain m cur prev l) (he : ∀ n ∈ l, m' n.elem = m n.elem) : Chain m' cur prev l := by
  induction l generalizing cur prev with
  | nil => exact h
  | cons n l ih =>
    obtain ⟨h1, h2, nx, h3, h4⟩ := h
    exact ⟨h1, h2, nx, by rw [he n (List.mem_cons_self ..), h3],
      ih h4 fun y hy => he y (List.mem_cons_of_mem _ hy)⟩

/-- The previous element of the first one is changed. -/
theorem Chain.relink {m : Nat → Option Elem} {cur prev v : Nat} {l : List Ent}
    (h : Chain m cur prev l) (hn : (l.map Ent.elem).Nodup) :
    ∃ m', setPrev m cur v = some m' ∧ Chain m' cur v l ∧
      (∀ e, e ∉ l.map Ent.elem → m' e = m e) := by
  cases l with
  | nil =>
    have h : cur = 0 := h
    subst h
    exact ⟨m, by simp [setPrev], rfl, fun _ _ => rfl⟩
  | cons n l =>
    obtain ⟨h1, h2, nx, h3, h4⟩ := h
    subst h1
    rw [List.map_cons, List.nodup_cons] at hn
    refine ⟨update m n.elem (some ⟨n.blk, nx, v⟩), ?_, ⟨rfl, h2, nx, upd_eq, h4.frame ?_⟩, ?_⟩
    · unfold setPrev
      rw [if_neg h2, h3]
    · intro y hy
      rw [upd_ne]
      intro e
      exact hn.1 (by rw [← e]; exact List.mem_map_of_mem hy)
    · intro e he
      rw [upd_ne]
      rintro rfl
      exact he (by simp)

/-- The element after a list: its predecessor and what the list looks like without it. -/
theorem Chain.remove {m : Nat → Option Elem} {cur prev : Nat} {l r : List Ent} {n : Ent}
    (h : Chain m cur prev (l ++ n :: r)) (hn : ((l ++ n :: r).map Ent.elem).Nodup)
    (hp : prev ∉ (l ++ n :: r).map Ent.elem) :
    ∃ nd m1 m2, m n.elem = some nd ∧ nd.blk = n.blk ∧ n.elem ≠ 0 ∧
      (l = [] → nd.prev = prev ∧ cur = n.elem) ∧ (l ≠ [] → nd.prev ≠ 0 ∧ cur ≠ n.elem) ∧
      setPrev m nd.next nd.prev = some m1 ∧
      (nd.prev = 0 ∨ l ≠ [] → setNext m1 nd.prev nd.next = some m2 ∧
        (∀ e, e ∉ (l ++ n :: r).map Ent.elem → m2 e = m e) ∧
        Chain (update m2 n.elem none) (if l = [] then nd.next else cur) prev (l ++ r)) := by
  induction l generalizing cur prev with
  | nil =>
    obtain ⟨h1, h2, nx, h3, h4⟩ := h
    simp only [List.nil_append, List.map_cons, List.nodup_cons] at hn hp
    obtain ⟨m1, g1, g2, g3⟩ := h4.relink (v := prev) hn.2
    refine ⟨⟨n.blk, nx, prev⟩, m1, m1, h3, rfl, h2, fun _ => ⟨rfl, h1⟩, fun h => absurd rfl h, g1, ?_⟩
    rintro (h0 | h0)
    · simp only at h0
      refine ⟨by simp [setNext, h0], fun e he => g3 e ?_, ?_⟩
      · intro he'; exact he (by simpa using Or.inr (by simpa using he'))
      · rw [if_pos rfl, List.nil_append]
        refine g2.frame fun y hy => upd_ne ?_
        intro e
        exact hn.1 (by rw [← e]; exact List.mem_map_of_mem hy)
    · exact absurd rfl h0
  | cons a l ih =>
    obtain ⟨h1, h2, nx, h3, h4⟩ := h
    simp only [List.cons_append, List.map_cons, List.nodup_cons, List.mem_cons, not_or] at hn hp
    have hane : a.elem ≠ n.elem := by
      intro e; apply hn.1; rw [e]; simp
    cases l with
    | nil =>
      obtain ⟨k1, k2, nx2, k3, k4⟩ := h4
      simp only [List.nil_append, List.map_cons, List.nodup_cons, List.mem_cons, not_or] at hn hp
      obtain ⟨m1, g1, g2, g3⟩ := k4.relink (v := a.elem) hn.2.2
      have ha1 : m1 a.elem = some ⟨a.blk, nx, prev⟩ := by
        rw [g3 a.elem hn.1.2]; exact h3
      refine ⟨⟨n.blk, nx2, a.elem⟩, m1, update m1 a.elem (some ⟨a.blk, nx2, prev⟩), k3, rfl, k2,
        fun h => (by cases h), fun _ => ⟨h2, by rw [h1]; exact hane⟩, g1, fun _ => ⟨?_, ?_, ?_⟩⟩
      · unfold setNext
        rw [if_neg h2, ha1]
      · intro e he
        simp only [List.cons_append, List.nil_append, List.map_cons, List.mem_cons, not_or] at he
        rw [upd_ne he.1, g3 e he.2.2]
      · rw [if_neg (by simp)]
        refine ⟨h1, h2, nx2, ?_, ?_⟩
        · rw [upd_ne hane, upd_eq]
        · refine g2.frame fun y hy => ?_
          have hy' : y.elem ∈ r.map Ent.elem := List.mem_map_of_mem hy
          rw [upd_ne (by intro e; rw [e] at hy'; exact hn.2.1 hy'),
            upd_ne (by intro e; rw [e] at hy'; exact hn.1.2 hy')]
    | cons b l =>
      obtain ⟨nd, m1, m2, e1, e2, e3, e4, e5, e6, e7⟩ := ih h4 hn.2 hn.1
      obtain ⟨f1, f2, f3⟩ := e7 (Or.inr (by simp))
      refine ⟨nd, m1, m2, e1, e2, e3, fun h => (by cases h),
        fun _ => ⟨(e5 (by simp)).1, by rw [h1]; exact hane⟩, e6, fun _ => ⟨f1, ?_, ?_⟩⟩
      · intro e he
        simp only [List.cons_append, List.map_cons, List.mem_cons, not_or] at he
        exact f2 e (by simp only [List.cons_append, List.map_cons, List.mem_cons, not_or]
                       exact he.2)
      · rw [if_neg (by simp)] at f3 ⊢
        refine ⟨h1, h2, nx, ?_, f3⟩
        rw [upd_ne hane, f2 a.elem hn.1]; exact h3

theorem cls_cons_eq {k : Nat} {n : Ent} {g : List Ent} (h : n.size = k) :
    cls k (n :: g) = n :: cls k g := by simp [cls, h]

theorem cls_cons_ne {k : Nat} {n : Ent} {g : List Ent} (h : n.size ≠ k) :
    cls k (n :: g) = cls k g := by simp [cls, h]

theorem cls_append (k : Nat) (a b : List Ent) : cls k (a ++ b) = cls k a ++ cls k b := by
  simp [cls]

theorem mem_cls {k : Nat} {n : Ent} {g : List Ent} : n ∈ cls k g ↔ n ∈ g ∧ n.size = k := by
  simp [cls]

theorem cls_nodup {k : Nat} {g : List Ent} (h : (g.map Ent.elem).Nodup) :
    ((cls k g).map Ent.elem).Nodup := by
  unfold cls
  exact (List.filter_sublist.map _).nodup h

/-- Elements of different sizes are different. -/
theorem elem_ne {g : List Ent} (hn : (g.map Ent.elem).Nodup) {a b : Ent} (ha : a ∈ g) (hb : b ∈ g)
    (h : a ≠ b) : a.elem ≠ b.elem := by
  intro e
  exact h (List.inj_on_of_nodup_map hn ha hb e)

theorem sorted_unique {l : List (Nat × Nat)} (hs : Ravl.Sorted Prod.fst l) {k h h' : Nat}
    (h1 : (k, h) ∈ l) (h2 : (k, h') ∈ l) : h = h' := by
  unfold Ravl.Sorted at hs
  induction l with
  | nil => cases h1
  | cons a l ih =>
    rw [List.pairwise_cons] at hs
    rcases List.mem_cons.1 h1 with e1 | e1 <;> rcases List.mem_cons.1 h2 with e2 | e2
    · rw [← e1] at e2; exact (congrArg Prod.snd e2).symm
    · have := hs.1 _ e2; rw [← e1] at this; simp at this
    · have := hs.1 _ e1; rw [← e2] at this; simp at this
    · exact ih hs.2 e1 e2

/-- There is one head per size. -/
theorem Rep.head_unique {x : Idx} {g : List Ent} (hr : Rep x g) {k h h' : Nat}
    (h1 : (k, h) ∈ Ravl.foreachOrder x.tree) (h2 : (k, h') ∈ Ravl.foreachOrder x.tree) : h = h' :=
  sorted_unique hr.sorted h1 h2

theorem find_eq {x : Idx} {g : List Ent} (hr : Rep x g) (q : Nat) :
    Ravl.find Prod.fst x.tree q ⟨true, false, false⟩ =
      (Ravl.foreachOrder x.tree).find? (fun y => decide (q = y.1)) := by
  unfold Ravl.find
  exact Ravl.findLoop_equal Prod.fst q x.tree [] hr.sorted

theorem find_ge {x : Idx} {g : List Ent} (hr : Rep x g) (q : Nat) :
    Ravl.find Prod.fst x.tree q ⟨true, true, false⟩ =
      (Ravl.foreachOrder x.tree).find? (fun y => decide (q < y.1) || (true && q == y.1)) := by
  unfold Ravl.find
  rw [Ravl.findLoop_greater Prod.fst q true x.tree [] none hr.sorted rfl (by simp [Ravl.pathPost])]
  simp [Ravl.pathPost]

end Verif.Coarse.Index
