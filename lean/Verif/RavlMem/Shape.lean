import Verif.RavlMem.Model
import Verif.Ravl.Lemmas
/-!
# Lemmas for the ordered tree in memory: what the nodes look like

The trees of `Ravl/Model.lean` are used with the address of the node beside its data.
-/
namespace Verif.RavlMem
open Verif.Ravl (Slot Pred Tree Frame Path zip foreachOrder pathPre pathPost)

variable {α : Type}

theorem upd_same {β : Type} (f : Nat → β) (a : Nat) (x : β) : upd f a x a = x := if_pos rfl
theorem upd_ne {β : Type} (f : Nat → β) {a b : Nat} (x : β) (h : b ≠ a) : upd f a x b = f b := if_neg h

abbrev T (α : Type) := Tree (Addr × α)
abbrev P (α : Type) := Path (Addr × α)

/-- The address of the root of a tree. -/
def addr : T α → Addr
  | .nil => 0
  | .node _ d _ _ => d.1

/-- The parent of the place at the end of a path. -/
def paddr : P α → Addr
  | [] => 0
  | f :: _ => f.data.1

/-- The addresses of the nodes, in order. -/
def adrs (t : T α) : List Addr := (foreachOrder t).map (·.1)
def padrs (p : P α) : List Addr := (pathPre p ++ pathPost p).map (·.1)

/-- A node, seen from the slot `t`. -/
def Node.at (t : Slot) (par x y : Addr) (k : Int) (d : α) : Node α :=
  match t with
  | .left => ⟨par, x, y, k, d⟩
  | .right => ⟨par, y, x, k, d⟩

/-- A tree, seen from the slot `t`. -/
def Tree.at (t : Slot) (x y : T α) (d : Addr × α) (k : Int) : T α :=
  match t with
  | .left => .node x d k y
  | .right => .node y d k x

@[simp] theorem opp_opp (t : Slot) : t.opposite.opposite = t := by cases t <;> rfl
theorem opp_ne (t : Slot) : t.opposite ≠ t := by cases t <;> decide

@[simp] theorem Node.at_slot (t : Slot) (par x y : Addr) (k : Int) (d : α) : (Node.at t par x y k d).slot t = x := by cases t <;> rfl
@[simp] theorem Node.at_opp (t : Slot) (par x y : Addr) (k : Int) (d : α) : (Node.at t par x y k d).slot t.opposite = y := by cases t <;> rfl
@[simp] theorem Node.at_put (t : Slot) (par x y z : Addr) (k : Int) (d : α) : (Node.at t par x y k d).put t z = Node.at t par z y k d := by cases t <;> rfl
@[simp] theorem Node.at_putOpp (t : Slot) (par x y z : Addr) (k : Int) (d : α) : (Node.at t par x y k d).put t.opposite z = Node.at t par x z k d := by
  cases t <;> rfl
@[simp] theorem Node.at_parent (t : Slot) (par x y : Addr) (k : Int) (d : α) : (Node.at t par x y k d).parent = par := by cases t <;> rfl
@[simp] theorem Node.at_rank (t : Slot) (par x y : Addr) (k : Int) (d : α) : (Node.at t par x y k d).rank = k := by cases t <;> rfl
@[simp] theorem Node.at_data (t : Slot) (par x y : Addr) (k : Int) (d : α) : (Node.at t par x y k d).data = d := by cases t <;> rfl
@[simp] theorem Node.at_setParent (t : Slot) (par x y q : Addr) (k : Int) (d : α) :
    (Node.at t par x y k d).withParent q = Node.at t q x y k d := by cases t <;> rfl
@[simp] theorem Node.at_setRank (t : Slot) (par x y : Addr) (k k' : Int) (d : α) :
    (Node.at t par x y k d).withRank k' = Node.at t par x y k' d := by cases t <;> rfl
@[simp] theorem Node.at_setData (t : Slot) (par x y : Addr) (k : Int) (d d' : α) :
    (Node.at t par x y k d).withData d' = Node.at t par x y k d' := by cases t <;> rfl
theorem Node.at_swap (t : Slot) (par x y : Addr) (k : Int) (d : α) : Node.at t.opposite par x y k d = Node.at t par y x k d := by cases t <;> rfl

theorem Tree.at_swap (t : Slot) (x y : T α) (d : Addr × α) (k : Int) : Tree.at t.opposite x y d k = Tree.at t y x d k := by cases t <;> rfl
theorem plug_eq (f : Frame (Addr × α)) (t : T α) : f.plug t = Tree.at f.slot t f.sibling f.data f.rank := by
  unfold Frame.plug Tree.at
  cases f.slot <;> rfl
@[simp] theorem addr_at (t : Slot) (x y : T α) (d : Addr × α) (k : Int) : addr (Tree.at t x y d k) = d.1 := by cases t <;> rfl
@[simp] theorem at_child (t : Slot) (x y : T α) (d : Addr × α) (k : Int) : (Tree.at t x y d k).child t = x := by cases t <;> rfl
@[simp] theorem at_childOpp (t : Slot) (x y : T α) (d : Addr × α) (k : Int) : (Tree.at t x y d k).child t.opposite = y := by cases t <;> rfl
@[simp] theorem at_rank (t : Slot) (x y : T α) (d : Addr × α) (k : Int) : (Tree.at t x y d k).rank = k := by cases t <;> rfl
theorem node_at (t : Slot) (l r : T α) (d : Addr × α) (k : Int) :
    Ravl.Tree.node l d k r = Tree.at t ((Ravl.Tree.node l d k r).child t) ((Ravl.Tree.node l d k r).child t.opposite) d k := by cases t <;> rfl

theorem mem_at {t : Slot} {x y : T α} {d : Addr × α} {k : Int} {a : Addr} : a ∈ adrs (Tree.at t x y d k) ↔ a = d.1 ∨ a ∈ adrs x ∨ a ∈ adrs y := by
  unfold adrs
  cases t <;> simp only [Tree.at, foreachOrder, List.map_append, List.map_cons, List.mem_append, List.mem_cons] <;>
    constructor <;> (intro h; rcases h with h | h | h <;> simp [h])

theorem nodup_at {t : Slot} {x y : T α} {d : Addr × α} {k : Int} :
    (adrs (Tree.at t x y d k)).Nodup ↔ (d.1 ∉ adrs x ∧ d.1 ∉ adrs y) ∧ (adrs x).Nodup ∧ (adrs y).Nodup ∧ ∀ a ∈ adrs x, a ∉ adrs y := by
  have key : ∀ X Y : List Addr, (X ++ d.1 :: Y).Nodup ↔ (d.1 ∉ X ∧ d.1 ∉ Y) ∧ X.Nodup ∧ Y.Nodup ∧ ∀ a ∈ X, a ∉ Y := by
    intro X Y
    rw [List.nodup_append, List.nodup_cons]
    constructor
    · rintro ⟨h1, ⟨h2, h3⟩, h4⟩
      exact ⟨⟨fun h => h4 _ h _ List.mem_cons_self rfl, h2⟩, h1, h3, fun a ha hb => h4 a ha a (List.mem_cons_of_mem _ hb) rfl⟩
    · rintro ⟨⟨h1, h2⟩, h3, h4, h5⟩
      refine ⟨h3, ⟨h2, h4⟩, ?_⟩
      rintro a ha b hb rfl
      rcases List.mem_cons.1 hb with e | e
      · exact h1 (e ▸ ha)
      · exact h5 a ha e
  cases t
  · unfold adrs
    simp only [Tree.at, foreachOrder, List.map_append, List.map_cons]
    exact key _ _
  · unfold adrs
    simp only [Tree.at, foreachOrder, List.map_append, List.map_cons]
    rw [key]
    constructor
    · rintro ⟨⟨h1, h2⟩, h3, h4, h5⟩
      exact ⟨⟨h2, h1⟩, h4, h3, fun a ha hb => h5 a hb ha⟩
    · rintro ⟨⟨h1, h2⟩, h3, h4, h5⟩
      exact ⟨⟨h2, h1⟩, h4, h3, fun a ha hb => h5 a hb ha⟩

/-- The nodes of the tree are in memory; `par` is the parent of the root. -/
def Rep (h : Addr → Option (Node α)) : T α → Addr → Prop
  | .nil, _ => True
  | .node l d k r, par => d.1 ≠ 0 ∧ h d.1 = some ⟨par, addr l, addr r, k, d.2⟩ ∧ Rep h l d.1 ∧ Rep h r d.1

theorem rep_at {h : Addr → Option (Node α)} {t : Slot} {x y : T α} {d : Addr × α} {k : Int} {par : Addr} :
    Rep h (Tree.at t x y d k) par ↔ d.1 ≠ 0 ∧ h d.1 = some (Node.at t par (addr x) (addr y) k d.2) ∧ Rep h x d.1 ∧ Rep h y d.1 := by
  cases t
  · rfl
  · constructor
    · rintro ⟨h1, h2, h3, h4⟩
      exact ⟨h1, h2, h4, h3⟩
    · rintro ⟨h1, h2, h3, h4⟩
      exact ⟨h1, h2, h4, h3⟩

/-- The nodes along a path are in memory; `n` is the address in the place at its end. -/
def RepP (h : Addr → Option (Node α)) (root : Addr) : P α → Addr → Prop
  | [], n => root = n
  | f :: p, n => f.data.1 ≠ 0 ∧ h f.data.1 = some (Node.at f.slot (paddr p) n (addr f.sibling) f.rank f.data.2) ∧
      Rep h f.sibling f.data.1 ∧ RepP h root p f.data.1

theorem addr_mem {t : T α} (h : t ≠ .nil) : addr t ∈ adrs t := by
  cases t with
  | nil => exact absurd rfl h
  | node l d k r => simp [addr, adrs, foreachOrder]

theorem rep_get {h : Addr → Option (Node α)} {t : T α} {par : Addr} (hr : Rep h t par) : ∀ a ∈ adrs t, a ≠ 0 ∧ h a ≠ none := by
  induction t generalizing par with
  | nil => intro a ha; cases ha
  | node l d k r ihl ihr =>
    obtain ⟨h1, h2, h3, h4⟩ := hr
    intro a ha
    rw [show Ravl.Tree.node l d k r = Tree.at .left l r d k from rfl, mem_at] at ha
    rcases ha with rfl | ha | ha
    · exact ⟨h1, by rw [h2]; exact fun h => (nomatch h)⟩
    · exact ihl h3 a ha
    · exact ihr h4 a ha

theorem Rep.congr {h h' : Addr → Option (Node α)} {t : T α} {par : Addr} (hr : Rep h t par) (e : ∀ a ∈ adrs t, h' a = h a) : Rep h' t par := by
  induction t generalizing par with
  | nil => trivial
  | node l d k r ihl ihr =>
    obtain ⟨h1, h2, h3, h4⟩ := hr
    rw [show Ravl.Tree.node l d k r = Tree.at .left l r d k from rfl] at e
    exact ⟨h1, by rw [e _ (mem_at.2 (Or.inl rfl)), h2], ihl h3 fun a ha => e a (mem_at.2 (Or.inr (Or.inl ha))),
      ihr h4 fun a ha => e a (mem_at.2 (Or.inr (Or.inr ha)))⟩

theorem mem_padrs {f : Frame (Addr × α)} {p : P α} {a : Addr} : a ∈ padrs (f :: p) ↔ a = f.data.1 ∨ a ∈ adrs f.sibling ∨ a ∈ padrs p := by
  unfold padrs adrs
  simp only [pathPre, pathPost, List.map_append, List.mem_append]
  generalize foreachOrder f.sibling = L
  generalize pathPre p = A
  generalize pathPost p = B
  cases f.slot
  · simp only [List.map_cons, List.map_nil, List.mem_cons, List.not_mem_nil, or_false]
    constructor
    · rintro (h | (h | h) | h)
      · exact Or.inr (Or.inr (Or.inl h))
      · exact Or.inl h
      · exact Or.inr (Or.inl h)
      · exact Or.inr (Or.inr (Or.inr h))
    · rintro (h | h | h | h)
      · exact Or.inr (Or.inl (Or.inl h))
      · exact Or.inr (Or.inl (Or.inr h))
      · exact Or.inl h
      · exact Or.inr (Or.inr h)
  · simp only [List.map_append, List.map_cons, List.map_nil, List.mem_append, List.mem_cons, List.not_mem_nil, or_false, false_or]
    constructor
    · rintro ((h | h | h) | h)
      · exact Or.inr (Or.inr (Or.inl h))
      · exact Or.inr (Or.inl h)
      · exact Or.inl h
      · exact Or.inr (Or.inr (Or.inr h))
    · rintro (h | h | h | h)
      · exact Or.inl (Or.inr (Or.inr h))
      · exact Or.inl (Or.inr (Or.inl h))
      · exact Or.inl (Or.inl h)
      · exact Or.inr h

theorem RepP.congr {h h' : Addr → Option (Node α)} {root : Addr} {p : P α} {n : Addr} (hr : RepP h root p n) (e : ∀ a ∈ padrs p, h' a = h a) :
    RepP h' root p n := by
  induction p generalizing n with
  | nil => exact hr
  | cons f p ih =>
    obtain ⟨h1, h2, h3, h4⟩ := hr
    exact ⟨h1, by rw [e _ (mem_padrs.2 (Or.inl rfl)), h2], h3.congr fun a ha => e a (mem_padrs.2 (Or.inr (Or.inl ha))),
      ih h4 fun a ha => e a (mem_padrs.2 (Or.inr (Or.inr ha)))⟩

/-- A tree is where it is, along the path. -/
theorem rep_zip {h : Addr → Option (Node α)} {root : Addr} {t : T α} {p : P α} :
    Rep h (zip t p) 0 ∧ root = addr (zip t p) ↔ Rep h t (paddr p) ∧ RepP h root p (addr t) := by
  induction p generalizing t with
  | nil => rfl
  | cons f p ih =>
    show Rep h (zip (f.plug t) p) 0 ∧ root = addr (zip (f.plug t) p) ↔ _
    rw [ih, plug_eq, rep_at, addr_at]
    constructor
    · rintro ⟨⟨h1, h2, h3, h4⟩, h5⟩
      exact ⟨h3, h1, h2, h4, h5⟩
    · rintro ⟨h3, h1, h2, h4, h5⟩
      exact ⟨⟨h1, h2, h3, h4⟩, h5⟩

theorem mem_zip {t : T α} {p : P α} {a : Addr} : a ∈ adrs (zip t p) ↔ a ∈ adrs t ∨ a ∈ padrs p := by
  induction p generalizing t with
  | nil => simp [zip, padrs, pathPre, pathPost]
  | cons f p ih =>
    show a ∈ adrs (zip (f.plug t) p) ↔ _
    rw [ih, plug_eq, mem_at, mem_padrs]
    constructor
    · rintro ((h | h | h) | h) <;> simp [h]
    · rintro (h | h | h | h) <;> simp [h]

/-- The addresses along a path are different. -/
def PNodup : P α → Prop
  | [] => True
  | f :: p => f.data.1 ∉ adrs f.sibling ∧ f.data.1 ∉ padrs p ∧ (adrs f.sibling).Nodup ∧ (∀ a ∈ adrs f.sibling, a ∉ padrs p) ∧ PNodup p

theorem nodup_zip {t : T α} {p : P α} : (adrs (zip t p)).Nodup ↔ (adrs t).Nodup ∧ PNodup p ∧ ∀ a ∈ adrs t, a ∉ padrs p := by
  induction p generalizing t with
  | nil => simp [zip, padrs, pathPre, pathPost, PNodup]
  | cons f p ih =>
    show (adrs (zip (f.plug t) p)).Nodup ↔ _
    rw [ih, plug_eq, nodup_at]
    simp only [PNodup, mem_at, mem_padrs]
    constructor
    · rintro ⟨⟨⟨h1, h2⟩, h3, h4, h5⟩, h6, h7⟩
      refine ⟨h3, ⟨h2, h7 _ (Or.inl rfl), h4, fun a ha => h7 a (Or.inr (Or.inr ha)), h6⟩, ?_⟩
      rintro a ha (e | e | e)
      · exact h1 (e ▸ ha)
      · exact h5 a ha e
      · exact h7 a (Or.inr (Or.inl ha)) e
    · rintro ⟨h1, ⟨h2, h3, h4, h5, h6⟩, h7⟩
      refine ⟨⟨⟨fun h => h7 _ h (Or.inl rfl), h2⟩, h1, h4, fun a ha hb => h7 a ha (Or.inr (Or.inl hb))⟩, h6, ?_⟩
      rintro a (e | e | e)
      · rw [e]; exact h3
      · exact fun h => h7 a e (Or.inr (Or.inr h))
      · exact h5 a e

/-- The memory of the whole tree. -/
structure Shape (s : St α) (t : T α) : Prop where
  root : s.root = addr t
  rep : Rep s.h t 0
  nd : (adrs t).Nodup
  all : ∀ a, s.h a ≠ none → a ∈ adrs t

/-- The memory of a tree at a place. -/
structure Loc (s : St α) (t : T α) (p : P α) : Prop where
  rep : Rep s.h t (paddr p)
  path : RepP s.h s.root p (addr t)
  nt : (adrs t).Nodup
  np : PNodup p
  sep : ∀ a ∈ adrs t, a ∉ padrs p
  all : ∀ a, s.h a ≠ none → a ∈ adrs t ∨ a ∈ padrs p

theorem shape_loc {s : St α} {t : T α} {p : P α} : Shape s (zip t p) ↔ Loc s t p := by
  constructor
  · rintro ⟨h1, h2, h3, h4⟩
    obtain ⟨g1, g2⟩ := rep_zip.1 ⟨h2, h1⟩
    obtain ⟨g3, g4, g5⟩ := nodup_zip.1 h3
    exact ⟨g1, g2, g3, g4, g5, fun a ha => mem_zip.1 (h4 a ha)⟩
  · rintro ⟨g1, g2, g3, g4, g5, g6⟩
    obtain ⟨h1, h2⟩ := rep_zip.2 ⟨g1, g2⟩
    exact ⟨h2, h1, nodup_zip.2 ⟨g3, g4, g5⟩, fun a ha => mem_zip.2 (g6 a ha)⟩

/-- Every node of a tree is a place. -/
theorem locate {t : T α} {a : Addr} (ha : a ∈ adrs t) (p : P α) : ∃ l d k r q, d.1 = a ∧ zip (.node l d k r) q = zip t p := by
  induction t generalizing p with
  | nil => cases ha
  | node l d k r ihl ihr =>
    rw [show Ravl.Tree.node l d k r = Tree.at .left l r d k from rfl, mem_at] at ha
    rcases ha with rfl | ha | ha
    · exact ⟨l, d, k, r, p, rfl, rfl⟩
    · exact ihl ha (⟨.left, d, k, r⟩ :: p)
    · exact ihr ha (⟨.right, d, k, l⟩ :: p)

end Verif.RavlMem
