import Verif.RavlMem.Balance
/-!
# Lemmas for the ordered tree in memory: insertion
-/
namespace Verif.RavlMem
open Verif.Ravl (Slot Pred Tree Frame Path zip foreachOrder pathPre pathPost)

variable {α : Type} {s : St α}

/-- The number of nodes. -/
def size (t : T α) : Nat := (foreachOrder t).length

theorem size_at {t : Slot} {x y : T α} {d : Addr × α} {k : Int} : size (Tree.at t x y d k) = size x + size y + 1 := by
  unfold size
  cases t <;> simp only [Tree.at, foreachOrder, List.length_append, List.length_cons] <;> omega

theorem size_node {x y : T α} {d : Addr × α} {k : Int} : size (.node x d k y) = size x + size y + 1 := size_at (t := .left)

theorem size_zip {t : T α} {p : P α} : size t + p.length ≤ size (zip t p) := by
  induction p generalizing t with
  | nil => exact Nat.le_refl _
  | cons f p ih =>
    have := ih (t := f.plug t)
    rw [plug_eq, size_at] at this
    show _ ≤ size (zip (f.plug t) p)
    rw [plug_eq]
    simp only [List.length_cons]
    omega

/-- The place at the end of a path. -/
def refOf : P α → Ref
  | [] => .root
  | f :: _ => .slot f.data.1 f.slot

theorem read_loc {h : Addr → Option (Node α)} {root n : Addr} {p : P α} (hp : RepP h root p n) : read ⟨root, h⟩ (refOf p) = some n := by
  cases p with
  | nil => exact congrArg some hp
  | cons f p =>
    obtain ⟨h1, h2, -, -⟩ := hp
    show (get ⟨root, h⟩ f.data.1).map (·.slot f.slot) = some n
    rw [get_eq h1 h2]
    simp

/-- The descent reads the tree. -/
theorem descend_loc (key : α → Nat) (x : α) (a : Addr) {h : Addr → Option (Node α)} {root : Addr} : ∀ {t : T α} {p : P α} {fuel : Nat},
    Rep h t (paddr p) → RepP h root p (addr t) → size t < fuel →
    descend key x fuel ⟨root, h⟩ (refOf p) (paddr p) =
      some ((Ravl.descend (fun d : Addr × α => key d.2) (a, x) t p).map fun p' => (refOf p', paddr p')) := by
  intro t
  induction t with
  | nil =>
    intro p fuel h1 h2 hf
    obtain ⟨fuel, rfl⟩ : ∃ m, fuel = m + 1 := ⟨fuel - 1, by omega⟩
    unfold descend Ravl.descend
    rw [read_loc h2]
    rfl
  | node l d k r ihl ihr =>
    intro p fuel h1 h2 hf
    obtain ⟨fuel, rfl⟩ : ∃ m, fuel = m + 1 := ⟨fuel - 1, by omega⟩
    rw [size_node] at hf
    obtain ⟨g1, g2, g3, g4⟩ := h1
    unfold descend Ravl.descend
    rw [read_loc h2, show addr (Ravl.Tree.node l d k r) = d.1 from rfl]
    simp only [Option.bind_eq_bind, Option.bind_some]
    rw [if_neg g1, get_eq g1 g2]
    simp only [Option.bind_some]
    by_cases e : key x = key d.2
    · rw [if_pos e, if_pos e]
      rfl
    · rw [if_neg e, if_neg e]
      by_cases e2 : key x > key d.2
      · rw [if_pos e2, if_pos e2]
        exact ihr (p := ⟨.right, d, k, l⟩ :: p) g4 ⟨g1, g2, g3, h2⟩ (by omega)
      · rw [if_neg e2, if_neg e2]
        exact ihl (p := ⟨.left, d, k, r⟩ :: p) g3 ⟨g1, g2, g4, h2⟩ (by omega)

/-- The path found leads to an empty place of the same tree. -/
theorem descend_zip {key : Addr × α → Nat} {x : Addr × α} {t : T α} : ∀ {p p' : P α}, Ravl.descend key x t p = some p' → zip .nil p' = zip t p := by
  induction t with
  | nil =>
    intro p p' h
    unfold Ravl.descend at h
    cases h
    rfl
  | node l d k r ihl ihr =>
    intro p p' h
    unfold Ravl.descend at h
    by_cases e : key x = key d
    · rw [if_pos e] at h
      cases h
    · rw [if_neg e] at h
      by_cases e2 : key x > key d
      · rw [if_pos e2] at h
        exact ihr h
      · rw [if_neg e2] at h
        exact ihl h

/-- A new node in an empty place. -/
theorem loc_insert {p : P α} {a : Addr} {x : α} (hl : Loc s .nil p) (a0 : a ≠ 0) (ha : s.h a = none) :
    ∃ s', ((change { s with h := upd s.h a (some ⟨0, 0, 0, 0, x⟩) } a (·.withParent (paddr p))).bind fun s => write s (refOf p) a) = some s' ∧
      Loc s' (.node .nil (a, x) 0 .nil) p := by
  have hmem : a ∉ padrs p := by
    intro h
    rcases mem_zip.1 (show a ∈ adrs (zip (.nil : T α) p) from mem_zip.2 (Or.inr h)) with h1 | -
    · cases h1
    · have := rep_get (shape_loc.2 hl).rep a (mem_zip.2 (Or.inr h))
      exact this.2 ha
  rw [change_eq a0 (upd_same _ _ _)]
  simp only [Option.bind_some]
  have hu : upd (upd s.h a (some ⟨0, 0, 0, 0, x⟩)) a (some (Node.withParent ⟨0, 0, 0, 0, x⟩ (paddr p))) = upd s.h a (some ⟨paddr p, 0, 0, 0, x⟩) := by
    funext b
    by_cases e : b = a
    · rw [e, upd_same, upd_same]; rfl
    · rw [upd_ne _ _ e, upd_ne _ _ e, upd_ne _ _ e]
  rw [hu]
  cases p with
  | nil =>
    refine ⟨_, rfl, ?_, rfl, ?_, trivial, ?_, ?_⟩
    · exact ⟨a0, upd_same _ _ _, trivial, trivial⟩
    · simp [adrs, foreachOrder]
    · intro b _ hb
      cases hb
    · intro b hb
      by_cases e : b = a
      · left; rw [e]; simp [adrs, foreachOrder]
      · exfalso
        rcases hl.all b (by rw [← upd_ne s.h _ e]; exact hb) with h | h <;> cases h
  | cons f q =>
    obtain ⟨p0, hp, hS, hq⟩ := hl.path
    have fa : f.data.1 ≠ a := fun e => hmem (mem_padrs.2 (Or.inl e.symm))
    have hp' : upd s.h a (some ⟨f.data.1, 0, 0, 0, x⟩) f.data.1 = some (Node.at f.slot (paddr q) 0 (addr f.sibling) f.rank f.data.2) := by
      rw [upd_ne _ _ fa]
      exact hp
    refine ⟨_, change_eq p0 hp' _, ?_, ?_, ?_, hl.np, ?_, ?_⟩
    · refine ⟨a0, ?_, trivial, trivial⟩
      dsimp only
      rw [upd_ne _ _ (Ne.symm fa), upd_same]
      rfl
    · refine ⟨p0, ?_, ?_, ?_⟩
      · dsimp only
        rw [upd_same, Node.at_put]
        rfl
      · refine hS.congr fun b hb => ?_
        dsimp only
        rw [upd_ne, upd_ne]
        · rintro rfl; exact hmem (mem_padrs.2 (Or.inr (Or.inl hb)))
        · rintro rfl; exact hl.np.1 hb
      · refine hq.congr fun b hb => ?_
        dsimp only
        rw [upd_ne, upd_ne]
        · rintro rfl; exact hmem (mem_padrs.2 (Or.inr (Or.inr hb)))
        · rintro rfl; exact hl.np.2.1 hb
    · simp [adrs, foreachOrder]
    · intro b hb
      have : b = a := by simpa [adrs, foreachOrder] using hb
      rw [this]
      exact hmem
    · intro b hb
      dsimp only at hb
      by_cases e : b = f.data.1
      · exact Or.inr (mem_padrs.2 (Or.inl e))
      rw [upd_ne _ _ e] at hb
      by_cases e : b = a
      · left; rw [e]; simp [adrs, foreachOrder]
      · rw [upd_ne _ _ e] at hb
        rcases hl.all b hb with h | h
        · cases h
        · exact Or.inr h

/-- `ravl_balance` is the function on trees. -/
theorem balance_loc {n : T α} {p : P α} {fuel : Nat} (hl : Loc s n p) (hn : n ≠ .nil) (h1 : Rk n) (h2 : RkP p) (hf : p.length < fuel) :
    ∃ s', balance fuel s (addr n) = some s' ∧ Shape s' (Ravl.balance n p) ∧ Rk (Ravl.balance n p) := by
  obtain ⟨s1, n', p', e1, e2, l1, g1, g2, g3⟩ := promoteLoop_loc hl hn h1 h2 hf
  obtain ⟨s2, e3, l2, g4⟩ := fixup_loc l1 g1 g2 g3
  refine ⟨s2, ?_, ?_, ?_⟩
  · unfold balance
    rw [e1]
    exact e3
  · unfold Ravl.balance
    rw [e2]
    exact l2
  · unfold Ravl.balance
    rw [e2]
    exact g4

/-- `ravl_emplace` fails when the allocation fails. -/
theorem emplace_fail (key : α → Nat) (x : α) {a : Addr} (fuel : Nat) (h : a = 0 ∨ s.h a ≠ none) : emplace key x a fuel s = some (s, false) := by
  unfold emplace newNode
  rw [if_pos h]

/-- `ravl_emplace` is the function on trees. -/
theorem emplace_shape (key : α → Nat) (x : α) {a : Addr} {fuel : Nat} {t : T α} (hs : Shape s t) (hk : Rk t) (a0 : a ≠ 0) (ha : s.h a = none)
    (hf : size t < fuel) :
    match Ravl.emplace (fun d : Addr × α => key d.2) true t (a, x) with
    | none => emplace key x a fuel s = some (s, false)
    | some t' => ∃ s', emplace key x a fuel s = some (s', true) ∧ Shape s' t' ∧ Rk t' := by
  have hrep : ∀ {u : T α} {q : Addr}, Rep s.h u q → Rep (upd s.h a (some ⟨0, 0, 0, 0, x⟩)) u q := by
    intro u q hu
    refine hu.congr fun b hb => upd_ne _ _ ?_
    rintro rfl
    exact (rep_get hu b hb).2 ha
  have hd := descend_loc key x a (t := t) (p := []) (root := s.root) (hrep hs.rep) hs.root hf
  have hne : ¬ (a = 0 ∨ s.h a ≠ none) := fun h => h.elim a0 fun h => h ha
  unfold emplace Ravl.emplace newNode
  rw [if_neg hne, if_pos rfl]
  dsimp only
  rw [show Ref.root = refOf ([] : P α) from rfl, show (0 : Addr) = paddr ([] : P α) from rfl]
  cases e : Ravl.descend (fun d : Addr × α => key d.2) (a, x) t [] with
  | none =>
    rw [e] at hd
    rw [show (descend key x fuel { s with h := upd s.h a (some ⟨paddr ([] : P α), paddr ([] : P α), paddr ([] : P α), 0, x⟩) } (refOf ([] : P α)) (paddr ([] : P α)) : Option (Option (Ref × Addr))) = some none from hd]
    simp only [Option.bind_eq_bind, Option.bind_some]
    unfold free
    rw [get_eq a0 (upd_same _ _ _)]
    simp only [Option.bind_some]
    have : upd (upd s.h a (some ⟨0, 0, 0, 0, x⟩)) a none = s.h := by
      funext b
      by_cases e : b = a
      · rw [e, upd_same, ha]
      · rw [upd_ne _ _ e, upd_ne _ _ e]
    simp only [show paddr ([] : P α) = 0 from rfl]
    rw [this]
  | some p =>
    rw [e] at hd
    rw [show (descend key x fuel { s with h := upd s.h a (some ⟨paddr ([] : P α), paddr ([] : P α), paddr ([] : P α), 0, x⟩) } (refOf ([] : P α)) (paddr ([] : P α)) : Option (Option (Ref × Addr))) = some (some (refOf p, paddr p)) from hd]
    simp only [Option.bind_eq_bind, Option.bind_some]
    have hz : zip .nil p = t := descend_zip e
    have hl : Loc s .nil p := shape_loc.1 (by rw [hz]; exact hs)
    obtain ⟨s1, e1, l1⟩ := loc_insert (x := x) hl a0 ha
    have hk2 : RkP p := (rk_zip.1 (by rw [hz]; exact hk)).2
    have hlen : p.length < fuel := by
      have := size_zip (t := (.nil : T α)) (p := p)
      rw [hz] at this
      omega
    obtain ⟨s2, e2, l2, g2⟩ := balance_loc l1 (fun h => (nomatch h)) ⟨Int.le_refl _, trivial, trivial⟩ hk2 hlen
    refine ⟨s2, ?_, l2, g2⟩
    cases ec : change { s with h := upd s.h a (some ⟨0, 0, 0, 0, x⟩) } a (·.withParent (paddr p)) with
    | none => rw [ec] at e1; cases e1
    | some s0 =>
      rw [ec] at e1
      simp only [show paddr ([] : P α) = 0 from rfl]
      rw [ec]
      simp only [Option.bind_some] at e1 ⊢
      rw [e1]
      simp only [Option.bind_some]
      rw [show a = addr (Ravl.Tree.node .nil (a, x) 0 .nil) from rfl, e2]
      rfl

end Verif.RavlMem
