import Verif.RavlMem.Insert
/-!
# Lemmas for the ordered tree in memory: lookups
-/
namespace Verif.RavlMem
open Verif.Ravl (Slot Pred Tree Frame Path zip foreachOrder pathPre pathPost)

variable {α : Type} {s : St α}

/-- The node of an element, `NULL` for no element. -/
def aOf : Option (Addr × α) → Addr
  | none => 0
  | some d => d.1

theorem typeMost_rep (sl : Slot) {t : T α} : ∀ {par : Addr} {fuel : Nat}, Rep s.h t par → t ≠ .nil → size t ≤ fuel →
    ∃ d, Ravl.typeMost sl t = some d ∧ typeMost sl fuel s (addr t) = some d.1 := by
  induction t with
  | nil => exact fun _ h => absurd rfl h
  | node l d k r ihl ihr =>
    intro par fuel hr _ hf
    rw [size_node] at hf
    obtain ⟨fuel, rfl⟩ : ∃ m, fuel = m + 1 := ⟨fuel - 1, by omega⟩
    obtain ⟨g1, g2, g3, g4⟩ := hr
    unfold typeMost Ravl.typeMost
    rw [show addr (Ravl.Tree.node l d k r) = d.1 from rfl, get_eq g1 g2]
    simp only [Option.bind_eq_bind, Option.bind_some]
    cases sl with
    | left =>
      simp only [Node.slot]
      by_cases e : addr l = 0
      · refine ⟨d, by rw [(addr_zero g3).1 e]; rfl, ?_⟩
        simp only [e, if_true]
      · obtain ⟨x, h1, h2⟩ := ihl (fuel := fuel) g3 (fun h => e ((addr_zero g3).2 h)) (by omega)
        refine ⟨x, by rw [h1], ?_⟩
        simp only [e, if_false, h2]
    | right =>
      simp only [Node.slot]
      by_cases e : addr r = 0
      · refine ⟨d, by rw [(addr_zero g4).1 e]; rfl, ?_⟩
        simp only [e, if_true]
      · obtain ⟨x, h1, h2⟩ := ihr (fuel := fuel) g4 (fun h => e ((addr_zero g4).2 h)) (by omega)
        refine ⟨x, by rw [h1], ?_⟩
        simp only [e, if_false, h2]

theorem climb_loc (sl : Slot) {p : P α} : ∀ {t : T α} {fuel : Nat}, Loc s t p → t ≠ .nil → p.length < fuel →
    climb sl fuel s (addr t) = some (aOf (Ravl.climb sl p)) := by
  induction p with
  | nil =>
    intro t fuel hl hn hf
    obtain ⟨fuel, rfl⟩ : ∃ m, fuel = m + 1 := ⟨fuel - 1, by omega⟩
    obtain ⟨c, hc, hp⟩ := loc_get hl hn
    unfold climb
    rw [hc]
    simp only [Option.bind_eq_bind, Option.bind_some]
    rw [if_pos (by rw [hp]; rfl)]
    rfl
  | cons f p ih =>
    intro t fuel hl hn hf
    obtain ⟨fuel, rfl⟩ : ∃ m, fuel = m + 1 := ⟨fuel - 1, by omega⟩
    obtain ⟨c, hc, hp⟩ := loc_get hl hn
    obtain ⟨p0, hpn⟩ := loc_parent hl
    unfold climb Ravl.climb
    rw [hc]
    simp only [Option.bind_eq_bind, Option.bind_some]
    rw [hp, show paddr (f :: p) = f.data.1 from rfl, if_neg p0, get_eq p0 hpn]
    simp only [Option.bind_some]
    by_cases e : f.slot = sl
    · subst e
      rw [Node.at_slot, if_pos rfl, if_pos rfl]
      have hl' : Loc s (Tree.at f.slot t f.sibling f.data f.rank) p := loc_down.2 hl
      have := ih (fuel := fuel) hl' (by cases f.slot <;> exact fun h => (nomatch h)) (by simp only [List.length_cons] at hf; omega)
      rwa [addr_at] at this
    · have e2 : sl = f.slot.opposite := by
        cases sl <;> cases h : f.slot <;> simp_all [Slot.opposite]
      rw [e2, Node.at_opp, if_neg (loc_ne_sib hl hn), if_neg (fun h => opp_ne _ h.symm)]
      rfl

theorem cessor_loc (sl : Slot) {t : T α} {p : P α} {fuel : Nat} (hl : Loc s t p) (hn : t ≠ .nil) (h1 : size t ≤ fuel) (h2 : p.length < fuel) :
    cessor sl fuel s (addr t) = some (aOf (Ravl.cessor sl t p)) := by
  have hcl := climb_loc sl hl hn h2
  obtain ⟨l, d, k, r, rfl⟩ := addr_of_ne_nil hn
  rw [node_at sl l r d k] at hl h1 hcl ⊢
  generalize (Ravl.Tree.node l d k r).child sl = A at *
  generalize (Ravl.Tree.node l d k r).child sl.opposite = B at *
  obtain ⟨g1, g2, g3, g4⟩ := rep_at.1 hl.rep
  rw [size_at] at h1
  rw [addr_at] at hcl ⊢
  unfold cessor Ravl.cessor
  rw [get_eq g1 g2, at_child]
  simp only [Option.bind_eq_bind, Option.bind_some, Node.at_slot]
  cases A with
  | nil =>
    rw [if_neg (fun h => h rfl)]
    exact hcl
  | node al ad ak ar =>
    rw [if_pos (show addr (Ravl.Tree.node al ad ak ar) ≠ 0 from g3.1)]
    obtain ⟨x, e1, e2⟩ := typeMost_rep (sl := sl.opposite) (fuel := fuel) g3 (fun h => (nomatch h)) (by omega)
    rw [e2]
    dsimp only
    rw [e1]
    rfl

theorem findLoop_loc (key : α → Nat) (q : Nat) (fl : Pred) {t : T α} : ∀ {p : P α} {r : Option (Addr × α)} {fuel : Nat}, Loc s t p →
    2 * size t + p.length + 1 < fuel →
    findLoop key q fl fuel s (addr t) (aOf r) = some (aOf (Ravl.findLoop (fun d : Addr × α => key d.2) q fl t p r)) := by
  induction t with
  | nil =>
    intro p r fuel hl hf
    obtain ⟨fuel, rfl⟩ : ∃ m, fuel = m + 1 := ⟨fuel - 1, by omega⟩
    unfold findLoop Ravl.findLoop
    rfl
  | node l d k rt ihl ihr =>
    intro p r fuel hl hf
    obtain ⟨fuel, rfl⟩ : ∃ m, fuel = m + 1 := ⟨fuel - 1, by omega⟩
    rw [size_node] at hf
    have hc : ∀ sl, cessor sl fuel s d.1 = some (aOf (Ravl.cessor sl (.node l d k rt) p)) := fun sl =>
      cessor_loc sl hl (fun h => (nomatch h)) (by rw [size_node]; omega) (by omega)
    have hL : ∀ r, findLoop key q fl fuel s (addr l) (aOf r) =
        some (aOf (Ravl.findLoop (fun d : Addr × α => key d.2) q fl l (⟨.left, d, k, rt⟩ :: p) r)) := fun r =>
      ihl (loc_down.1 (show Loc s (Tree.at .left l rt d k) p from hl)) (by simp only [List.length_cons]; omega)
    have hR : ∀ r, findLoop key q fl fuel s (addr rt) (aOf r) =
        some (aOf (Ravl.findLoop (fun d : Addr × α => key d.2) q fl rt (⟨.right, d, k, l⟩ :: p) r)) := fun r =>
      ihr (loc_down.1 (show Loc s (Tree.at .right rt l d k) p from hl)) (by simp only [List.length_cons]; omega)
    obtain ⟨g1, g2, -, -⟩ := hl.rep
    unfold findLoop Ravl.findLoop
    rw [show addr (Ravl.Tree.node l d k rt) = d.1 from rfl, if_neg g1, get_eq g1 g2]
    simp only [Option.bind_eq_bind, Option.bind_some]
    by_cases c1 : fl.equal = true ∧ q = key d.2
    · rw [if_pos c1, if_pos c1]; rfl
    rw [if_neg c1, if_neg c1]
    by_cases c2 : fl.greater = true ∧ q < key d.2
    · rw [if_pos c2, if_pos c2]; exact hL (some d)
    rw [if_neg c2, if_neg c2]
    by_cases c3 : fl.greater = true ∧ q = key d.2
    · rw [if_pos c3, if_pos c3]; exact hc _
    rw [if_neg c3, if_neg c3]
    by_cases c4 : fl.less = true ∧ q > key d.2
    · rw [if_pos c4, if_pos c4]; exact hR (some d)
    rw [if_neg c4, if_neg c4]
    by_cases c5 : fl.less = true ∧ q = key d.2
    · rw [if_pos c5, if_pos c5]; exact hc _
    rw [if_neg c5, if_neg c5]
    by_cases c6 : q > key d.2
    · rw [if_pos c6, if_pos c6]; exact hR r
    · rw [if_neg c6, if_neg c6]; exact hL r

theorem find_shape (key : α → Nat) (q : Nat) (fl : Pred) {t : T α} {fuel : Nat} (hs : Shape s t) (hf : 2 * size t + 1 < fuel) :
    find key q fl fuel s = some (aOf (Ravl.find (fun d : Addr × α => key d.2) t q fl)) := by
  have := findLoop_loc key q fl (p := []) (r := none) (fuel := fuel) (shape_loc.1 (show Shape s (zip t []) from hs)) (by simpa using hf)
  unfold find Ravl.find
  rw [hs.root]
  exact this

theorem most_shape (sl : Slot) {t : T α} {fuel : Nat} (hs : Shape s t) (hf : size t ≤ fuel) :
    most sl fuel s = some (aOf (Ravl.typeMost sl t)) := by
  unfold most
  rw [hs.root]
  by_cases e : addr t = 0
  · rw [if_pos e, (addr_zero hs.rep).1 e]
    rfl
  · rw [if_neg e]
    obtain ⟨x, e1, e2⟩ := typeMost_rep (sl := sl) (fuel := fuel) hs.rep (fun h => e ((addr_zero hs.rep).2 h)) hf
    rw [e1, e2]
    rfl

end Verif.RavlMem
