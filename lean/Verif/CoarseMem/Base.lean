import Verif.CoarseMem.Spec
import Verif.RavlMem.Props
/-!
# Lemmas for the coarse allocator, pointer by pointer: pieces of code, and the trees
-/
namespace Verif.CoarseMem
open Verif.Coarse (Res Check)
open Verif.Ravl (Slot Pred)
open Verif.RavlMem.Spec (nodeOf)

theorem upd_same {β : Type} (f : Addr → β) (a : Addr) (x : β) : upd f a x a = x := if_pos rfl
theorem upd_ne {β : Type} (f : Addr → β) {a b : Addr} (x : β) (h : b ≠ a) : upd f a x b = f b := if_neg h
theorem updT_same {β : Type} (f : Tr → β) (t : Tr) (x : β) : updT f t x t = x := if_pos rfl
theorem updT_ne {β : Type} (f : Tr → β) {t u : Tr} (x : β) (h : u ≠ t) : updT f t x u = f u := if_neg h

/-- The code ends with this result, with every large enough number of rounds. -/
def Ev {α : Type} (m : M α) (s : St) (a : α) (s' : St) : Prop := ∃ N, ∀ n, N ≤ n → m n s = some (a, s')

theorem Ev.pure {α : Type} (a : α) (s : St) : Ev (pure a : M α) s a s := ⟨0, fun _ _ => rfl⟩

theorem Ev.bind {α β : Type} {m : M α} {f : α → M β} {s s1 s2 : St} {a : α} {b : β} (h : Ev m s a s1) (h' : Ev (f a) s1 b s2) :
    Ev (m >>= f) s b s2 := by
  obtain ⟨N, hN⟩ := h
  obtain ⟨K, hK⟩ := h'
  refine ⟨max N K, fun n hn => ?_⟩
  show (match m n s with | none => none | some (a, s) => f a n s) = _
  rw [hN n (by omega)]
  exact hK n (by omega)

theorem Ev.bindPure {α β : Type} {m : M α} {f : α → β} {s s1 : St} {a : α} (h : Ev m s a s1) :
    Ev (do let x ← m; Pure.pure (f x)) s (f a) s1 := h.bind (.pure _ _)

theorem Ev.unique {α : Type} {m : M α} {s s1 s2 : St} {a b : α} (h : Ev m s a s1) (h' : Ev m s b s2) : a = b ∧ s1 = s2 := by
  obtain ⟨N, hN⟩ := h
  obtain ⟨K, hK⟩ := h'
  have := hN (max N K) (by omega)
  rw [hK (max N K) (by omega)] at this
  cases this
  exact ⟨rfl, rfl⟩

theorem Ev.ite_pos {α : Type} {c : Prop} [Decidable c] {m k : M α} {s s1 : St} {a : α} (hc : c) (h : Ev m s a s1) :
    Ev (if c then m else k) s a s1 := by rw [if_pos hc]; exact h

theorem Ev.ite_neg {α : Type} {c : Prop} [Decidable c] {m k : M α} {s s1 : St} {a : α} (hc : ¬ c) (h : Ev k s a s1) :
    Ev (if c then m else k) s a s1 := by rw [if_neg hc]; exact h

/-- The code has undefined behaviour, with every large enough number of rounds. -/
def EvN {α : Type} (m : M α) (s : St) : Prop := ∃ N, ∀ n, N ≤ n → m n s = none

theorem EvN.bind {α β : Type} {m : M α} {f : α → M β} {s : St} (h : EvN m s) : EvN (m >>= f) s := by
  obtain ⟨N, hN⟩ := h
  refine ⟨N, fun n hn => ?_⟩
  show (match m n s with | none => none | some (a, s) => f a n s) = _
  rw [hN n hn]

theorem Ev.bindN {α β : Type} {m : M α} {f : α → M β} {s s1 : St} {a : α} (h : Ev m s a s1) (h' : EvN (f a) s1) : EvN (m >>= f) s := by
  obtain ⟨N, hN⟩ := h
  obtain ⟨K, hK⟩ := h'
  refine ⟨max N K, fun n hn => ?_⟩
  show (match m n s with | none => none | some (a, s) => f a n s) = _
  rw [hN n (by omega)]
  exact hK n (by omega)

theorem EvN.ite_pos {α : Type} {c : Prop} [Decidable c] {m k : M α} {s : St} (hc : c) (h : EvN m s) : EvN (if c then m else k) s := by
  rw [if_pos hc]; exact h

theorem EvN.ite_neg {α : Type} {c : Prop} [Decidable c] {m k : M α} {s : St} (hc : ¬ c) (h : EvN k s) : EvN (if c then m else k) s := by
  rw [if_neg hc]; exact h

theorem Ev.not {α : Type} {m : M α} {s s1 : St} {a : α} (h : Ev m s a s1) : ¬ EvN m s := by
  rintro ⟨K, hK⟩
  obtain ⟨N, hN⟩ := h
  have := hN (max N K) (by omega)
  rw [hK (max N K) (by omega)] at this
  cases this

/-- Pieces of code that always take the same steps. -/
theorem Ev.of {α : Type} {m : M α} {s s1 : St} {a : α} (h : ∀ n, m n s = some (a, s1)) : Ev m s a s1 := ⟨0, fun n _ => h n⟩

theorem getB_ev {s : St} {b : Addr} {B : Blk} (h : s.blk b = some B) : Ev (getB b) s B s :=
  .of fun _ => by unfold getB; rw [h]; rfl
theorem modB_ev {s : St} {b : Addr} {B : Blk} (f : Blk → Blk) (h : s.blk b = some B) :
    Ev (modB b f) s () { s with blk := upd s.blk b (some (f B)) } := .of fun _ => by unfold modB; rw [h]; rfl
theorem newB_ev (s : St) (b : Addr) (B : Blk) : Ev (newB b B) s () { s with blk := upd s.blk b (some B) } := .of fun _ => rfl
theorem freeB_ev {s : St} {b : Addr} {B : Blk} (h : s.blk b = some B) : Ev (freeB b) s () { s with blk := upd s.blk b none } :=
  .of fun _ => by unfold freeB; rw [h]; rfl
theorem getE_ev {s : St} {e : Addr} {n : Coarse.Index.Elem} (h0 : e ≠ 0) (h : s.elm e = some n) : Ev (getE e) s n s :=
  .of fun _ => by unfold getE; rw [if_neg h0, h]; rfl
theorem newE_ev (s : St) (e : Addr) (n : Coarse.Index.Elem) : Ev (newE e n) s () { s with elm := upd s.elm e (some n) } := .of fun _ => rfl
theorem freeE_ev {s : St} {e : Addr} {n : Coarse.Index.Elem} (h : s.elm e = some n) :
    Ev (freeE e) s () { s with elm := upd s.elm e none } := .of fun _ => by unfold freeE; rw [h]; rfl
theorem setPrev_ev {s : St} {p v : Addr} {m : Nat → Option Coarse.Index.Elem} (h : Coarse.Index.setPrev s.elm p v = some m) :
    Ev (setPrev p v) s () { s with elm := m } := .of fun _ => by unfold setPrev; rw [h]; rfl
theorem setNext_ev {s : St} {p v : Addr} {m : Nat → Option Coarse.Index.Elem} (h : Coarse.Index.setNext s.elm p v = some m) :
    Ev (setNext p v) s () { s with elm := m } := .of fun _ => by unfold setNext; rw [h]; rfl
theorem getH_ev {s : St} {h f : Addr} (e : s.hd h = some f) : Ev (getH h) s f s := .of fun _ => by unfold getH; rw [e]; rfl
theorem setH_ev {s : St} {h f : Addr} (g : Addr) (e : s.hd h = some f) : Ev (setH h g) s () { s with hd := upd s.hd h (some g) } :=
  .of fun _ => by unfold setH; rw [e]; rfl
theorem newH_ev (s : St) (h f : Addr) : Ev (newH h f) s () { s with hd := upd s.hd h (some f) } := .of fun _ => rfl
theorem freeH_ev {s : St} {h f : Addr} (e : s.hd h = some f) : Ev (freeH h) s () { s with hd := upd s.hd h none } :=
  .of fun _ => by unfold freeH; rw [e]; rfl

/-- The request for memory is answered, or refused. -/
theorem hostAlloc_ev (s : St) : (∃ a g, a ≠ 0 ∧ fresh s a = true ∧ (a, g) ∈ s.host ∧ Ev hostAlloc s (a, g) { s with host := s.host.tail }) ∨
    Ev hostAlloc s (0, false) { s with host := s.host.tail, refused := true } := by
  by_cases h : (s.host.headD (0, false)).1 ≠ 0 ∧ fresh s (s.host.headD (0, false)).1 = true
  · refine .inl ⟨(s.host.headD (0, false)).1, (s.host.headD (0, false)).2, h.1, h.2, ?_, .of fun _ => ?_⟩
    · cases hh : s.host with
      | nil => rw [hh] at h; exact absurd rfl h.1
      | cons x l => simp
    · unfold hostAlloc
      dsimp only
      rw [if_pos h]
  · refine .inr (.of fun _ => ?_)
    unfold hostAlloc
    dsimp only
    rw [if_neg h]

theorem fresh_iff {s : St} {a : Addr} : fresh s a = true ↔
    s.blk a = none ∧ s.elm a = none ∧ s.hd a = none ∧ ∀ t, (s.tree t).h a = none := by
  unfold fresh
  simp only [Bool.and_eq_true, Option.isNone_iff_eq_none]
  constructor
  · rintro ⟨⟨⟨⟨h1, h2⟩, h3⟩, h4⟩, h5⟩
    exact ⟨h1, h2, h3, fun t => by cases t <;> assumption⟩
  · rintro ⟨h1, h2, h3, h4⟩
    exact ⟨⟨⟨⟨h1, h2⟩, h3⟩, h4 _⟩, h4 _⟩

/-! ## Trees -/

/-- The tree `t` holds `L`: nodes with key and pointer, in increasing order of the keys. -/
abbrev Holds (s : St) (t : Tr) (L : List (Addr × Nat × Addr)) : Prop := RavlMem.Inv Prod.fst (s.tree t) L

variable {s : St} {t : Tr} {L : List (Addr × Nat × Addr)}

theorem holds_ne (h : Holds s t L) {x : Addr × Nat × Addr} (hx : x ∈ L) : x.1 ≠ 0 ∧ (s.tree t).h x.1 ≠ none := by
  obtain ⟨u, hs, -, rfl, -⟩ := h
  exact RavlMem.rep_get hs.rep x.1 (List.mem_map_of_mem hx)

theorem holds_uniq (h : Holds s t L) {x y : Addr × Nat × Addr} (hx : x ∈ L) (hy : y ∈ L) (e : x.2.1 = y.2.1) : x = y := by
  have hp := (RavlMem.inv_view h).2.1
  refine Classical.byContradiction fun hne => ?_
  obtain ⟨A, B, rfl⟩ := List.append_of_mem hx
  rw [List.pairwise_append, List.pairwise_cons] at hp
  rcases List.mem_append.1 hy with h1 | h1
  · have := hp.2.2 y h1 x (by simp)
    omega
  · rcases List.mem_cons.1 h1 with h1 | h1
    · exact hne h1.symm
    · have := hp.2.1.1 y h1
      omega

theorem dataOf_ev (h : Holds s t L) {n : Addr} {x : Nat × Addr} (hx : (n, x) ∈ L) : Ev (dataOf t n) s x s := by
  obtain ⟨c, hc, hd⟩ := ((RavlMem.inv_view h).2.2 n x).2 hx
  refine .of fun _ => ?_
  unfold dataOf RavlMem.get
  rw [if_neg (holds_ne h hx).1, hc]
  show some (c.data, s) = _
  rw [hd]

theorem find_ev (h : Holds s t L) {p : Pred} (hp : p ∈ RavlMem.Spec.kinds) (q : Nat) :
    ∃ r, Ravl.Spec.Answers (fun e : Addr × Nat × Addr => e.2.1) L q p r ∧ Ev (findN t q p) s (nodeOf r) s := by
  obtain ⟨s', out, L', ⟨N, hN⟩, st, -⟩ := RavlMem.exec_step h (op := .find q p) hp
  cases st with
  | found hr =>
    rename_i r
    refine ⟨r, hr, N, fun n hn => ?_⟩
    have := hN n hn
    unfold RavlMem.exec at this
    dsimp only at this
    unfold findN
    cases he : RavlMem.find Prod.fst q p n (s.tree t) with
    | none => rw [he] at this; cases this
    | some a =>
      rw [he] at this
      cases this
      rfl

/-- Search for a key. -/
theorem findEq_ev (h : Holds s t L) (q : Nat) :
    (Ev (findN t q eqP) s 0 s ∧ ∀ x ∈ L, x.2.1 ≠ q) ∨ ∃ n v, (n, q, v) ∈ L ∧ n ≠ 0 ∧ Ev (findN t q eqP) s n s := by
  obtain ⟨r, hr, he⟩ := find_ev h (p := eqP) (by simp [RavlMem.Spec.kinds, eqP]) q
  cases r with
  | none =>
    refine .inl ⟨he, fun x hx e => hr x hx (.inl ⟨rfl, e⟩)⟩
  | some x =>
    obtain ⟨h1, h2, -⟩ := hr
    obtain ⟨n, k, v⟩ := x
    have hk : k = q := by
      rcases h2 with h2 | h2 | h2
      · exact h2.2
      · exact absurd h2.1 (by decide)
      · exact absurd h2.1 (by decide)
    subst hk
    exact .inr ⟨n, v, h1, (holds_ne h h1).1, he⟩

/-- Search for the least key that is large enough. -/
theorem findGe_ev (h : Holds s t L) (q : Nat) :
    (Ev (findN t q geP) s 0 s ∧ ∀ x ∈ L, x.2.1 < q) ∨
    ∃ n k v, (n, k, v) ∈ L ∧ n ≠ 0 ∧ q ≤ k ∧ (∀ x ∈ L, q ≤ x.2.1 → k ≤ x.2.1) ∧ Ev (findN t q geP) s n s := by
  obtain ⟨r, hr, he⟩ := find_ev h (p := geP) (by simp [RavlMem.Spec.kinds, geP]) q
  have hH : ∀ x : Addr × Nat × Addr, q ≤ x.2.1 → Ravl.Spec.Holds (fun e : Addr × Nat × Addr => e.2.1) q geP x := by
    intro x hx
    by_cases e : x.2.1 = q
    · exact .inl ⟨rfl, e⟩
    · exact .inr (.inl ⟨rfl, show q < x.2.1 by omega⟩)
  cases r with
  | none =>
    refine .inl ⟨he, fun x hx => ?_⟩
    have h' : ¬ q ≤ x.2.1 := fun e => hr x hx (hH x e)
    omega
  | some x =>
    obtain ⟨h1, h2, h3⟩ := hr
    obtain ⟨n, k, v⟩ := x
    have hk : q ≤ k := by
      rcases h2 with h2 | h2 | h2
      · exact Nat.le_of_eq h2.2.symm
      · exact Nat.le_of_lt h2.2
      · exact absurd h2.1 (by decide)
    exact .inr ⟨n, k, v, h1, (holds_ne h h1).1, hk, fun x hx e => (h3 x hx (hH x e)).1 rfl, he⟩

theorem mid_unique {α β : Type} {A B C D : List (α × β)} {n : α} {x y : β} (hn : ((A ++ (n, x) :: B).map (·.1)).Nodup)
    (h : A ++ (n, x) :: B = C ++ (n, y) :: D) : A = C ∧ x = y ∧ B = D := by
  induction A generalizing C with
  | nil =>
    cases C with
    | nil => cases h; exact ⟨rfl, rfl, rfl⟩
    | cons c C =>
      cases h
      simp at hn
  | cons a A ih =>
    cases C with
    | nil =>
      cases h
      simp at hn
    | cons c C =>
      simp only [List.cons_append, List.cons.injEq] at h
      obtain ⟨rfl, h⟩ := h
      simp only [List.cons_append, List.map_cons, List.nodup_cons] at hn
      obtain ⟨h1, h2, h3⟩ := ih hn.2 h
      exact ⟨by rw [h1], h2, h3⟩

/-- The neighbours of a node. -/
theorem prev_ev {A B : List (Addr × Nat × Addr)} {n : Addr} {x : Nat × Addr} (h : Holds s t (A ++ (n, x) :: B)) :
    Ev (cessorN t .left n) s (nodeOf A.getLast?) s := by
  obtain ⟨s', out, L', ⟨N, hN⟩, st, -⟩ := RavlMem.exec_step h (op := .prev n) (holds_ne h (x := (n, x)) (by simp)).2
  generalize hL : A ++ (n, x) :: B = L at *
  cases st with
  | prev =>
    rename_i C D y
    obtain ⟨h1, -, -⟩ := mid_unique (by rw [hL]; exact (RavlMem.inv_view h).1) hL
    refine ⟨N, fun m hm => ?_⟩
    have := hN m hm
    unfold RavlMem.exec at this
    dsimp only at this
    unfold cessorN
    cases he : RavlMem.cessor .left m (s.tree t) n with
    | none => rw [he] at this; cases this
    | some a =>
      rw [he] at this
      cases this
      rw [h1]
      rfl

theorem next_ev {A B : List (Addr × Nat × Addr)} {n : Addr} {x : Nat × Addr} (h : Holds s t (A ++ (n, x) :: B)) :
    Ev (cessorN t .right n) s (nodeOf B.head?) s := by
  obtain ⟨s', out, L', ⟨N, hN⟩, st, -⟩ := RavlMem.exec_step h (op := .next n) (holds_ne h (x := (n, x)) (by simp)).2
  generalize hL : A ++ (n, x) :: B = L at *
  cases st with
  | next =>
    rename_i C D y
    obtain ⟨-, -, h1⟩ := mid_unique (by rw [hL]; exact (RavlMem.inv_view h).1) hL
    refine ⟨N, fun m hm => ?_⟩
    have := hN m hm
    unfold RavlMem.exec at this
    dsimp only at this
    unfold cessorN
    cases he : RavlMem.cessor .right m (s.tree t) n with
    | none => rw [he] at this; cases this
    | some a =>
      rw [he] at this
      cases this
      rw [h1]
      rfl

/-- Removal: the other elements stay; the next one may move to the node. -/
theorem remove_ev {A B : List (Addr × Nat × Addr)} {n : Addr} {x : Nat × Addr} (h : Holds s t (A ++ (n, x) :: B)) :
    ∃ T B', Ev (removeN t n) s () { s with tree := updT s.tree t T } ∧ RavlMem.Inv Prod.fst T (A ++ B') ∧
      B'.map (·.2) = B.map (·.2) := by
  obtain ⟨T, out, L', ⟨N, hN⟩, st, hi⟩ := RavlMem.exec_step h (op := .remove n) (holds_ne h (x := (n, x)) (by simp)).2
  have hev : out = .done → Ev (removeN t n) s () { s with tree := updT s.tree t T } := by
    rintro rfl
    refine ⟨N, fun m hm => ?_⟩
    have := hN m hm
    unfold RavlMem.exec at this
    dsimp only at this
    unfold removeN
    cases he : RavlMem.remove m (s.tree t) n with
    | none => rw [he] at this; cases this
    | some a =>
      rw [he] at this
      cases this
      rfl
  generalize hL : A ++ (n, x) :: B = L at *
  have hnd := (RavlMem.inv_view h).1
  cases st with
  | removed =>
    obtain ⟨h1, -, h3⟩ := mid_unique (by rw [hL]; exact hnd) hL
    refine ⟨T, B, hev rfl, by rw [h1, h3]; exact hi, rfl⟩
  | moved =>
    rename_i C D y m z
    obtain ⟨h1, -, h3⟩ := mid_unique (by rw [hL]; exact hnd) hL
    exact ⟨T, (n, z) :: D, hev rfl, by rw [h1]; exact hi, by rw [h3]; rfl⟩

/-- Insertion with a new key, in a block of memory that is not used. -/
theorem emplaceAt_ev (h : Holds s t L) {x : Nat × Addr} (hx : ∀ e ∈ L, e.2.1 ≠ x.1) {a : Addr} (ha : a ≠ 0) (hf : (s.tree t).h a = none) :
    ∃ T A B, L = A ++ B ∧ Ev (emplaceAt t x a) s true { s with tree := updT s.tree t T } ∧ RavlMem.Inv Prod.fst T (A ++ (a, x) :: B) := by
  obtain ⟨T, out, L', ⟨N, hN⟩, st, hi⟩ := RavlMem.exec_step h (op := .insert x a) trivial
  have hev : ∀ b, out = .ok b → Ev (emplaceAt t x a) s b { s with tree := updT s.tree t T } := by
    rintro b rfl
    refine ⟨N, fun m hm => ?_⟩
    have := hN m hm
    unfold RavlMem.exec at this
    dsimp only at this
    unfold emplaceAt
    cases he : RavlMem.emplace Prod.fst x a m (s.tree t) with
    | none => rw [he] at this; cases this
    | some r =>
      rw [he] at this
      obtain ⟨r1, r2⟩ := r
      cases this
      rfl
  cases st with
  | refused h' =>
    rcases h' with h' | h'
    · exact absurd h' ha
    · obtain ⟨e, he, rfl⟩ := List.mem_map.1 h'
      exact absurd hf (holds_ne h he).2
  | duplicate h' =>
    obtain ⟨e, he, h'⟩ := h'
    exact absurd h' (hx e he)
  | inserted h1 h2 h3 h4 => exact ⟨T, _, _, rfl, hev _ rfl, hi⟩

/-- Insertion without memory, or with a key that is there: nothing changes. -/
theorem emplaceAt_fail (h : Holds s t L) {x : Nat × Addr} {a : Addr} (hx : a = 0 ∨ ∃ e ∈ L, e.2.1 = x.1) :
    ∃ T, Ev (emplaceAt t x a) s false { s with tree := updT s.tree t T } ∧ RavlMem.Inv Prod.fst T L := by
  obtain ⟨T, out, L', ⟨N, hN⟩, st, hi⟩ := RavlMem.exec_step h (op := .insert x a) trivial
  have hev : ∀ b, out = .ok b → Ev (emplaceAt t x a) s b { s with tree := updT s.tree t T } := by
    rintro b rfl
    refine ⟨N, fun m hm => ?_⟩
    have := hN m hm
    unfold RavlMem.exec at this
    dsimp only at this
    unfold emplaceAt
    cases he : RavlMem.emplace Prod.fst x a m (s.tree t) with
    | none => rw [he] at this; cases this
    | some r =>
      rw [he] at this
      obtain ⟨r1, r2⟩ := r
      cases this
      rfl
  cases st with
  | refused h' => exact ⟨T, hev _ rfl, hi⟩
  | duplicate h' => exact ⟨T, hev _ rfl, hi⟩
  | inserted h1 h2 h3 h4 =>
    rcases hx with hx | ⟨e, he, hx⟩
    · exact absurd hx h1
    · rcases List.mem_append.1 he with he | he
      · have : e.2.1 < x.1 := h3 e he
        omega
      · have : x.1 < e.2.1 := h4 e he
        omega

theorem foreach_ev (h : Holds s t L) : Ev (foreachN t) s (L.map (·.2)) s := by
  obtain ⟨T, out, L', ⟨N, hN⟩, st, hi⟩ := RavlMem.exec_step h (op := .foreach) trivial
  cases st with
  | foreach =>
    refine ⟨N, fun m hm => ?_⟩
    have := hN m hm
    unfold RavlMem.exec at this
    dsimp only at this
    unfold foreachN
    cases he : RavlMem.foreach m (s.tree t) with
    | none => rw [he] at this; cases this
    | some r =>
      rw [he] at this
      obtain ⟨r1, r2⟩ := r
      cases this
      rfl

end Verif.CoarseMem
