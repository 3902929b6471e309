import Verif.CoarseMem.Take
import Verif.CoarseMem.RefSpec
/-!
# Lemmas for the coarse allocator, pointer by pointer: blocks, and what the abstract model sees of them
-/
namespace Verif.CoarseMem
open Verif.Coarse (Res Check aligned alignUp effAlign Cfg Strategy)
open Verif.Coarse.Index (Elem Ent cls Chain)
open Verif.Ravl (Slot Pred)
open Verif.RavlMem.Spec (nodeOf)

/-- The blocks: `A` is what the tree of all blocks holds (nodes with address and descriptor), `E` the entries of the lists. -/
structure Inv (s : St) (A : List (Addr × Nat × Addr)) (E : List Ent) : Prop where
  all : Holds s .all A
  desc : ∀ x ∈ A.map (·.2), x.2 ≠ 0 ∧ ∃ B, s.blk x.2 = some B ∧ B.data = x.1
  only : ∀ b, s.blk b ≠ none → ∃ d, (d, b) ∈ A.map (·.2)
  lists : ∃ F, Ix s F E
  heads : s.refused = false → NoEmpty s

/-- What a piece of code does to the other blocks: those that are used and on no list stay as they are, except those in `X`. -/
structure Step (X : Addr → Prop) (s s' : St) : Prop where
  keep : ∀ b B, s.blk b = some B → B.used = true → B.fl = 0 → ¬ X b → s'.blk b = some B
  host : ∀ x ∈ s'.host, x ∈ s.host
  ref : s'.refused = false → s.refused = false

/-- No block is used and on a list. -/
def Clean (s : St) : Prop := ∀ b B, s.blk b = some B → B.used = true → B.fl = 0

/-- The base allocator gives memory whose byte for `used` is 0. -/
def Zero (s : St) : Prop := ∀ x ∈ s.host, x.2 = false

theorem Zero.of {s s' : St} (h : Zero s) (h' : ∀ x ∈ s'.host, x ∈ s.host) : Zero s' := fun x hx => h x (h' x hx)

theorem Step.rfl {X : Addr → Prop} {s : St} : Step X s s := ⟨fun _ _ h _ _ _ => h, fun _ h => h, fun h => h⟩

theorem Step.trans {X : Addr → Prop} {s s1 s2 : St} (h : Step X s s1) (h' : Step X s1 s2) : Step X s s2 :=
  ⟨fun b B e u f n => h'.keep b B (h.keep b B e u f n) u f n, fun x hx => h.host x (h'.host x hx), fun e => h.ref (h'.ref e)⟩

theorem Step.mono {X Y : Addr → Prop} {s s' : St} (h : Step X s s') (hXY : ∀ b B, s.blk b = some B → B.used = true → B.fl = 0 → X b → Y b) :
    Step Y s s' := ⟨fun b B e u f n => h.keep b B e u f fun hx => n (hXY b B e u f hx), h.host, h.ref⟩

variable {s s' : St} {A : List (Addr × Nat × Addr)} {E : List Ent}

theorem Inv.block (h : Inv s A E) {n d b : Addr} (hx : (n, d, b) ∈ A) : b ≠ 0 ∧ ∃ B, s.blk b = some B ∧ B.data = d :=
  h.desc (d, b) (mem_map2.2 ⟨n, hx⟩)

theorem Inv.node (h : Inv s A E) {b : Addr} {B : Blk} (hb : s.blk b = some B) : b ≠ 0 ∧ ∃ n, (n, B.data, b) ∈ A := by
  obtain ⟨d, hd⟩ := h.only b (by rw [hb]; nofun)
  obtain ⟨n, hn⟩ := mem_map2.1 hd
  obtain ⟨h0, C, c1, c2⟩ := h.block hn
  rw [hb] at c1
  cases c1
  rw [c2]
  exact ⟨h0, n, hn⟩

/-- The tree of all blocks finds the block of a descriptor. -/
theorem Inv.find (h : Inv s A E) {b : Addr} {B : Blk} (hb : s.blk b = some B) :
    ∃ n, (n, B.data, b) ∈ A ∧ n ≠ 0 ∧ Ev (findN .all B.data eqP) s n s := by
  obtain ⟨-, n, hn⟩ := h.node hb
  rcases findEq_ev h.all B.data with ⟨-, hno⟩ | ⟨m, v, hm, h0, hev⟩
  · exact absurd rfl (hno _ hn)
  · have := holds_uniq h.all hm hn rfl
    cases this
    exact ⟨n, hn, h0, hev⟩

theorem Inv.data_inj (h : Inv s A E) {b c : Addr} {B C : Blk} (hb : s.blk b = some B) (hc : s.blk c = some C) (e : B.data = C.data) : b = c := by
  obtain ⟨-, n, hn⟩ := h.node hb
  obtain ⟨-, m, hm⟩ := h.node hc
  exact congrArg (fun x => x.2.2) (holds_uniq h.all hn hm e)

/-! ## The abstract state -/

def absB (s : St) (b : Addr) : Coarse.Block := ((s.blk b).map viewB).getD ⟨0, 0, false, false⟩

def absL (s : St) (A : List (Addr × Nat × Addr)) : List Coarse.Block := A.map fun x => absB s x.2.2

/-- The state as the model of `Coarse/Model.lean` sees it. -/
def abs (s : St) (A : List (Addr × Nat × Addr)) (E : List Ent) : Coarse.St := ⟨absL s A, absF s E, s.usedSize, s.allocSize⟩

theorem absB_eq {b : Addr} {B : Blk} (h : s.blk b = some B) : absB s b = viewB B := by
  unfold absB
  rw [h]
  rfl

/-- The blocks of a list of nodes have the addresses of its keys. -/
def Keyed (s : St) (A : List (Addr × Nat × Addr)) : Prop :=
  A.Pairwise (fun x y => x.2.1 < y.2.1) ∧ ∀ x ∈ A, ∃ B, s.blk x.2.2 = some B ∧ B.data = x.2.1

theorem Inv.keyed (h : Inv s A E) : Keyed s A :=
  ⟨(RavlMem.inv_view h.all).2.1, fun x hx => (h.desc x.2 (List.mem_map_of_mem hx)).2⟩

theorem Keyed.data (h : Keyed s A) {x : Addr × Nat × Addr} (hx : x ∈ A) : (absB s x.2.2).data = x.2.1 := by
  obtain ⟨B, b1, b2⟩ := h.2 x hx
  rw [absB_eq b1]
  exact b2

theorem Keyed.sub {P Q : List (Addr × Nat × Addr)} (h : Keyed s (P ++ Q)) : Keyed s P ∧ Keyed s Q := by
  obtain ⟨h1, h2⟩ := h
  rw [List.pairwise_append] at h1
  exact ⟨⟨h1.1, fun x hx => h2 x (by simp [hx])⟩, h1.2.1, fun x hx => h2 x (by simp [hx])⟩

theorem Keyed.tail {x : Addr × Nat × Addr} (h : Keyed s (x :: A)) : Keyed s A ∧ ∀ y ∈ A, x.2.1 < y.2.1 := by
  obtain ⟨h1, h2⟩ := h
  rw [List.pairwise_cons] at h1
  exact ⟨⟨h1.2, fun y hy => h2 y (by simp [hy])⟩, h1.1⟩

theorem absL_congr (h : ∀ x ∈ A, s'.blk x.2.2 = s.blk x.2.2) : absL s' A = absL s A := by
  unfold absL
  refine List.map_congr_left fun x hx => ?_
  unfold absB
  rw [h x hx]

theorem absL_map2 {Q Q' : List (Addr × Nat × Addr)} (h : Q'.map (·.2) = Q.map (·.2)) : absL s Q' = absL s Q := by
  have : ∀ L : List (Addr × Nat × Addr), absL s L = (L.map (·.2)).map fun x => absB s x.2 := by
    intro L
    unfold absL
    rw [List.map_map]
    rfl
  rw [this, this, h]

theorem absL_append {P Q : List (Addr × Nat × Addr)} : absL s (P ++ Q) = absL s P ++ absL s Q := List.map_append

theorem lookup_abs (h : Keyed s A) {n d b : Addr} {B : Blk} (hx : (n, d, b) ∈ A) (hb : s.blk b = some B) :
    Coarse.lookup d (absL s A) = some (viewB B) := by
  induction A with
  | nil => cases hx
  | cons y A ih =>
    obtain ⟨ht, hlt⟩ := h.tail
    have hd := h.data (x := y) List.mem_cons_self
    unfold Coarse.lookup absL at *
    rw [List.map_cons]
    rcases List.mem_cons.1 hx with rfl | hx
    · rw [List.find?_cons_of_pos (by rw [hd]; simp)]
      rw [absB_eq hb]
    · have h1 : y.2.1 < d := hlt _ hx
      rw [List.find?_cons_of_neg (by rw [hd]; simpa using Nat.ne_of_lt h1)]
      exact ih ht hx

theorem lookup_abs_none (h : Keyed s A) {d : Nat} (hx : ∀ x ∈ A, x.2.1 ≠ d) : Coarse.lookup d (absL s A) = none := by
  unfold Coarse.lookup absL
  rw [List.find?_eq_none]
  intro y hy
  obtain ⟨x, hx', rfl⟩ := List.mem_map.1 hy
  have := h.data hx'
  simp only [beq_iff_eq]
  rw [this]
  exact hx x hx'

theorem modify_abs (h : Keyed s A) {b : Addr} {B C : Blk} {f : Coarse.Block → Coarse.Block} (hb : s.blk b = some B)
    (hf : f (viewB B) = viewB C) (hs : s'.blk = upd s.blk b (some C)) (hi : ∀ x ∈ A, x.2.1 = B.data → x.2.2 = b) :
    Coarse.modify B.data f (absL s A) = absL s' A := by
  unfold Coarse.modify absL
  rw [List.map_map]
  refine List.map_congr_left fun x hx => ?_
  obtain ⟨D, d1, d2⟩ := h.2 x hx
  show (if (absB s x.2.2).data == B.data then f (absB s x.2.2) else absB s x.2.2) = absB s' x.2.2
  rw [h.data hx]
  by_cases e : x.2.2 = b
  · have hD : D = B := by
      rw [e, hb] at d1
      cases d1
      rfl
    subst hD
    rw [if_pos (by simp [d2]), e, absB_eq hb, hf, absB_eq (s := s') (by rw [hs, upd_same])]
  · rw [if_neg (by simp; exact fun e' => e (hi x hx e'))]
    unfold absB
    rw [hs, upd_ne _ _ e]

theorem Inv.modify (h : Inv s A E) {b : Addr} {B C : Blk} {f : Coarse.Block → Coarse.Block} (hb : s.blk b = some B)
    (hf : f (viewB B) = viewB C) (hs : s'.blk = upd s.blk b (some C)) : Coarse.modify B.data f (absL s A) = absL s' A := by
  refine modify_abs h.keyed hb hf hs fun x hx e => ?_
  obtain ⟨-, D, d1, d2⟩ := h.desc x.2 (List.mem_map_of_mem hx)
  exact h.data_inj d1 hb (d2.trans e)

theorem remove_abs {P Q Q' : List (Addr × Nat × Addr)} {n d b : Addr} (h : Keyed s (P ++ (n, d, b) :: Q)) (hQ : Q'.map (·.2) = Q.map (·.2))
    (hs : s'.blk = upd s.blk b none) : Coarse.removeBlock d (absL s (P ++ (n, d, b) :: Q)) = absL s' (P ++ Q') := by
  have hp := h.1
  rw [List.pairwise_append, List.pairwise_cons] at hp
  obtain ⟨B, b1, b2⟩ := h.2 (n, d, b) (by simp)
  have hnb : ∀ x ∈ P ++ Q, x.2.1 ≠ d ∧ x.2.2 ≠ b := by
    intro x hx
    have hx' : x ∈ P ++ (n, d, b) :: Q := by
      rw [List.mem_append] at hx
      rw [List.mem_append, List.mem_cons]
      exact hx.imp id .inr
    have h1 : x.2.1 ≠ d := by
      rcases List.mem_append.1 hx with hx | hx
      · have h' : x.2.1 < d := hp.2.2 x hx _ List.mem_cons_self
        exact Nat.ne_of_lt h'
      · have h' : d < x.2.1 := hp.2.1.1 x hx
        exact Nat.ne_of_gt h'
    refine ⟨h1, fun e => h1 ?_⟩
    obtain ⟨C, c1, c2⟩ := h.2 x hx'
    dsimp only at b1 b2
    rw [e, b1] at c1
    cases c1
    exact c2.symm.trans b2
  have hkeep : ∀ L : List (Addr × Nat × Addr), (∀ x ∈ L, x ∈ P ++ Q) → Coarse.removeBlock d (absL s L) = absL s' L := by
    intro L hL
    unfold Coarse.removeBlock
    rw [List.filter_eq_self.2]
    · refine (absL_congr fun x hx => ?_).symm
      rw [hs, upd_ne _ _ (hnb x (hL x hx)).2]
    · intro y hy
      obtain ⟨x, hx, rfl⟩ := List.mem_map.1 hy
      have := h.data (x := x) (by
        have := hL x hx
        rw [List.mem_append] at this
        rw [List.mem_append, List.mem_cons]
        exact this.imp id .inr)
      simp only [bne_iff_ne]
      rw [this]
      exact (hnb x (hL x hx)).1
  have hd : (absB s b).data = d := by
    rw [absB_eq b1]
    exact b2
  rw [absL_append, absL_append, ← hkeep P (fun x hx => by simp [hx]), absL_map2 hQ, ← hkeep Q (fun x hx => by simp [hx])]
  unfold Coarse.removeBlock
  rw [List.filter_append]
  congr 1
  unfold absL
  rw [List.map_cons, List.filter_cons_of_neg]
  dsimp only
  rw [hd]
  simp

theorem prevOf_abs {P Q : List (Addr × Nat × Addr)} {n d b : Addr} (h : Keyed s (P ++ (n, d, b) :: Q)) :
    Coarse.prevOf d (absL s (P ++ (n, d, b) :: Q)) = P.getLast?.map fun x => absB s x.2.2 := by
  have hp := h.1
  rw [List.pairwise_append, List.pairwise_cons] at hp
  unfold Coarse.prevOf
  have : (absL s (P ++ (n, d, b) :: Q)).filter (fun x => decide (x.data < d)) = absL s P := by
    rw [absL_append, List.filter_append]
    have h1 : (absL s P).filter (fun x => decide (x.data < d)) = absL s P := by
      rw [List.filter_eq_self]
      intro y hy
      obtain ⟨x, hx, rfl⟩ := List.mem_map.1 hy
      rw [h.data (x := x) (by simp [hx])]
      have h' : x.2.1 < d := hp.2.2 x hx _ List.mem_cons_self
      exact decide_eq_true h'
    have h2 : (absL s ((n, d, b) :: Q)).filter (fun x => decide (x.data < d)) = [] := by
      rw [List.filter_eq_nil_iff]
      intro y hy
      obtain ⟨x, hx, rfl⟩ := List.mem_map.1 hy
      rw [h.data (x := x) (List.mem_append_right _ hx)]
      have h' : ¬ x.2.1 < d := by
        rcases List.mem_cons.1 hx with rfl | hx
        · exact Nat.lt_irrefl _
        · have h' : d < x.2.1 := hp.2.1.1 x hx
          exact Nat.not_lt.2 (Nat.le_of_lt h')
      rw [decide_eq_true_eq]
      exact h'
    rw [h1, h2, List.append_nil]
  rw [this]
  unfold absL
  rw [List.getLast?_map]

theorem nextOf_abs {P Q : List (Addr × Nat × Addr)} {n d b : Addr} (h : Keyed s (P ++ (n, d, b) :: Q)) :
    Coarse.nextOf d (absL s (P ++ (n, d, b) :: Q)) = Q.head?.map fun x => absB s x.2.2 := by
  have hp := h.1
  rw [List.pairwise_append, List.pairwise_cons] at hp
  unfold Coarse.nextOf
  rw [absL_append, List.find?_append, List.find?_eq_none.2, Option.none_or]
  · unfold absL
    rw [List.map_cons, List.find?_cons_of_neg]
    · cases Q with
      | nil => rfl
      | cons y Q =>
        rw [List.map_cons, List.find?_cons_of_pos]
        · rfl
        · rw [h.data (x := y) (by simp)]
          have h' : d < y.2.1 := hp.2.1.1 y List.mem_cons_self
          exact decide_eq_true h'
    · rw [h.data (x := (n, d, b)) (by simp)]
      simp
  · intro y hy
    obtain ⟨x, hx, rfl⟩ := List.mem_map.1 hy
    rw [h.data (x := x) (by simp [hx])]
    have h' : x.2.1 < d := hp.2.2 x hx _ List.mem_cons_self
    rw [decide_eq_true_eq]
    omega

theorem insert_abs {d : Nat} {N : Coarse.Block} (hN : N.data = d) {P Q : List Coarse.Block} (h1 : ∀ x ∈ P, x.data < d) (h2 : ∀ x ∈ Q, d < x.data) :
    Coarse.insertBlock N (P ++ Q) = some (P ++ N :: Q) := by
  induction P with
  | nil =>
    cases Q with
    | nil => rfl
    | cons y Q =>
      rw [List.nil_append, Coarse.insertBlock, if_pos (by rw [hN]; exact h2 y List.mem_cons_self)]
      rfl
  | cons y P ih =>
    have h' := h1 y List.mem_cons_self
    rw [List.cons_append, Coarse.insertBlock, if_neg (by omega), if_neg (by omega), ih fun x hx => h1 x (by simp [hx])]
    rfl

theorem insert_abs_none {d : Nat} {N : Coarse.Block} (hN : N.data = d) {L : List Coarse.Block} (hs : L.Pairwise fun x y => x.data < y.data)
    (h : ∃ x ∈ L, x.data = d) : Coarse.insertBlock N L = none := by
  induction L with
  | nil =>
    obtain ⟨x, hx, -⟩ := h
    cases hx
  | cons y L ih =>
    rw [List.pairwise_cons] at hs
    obtain ⟨x, hx, e⟩ := h
    rcases List.mem_cons.1 hx with rfl | hx
    · rw [Coarse.insertBlock, if_neg (by omega), if_pos (by omega)]
    · have := hs.1 x hx
      rw [Coarse.insertBlock, if_neg (by omega), if_neg (by omega), ih hs.2 ⟨x, hx, e⟩]
      rfl

theorem Keyed.sorted (h : Keyed s A) : (absL s A).Pairwise fun x y => x.data < y.data := by
  unfold absL
  rw [List.pairwise_map]
  refine List.Pairwise.imp_of_mem ?_ h.1
  intro x y hx hy hlt
  rw [h.data hx, h.data hy]
  exact hlt

theorem absF_congr (h : ∀ n ∈ E, dataAt s' n.blk = dataAt s n.blk) : absF s' E = absF s E := by
  unfold absF
  exact List.map_congr_left fun n hn => by rw [h n hn]

theorem dataAt_upd {b c : Addr} {B C : Blk} (hb : s.blk b = some B) (hd : C.data = B.data) (hs : s'.blk = upd s.blk b (some C)) :
    dataAt s' c = dataAt s c := by
  unfold dataAt
  rw [hs]
  by_cases e : c = b
  · rw [e, upd_same, hb]
    exact congrArg (fun x => (some x).getD 0) hd
  · rw [upd_ne _ _ e]

theorem erase_abs {X Y : List Ent} {m : Ent} {B : Blk} (h : Inv s A (X ++ m :: Y)) (hb : s.blk m.blk = some B) :
    (absF s (X ++ m :: Y)).erase (B.size, B.data) = absF s (X ++ Y) := by
  obtain ⟨F, hI⟩ := h.lists
  obtain ⟨C, c1, -, c3⟩ := hI.ent m (by simp)
  rw [hb] at c1
  cases c1
  unfold absF
  rw [List.map_append, List.map_cons, dataAt_eq hb, ← c3, List.map_append, List.erase_append_right, List.erase_cons_head]
  intro hx
  obtain ⟨y, hy, e⟩ := List.mem_map.1 hx
  obtain ⟨D, d1, d2, -⟩ := hI.ent y (by simp [hy])
  have e2 : dataAt s y.blk = B.data := congrArg Prod.snd e
  rw [dataAt_eq d1] at e2
  have e3 := hI.inj (n := y) (m := m) (by simp [hy]) (by simp) (h.data_inj d1 hb e2)
  subst e3
  have hnd := hI.nodup
  rw [List.map_append, List.map_cons, List.nodup_append] at hnd
  exact hnd.2.2 _ (List.mem_map_of_mem hy) _ List.mem_cons_self rfl

theorem Keyed.uniq (h : Keyed s A) {x y : Addr × Nat × Addr} (hx : x ∈ A) (hy : y ∈ A) (e : x.2.1 = y.2.1) : x = y := by
  induction A with
  | nil => cases hx
  | cons z A ih =>
    obtain ⟨ht, hlt⟩ := h.tail
    rcases List.mem_cons.1 hx with h1 | h1 <;> rcases List.mem_cons.1 hy with h2 | h2
    · rw [h1, h2]
    · rw [h1] at e
      exact absurd e (Nat.ne_of_lt (hlt y h2))
    · rw [h2] at e
      exact absurd e (Nat.ne_of_gt (hlt x h1))
    · exact ih ht h1 h2

theorem Keyed.modify (h : Keyed s A) {n b : Addr} {B C : Blk} {f : Coarse.Block → Coarse.Block} (hn : (n, B.data, b) ∈ A) (hb : s.blk b = some B)
    (hf : f (viewB B) = viewB C) (hs : s'.blk = upd s.blk b (some C)) : Coarse.modify B.data f (absL s A) = absL s' A :=
  modify_abs h hb hf hs fun x hx e => by rw [h.uniq hx hn e]

theorem Keyed.congr (h : Keyed s A) (hs : ∀ x ∈ A, (s'.blk x.2.2).map Blk.data = (s.blk x.2.2).map Blk.data) : Keyed s' A := by
  refine ⟨h.1, fun x hx => ?_⟩
  obtain ⟨B, b1, b2⟩ := h.2 x hx
  have := hs x hx
  rw [b1] at this
  cases hc : s'.blk x.2.2 with
  | none => rw [hc] at this; cases this
  | some C =>
    rw [hc] at this
    exact ⟨C, rfl, (Option.some.inj this).trans b2⟩

theorem abs_congr {A' : List (Addr × Nat × Addr)} {E' : List Ent} (h1 : absL s' A' = absL s A) (h2 : absF s' E' = absF s E)
    (h3 : s'.usedSize = s.usedSize ∧ s'.allocSize = s.allocSize) : abs s' A' E' = abs s A E := by
  unfold abs
  rw [h1, h2, h3.1, h3.2]

theorem absL_blk (h : s'.blk = s.blk) : absL s' A = absL s A := absL_congr fun x _ => by rw [h]

theorem absF_blk (h : s'.blk = s.blk) : absF s' E = absF s E := absF_congr fun n _ => by
  unfold dataAt
  rw [h]

theorem absF_upd {b : Addr} {B C : Blk} (hb : s.blk b = some B) (hd : C.data = B.data) (hs : s'.blk = upd s.blk b (some C)) : absF s' E = absF s E :=
  absF_congr fun _ _ => dataAt_upd hb hd hs

end Verif.CoarseMem
