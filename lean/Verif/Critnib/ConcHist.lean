import Verif.Critnib.ConcInv
/-! # What readers may rely on while few removals happen

`f t` is the labelled memory at time `t`. Between times `a` and `b` fewer than 16 removals begin,
so nothing that was in the tree at some time since `a` is reused before `b`. -/
namespace Verif.Critnib.Conc
open Verif.Critnib

variable {V : Type}

/-- A sequence of well-shaped trees, each obtained from the one before by a step. -/
structure Hist (f : Nat → G V) : Prop where
  gi : ∀ t, GI (f t)
  tr : ∀ t, Tr (f t) (f (t + 1))

section
variable {f : Nat → G V}

theorem Hist.count (h : Hist f) {s t : Nat} (hst : s ≤ t) : (f s).mem.count ≤ (f t).mem.count := by
  induction t with
  | zero => cases Nat.le_zero.1 hst; exact Nat.le_refl _
  | succ t ih =>
    rcases Nat.lt_or_ge t s with h1 | h1
    · have : s = t + 1 := by omega
      subst this; exact Nat.le_refl _
    · exact Nat.le_trans (ih h1) (h.tr t).cnt

theorem Hist.deadN (h : Hist f) {s t n c : Nat} (hst : s ≤ t) (hd : (f s).ln n = .dead c)
    (hc : (f t).mem.count < c + 16) :
    (f t).ln n = .dead c ∧ (f t).mem.nodes n = (f s).mem.nodes n := by
  induction t with
  | zero => cases Nat.le_zero.1 hst; exact ⟨hd, rfl⟩
  | succ t ih =>
    rcases Nat.lt_or_ge t s with h1 | h1
    · have : s = t + 1 := by omega
      subst this; exact ⟨hd, rfl⟩
    · have h2 := (h.tr t).cnt
      obtain ⟨h3, h4⟩ := ih h1 (by omega)
      obtain ⟨h5, h6⟩ := (h.tr t).deadN n c h3 hc
      exact ⟨h5, h6.trans h4⟩

theorem Hist.deadL (h : Hist f) {s t n c : Nat} (hst : s ≤ t) (hd : (f s).ll n = .dead c)
    (hc : (f t).mem.count < c + 16) :
    (f t).ll n = .dead c ∧ (f t).mem.leaves n = (f s).mem.leaves n := by
  induction t with
  | zero => cases Nat.le_zero.1 hst; exact ⟨hd, rfl⟩
  | succ t ih =>
    rcases Nat.lt_or_ge t s with h1 | h1
    · have : s = t + 1 := by omega
      subst this; exact ⟨hd, rfl⟩
    · have h2 := (h.tr t).cnt
      obtain ⟨h3, h4⟩ := ih h1 (by omega)
      obtain ⟨h5, h6⟩ := (h.tr t).deadL n c h3 hc
      exact ⟨h5, h6.trans h4⟩

/-- What becomes of a node of the tree. -/
theorem Hist.node (h : Hist f) {s t n : Nat} (hst : s ≤ t) (hl : (f s).ln n = .live)
    (hc : (f t).mem.count < (f s).mem.count + 16) :
    ((f t).mem.nodes n).path = ((f s).mem.nodes n).path ∧
    ((f t).mem.nodes n).shift = ((f s).mem.nodes n).shift ∧
    ((f t).ln n = .live ∨ ∃ u, s ≤ u ∧ u < t ∧ (f u).ln n = .live ∧
      (f (u + 1)).ln n = .dead (f (u + 1)).mem.count ∧ (f t).mem.nodes n = (f u).mem.nodes n) := by
  induction t with
  | zero => cases Nat.le_zero.1 hst; exact ⟨rfl, rfl, .inl hl⟩
  | succ t ih =>
    rcases Nat.lt_or_ge t s with h1 | h1
    · have : s = t + 1 := by omega
      subst this; exact ⟨rfl, rfl, .inl hl⟩
    · have h2 := (h.tr t).cnt
      obtain ⟨h3, h4, h5⟩ := ih h1 (by omega)
      rcases h5 with h5 | ⟨u, h5, h6, h7, h8, h9⟩
      · rcases (h.tr t).liveN n h5 with ⟨h6, h7, h8⟩ | ⟨h6, h7, _⟩
        · exact ⟨h7.trans h3, h8.trans h4, .inl h6⟩
        · refine ⟨by rw [h7]; exact h3, by rw [h7]; exact h4, .inr ⟨t, h1, Nat.lt_succ_self _, h5, h6, h7⟩⟩
      · have hcu := h.count (f := f) (s := s) (t := u + 1) (by omega)
        obtain ⟨h10, h11⟩ := h.deadN (s := u + 1) (t := t + 1) (by omega) h8 (by omega)
        obtain ⟨_, h12⟩ := h.deadN (s := u + 1) (t := t) (by omega) h8 (by omega)
        have h13 : (f (t + 1)).mem.nodes n = (f t).mem.nodes n := h11.trans h12.symm
        exact ⟨by rw [h13]; exact h3, by rw [h13]; exact h4,
          .inr ⟨u, h5, by omega, h7, h8, h13.trans h9⟩⟩

/-- What becomes of a leaf of the tree. -/
theorem Hist.leaf (h : Hist f) {s t l : Nat} (hst : s ≤ t) (hl : (f s).ll l = .live)
    (hc : (f t).mem.count < (f s).mem.count + 16) :
    ((f t).mem.leaves l).key = ((f s).mem.leaves l).key ∧
    ∃ u, s ≤ u ∧ u ≤ t ∧ (f u).ll l = .live ∧ (f t).mem.leaves l = (f u).mem.leaves l ∧
      (u = t ∨ (f (u + 1)).ll l = .dead (f (u + 1)).mem.count) := by
  induction t with
  | zero => cases Nat.le_zero.1 hst; exact ⟨rfl, 0, Nat.le_refl _, Nat.le_refl _, hl, rfl, .inl rfl⟩
  | succ t ih =>
    rcases Nat.lt_or_ge t s with h1 | h1
    · have : s = t + 1 := by omega
      subst this; exact ⟨rfl, _, Nat.le_refl _, Nat.le_refl _, hl, rfl, .inl rfl⟩
    · have h2 := (h.tr t).cnt
      obtain ⟨h3, u, h5, h6, h7, h9, h8⟩ := ih h1 (by omega)
      rcases h8 with rfl | h8
      · rcases (h.tr u).liveL l h7 with ⟨h10, h11⟩ | ⟨h10, h11⟩
        · exact ⟨h11.trans h3, u + 1, by omega, Nat.le_refl _, h10, rfl, .inl rfl⟩
        · exact ⟨by rw [h11]; exact h3, u, h5, by omega, h7, h11, .inr h10⟩
      · rcases Nat.eq_or_lt_of_le h6 with rfl | h6'
        · rcases (h.tr u).liveL l h7 with ⟨h10, h11⟩ | ⟨h10, h11⟩
          · exact ⟨h11.trans h3, u + 1, by omega, Nat.le_refl _, h10, rfl, .inl rfl⟩
          · exact ⟨by rw [h11]; exact h3, u, h5, by omega, h7, h11, .inr h10⟩
        · have hcu := h.count (f := f) (s := s) (t := u + 1) (by omega)
          obtain ⟨_, h11⟩ := h.deadL (s := u + 1) (t := t + 1) (by omega) h8 (by omega)
          obtain ⟨_, h12⟩ := h.deadL (s := u + 1) (t := t) (by omega) h8 (by omega)
          have h13 : (f (t + 1)).mem.leaves l = (f t).mem.leaves l := h11.trans h12.symm
          exact ⟨by rw [h13]; exact h3, u, h5, by omega, h7, h13.trans h9, .inr h8⟩

end

/-! ## A window of time -/

/-- A window in which fewer than 16 removals begin. -/
structure Win (f : Nat → G V) (a b : Nat) : Prop extends Hist f where
  few : (f b).mem.count < (f a).mem.count + 16

/-- `p` was in the tree at some time from `a` to `t`. -/
def Was (f : Nat → G V) (a t : Nat) (p : Ptr) : Prop := ∃ s, a ≤ s ∧ s ≤ t ∧ PLive (f s) p

/-- `p` was on the search path of `K` at some time, or `K` cannot be below `p` and was absent at
some time. -/
def Good (f : Nat → G V) (a b t : Nat) (K : W) (p : Ptr) : Prop :=
  (∃ s, a ≤ s ∧ s ≤ t ∧ On (f s).mem K p) ∨
  (Was f a t p ∧ ¬ Fits (f b).mem K p ∧ ∃ s, a ≤ s ∧ s ≤ t ∧ absMap (f s).mem K = none)

section
variable {f : Nat → G V} {a b t : Nat}

theorem Was.mono {t' : Nat} (h : t ≤ t') {p : Ptr} : Was f a t p → Was f a t' p := by
  rintro ⟨s, h1, h2, h3⟩; exact ⟨s, h1, Nat.le_trans h2 h, h3⟩

theorem Good.mono {t' : Nat} (h : t ≤ t') {K : W} {p : Ptr} : Good f a b t K p → Good f a b t' K p := by
  rintro (⟨s, h1, h2, h3⟩ | ⟨h1, h2, s, h3, h4, h5⟩)
  · exact .inl ⟨s, h1, Nat.le_trans h2 h, h3⟩
  · exact .inr ⟨h1.mono h, h2, s, h3, Nat.le_trans h4 h, h5⟩

theorem Win.few' (w : Win f a b) {s t : Nat} (h1 : a ≤ s) (h2 : t ≤ b) :
    (f t).mem.count < (f s).mem.count + 16 := by
  have := w.few
  have h3 := w.toHist.count h1
  have h4 := w.toHist.count h2
  omega

theorem Win.nodeAt (w : Win f a b) (htb : t ≤ b) {n : Nat} (h : Was f a t (.node n)) :
    ((f t).mem.nodes n).path = ((f b).mem.nodes n).path ∧
    ((f t).mem.nodes n).shift = ((f b).mem.nodes n).shift := by
  obtain ⟨s, h1, h2, h3⟩ := h
  obtain ⟨h4, h5, _⟩ := w.toHist.node h2 h3 (w.few' h1 htb)
  obtain ⟨h6, h7, _⟩ := w.toHist.node (Nat.le_trans h2 htb) h3 (w.few' h1 (Nat.le_refl _))
  exact ⟨h4.trans h6.symm, h5.trans h7.symm⟩

theorem Win.leafAt (w : Win f a b) (htb : t ≤ b) {l : Nat} (h : Was f a t (.leaf l)) :
    ((f t).mem.leaves l).key = ((f b).mem.leaves l).key := by
  obtain ⟨s, h1, h2, h3⟩ := h
  obtain ⟨h4, _⟩ := w.toHist.leaf h2 h3 (w.few' h1 htb)
  obtain ⟨h6, _⟩ := w.toHist.leaf (Nat.le_trans h2 htb) h3 (w.few' h1 (Nat.le_refl _))
  exact h4.trans h6.symm

theorem Win.fits (w : Win f a b) (htb : t ≤ b) {p : Ptr} (h : Was f a t p) (K : W) :
    Fits (f t).mem K p ↔ Fits (f b).mem K p := by
  cases p with
  | null => exact Iff.rfl
  | leaf l => simp only [Fits]; rw [w.leafAt htb h]
  | node n => simp only [Fits]; rw [(w.nodeAt htb h).1, (w.nodeAt htb h).2]

theorem was_now {t : Nat} (hat : a ≤ t) {p : Ptr} (h : PLive (f t) p) : Was f a t p :=
  ⟨t, hat, Nat.le_refl _, h⟩

theorem Win.under (w : Win f a b) (htb : t ≤ b) {n : Nat} (hn : Was f a t (.node n)) {p : Ptr}
    (hp : Was f a t p) {i : Fin 16} (h : Under (f t).mem n i p) : Under (f b).mem n i p := by
  obtain ⟨h1, h2⟩ := w.nodeAt htb hn
  have hs : slotPre (f b).mem n i = slotPre (f t).mem n i := by
    unfold slotPre; rw [h1, h2]
  cases p with
  | null => exact trivial
  | leaf l =>
    show _ = _
    rw [hs, ← h2, ← w.leafAt htb hp]; exact h
  | node c =>
    obtain ⟨h3, h4⟩ := w.nodeAt htb hp
    show _ ∧ _ = _
    rw [hs, ← h2, ← h3, ← h4]; exact h

/-- A child read from a node that was in the tree was in the tree, in its place. -/
theorem Win.child (w : Win f a b) (htb : t ≤ b) {n : Nat} (h : Was f a t (.node n)) (i : Fin 16) :
    Was f a t (((f t).mem.nodes n).child i) ∧ Under (f b).mem n i (((f t).mem.nodes n).child i) := by
  obtain ⟨s, h1, h2, h3⟩ := id h
  obtain ⟨_, _, h4⟩ := w.toHist.node h2 h3 (w.few' h1 htb)
  rcases h4 with h4 | ⟨u, h5, h6, h7, h8, h9⟩
  · obtain ⟨h10, h11⟩ := (w.gi t).kid n h4 i
    have hp := was_now (a := a) (Nat.le_trans h1 h2) h10
    exact ⟨hp, w.under htb h hp h11⟩
  · obtain ⟨h10, h11⟩ := (w.gi u).kid n h7 i
    rw [h9]
    have hau : a ≤ u := Nat.le_trans h1 h5
    have hp := was_now hau h10
    exact ⟨hp.mono (Nat.le_of_lt h6),
      w.under (Nat.le_trans (Nat.le_of_lt h6) htb) (was_now hau h7) hp h11⟩

/-- A pointer that was in the tree had an entry below it. -/
theorem Win.entry (w : Win f a b) (htb : t ≤ b) {p : Ptr} (h : Was f a t p) (hp : p ≠ .null) :
    ∃ s K v, a ≤ s ∧ s ≤ t ∧ absMap (f s).mem K = some v ∧ Fits (f b).mem K p := by
  obtain ⟨s, h1, h2, h3⟩ := h
  have hw := was_now h1 h3
  have hsb := Nat.le_trans h2 htb
  cases p with
  | null => exact absurd rfl hp
  | leaf l =>
    obtain ⟨v, _, hv⟩ := abs_leaf (w.gi s) h3
    exact ⟨s, _, v, h1, h2, hv, (w.fits hsb hw _).1 rfl⟩
  | node n =>
    obtain ⟨i, hi⟩ := (w.gi s).ne n h3
    obtain ⟨K, v, hv, hK⟩ := node_entry (w.gi s) _ n (Nat.le_refl _) h3 i hi
    exact ⟨s, K, v, h1, h2, hv, (w.fits hsb hw _).1 (slot_idx hK).1⟩

/-- The value read from a leaf that was in the tree is the value of its key at some time. -/
theorem Win.value (w : Win f a b) (htb : t ≤ b) {l : Nat} (h : Was f a t (.leaf l)) :
    ∃ s v, a ≤ s ∧ s ≤ t ∧ absMap (f s).mem ((f b).mem.leaves l).key = some v ∧
      ((f t).mem.leaves l).val = .user v := by
  obtain ⟨s, h1, h2, h3⟩ := h
  obtain ⟨_, u, h5, h6, h7, h9, _⟩ := w.toHist.leaf h2 h3 (w.few' h1 htb)
  obtain ⟨v, hv, hm⟩ := abs_leaf (w.gi u) h7
  have hau := Nat.le_trans h1 h5
  rw [w.leafAt (Nat.le_trans h6 htb) (was_now hau h7)] at hm
  exact ⟨u, v, hau, h6, hm, by rw [h9]; exact hv⟩

theorem Good.was (w : Win f a b) {K : W} {p : Ptr} : Good f a b t K p → Was f a t p := by
  rintro (⟨s, h1, h2, h3⟩ | ⟨h1, _⟩)
  · exact ⟨s, h1, h2, on_live (w.gi s) h3⟩
  · exact h1

/-- A search that comes to a pointer where `K` cannot be: `K` was absent. -/
theorem Good.miss (w : Win f a b) (htb : t ≤ b) {K : W} {p : Ptr} (h : Good f a b t K p)
    (hf : ¬ Fits (f b).mem K p) : ∃ s, a ≤ s ∧ s ≤ t ∧ absMap (f s).mem K = none := by
  rcases h with ⟨s, h1, h2, h3⟩ | ⟨_, _, h⟩
  · refine ⟨s, h1, h2, abs_miss (w.gi s) h3 ?_⟩
    rw [w.fits (Nat.le_trans h2 htb) (was_now h1 (on_live (w.gi s) h3))]
    exact hf
  · exact h

theorem Win.on_forward (w : Win f a b) {K : W} {n : Nat} (hfit : Fits (f b).mem K (.node n)) {s : Nat}
    (has : a ≤ s) (h : On (f s).mem K (.node n)) : ∀ {t : Nat}, s ≤ t → t ≤ b →
    On (f t).mem K (.node n) ∨ ∃ u, s ≤ u ∧ u < t ∧ On (f u).mem K (.node n) ∧
      (f (u + 1)).ln n = .dead (f (u + 1)).mem.count := by
  intro t
  induction t with
  | zero => intro hst _; cases Nat.le_zero.1 hst; exact .inl h
  | succ t ih =>
    intro hst htb
    rcases Nat.lt_or_ge t s with h1 | h1
    · have : s = t + 1 := by omega
      subst this; exact .inl h
    · rcases ih h1 (by omega) with h2 | ⟨u, h2, h3, h4⟩
      · rcases (w.tr t).on K _ h2 with h3 | h3 | h3 | ⟨m, h3, h4⟩ | ⟨l, h3, _⟩
        · exact .inl h3
        · cases h3
        · refine absurd ?_ h3
          rw [w.fits (by omega) (was_now (Nat.le_trans has h1) (on_live (w.gi t) h2))]
          exact hfit
        · cases h3
          exact .inr ⟨t, h1, Nat.lt_succ_self _, h2, h4⟩
        · cases h3
      · exact .inr ⟨u, h2, by omega, h4⟩

/-- The next step of a search for `K`. -/
theorem Good.next (w : Win f a b) (htb : t ≤ b) {K : W} {n : Nat} (h : Good f a b t K (.node n)) :
    Good f a b t K (((f t).mem.nodes n).child (idx K ((f b).mem.nodes n).shift)) := by
  have hw := h.was w
  obtain ⟨hc1, hc2⟩ := w.child htb hw (idx K ((f b).mem.nodes n).shift)
  have hshift := (w.nodeAt htb hw).2
  -- if `K` does not fit the node it does not fit the child
  have lost : ¬ Fits (f b).mem K (.node n) → (∃ s, a ≤ s ∧ s ≤ t ∧ absMap (f s).mem K = none) →
      Good f a b t K (((f t).mem.nodes n).child (idx K ((f b).mem.nodes n).shift)) :=
    fun hf hs => .inr ⟨hc1, fun hc => hf (fits_child hc2 hc).1, hs⟩
  by_cases hfit : Fits (f b).mem K (.node n)
  · rcases h with ⟨s, h1, h2, h3⟩ | ⟨_, h2, _⟩
    · -- still on the path, or the node was unlinked
      rcases w.on_forward hfit h1 h3 h2 htb with h4 | ⟨u, h4, h5, h6, h7⟩
      · have := on_follow h4
        rw [hshift] at this
        exact .inl ⟨t, Nat.le_trans h1 h2, Nat.le_refl _, this⟩
      · have hau := Nat.le_trans h1 h4
        have hlu : (f u).ln n = .live := on_live (w.gi u) h6
        have hsu := (w.nodeAt (t := u) (by omega) (was_now hau hlu)).2
        have hcu := w.few' (s := u + 1) (t := t) (by omega) htb
        have hfr := (w.toHist.deadN (s := u + 1) (t := t) h5 h7 hcu).2
        rcases (w.tr u).liveN n hlu with ⟨h8, _⟩ | ⟨_, h9, _, h10⟩
        · rw [h7] at h8; cases h8
        · rw [hfr, h9]
          rcases h10 K h6 with h11 | h11
          · rw [hsu] at h11
            exact .inl ⟨u + 1, by omega, h5, h11⟩
          · rw [hsu] at h11
            rw [h11]
            have := on_follow h6
            rw [hsu, h11] at this
            exact .inl ⟨u, hau, by omega, this⟩
    · exact absurd hfit h2
  · exact lost hfit (h.miss w htb hfit)

end

end Verif.Critnib.Conc
