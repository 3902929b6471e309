import Verif.Tracker.Spec
/-! # Invariant of the memory tracker -/
set_option linter.unusedSimpArgs false
namespace Verif.Tracker
open Mem

/-- A live allocation with its level. -/
structure Node where
  ptr : Nat
  size : Nat
  pool : Nat
  level : Nat
deriving DecidableEq

def Node.rg (n : Node) : Region := (n.ptr, n.size)
def Node.alloc (n : Node) : Alloc := ⟨n.ptr, n.size, n.pool⟩

def inR (r : Region) (x : Nat) : Bool := decide (r.1 ≤ x) && decide (x < r.1 + r.2)

theorem inR_iff {r : Region} {x : Nat} : inR r x = true ↔ Has r x := by simp [inR, Has]

/-- Number of nodes of a level that start in a range. -/
def cnt (G : List Node) (l : Nat) (r : Region) : Nat :=
  G.countP fun n => decide (n.level = l) && inR r n.ptr

/-- The newer node is apart from the older one, or inside it and on a deeper level. -/
def Ord (b a : Node) : Prop := Disjoint b.rg a.rg ∨ (Inside b.rg a.rg ∧ a.level < b.level)

structure NodeOk (n : Node) : Prop where
  ptr : 0 < n.ptr
  size : 0 < n.size
  bound : n.ptr + n.size < 2 ^ 64

structure Inv (st : St) (G : List Node) : Prop where
  lt8 : ∀ n ∈ G, n.level < 8
  ok : ∀ n ∈ G, NodeOk n
  ord : G.Pairwise Ord
  par : ∀ n ∈ G, n.level = 0 ∨ ∃ m ∈ G, m.level + 1 = n.level ∧ Inside n.rg m.rg
  sound : ∀ l, ∀ e ∈ st.lv l, ⟨e.key, e.size, e.pool, l⟩ ∈ G ∧ e.nch = cnt G (l + 1) (e.key, e.size)
  complete : ∀ n ∈ G, ∃ e ∈ st.lv n.level, e.key = n.ptr

theorem pw_cases {α : Type} {R : α → α → Prop} {l : List α} (h : l.Pairwise R) :
    ∀ x ∈ l, ∀ y ∈ l, x = y ∨ R x y ∨ R y x := by
  induction h with
  | nil => intro x hx; cases hx
  | @cons a l ha _ ih =>
    intro x hx y hy
    rw [List.mem_cons] at hx hy
    rcases hx with rfl | hx <;> rcases hy with rfl | hy
    · exact Or.inl rfl
    · exact Or.inr (Or.inl (ha y hy))
    · exact Or.inr (Or.inr (ha x hx))
    · exact ih x hx y hy

theorem has_self {n : Node} (h : NodeOk n) : Has n.rg n.ptr := by
  have := h.size
  exact ⟨Nat.le_refl _, by show n.ptr < n.ptr + n.size; omega⟩

theorem uniq {st : St} {G : List Node} (h : Inv st G) {m n : Node} (hm : m ∈ G) (hn : n ∈ G)
    (hl : m.level = n.level) {x : Nat} (hx : Has m.rg x) (hy : Has n.rg x) : m = n := by
  rcases pw_cases h.ord m hm n hn with h1 | h1 | h1
  · exact h1
  · rcases h1 with h2 | h2
    · exact (h2 x ⟨hx, hy⟩).elim
    · omega
  · rcases h1 with h2 | h2
    · exact (h2 x ⟨hy, hx⟩).elim
    · omega

/-! ### Lookups -/

theorem findLe_some {l : List Entry} {x : Nat} {e : Entry} (h : findLe l x = some e) :
    e ∈ l ∧ e.key ≤ x ∧ ∀ f ∈ l, f.key ≤ x → f.key ≤ e.key := by
  induction l generalizing e with
  | nil => cases h
  | cons a l ih =>
    unfold findLe at h
    cases hf : findLe l x with
    | none =>
      rw [hf] at h
      simp only at h
      split at h
      · rename_i hle
        cases h
        refine ⟨by simp, hle, ?_⟩
        intro f hfm hfx
        rw [List.mem_cons] at hfm
        rcases hfm with rfl | hfm
        · exact Nat.le_refl _
        · exfalso
          have : ∀ l' : List Entry, findLe l' x = none → ∀ f ∈ l', ¬ f.key ≤ x := by
            intro l'
            induction l' with
            | nil => intro _ f hf; cases hf
            | cons b l' ih' =>
              intro hn f hf hle
              unfold findLe at hn
              cases hg : findLe l' x with
              | none =>
                rw [hg] at hn
                simp only at hn
                split at hn
                · cases hn
                · rw [List.mem_cons] at hf
                  rcases hf with rfl | hf
                  · contradiction
                  · exact ih' hg f hf hle
              | some g =>
                rw [hg] at hn
                simp only at hn
                split at hn <;> cases hn
          exact this l hf f hfm hfx
      · cases h
    | some g =>
      rw [hf] at h
      obtain ⟨h1, h2, h3⟩ := ih hf
      simp only at h
      split at h
      · rename_i hc
        cases h
        refine ⟨by simp, hc.1, ?_⟩
        intro f hfm hfx
        rw [List.mem_cons] at hfm
        rcases hfm with rfl | hfm
        · exact Nat.le_refl _
        · have := h3 f hfm hfx; omega
      · rename_i hc
        cases h
        refine ⟨by simp [h1], h2, ?_⟩
        intro f hfm hfx
        rw [List.mem_cons] at hfm
        rcases hfm with rfl | hfm
        · omega
        · exact h3 f hfm hfx

theorem findLe_none {l : List Entry} {x : Nat} (h : findLe l x = none) : ∀ f ∈ l, x < f.key := by
  induction l with
  | nil => intro f hf; cases hf
  | cons a l ih =>
    unfold findLe at h
    cases hf : findLe l x with
    | none =>
      rw [hf] at h
      simp only at h
      split at h
      · cases h
      · intro f hm
        rw [List.mem_cons] at hm
        rcases hm with rfl | hm
        · omega
        · exact ih hf f hm
    | some g =>
      rw [hf] at h
      simp only at h
      split at h <;> cases h

/-- The entry of node `n`. -/
def Ent (G : List Node) (n : Node) (e : Entry) : Prop :=
  e.key = n.ptr ∧ e.size = n.size ∧ e.pool = n.pool ∧ e.nch = cnt G (n.level + 1) n.rg

theorem stop_eq {st : St} {G : List Node} (h : Inv st G) {l : Nat} {e : Entry} (he : e ∈ st.lv l) :
    e.stop = e.key + e.size := by
  have := (h.ok _ (h.sound l e he).1).bound
  exact Nat.mod_eq_of_lt this

theorem hit {st : St} {G : List Node} (h : Inv st G) {n : Node} (hn : n ∈ G) {x : Nat}
    (hx : Has n.rg x) : ∃ e, findLe (st.lv n.level) x = some e ∧ e ∈ st.lv n.level ∧ Ent G n e ∧
      x < e.stop := by
  obtain ⟨f, hf, hfk⟩ := h.complete n hn
  have h1 : n.ptr ≤ x := hx.1
  have h2 : x < n.ptr + n.size := hx.2
  cases hfl : findLe (st.lv n.level) x with
  | none => have := findLe_none hfl f hf; omega
  | some e =>
    obtain ⟨he, hex, hmax⟩ := findLe_some hfl
    have hge := hmax f hf (by omega)
    obtain ⟨hm, hc⟩ := h.sound _ e he
    have heq := uniq h hm hn rfl (x := e.key) (has_self (h.ok _ hm))
      ⟨by show n.ptr ≤ e.key; omega, by show e.key < n.ptr + n.size; omega⟩
    have hs := stop_eq h he
    have hk : e.key = n.ptr := congrArg Node.ptr heq
    have hz : e.size = n.size := congrArg Node.size heq
    have hp : e.pool = n.pool := congrArg Node.pool heq
    refine ⟨e, rfl, he, ⟨hk, hz, hp, ?_⟩, by rw [hs, hk, hz]; exact h2⟩
    rw [hc, hk, hz]; rfl

theorem miss {st : St} {G : List Node} (h : Inv st G) {l x : Nat}
    (hno : ∀ n ∈ G, n.level = l → ¬ Has n.rg x) :
    findLe (st.lv l) x = none ∨ ∃ e, findLe (st.lv l) x = some e ∧ ¬ x < e.stop ∧ e.key ≠ x := by
  cases hf : findLe (st.lv l) x with
  | none => exact Or.inl rfl
  | some e =>
    obtain ⟨he, hle, _⟩ := findLe_some hf
    have hs := stop_eq h he
    obtain ⟨hm, _⟩ := h.sound _ e he
    have hn := hno _ hm rfl
    have hnlt : ¬ x < e.stop := by
      intro hlt
      rw [hs] at hlt
      exact hn ⟨hle, hlt⟩
    refine Or.inr ⟨e, rfl, hnlt, ?_⟩
    intro hk
    have := (h.ok _ hm).size
    simp only at this
    rw [hs] at hnlt
    omega

/-- Above a node containing `x` every level has one. -/
theorem anc {st : St} {G : List Node} (h : Inv st G) {x : Nat} (k : Nat) :
    ∀ n ∈ G, Has n.rg x → ∀ l, l + k = n.level → ∃ m ∈ G, m.level = l ∧ Has m.rg x := by
  induction k with
  | zero => intro n hn hx l hl; exact ⟨n, hn, by omega, hx⟩
  | succ k ih =>
    intro n hn hx l hl
    rcases h.par n hn with h0 | ⟨m, hm, hml, hin⟩
    · omega
    · exact ih m hm (hin x hx) l (by omega)

theorem cnt_pos {st : St} {G : List Node} (h : Inv st G) {m p : Node} (hm : m ∈ G) (hp : p ∈ G)
    (hl : m.level + 1 = p.level) {x : Nat} (hmx : Has m.rg x) (hpx : Has p.rg x) :
    cnt G (m.level + 1) m.rg ≠ 0 := by
  rcases h.par p hp with h0 | ⟨m', hm', hml, hin⟩
  · omega
  · have heq := uniq h hm' hm (by omega) (hin x hpx) hmx
    subst heq
    intro h0
    unfold cnt at h0
    rw [List.countP_eq_zero] at h0
    apply h0 p hp
    simp only [Bool.and_eq_true, decide_eq_true_eq]
    exact ⟨by omega, inR_iff.2 (hin _ (has_self (h.ok p hp)))⟩

/-- `n` is the deepest node containing `x`. -/
structure Deepest (G : List Node) (x : Nat) (n : Node) : Prop where
  mem : n ∈ G
  has : Has n.rg x
  max : ∀ m ∈ G, Has m.rg x → m.level ≤ n.level

theorem deepest_exists {G : List Node} {x : Nat} (h : ∃ n ∈ G, Has n.rg x) : ∃ n, Deepest G x n := by
  induction G with
  | nil => obtain ⟨n, hn, _⟩ := h; cases hn
  | cons a G ih =>
    by_cases hG : ∃ n ∈ G, Has n.rg x
    · obtain ⟨n, hn⟩ := ih hG
      by_cases ha : Has a.rg x ∧ n.level < a.level
      · refine ⟨a, by simp, ha.1, ?_⟩
        intro m hm hmx
        rw [List.mem_cons] at hm
        rcases hm with rfl | hm
        · exact Nat.le_refl _
        · have := hn.max m hm hmx; omega
      · refine ⟨n, by simp [hn.mem], hn.has, ?_⟩
        intro m hm hmx
        rw [List.mem_cons] at hm
        rcases hm with rfl | hm
        · rcases Nat.lt_or_ge n.level m.level with h1 | h1
          · exact absurd ⟨hmx, h1⟩ ha
          · exact h1
        · exact hn.max m hm hmx
    · obtain ⟨n, hn, hx⟩ := h
      rw [List.mem_cons] at hn
      rcases hn with rfl | hn
      · refine ⟨n, by simp, hx, ?_⟩
        intro m hm hmx
        rw [List.mem_cons] at hm
        rcases hm with rfl | hm
        · exact Nat.le_refl _
        · exact absurd ⟨m, hm, hmx⟩ hG
      · exact absurd ⟨n, hn, hx⟩ hG

/-- One step of a descent at a level above the deepest node. -/
theorem step_above {st : St} {G : List Node} (h : Inv st G) {x : Nat} {n : Node}
    (hd : Deepest G x n) {l : Nat} (hl : l < n.level) :
    ∃ m ∈ G, ∃ e, m.level = l ∧ Has m.rg x ∧ findLe (st.lv l) x = some e ∧ Ent G m e ∧ x < e.stop ∧
      e.nch ≠ 0 ∧ l ≠ 7 := by
  obtain ⟨m, hm, hml, hmx⟩ := anc h (n.level - l) n hd.mem hd.has l (by omega)
  obtain ⟨p, hp, hpl, hpx⟩ := anc h (n.level - (l + 1)) n hd.mem hd.has (l + 1) (by omega)
  obtain ⟨e, he, _, hent, hst⟩ := hit h hm hmx
  rw [hml] at he
  have := cnt_pos h hm hp (by omega) hmx hpx
  have h8 := h.lt8 n hd.mem
  exact ⟨m, hm, e, hml, hmx, he, hent, hst, by rw [hent.2.2.2]; exact this, by omega⟩

theorem cnt_deep_zero {st : St} {G : List Node} (h : Inv st G) (r : Region) : cnt G 8 r = 0 := by
  unfold cnt
  rw [List.countP_eq_zero]
  intro n hn hc
  simp only [Bool.and_eq_true, decide_eq_true_eq] at hc
  have := h.lt8 n hn
  omega

theorem infoLoop_none {st : St} {G : List Node} (h : Inv st G) {x : Nat} {fuel l : Nat}
    {best : Option Entry} (hno : ∀ n ∈ G, n.level = l → ¬ Has n.rg x) :
    infoLoop st x fuel l best = best := by
  cases fuel with
  | zero => rfl
  | succ fuel =>
    unfold infoLoop
    rcases miss h hno with h1 | ⟨e, h1, h2, _⟩
    · rw [h1]
    · rw [h1]; simp [h2]

theorem infoLoop_spec {st : St} {G : List Node} (h : Inv st G) {x : Nat} {n : Node}
    (hd : Deepest G x n) (fuel l : Nat) (best : Option Entry) (hfl : fuel + l = 8)
    (hl : l ≤ n.level) : ∃ e, infoLoop st x fuel l best = some e ∧ Ent G n e := by
  induction fuel generalizing l best with
  | zero => have := h.lt8 n hd.mem; omega
  | succ fuel ih =>
    rcases Nat.lt_or_ge l n.level with hlt | hge
    · obtain ⟨m, _, e, _, _, h1, _, h3, h4, h5⟩ := step_above h hd hlt
      unfold infoLoop
      rw [h1]
      simp only [h3, if_true]
      rw [if_neg (by omega)]
      exact ih (l + 1) (some e) (by omega) (by omega)
    · have hle : l = n.level := by omega
      subst hle
      obtain ⟨e, h1, _, h2, h3⟩ := hit h hd.mem hd.has
      unfold infoLoop
      rw [h1]
      simp only [h3, if_true]
      by_cases hc : e.nch = 0 ∨ n.level = 7
      · rw [if_pos hc]; exact ⟨e, rfl, h2⟩
      · rw [if_neg hc]
        rw [infoLoop_none h (l := n.level + 1)]
        · exact ⟨e, rfl, h2⟩
        · intro m hm hml hmx
          have := hd.max m hm hmx
          omega

/-- Result of the loop of `get_most_nested_alloc_segment`. -/
theorem nestedLoop_spec {st : St} {G : List Node} (h : Inv st G) {x : Nat} {n : Node}
    (hd : Deepest G x n) (fuel l : Nat) (par : Option Nat) (last : Option Entry)
    (hfl : fuel + l = 8) (hl : l ≤ n.level) :
    ∃ e, Ent G n e ∧
      ((e.nch = 0 ∧ ∃ par', nestedLoop st x fuel l par last = (n.level, par', some e) ∧
          ((n.level = l ∧ par' = par) ∨ (l < n.level ∧ ∃ m ∈ G, m.level + 1 = n.level ∧
            Has m.rg x ∧ par' = some m.ptr))) ∨
       (e.nch ≠ 0 ∧ ∃ lv f, nestedLoop st x fuel l par last = (lv, some e.key, some f) ∧
          (f = e ∨ f.key ≠ x))) := by
  induction fuel generalizing l par last with
  | zero => have := h.lt8 n hd.mem; omega
  | succ fuel ih =>
    rcases Nat.lt_or_ge l n.level with hlt | hge
    · obtain ⟨m, hm, e, hml, hmx, h1, hent, h3, h4, h5⟩ := step_above h hd hlt
      have hstep : nestedLoop st x (fuel + 1) l par last =
          nestedLoop st x fuel (l + 1) (some e.key) (some e) := by
        conv => lhs; unfold nestedLoop
        rw [h1]
        simp only
        rw [if_pos ⟨h3, h4⟩, if_neg h5]
      rw [hstep]
      obtain ⟨e', he', hcase⟩ := ih (l + 1) (some e.key) (some e) (by omega) (by omega)
      refine ⟨e', he', ?_⟩
      rcases hcase with ⟨h0, par', hp, hpc⟩ | hc
      · refine Or.inl ⟨h0, par', hp, Or.inr ⟨hlt, ?_⟩⟩
        rcases hpc with ⟨h6, h7⟩ | ⟨_, h7⟩
        · exact ⟨m, hm, by omega, hmx, by rw [h7, hent.1]⟩
        · exact h7
      · exact Or.inr hc
    · have hle : l = n.level := by omega
      subst hle
      obtain ⟨e, h1, _, hent, h3⟩ := hit h hd.mem hd.has
      refine ⟨e, hent, ?_⟩
      by_cases h0 : e.nch = 0
      · refine Or.inl ⟨h0, par, ?_, Or.inl ⟨rfl, rfl⟩⟩
        unfold nestedLoop
        rw [h1]
        simp only
        rw [if_neg (by rintro ⟨_, h4⟩; exact h4 h0)]
      · refine Or.inr ⟨h0, ?_⟩
        have h7 : n.level ≠ 7 := by
          intro h7
          apply h0
          rw [hent.2.2.2, h7]
          exact cnt_deep_zero h _
        have hstep : nestedLoop st x (fuel + 1) n.level par last =
            nestedLoop st x fuel (n.level + 1) (some e.key) (some e) := by
          conv => lhs; unfold nestedLoop
          rw [h1]
          simp only
          rw [if_pos ⟨h3, h0⟩, if_neg h7]
        rw [hstep]
        cases fuel with
        | zero => exact ⟨_, e, rfl, Or.inl rfl⟩
        | succ fuel =>
          unfold nestedLoop
          have hno : ∀ m ∈ G, m.level = n.level + 1 → ¬ Has m.rg x := by
            intro m hm hml hmx
            have := hd.max m hm hmx
            omega
          rcases miss h hno with h5 | ⟨f, h5, h6, h8⟩
          · rw [h5]; exact ⟨_, e, rfl, Or.inl rfl⟩
          · rw [h5]
            simp only
            rw [if_neg (by rintro ⟨h9, _⟩; exact h6 h9)]
            exact ⟨_, f, rfl, Or.inr h8⟩

theorem nestedLoop_none {st : St} {G : List Node} (h : Inv st G) {x : Nat}
    (hno : ∀ n ∈ G, ¬ Has n.rg x) :
    ∃ lv p f, nestedLoop st x 8 0 none none = (lv, p, f) ∧ ∀ e, f = some e → e.key ≠ x := by
  unfold nestedLoop
  rcases miss h (l := 0) (fun n hn _ => hno n hn) with h1 | ⟨e, h1, h2, h3⟩
  · rw [h1]; exact ⟨0, none, none, rfl, by intro e he; cases he⟩
  · rw [h1]
    simp only
    rw [if_neg (by rintro ⟨h4, _⟩; exact h2 h4)]
    refine ⟨0, none, some e, rfl, ?_⟩
    intro e' he'
    cases he'
    exact h3

/-- Result of the loop of `umfMemoryTrackerAdd`. -/
theorem addLoop_none {st : St} {G : List Node} (h : Inv st G) {x size fuel l : Nat} {p : Option Nat}
    (hno : ∀ n ∈ G, n.level = l → ¬ Has n.rg x) : addLoop st x size fuel l p = .found l p := by
  cases fuel with
  | zero => rfl
  | succ fuel =>
    unfold addLoop
    rcases miss h hno with h1 | ⟨e, h1, h2, _⟩
    · rw [h1]
    · rw [h1]; simp [h2]

theorem addLoop_spec {st : St} {G : List Node} (h : Inv st G) {x size : Nat} {n : Node}
    (hd : Deepest G x n) (hb : x + size < 2 ^ 64)
    (hin : ∀ m ∈ G, Has m.rg x → x + size ≤ m.ptr + m.size)
    (fuel l : Nat) (p : Option Nat) (hfl : fuel + l = 8) (hl : l ≤ n.level) :
    addLoop st x size fuel l p =
      if n.level = 7 then .tooDeep else .found (n.level + 1) (some n.ptr) := by
  have hw : word (x + size) = x + size := Nat.mod_eq_of_lt hb
  induction fuel generalizing l p with
  | zero => have := h.lt8 n hd.mem; omega
  | succ fuel ih =>
    rcases Nat.lt_or_ge l n.level with hlt | hge
    · obtain ⟨m, hm, e, hml, hmx, h1, hent, h3, h4, h5⟩ := step_above h hd hlt
      have hs := stop_eq h (findLe_some h1).1
      unfold addLoop
      rw [h1]
      simp only [h3, if_true]
      rw [if_neg h5, hw, hs, if_neg (by have := hin m hm hmx; rw [hent.1, hent.2.1]; omega), if_pos h4]
      exact ih (l + 1) (some e.key) (by omega) (by omega)
    · have hle : l = n.level := by omega
      subst hle
      obtain ⟨e, h1, he, hent, h3⟩ := hit h hd.mem hd.has
      have hs := stop_eq h he
      unfold addLoop
      rw [h1]
      simp only [h3, if_true]
      by_cases h7 : n.level = 7
      · rw [if_pos h7, if_pos h7]
      · rw [if_neg h7, if_neg h7, hw, hs,
          if_neg (by have := hin n hd.mem hd.has; rw [hent.1, hent.2.1]; omega)]
        by_cases h0 : e.nch ≠ 0
        · rw [if_pos h0, addLoop_none h, hent.1]
          intro m hm hml hmx
          have := hd.max m hm hmx
          omega
        · rw [if_neg h0, hent.1]

end Verif.Tracker
