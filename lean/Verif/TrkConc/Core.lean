import Verif.TrkConc.Spec
/-!
# Lemmas for the tracker used by several threads: maps and blocks
-/
namespace Verif.TrkConc

theorem upd_same {α : Type} (f : Nat → α) (a : Nat) (x : α) : upd f a x a = x := if_pos rfl
theorem upd_ne {α : Type} (f : Nat → α) {a b : Nat} (x : α) (h : b ≠ a) : upd f a x b = f b := if_neg h

/-! ### Maps -/

theorem mem_del {l : List (Nat × Addr)} {k : Nat} {e : Nat × Addr} : e ∈ del l k ↔ e ∈ l ∧ e.1 ≠ k := by
  simp [del, List.mem_filter]

theorem hasKey_iff {l : List (Nat × Addr)} {k : Nat} : hasKey l k = true ↔ ∃ a, (k, a) ∈ l := by
  unfold hasKey
  rw [List.any_eq_true]
  constructor
  · rintro ⟨⟨k', a⟩, h1, h2⟩
    have : k' = k := by simpa using h2
    subst this
    exact ⟨a, h1⟩
  · rintro ⟨a, h⟩
    exact ⟨_, h, by simp⟩

/-- A key has one value. -/
def Uniq (l : List (Nat × Addr)) : Prop := ∀ e ∈ l, ∀ e' ∈ l, e.1 = e'.1 → e = e'

theorem look_some {l : List (Nat × Addr)} {k : Nat} {a : Addr} (hu : Uniq l) (h : (k, a) ∈ l) : look? l k = some a := by
  unfold look?
  cases e : l.find? fun e => e.1 = k with
  | none =>
    rw [List.find?_eq_none] at e
    have := e _ h
    simp at this
  | some x =>
    have h1 := List.mem_of_find?_eq_some e
    have h2 : x.1 = k := by simpa using List.find?_some e
    have := hu x h1 (k, a) h h2
    subst this
    rfl

theorem findLe_aux (p : Nat) (l : List (Nat × Addr)) : ∀ b : Option (Nat × Addr), (∀ c, b = some c → c.1 ≤ p) →
    (∀ c, l.foldl (fun b e => if e.1 ≤ p then match b with
      | none => some e
      | some c => if c.1 < e.1 then some e else b else b) b = some c →
      (c ∈ l ∨ b = some c) ∧ c.1 ≤ p ∧ (∀ e ∈ l, e.1 ≤ p → e.1 ≤ c.1) ∧ ∀ d, b = some d → d.1 ≤ c.1) ∧
    (l.foldl (fun b e => if e.1 ≤ p then match b with
      | none => some e
      | some c => if c.1 < e.1 then some e else b else b) b = none → b = none ∧ ∀ e ∈ l, p < e.1) := by
  induction l with
  | nil =>
    intro b hb
    refine ⟨fun c h => ⟨Or.inr h, hb c h, fun e he => (nomatch he), fun d hd => ?_⟩, fun h => ⟨h, fun e he => by cases he⟩⟩
    rw [List.foldl_nil] at h
    rw [hd] at h
    cases h
    exact Nat.le_refl _
  | cons x l ih =>
    intro b hb
    rw [List.foldl_cons]
    by_cases hx : x.1 ≤ p
    · rw [if_pos hx]
      cases b with
      | none =>
        obtain ⟨h1, h2⟩ := ih (some x) (fun c h => by cases h; exact hx)
        refine ⟨fun c h => ?_, fun h => ?_⟩
        · obtain ⟨g1, g2, g3, g4⟩ := h1 c h
          refine ⟨Or.inl ?_, g2, ?_, fun d hd => by cases hd⟩
          · rcases g1 with g1 | g1
            · exact List.mem_cons_of_mem _ g1
            · cases g1
              exact List.mem_cons_self
          · intro e he hep
            rcases List.mem_cons.1 he with rfl | he
            · exact g4 _ rfl
            · exact g3 e he hep
        · cases (h2 h).1
      | some c0 =>
        dsimp only
        by_cases hc : c0.1 < x.1
        · rw [if_pos hc]
          obtain ⟨h1, h2⟩ := ih (some x) (fun c h => by cases h; exact hx)
          refine ⟨fun c h => ?_, fun h => ?_⟩
          · obtain ⟨g1, g2, g3, g4⟩ := h1 c h
            have g5 := g4 _ rfl
            refine ⟨Or.inl ?_, g2, ?_, fun d hd => by cases hd; omega⟩
            · rcases g1 with g1 | g1
              · exact List.mem_cons_of_mem _ g1
              · cases g1
                exact List.mem_cons_self
            · intro e he hep
              rcases List.mem_cons.1 he with rfl | he
              · exact g5
              · exact g3 e he hep
          · cases (h2 h).1
        · rw [if_neg hc]
          obtain ⟨h1, h2⟩ := ih (some c0) hb
          refine ⟨fun c h => ?_, fun h => ?_⟩
          · obtain ⟨g1, g2, g3, g4⟩ := h1 c h
            have g5 := g4 _ rfl
            refine ⟨?_, g2, ?_, fun d hd => by cases hd; exact g5⟩
            · rcases g1 with g1 | g1
              · exact Or.inl (List.mem_cons_of_mem _ g1)
              · exact Or.inr g1
            · intro e he hep
              rcases List.mem_cons.1 he with rfl | he
              · omega
              · exact g3 e he hep
          · cases (h2 h).1
    · rw [if_neg hx]
      obtain ⟨h1, h2⟩ := ih b hb
      refine ⟨fun c h => ?_, fun h => ?_⟩
      · obtain ⟨g1, g2, g3, g4⟩ := h1 c h
        refine ⟨?_, g2, ?_, g4⟩
        · rcases g1 with g1 | g1
          · exact Or.inl (List.mem_cons_of_mem _ g1)
          · exact Or.inr g1
        · intro e he hep
          rcases List.mem_cons.1 he with rfl | he
          · exact absurd hep hx
          · exact g3 e he hep
      · obtain ⟨g1, g2⟩ := h2 h
        refine ⟨g1, fun e he => ?_⟩
        rcases List.mem_cons.1 he with rfl | he
        · omega
        · exact g2 e he

/-- The greatest key not above `p` is `k`. -/
theorem findLe_eq {l : List (Nat × Addr)} {p k : Nat} {a : Addr} (hu : Uniq l) (h : (k, a) ∈ l) (hk : k ≤ p)
    (hg : ∀ e ∈ l, e.1 ≤ p → e.1 ≤ k) : findLe l p = some (k, a) := by
  obtain ⟨h1, h2⟩ := findLe_aux p l none (fun c h => by cases h)
  cases e : findLe l p with
  | none =>
    have := (h2 e).2 _ h
    exact absurd hk (by simpa using this)
  | some c =>
    obtain ⟨g1, g2, g3, _⟩ := h1 c e
    rcases g1 with g1 | g1
    · have e1 := hg c g1 g2
      have e2 := g3 _ h hk
      rw [hu c g1 (k, a) h (Nat.le_antisymm e1 e2)]
    · cases g1

/-! ### Entries -/

/-- A region is registered: it is at rest, or the thread `t` has it among `C t`. -/
def Reg (live : List Rec) (C : Nat → List Rec) (r : Rec) : Prop := r ∈ live ∨ ∃ t, r ∈ C t

/-- The entry of a region. -/
def Rec.info (r : Rec) : Info := ⟨r.pool, r.size, 0⟩

structure Core (l : List (Nat × Addr)) (h : Addr → Info) (u : Addr → Bool) (live : List Rec) (C : Nat → List Rec)
    (B : Nat → List Addr) : Prop where
  reg : ∀ r, Reg live C r → ∃ a, (r.ptr, a) ∈ l ∧ h a = r.info
  key : ∀ e ∈ l, ∃ r, Reg live C r ∧ r.ptr = e.1
  uniq : Uniq l
  inj : ∀ e ∈ l, ∀ e' ∈ l, e.2 = e'.2 → e = e'
  usedE : ∀ e ∈ l, u e.2 = true
  usedB : ∀ t, ∀ a ∈ B t, u a = true ∧ ∀ e ∈ l, e.2 ≠ a
  sep : ∀ t t' a, a ∈ B t → a ∈ B t' → t = t'
  nd : ∀ t, (B t).Nodup
  all : ∀ a, u a = true → (∃ e ∈ l, e.2 = a) ∨ ∃ t, a ∈ B t

variable {l : List (Nat × Addr)} {h : Addr → Info} {u : Addr → Bool} {live : List Rec} {C : Nat → List Rec} {B : Nat → List Addr}

theorem Core.info (hc : Core l h u live C B) {r : Rec} (hr : Reg live C r) {a : Addr} (ha : (r.ptr, a) ∈ l) : h a = r.info := by
  obtain ⟨b, h1, h2⟩ := hc.reg r hr
  have := hc.uniq _ h1 _ ha rfl
  cases this
  exact h2

theorem reg_upd {t : Nat} {c : List Rec} {r : Rec} : Reg live (upd C t c) r ↔ (r ∈ live ∨ ∃ t', t' ≠ t ∧ r ∈ C t') ∨ r ∈ c := by
  constructor
  · rintro (h1 | ⟨t', h1⟩)
    · exact Or.inl (Or.inl h1)
    · by_cases e : t' = t
      · rw [e, upd_same] at h1
        exact Or.inr h1
      · rw [upd_ne _ _ e] at h1
        exact Or.inl (Or.inr ⟨t', e, h1⟩)
  · rintro ((h1 | ⟨t', e, h1⟩) | h1)
    · exact Or.inl h1
    · exact Or.inr ⟨t', by rw [upd_ne _ _ e]; exact h1⟩
    · exact Or.inr ⟨t, by rw [upd_same]; exact h1⟩

theorem reg_split {t : Nat} {r : Rec} : Reg live C r ↔ (r ∈ live ∨ ∃ t', t' ≠ t ∧ r ∈ C t') ∨ r ∈ C t := by
  constructor
  · rintro (h1 | ⟨t', h1⟩)
    · exact Or.inl (Or.inl h1)
    · by_cases e : t' = t
      · rw [e] at h1
        exact Or.inr h1
      · exact Or.inl (Or.inr ⟨t', e, h1⟩)
  · rintro ((h1 | ⟨t', _, h1⟩) | h1)
    · exact Or.inl h1
    · exact Or.inr ⟨t', h1⟩
    · exact Or.inr ⟨t, h1⟩

theorem reg_same {t : Nat} {c : List Rec} {r : Rec} (hc : ∀ q, q ∈ c ↔ q ∈ C t) : Reg live (upd C t c) r ↔ Reg live C r := by
  rw [reg_upd, reg_split (t := t), hc]

theorem mem_updB {t t' : Nat} {b : List Addr} {a : Addr} : a ∈ upd B t b t' ↔ (t' = t ∧ a ∈ b) ∨ (t' ≠ t ∧ a ∈ B t') := by
  by_cases e : t' = t
  · rw [e, upd_same]
    simp
  · rw [upd_ne _ _ e]
    simp [e]

/-- Nothing changes. -/
theorem Core.same (hc : Core l h u live C B) {t : Nat} {c : List Rec} {b : List Addr} (h1 : ∀ q, q ∈ c ↔ q ∈ C t)
    (h2 : b = B t) : Core l h u live (upd C t c) (upd B t b) := by
  have hB : upd B t b = B := by
    funext t'
    by_cases e : t' = t
    · rw [e, upd_same, h2]
    · rw [upd_ne _ _ e]
  rw [hB]
  exact ⟨fun r hr => hc.reg r ((reg_same h1).1 hr), fun e he => by
    obtain ⟨r, g1, g2⟩ := hc.key e he
    exact ⟨r, (reg_same h1).2 g1, g2⟩, hc.uniq, hc.inj, hc.usedE, hc.usedB, hc.sep, hc.nd, hc.all⟩

/-- A block is allocated. -/
theorem Core.alloc (hc : Core l h u live C B) {t : Nat} {c : List Rec} {b : List Addr} {x : Addr} {i : Info} (h1 : ∀ q, q ∈ c ↔ q ∈ C t)
    (hx : u x = false) (hb : ∀ a, a ∈ b ↔ a = x ∨ a ∈ B t) (hn : b.Nodup) :
    Core l (upd h x i) (upd u x true) live (upd C t c) (upd B t b) := by
  have hne : ∀ a, u a = true → a ≠ x := by
    rintro a h2 rfl
    rw [hx] at h2
    cases h2
  refine ⟨?_, ?_, hc.uniq, hc.inj, ?_, ?_, ?_, ?_, ?_⟩
  · intro r hr
    obtain ⟨a, g1, g2⟩ := hc.reg r ((reg_same h1).1 hr)
    exact ⟨a, g1, by rw [upd_ne _ _ (hne a (hc.usedE _ g1))]; exact g2⟩
  · intro e he
    obtain ⟨r, g1, g2⟩ := hc.key e he
    exact ⟨r, (reg_same h1).2 g1, g2⟩
  · intro e he
    rw [upd_ne _ _ (hne _ (hc.usedE _ he))]
    exact hc.usedE _ he
  · intro t' a ha
    have old : ∀ t'', a ∈ B t'' → upd u x true a = true ∧ ∀ e ∈ l, e.2 ≠ a := by
      intro t'' h2
      obtain ⟨g1, g2⟩ := hc.usedB t'' a h2
      rw [upd_ne _ _ (hne a g1)]
      exact ⟨g1, g2⟩
    rcases mem_updB.1 ha with ⟨_, h2⟩ | ⟨_, h2⟩
    · rcases (hb a).1 h2 with rfl | h3
      · exact ⟨upd_same _ _ _, fun e he => hne _ (hc.usedE _ he)⟩
      · exact old _ h3
    · exact old _ h2
  · have aux : ∀ t1 a, a ∈ upd B t b t1 → (a = x ∧ t1 = t) ∨ a ∈ B t1 := by
      intro t1 a h2
      rcases mem_updB.1 h2 with ⟨e1, h3⟩ | ⟨_, h3⟩
      · rcases (hb a).1 h3 with h4 | h4
        · exact Or.inl ⟨h4, e1⟩
        · exact Or.inr (by rw [e1]; exact h4)
      · exact Or.inr h3
    intro t1 t2 a g1 g2
    rcases aux t1 a g1 with ⟨e1, e2⟩ | h2 <;> rcases aux t2 a g2 with ⟨e3, e4⟩ | h3
    · rw [e2, e4]
    · exact absurd e1 (hne _ (hc.usedB _ _ h3).1)
    · exact absurd e3 (hne _ (hc.usedB _ _ h2).1)
    · exact hc.sep _ _ _ h2 h3
  · intro t'
    by_cases e : t' = t
    · rw [e, upd_same]
      exact hn
    · rw [upd_ne _ _ e]
      exact hc.nd t'
  · intro a ha
    by_cases e : a = x
    · exact Or.inr ⟨t, by rw [upd_same]; exact (hb a).2 (Or.inl e)⟩
    · rw [upd_ne _ _ e] at ha
      rcases hc.all a ha with h2 | ⟨t', h2⟩
      · exact Or.inl h2
      · right
        by_cases e2 : t' = t
        · exact ⟨t, by rw [upd_same]; exact (hb a).2 (Or.inr (e2 ▸ h2))⟩
        · exact ⟨t', by rw [upd_ne _ _ e2]; exact h2⟩

/-- A block of the thread is freed. -/
theorem Core.free (hc : Core l h u live C B) {t : Nat} {c : List Rec} {b : List Addr} {x : Addr} {i : Info} (h1 : ∀ q, q ∈ c ↔ q ∈ C t)
    (hx : x ∈ B t) (hb : ∀ a, a ∈ b ↔ a ≠ x ∧ a ∈ B t) (hn : b.Nodup) :
    Core l (upd h x i) (upd u x false) live (upd C t c) (upd B t b) := by
  have hxl := (hc.usedB t x hx).2
  refine ⟨?_, ?_, hc.uniq, hc.inj, ?_, ?_, ?_, ?_, ?_⟩
  · intro r hr
    obtain ⟨a, g1, g2⟩ := hc.reg r ((reg_same h1).1 hr)
    exact ⟨a, g1, by rw [upd_ne _ _ (hxl _ g1)]; exact g2⟩
  · intro e he
    obtain ⟨r, g1, g2⟩ := hc.key e he
    exact ⟨r, (reg_same h1).2 g1, g2⟩
  · intro e he
    rw [upd_ne _ _ (hxl _ he)]
    exact hc.usedE _ he
  · intro t' a ha
    rcases mem_updB.1 ha with ⟨_, h2⟩ | ⟨e, h2⟩
    · obtain ⟨g1, g2⟩ := (hb a).1 h2
      rw [upd_ne _ _ g1]
      exact hc.usedB _ _ g2
    · have : a ≠ x := by
        rintro rfl
        exact e (hc.sep _ _ _ h2 hx)
      rw [upd_ne _ _ this]
      exact hc.usedB _ _ h2
  · have aux : ∀ t1 a, a ∈ upd B t b t1 → a ∈ B t1 := by
      intro t1 a h2
      rcases mem_updB.1 h2 with ⟨e1, h3⟩ | ⟨_, h3⟩
      · rw [e1]
        exact ((hb a).1 h3).2
      · exact h3
    exact fun t1 t2 a g1 g2 => hc.sep _ _ _ (aux _ _ g1) (aux _ _ g2)
  · intro t'
    by_cases e : t' = t
    · rw [e, upd_same]
      exact hn
    · rw [upd_ne _ _ e]
      exact hc.nd t'
  · intro a ha
    by_cases e : a = x
    · rw [e, upd_same] at ha
      cases ha
    · rw [upd_ne _ _ e] at ha
      rcases hc.all a ha with h2 | ⟨t', h2⟩
      · exact Or.inl h2
      · right
        by_cases e2 : t' = t
        · exact ⟨t, by rw [upd_same]; exact (hb a).2 ⟨e, e2 ▸ h2⟩⟩
        · exact ⟨t', by rw [upd_ne _ _ e2]; exact h2⟩

/-- A block of the thread becomes the entry of a region. -/
theorem Core.insert (hc : Core l h u live C B) {t : Nat} {c : List Rec} {b : List Addr} {x : Addr} {r : Rec}
    (h1 : ∀ q, q ∈ c ↔ q = r ∨ q ∈ C t) (hx : x ∈ B t) (hi : h x = r.info) (hk : ∀ a, (r.ptr, a) ∉ l)
    (hb : ∀ a, a ∈ b ↔ a ≠ x ∧ a ∈ B t) (hn : b.Nodup) :
    Core ((r.ptr, x) :: l) h u live (upd C t c) (upd B t b) := by
  have hxl := (hc.usedB t x hx).2
  have hreg : ∀ q, Reg live (upd C t c) q ↔ q = r ∨ Reg live C q := by
    intro q
    rw [reg_upd, reg_split (t := t), h1]
    constructor
    · rintro (h2 | h2 | h2)
      · exact Or.inr (Or.inl h2)
      · exact Or.inl h2
      · exact Or.inr (Or.inr h2)
    · rintro (h2 | h2 | h2)
      · exact Or.inr (Or.inl h2)
      · exact Or.inl h2
      · exact Or.inr (Or.inr h2)
  refine ⟨?_, ?_, ?_, ?_, ?_, ?_, ?_, ?_, ?_⟩
  · intro q hq
    rcases (hreg q).1 hq with rfl | h2
    · exact ⟨x, List.mem_cons_self, hi⟩
    · obtain ⟨a, g1, g2⟩ := hc.reg q h2
      exact ⟨a, List.mem_cons_of_mem _ g1, g2⟩
  · intro e he
    rcases List.mem_cons.1 he with rfl | he
    · exact ⟨r, (hreg r).2 (Or.inl rfl), rfl⟩
    · obtain ⟨q, g1, g2⟩ := hc.key e he
      exact ⟨q, (hreg q).2 (Or.inr g1), g2⟩
  · intro e he e' he' hee
    rcases List.mem_cons.1 he with rfl | he <;> rcases List.mem_cons.1 he' with rfl | he'
    · rfl
    · exact absurd (by rw [show r.ptr = e'.1 from hee]; exact he') (hk e'.2)
    · exact absurd (by rw [← show e.1 = r.ptr from hee]; exact he) (hk e.2)
    · exact hc.uniq e he e' he' hee
  · intro e he e' he' hee
    rcases List.mem_cons.1 he with rfl | he <;> rcases List.mem_cons.1 he' with rfl | he'
    · rfl
    · exact absurd hee.symm (hxl e' he')
    · exact absurd hee (hxl e he)
    · exact hc.inj e he e' he' hee
  · intro e he
    rcases List.mem_cons.1 he with rfl | he
    · exact (hc.usedB t x hx).1
    · exact hc.usedE e he
  · intro t' a ha
    have g : a ≠ x ∧ ∃ t'', a ∈ B t'' := by
      rcases mem_updB.1 ha with ⟨_, h2⟩ | ⟨e, h2⟩
      · exact ⟨((hb a).1 h2).1, t, ((hb a).1 h2).2⟩
      · refine ⟨?_, t', h2⟩
        rintro rfl
        exact e (hc.sep _ _ _ h2 hx)
    obtain ⟨g1, t'', g2⟩ := g
    obtain ⟨g3, g4⟩ := hc.usedB _ _ g2
    refine ⟨g3, fun e he => ?_⟩
    rcases List.mem_cons.1 he with rfl | he
    · exact Ne.symm g1
    · exact g4 e he
  · have aux : ∀ t1 a, a ∈ upd B t b t1 → a ∈ B t1 := by
      intro t1 a h2
      rcases mem_updB.1 h2 with ⟨e1, h3⟩ | ⟨_, h3⟩
      · rw [e1]
        exact ((hb a).1 h3).2
      · exact h3
    exact fun t1 t2 a g1 g2 => hc.sep _ _ _ (aux _ _ g1) (aux _ _ g2)
  · intro t'
    by_cases e : t' = t
    · rw [e, upd_same]
      exact hn
    · rw [upd_ne _ _ e]
      exact hc.nd t'
  · intro a ha
    rcases hc.all a ha with ⟨e, h2, h3⟩ | ⟨t', h2⟩
    · exact Or.inl ⟨e, List.mem_cons_of_mem _ h2, h3⟩
    · by_cases e : a = x
      · exact Or.inl ⟨_, List.mem_cons_self, e.symm⟩
      · right
        by_cases e2 : t' = t
        · exact ⟨t, by rw [upd_same]; exact (hb a).2 ⟨e, e2 ▸ h2⟩⟩
        · exact ⟨t', by rw [upd_ne _ _ e2]; exact h2⟩

/-- The entry of a region becomes a block of the thread. -/
theorem Core.del (hc : Core l h u live C B) {t : Nat} {c : List Rec} {b : List Addr} {k : Nat} {x : Addr}
    (hx : (k, x) ∈ l) (h1 : ∀ q, q ∈ c ↔ q.ptr ≠ k ∧ q ∈ C t) (hl : ∀ q ∈ live, q.ptr ≠ k) (ho : ∀ t' q, t' ≠ t → q ∈ C t' → q.ptr ≠ k)
    (hb : ∀ a, a ∈ b ↔ a = x ∨ a ∈ B t) (hn : b.Nodup) :
    Core (del l k) h u live (upd C t c) (upd B t b) := by
  have hreg : ∀ q, Reg live (upd C t c) q ↔ q.ptr ≠ k ∧ Reg live C q := by
    intro q
    rw [reg_upd, reg_split (t := t), h1]
    constructor
    · rintro ((h2 | ⟨t', h2, h3⟩) | ⟨h2, h3⟩)
      · exact ⟨hl q h2, Or.inl (Or.inl h2)⟩
      · exact ⟨ho t' q h2 h3, Or.inl (Or.inr ⟨t', h2, h3⟩)⟩
      · exact ⟨h2, Or.inr h3⟩
    · rintro ⟨h2, h3 | h3⟩
      · exact Or.inl h3
      · exact Or.inr ⟨h2, h3⟩
  have hxx : ∀ e ∈ Verif.TrkConc.del l k, e.2 ≠ x := by
    intro e he h2
    obtain ⟨g1, g2⟩ := mem_del.1 he
    have := hc.inj e g1 (k, x) hx h2
    exact g2 (by rw [this])
  have hnx : ∀ t' a, a ∈ B t' → a ≠ x := by
    rintro t' a h2 rfl
    exact (hc.usedB t' _ h2).2 _ hx rfl
  refine ⟨?_, ?_, ?_, ?_, ?_, ?_, ?_, ?_, ?_⟩
  · intro q hq
    obtain ⟨h2, h3⟩ := (hreg q).1 hq
    obtain ⟨a, g1, g2⟩ := hc.reg q h3
    exact ⟨a, mem_del.2 ⟨g1, h2⟩, g2⟩
  · intro e he
    obtain ⟨g1, g2⟩ := mem_del.1 he
    obtain ⟨q, g3, g4⟩ := hc.key e g1
    exact ⟨q, (hreg q).2 ⟨by rw [g4]; exact g2, g3⟩, g4⟩
  · exact fun e he e' he' => hc.uniq e (mem_del.1 he).1 e' (mem_del.1 he').1
  · exact fun e he e' he' => hc.inj e (mem_del.1 he).1 e' (mem_del.1 he').1
  · exact fun e he => hc.usedE e (mem_del.1 he).1
  · intro t' a ha
    have old : ∀ t'', a ∈ B t'' → u a = true ∧ ∀ e ∈ Verif.TrkConc.del l k, e.2 ≠ a := fun t'' h2 =>
      ⟨(hc.usedB t'' a h2).1, fun e he => (hc.usedB t'' a h2).2 e (mem_del.1 he).1⟩
    rcases mem_updB.1 ha with ⟨_, h2⟩ | ⟨_, h2⟩
    · rcases (hb a).1 h2 with rfl | h3
      · exact ⟨hc.usedE _ hx, hxx⟩
      · exact old _ h3
    · exact old _ h2
  · have aux : ∀ t1 a, a ∈ upd B t b t1 → (a = x ∧ t1 = t) ∨ a ∈ B t1 := by
      intro t1 a h2
      rcases mem_updB.1 h2 with ⟨e1, h3⟩ | ⟨_, h3⟩
      · rcases (hb a).1 h3 with h4 | h4
        · exact Or.inl ⟨h4, e1⟩
        · exact Or.inr (by rw [e1]; exact h4)
      · exact Or.inr h3
    intro t1 t2 a g1 g2
    rcases aux t1 a g1 with ⟨e1, e2⟩ | h2 <;> rcases aux t2 a g2 with ⟨e3, e4⟩ | h3
    · rw [e2, e4]
    · exact absurd e1 (hnx _ _ h3)
    · exact absurd e3 (hnx _ _ h2)
    · exact hc.sep _ _ _ h2 h3
  · intro t'
    by_cases e : t' = t
    · rw [e, upd_same]
      exact hn
    · rw [upd_ne _ _ e]
      exact hc.nd t'
  · intro a ha
    rcases hc.all a ha with ⟨e, h2, h3⟩ | ⟨t', h2⟩
    · by_cases e1 : e.1 = k
      · have := hc.uniq e h2 (k, x) hx e1
        rw [this] at h3
        exact Or.inr ⟨t, by rw [upd_same]; exact (hb a).2 (Or.inl h3.symm)⟩
      · exact Or.inl ⟨e, mem_del.2 ⟨h2, e1⟩, h3⟩
    · right
      by_cases e2 : t' = t
      · exact ⟨t, by rw [upd_same]; exact (hb a).2 (Or.inr (e2 ▸ h2))⟩
      · exact ⟨t', by rw [upd_ne _ _ e2]; exact h2⟩

theorem upd_upd {α : Type} (f : Nat → α) (a : Nat) (x y : α) : upd (upd f a x) a y = upd f a y := by
  funext b
  unfold upd
  split <;> rfl

/-- The entry of a region is replaced. -/
theorem Core.put (hc : Core l h u live C B) {t : Nat} {c : List Rec} {b : List Addr} {x y : Addr} {r : Rec}
    (hx : (r.ptr, x) ∈ l) (hy : y ∈ B t) (hi : h y = r.info) (h1 : ∀ q, q ∈ c ↔ q = r ∨ (q.ptr ≠ r.ptr ∧ q ∈ C t))
    (hl : ∀ q ∈ live, q.ptr ≠ r.ptr) (ho : ∀ t' q, t' ≠ t → q ∈ C t' → q.ptr ≠ r.ptr)
    (hb : ∀ a, a ∈ b ↔ a = x ∨ (a ≠ y ∧ a ∈ B t)) (hn : b.Nodup) :
    Core (put l r.ptr y) h u live (upd C t c) (upd B t b) := by
  have hxB : x ∉ B t := fun h2 => (hc.usedB t x h2).2 _ hx rfl
  have hxy : x ≠ y := by
    rintro rfl
    exact hxB hy
  have c1 := hc.del (t := t) (c := (C t).filter fun q => q.ptr ≠ r.ptr) (b := x :: B t) hx
    (by intro q; simp [List.mem_filter, and_comm]) hl ho (by intro a; simp) (List.nodup_cons.2 ⟨hxB, hc.nd t⟩)
  have c2 := c1.insert (t := t) (c := c) (b := b) (x := y) (r := r)
    (by intro q; rw [upd_same, h1]; simp [List.mem_filter, and_comm])
    (by rw [upd_same]; exact List.mem_cons_of_mem _ hy) hi
    (fun a h2 => (mem_del.1 h2).2 rfl)
    (by
      intro a
      rw [upd_same, hb, List.mem_cons]
      constructor
      · rintro (rfl | ⟨h2, h3⟩)
        · exact ⟨hxy, Or.inl rfl⟩
        · exact ⟨h2, Or.inr h3⟩
      · rintro ⟨h2, h3 | h3⟩
        · exact Or.inl h3
        · exact Or.inr ⟨h2, h3⟩) hn
  rw [upd_upd, upd_upd] at c2
  exact c2

end Verif.TrkConc
