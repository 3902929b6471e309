import Verif.TrkMem.LeftModel
import Verif.TrkMem.Props
/-! # C85: the report of regions that are left is exact -/
namespace Verif.TrkMem

theorem findG_none {l : List (Nat × Addr)} {x : Nat} (h : findG l x = none) : ∀ e ∈ l, e.1 ≤ x := by
  induction l with
  | nil => intro e he; cases he
  | cons f l ih =>
    unfold findG at h
    split at h
    · rename_i hl
      split at h
      · cases h
      · intro e he
        rcases List.mem_cons.1 he with rfl | he
        · omega
        · exact ih hl e he
    · split at h <;> cases h

theorem findG_some {l : List (Nat × Addr)} {x : Nat} {e : Nat × Addr} (h : findG l x = some e) :
    e ∈ l ∧ x < e.1 ∧ ∀ f ∈ l, x < f.1 → e.1 ≤ f.1 := by
  induction l generalizing e with
  | nil => cases h
  | cons f l ih =>
    unfold findG at h
    split at h
    · rename_i hl
      split at h
      · rename_i hx
        cases h
        refine ⟨by simp, hx, ?_⟩
        intro g hg hx'
        rcases List.mem_cons.1 hg with rfl | hg
        · omega
        · have := findG_none hl g hg
          omega
      · cases h
    · rename_i g hl
      obtain ⟨h1, h2, h3⟩ := ih hl
      split at h
      · rename_i hx
        cases h
        refine ⟨by simp, hx.1, ?_⟩
        intro g' hg hx'
        rcases List.mem_cons.1 hg with rfl | hg
        · omega
        · have := h3 g' hg hx'
          omega
      · rename_i hx
        cases h
        refine ⟨List.mem_cons_of_mem _ h1, h2, ?_⟩
        intro g' hg hx'
        rcases List.mem_cons.1 hg with rfl | hg
        · omega
        · exact h3 g' hg hx'

/-- The entry is counted. -/
def Counted (s : St) (pool : Nat) (a : Addr) : Prop := (s.heap a).pool = pool ∨ pool = 0

/-- One level: the entries above `last` are counted, each once. -/
theorem leftLoop_spec {s : St} (h : Inv s []) (i pool : Nat) : ∀ (fuel last n : Nat),
    ((s.lv i).filter fun e => decide (last < e.1)).length < fuel →
    ∃ L : List Addr, L.Nodup ∧ (∀ a, a ∈ L ↔ (∃ k, last < k ∧ (k, a) ∈ s.lv i) ∧ Counted s pool a) ∧
      leftLoop s (s.lv i) pool fuel last n = some (n + L.length) := by
  intro fuel
  induction fuel with
  | zero => intro last n hf; omega
  | succ fuel ih =>
    intro last n hf
    unfold leftLoop
    cases hg : findG (s.lv i) last with
    | none =>
      refine ⟨[], List.nodup_nil, ?_, rfl⟩
      intro a
      simp only [List.not_mem_nil, false_iff, not_and]
      rintro ⟨k, h1, h2⟩
      have := findG_none hg _ h2
      dsimp only at this
      omega
    | some e =>
      obtain ⟨k, a⟩ := e
      obtain ⟨h1, h2, h3⟩ := findG_some hg
      dsimp only at h2 h3 ⊢
      have hl : load s a = some (s.heap a) := by
        unfold load
        rw [if_pos (h.alive i k a h1).1]
      rw [hl]
      dsimp only
      have hlen : ((s.lv i).filter fun e => decide (k < e.1)).length < ((s.lv i).filter fun e => decide (last < e.1)).length := by
        have e1 : ((s.lv i).filter fun e => decide (k < e.1)) =
            ((s.lv i).filter fun e => decide (last < e.1)).filter fun e => decide (k < e.1) := by
          rw [List.filter_filter]
          congr 1
          funext e
          by_cases c : k < e.1
          · have : last < e.1 := by omega
            simp [c, this]
          · simp [c]
        rw [e1]
        have hm : (k, a) ∈ (s.lv i).filter fun e => decide (last < e.1) := by
          simp only [List.mem_filter, decide_eq_true_eq]
          exact ⟨h1, h2⟩
        refine Nat.lt_of_le_of_ne (List.length_filter_le _ _) (fun e => ?_)
        have := List.length_filter_eq_length_iff.1 e _ hm
        simp at this
      obtain ⟨L, g1, g2, g3⟩ := ih k (if (s.heap a).pool = pool ∨ pool = 0 then n + 1 else n) (by omega)
      have hna : a ∉ L := by
        intro ha
        obtain ⟨⟨k', h4, h5⟩, _⟩ := (g2 a).1 ha
        have := (h.single i k i k' a h1 h5).2
        omega
      have split' : ∀ b, (∃ k', last < k' ∧ (k', b) ∈ s.lv i) ↔ b = a ∨ ∃ k', k < k' ∧ (k', b) ∈ s.lv i := by
        intro b
        constructor
        · rintro ⟨k', h4, h5⟩
          have := h3 _ h5 h4
          dsimp only at this
          by_cases e : k' = k
          · left; rw [e] at h5; exact h.once i k b a h5 h1
          · right; exact ⟨k', by omega, h5⟩
        · rintro (rfl | ⟨k', h4, h5⟩)
          · exact ⟨k, h2, h1⟩
          · exact ⟨k', by omega, h5⟩
      by_cases hc : (s.heap a).pool = pool ∨ pool = 0
      · rw [if_pos hc] at g3 ⊢
        refine ⟨a :: L, List.nodup_cons.2 ⟨hna, g1⟩, ?_, by rw [g3, List.length_cons]; congr 1; omega⟩
        intro b
        rw [List.mem_cons, g2, split']
        constructor
        · rintro (rfl | ⟨h4, h5⟩)
          · exact ⟨.inl rfl, hc⟩
          · exact ⟨.inr h4, h5⟩
        · rintro ⟨rfl | h4, h5⟩
          · exact .inl rfl
          · exact .inr ⟨h4, h5⟩
      · rw [if_neg hc] at g3 ⊢
        refine ⟨L, g1, ?_, g3⟩
        intro b
        rw [g2, split']
        constructor
        · rintro ⟨h4, h5⟩; exact ⟨.inr h4, h5⟩
        · rintro ⟨rfl | h4, h5⟩
          · exact absurd h5 hc
          · exact ⟨h4, h5⟩

theorem leftLevels_spec {s : St} (h : Inv s []) (pool : Nat) : ∀ (j i n : Nat),
    ∃ L : List Addr, L.Nodup ∧
      (∀ a, a ∈ L ↔ (∃ l k, i ≤ l ∧ l < i + j ∧ 0 < k ∧ (k, a) ∈ s.lv l) ∧ Counted s pool a) ∧
      leftLevels s pool j i n = some (n + L.length) := by
  intro j
  induction j with
  | zero =>
    intro i n
    refine ⟨[], List.nodup_nil, ?_, rfl⟩
    intro a
    simp only [List.not_mem_nil, false_iff, not_and]
    rintro ⟨l, k, h1, h2, _⟩
    omega
  | succ j ih =>
    intro i n
    unfold leftLevels
    obtain ⟨L, g1, g2, g3⟩ := leftLoop_spec h i pool ((s.lv i).length + 1) 0 n
      (Nat.lt_succ_of_le (List.length_filter_le _ _))
    rw [g3]
    dsimp only
    obtain ⟨M, k1, k2, k3⟩ := ih (i + 1) (n + L.length)
    refine ⟨L ++ M, ?_, ?_, by rw [k3, List.length_append]; congr 1; omega⟩
    · rw [List.nodup_append]
      refine ⟨g1, k1, ?_⟩
      intro a ha b hb e
      subst e
      obtain ⟨⟨x, _, h1⟩, _⟩ := (g2 a).1 ha
      obtain ⟨⟨l, y, h2, _, _, h3⟩, _⟩ := (k2 a).1 hb
      have := (h.single i x l y a h1 h3).1
      omega
    · intro a
      rw [List.mem_append, g2, k2]
      constructor
      · rintro (⟨⟨k, h1, h2⟩, h3⟩ | ⟨⟨l, k, h1, h2, h3, h4⟩, h5⟩)
        · exact ⟨⟨i, k, by omega, by omega, h1, h2⟩, h3⟩
        · exact ⟨⟨l, k, by omega, by omega, h3, h4⟩, h5⟩
      · rintro ⟨⟨l, k, h1, h2, h3, h4⟩, h5⟩
        by_cases e : l = i
        · subst e; exact .inl ⟨⟨k, h3, h4⟩, h5⟩
        · exact .inr ⟨⟨l, k, by omega, by omega, h3, h4⟩, h5⟩

/-- C85: after any history, the check reads only entries that are there, ends, and counts exactly the tracked regions of the pool (of
all pools for NULL), each once: `L` lists their entries. (A region at address 0, which no provider gives out, is not seen.) -/
theorem C85_exact_partial {s : St} (h : Reach s) (pool : Nat) :
    ∃ L : List Addr, L.Nodup ∧
      (∀ a, a ∈ L ↔ s.used a = true ∧ (∃ l k, k ≠ 0 ∧ (k, a) ∈ s.lv l) ∧ (pool ≠ 0 → (s.heap a).pool = pool)) ∧
      itemsLeft s pool = some L.length := by
  obtain ⟨L, h1, h2, h3⟩ := leftLevels_spec h.inv pool 8 0 0
  refine ⟨L, h1, ?_, by unfold itemsLeft; rw [h3]; congr 1; omega⟩
  intro a
  rw [h2]
  constructor
  · rintro ⟨⟨l, k, _, _, g1, g2⟩, g3⟩
    refine ⟨(h.inv.alive l k a g2).1, ⟨l, k, by omega, g2⟩, fun hp => ?_⟩
    rcases g3 with g3 | g3
    · exact g3
    · exact absurd g3 hp
  · rintro ⟨_, ⟨l, k, g1, g2⟩, g3⟩
    refine ⟨⟨l, k, by omega, by have := (h.inv.alive l k a g2).2.2; omega, by omega, g2⟩, ?_⟩
    by_cases hp : pool = 0
    · exact .inr hp
    · exact .inl (g3 hp)

/-- C85: the check says nothing if and only if no region of the pool is left or the proxy library is preloaded, and otherwise it
says how many are left. -/
theorem C85_report_partial {s : St} (h : Reach s) (pool : Nat) (inProxy : Bool) :
    ∃ r, checkEmpty s pool inProxy = some r ∧
      (r = .silent ↔ inProxy = true ∨
        ∀ a l k, k ≠ 0 → (k, a) ∈ s.lv l → pool ≠ 0 ∧ (s.heap a).pool ≠ pool) ∧
      (∀ n, r = .all n ∨ r = .ofPool pool n → n ≠ 0 ∧ itemsLeft s pool = some n) ∧
      ∀ p n, r = .ofPool p n → p = pool ∧ pool ≠ 0 := by
  obtain ⟨L, h1, h2, h3⟩ := C85_exact_partial h pool
  unfold checkEmpty
  rw [h3]
  refine ⟨_, rfl, ?_⟩
  cases L with
  | nil =>
    refine ⟨?_, by simp, by simp⟩
    simp only [List.length_nil, ne_eq, not_true_eq_false, if_false, true_iff]
    right
    intro a l k hk hm
    have h4 := (h2 a).2
    have h5 := (h.inv.alive l k a hm).1
    constructor
    · intro hp
      exact absurd (h4 ⟨h5, ⟨l, k, hk, hm⟩, fun h' => absurd hp h'⟩) (by simp)
    · intro hp
      exact absurd (h4 ⟨h5, ⟨l, k, hk, hm⟩, fun _ => hp⟩) (by simp)
  | cons a L =>
    have hne : (a :: L).length ≠ 0 := by simp
    obtain ⟨_, ⟨l, k, hk, hm⟩, hp⟩ := (h2 a).1 (by simp)
    dsimp only
    rw [if_pos hne]
    cases inProxy with
    | true => simp
    | false =>
      rw [if_pos rfl]
      by_cases hz : pool = 0
      · rw [if_neg (by simp [hz])]
        refine ⟨?_, ?_, by simp⟩
        · simp only [reduceCtorEq, Bool.false_eq_true, false_or, false_iff]
          intro hall
          exact (hall a l k hk hm).1 hz
        · intro n hn
          simp only [Report.all.injEq, reduceCtorEq, or_false] at hn
          subst hn
          exact ⟨hne, rfl⟩
      · rw [if_pos hz]
        refine ⟨?_, ?_, ?_⟩
        · simp only [reduceCtorEq, Bool.false_eq_true, false_or, false_iff]
          intro hall
          exact (hall a l k hk hm).2 (hp hz)
        · intro n hn
          simp only [Report.ofPool.injEq, true_and, reduceCtorEq, false_or] at hn
          subst hn
          exact ⟨hne, rfl⟩
        · intro p n hn
          simp only [Report.ofPool.injEq] at hn
          exact ⟨hn.1.symm, hz⟩

end Verif.TrkMem
