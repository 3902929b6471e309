import Verif.Coarse.Reach
/-! Runs of free bytes and uniqueness of the block layout. -/
set_option linter.unusedSimpArgs false
namespace Verif.Coarse
open Spec

theorem chain_cases {l : List Block} (h : Chain l) {a b : Block} (ha : a ∈ l) (hb : b ∈ l) :
    a = b ∨ a.data + a.size ≤ b.data ∨ b.data + b.size ≤ a.data := by
  induction l with
  | nil => cases ha
  | cons x l ih =>
    rw [chain_cons] at h
    rw [List.mem_cons] at ha hb
    rcases ha with rfl | ha
    · rcases hb with rfl | hb
      · exact Or.inl rfl
      · exact Or.inr (Or.inl (h.1 b hb))
    · rcases hb with rfl | hb
      · exact Or.inr (Or.inr (h.1 a ha))
      · exact ih h.2 ha hb

/-- Byte `x` belongs to a block that is not used. -/
def FreeByte (l : List Block) (x : Nat) : Prop :=
  ∃ b ∈ l, b.used = false ∧ b.data ≤ x ∧ x < b.data + b.size

theorem freeByte_iff {st : St} {live grants : List Region} (hr : Rel st live grants) (x : Nat) :
    FreeByte st.blocks x ↔ HasAny grants x ∧ ¬ HasAny live x := by
  constructor
  · rintro ⟨b, hb, hu, h1, h2⟩
    refine ⟨(hr.grants x).1 ⟨b, hb, h1, h2⟩, ?_⟩
    rintro ⟨r, hrm, hx⟩
    obtain ⟨b', hb', hu', hd, hs⟩ := mem_usedOf (hr.live.mem_iff.1 hrm)
    unfold Has at hx
    rcases chain_cases hr.inv.core.chain hb hb' with rfl | h | h
    · rw [hu] at hu'; cases hu'
    · omega
    · omega
  · rintro ⟨hg, hl⟩
    obtain ⟨b, hb, h1, h2⟩ := (hr.grants x).2 hg
    refine ⟨b, hb, ?_, h1, h2⟩
    cases hu : b.used with
    | false => rfl
    | true => exact absurd ⟨_, hr.live.mem_iff.2 (usedOf_mem hb hu), h1, h2⟩ hl

theorem run_in_block {l : List Block} (hc : Chain l) (hno : NoAdj l) (s n : Nat)
    (h : ∀ x, s ≤ x → x < s + (n + 1) → FreeByte l x) :
    ∃ b ∈ l, b.used = false ∧ b.data ≤ s ∧ s + (n + 1) ≤ b.data + b.size := by
  induction n with
  | zero =>
    obtain ⟨b, hb, hu, h1, h2⟩ := h s (Nat.le_refl _) (by omega)
    exact ⟨b, hb, hu, h1, by omega⟩
  | succ n ih =>
    obtain ⟨b, hb, hu, h1, h2⟩ := ih (fun x hx hx' => h x hx (by omega))
    obtain ⟨c, hc', hcu, h3, h4⟩ := h (s + (n + 1)) (by omega) (by omega)
    by_cases hlt : s + (n + 1) < b.data + b.size
    · exact ⟨b, hb, hu, h1, by omega⟩
    · rcases chain_cases hc hb hc' with rfl | h | h
      · omega
      · exact absurd (by omega) (hno b hb c hc' hu hcu)
      · omega

/-- With no two adjacent free blocks, the free blocks are the maximal runs of free bytes. -/
theorem freeBlocks_mem {l l' : List Block} (hc : Chain l) (hc' : Chain l')
    (hp : ∀ b ∈ l, 0 < b.size)
    (hno : NoAdj l) (hno' : NoAdj l') (hf : ∀ x, FreeByte l x ↔ FreeByte l' x) {b : Block}
    (hb : b ∈ l) (hu : b.used = false) :
    ∃ b' ∈ l', b'.used = false ∧ b'.data = b.data ∧ b'.size = b.size := by
  have hbp := hp b hb
  obtain ⟨b', hb', hu', h1, h2⟩ := run_in_block hc' hno' b.data (b.size - 1)
    (fun x hx hx' => (hf x).1 ⟨b, hb, hu, hx, by omega⟩)
  obtain ⟨b2, hb2, hu2, h3, h4⟩ := run_in_block hc hno b'.data (b'.size - 1)
    (fun x hx hx' => (hf x).2 ⟨b', hb', hu', hx, by omega⟩)
  have : b2 = b := by
    rcases chain_cases hc hb hb2 with h | h | h
    · exact h.symm
    · omega
    · omega
  subst this
  exact ⟨b', hb', hu', by omega, by omega⟩

/-- A list of blocks sorted by address is determined by its elements. -/
theorem sorted_ext {l l' : List Block} (hs : SortedD l) (hs' : SortedD l')
    (h : ∀ b, b ∈ l ↔ b ∈ l') : l = l' := by
  induction l generalizing l' with
  | nil =>
    cases l' with
    | nil => rfl
    | cons b l' => exact absurd ((h b).2 (by simp)) (by simp)
  | cons a l ih =>
    cases l' with
    | nil => exact absurd ((h a).1 (by simp)) (by simp)
    | cons b l' =>
      unfold SortedD at hs hs'
      rw [List.pairwise_cons] at hs hs'
      have hab : a = b := by
        have h1 := (h a).1 (by simp)
        have h2 := (h b).2 (by simp)
        rw [List.mem_cons] at h1 h2
        rcases h1 with h1 | h1
        · exact h1
        · rcases h2 with h2 | h2
          · exact h2.symm
          · have := hs.1 b h2
            have := hs'.1 a h1
            omega
      subst hab
      rw [ih hs.2 hs'.2]
      intro c
      constructor
      · intro hc
        have := (h c).1 (by simp [hc])
        rw [List.mem_cons] at this
        rcases this with rfl | this
        · have := hs.1 c hc; omega
        · exact this
      · intro hc
        have := (h c).2 (by simp [hc])
        rw [List.mem_cons] at this
        rcases this with rfl | this
        · have := hs'.1 c hc; omega
        · exact this

/-- The books determine the blocks when no two free blocks are adjacent. -/
theorem blocks_unique {st st' : St} {live live' grants grants' : List Region}
    (hr : Rel st live grants) (hr' : Rel st' live' grants') (hl : live.Perm live')
    (hg : ∀ x, HasAny grants x ↔ HasAny grants' x) (hno : NoAdj st.blocks)
    (hno' : NoAdj st'.blocks) : st.blocks = st'.blocks := by
  have key : ∀ {st st' : St} {live live' grants grants' : List Region},
      Rel st live grants → Rel st' live' grants' → live.Perm live' →
      (∀ x, HasAny grants x ↔ HasAny grants' x) → NoAdj st.blocks → NoAdj st'.blocks →
      ∀ b, b ∈ st.blocks → b ∈ st'.blocks := by
    intro st st' live live' grants grants' hr hr' hl hg hno hno' b hb
    have hlive : ∀ x, HasAny live x ↔ HasAny live' x := fun x => by
      unfold HasAny
      constructor
      · rintro ⟨r, h, h'⟩; exact ⟨r, hl.mem_iff.1 h, h'⟩
      · rintro ⟨r, h, h'⟩; exact ⟨r, hl.mem_iff.2 h, h'⟩
    have hok := hr.inv.ok b hb
    cases hu : b.used with
    | false =>
      obtain ⟨b', hb', hu', hd, hs⟩ := freeBlocks_mem hr.inv.core.chain hr'.inv.core.chain
        (fun b hb => (hr.inv.core.pos b hb).1) hno hno'
        (fun x => by rw [freeByte_iff hr, freeByte_iff hr', hg, hlive]) hb hu
      have hok' := hr'.inv.ok b' hb'
      unfold OK at hok hok'
      have : b' = b := by
        cases b; cases b'
        simp_all
      rw [← this]; exact hb'
    | true =>
      have h1 := hr'.live.mem_iff.1 (hl.mem_iff.1 (hr.live.mem_iff.2 (usedOf_mem hb hu)))
      obtain ⟨b', hb', hu', hd, hs⟩ := mem_usedOf h1
      have hok' := hr'.inv.ok b' hb'
      unfold OK at hok hok'
      have : b' = b := by
        cases b; cases b'
        simp_all
      rw [← this]; exact hb'
  exact sorted_ext hr.inv.core.sorted hr'.inv.core.sorted fun b =>
    ⟨key hr hr' hl hg hno hno' b, key hr' hr hl.symm (fun x => (hg x).symm) hno' hno b⟩

/-- The free list is, up to order, the blocks that are not used. -/
theorem mem_free {st : St} (hi : Inv st) {b : Block} (hb : b ∈ st.blocks) (hu : b.used = false) :
    (b.size, b.data) ∈ st.free := by
  rw [hi.core.perm.mem_iff]
  unfold keys
  refine List.mem_map.2 ⟨b, List.mem_filter.2 ⟨hb, ?_⟩, rfl⟩
  have := hi.ok b hb
  unfold OK at this
  rw [this, hu]; rfl

theorem rmGe_first_some {s : Nat} {fr : List (Nat × Nat)} {e : Nat × Nat} (he : e ∈ fr)
    (hs : s ≤ e.1) : ∃ e', rmGe s 0 .first fr = some e' := by
  unfold rmGe
  cases hm : minGe s fr with
  | none => have := minGe_none hm e he; omega
  | some k =>
    obtain ⟨_, ⟨d, hd⟩, _⟩ := minGe_some hm
    simp only
    cases hh : (fr.filter (fun e => e.1 == k)).head? with
    | none =>
      rw [List.head?_eq_none_iff, List.filter_eq_nil_iff] at hh
      exact absurd (by simp) (hh _ hd)
    | some e' => exact ⟨e', by simp [aligned]⟩

theorem findFree_fastest {cfg : Cfg} {size a : Nat} {fr : List (Nat × Nat)} {e : Nat × Nat}
    (he : e ∈ fr) (hs : size + a ≤ e.1) (hb : size + a < 2 ^ 64) :
    ∃ e', findFree cfg size a fr = some e' := by
  obtain ⟨e1, h1⟩ := rmGe_first_some he hs
  unfold findFree
  have hif : ¬ (size + a ≥ 2 ^ 64) := by omega
  simp only [if_neg hif, h1]
  cases cfg.strategy with
  | fastest => exact ⟨e1, rfl⟩
  | fastestButOne => simp only; split
                     · exact ⟨_, rfl⟩
                     · exact ⟨e1, rfl⟩
  | checkAllSize => simp only; split
                    · exact ⟨_, rfl⟩
                    · exact ⟨e1, rfl⟩

theorem findFree_checkAll {cfg : Cfg} {size a : Nat} {fr : List (Nat × Nat)} {e : Nat × Nat}
    (hcfg : cfg.strategy = .checkAllSize)
    (he : e ∈ fr) (hs : e.1 = size) (hb : e.2 % a = 0) :
    ∃ e', findFree cfg size a fr = some e' := by
  unfold findFree
  simp only [hcfg]
  cases hr : rmGe size a .allOfSize fr with
  | some e' => exact ⟨_, rfl⟩
  | none =>
    exfalso
    unfold rmGe at hr
    cases hm : minGe size fr with
    | none => have := minGe_none hm e he; omega
    | some k =>
      rw [hm] at hr
      obtain ⟨h1, _, h3⟩ := minGe_some hm
      have := h3 e he (by omega)
      simp only at hr
      rw [List.find?_eq_none] at hr
      have := hr e (List.mem_filter.2 ⟨he, by simp; omega⟩)
      exact this (by simp [aligned, hb])

end Verif.Coarse
