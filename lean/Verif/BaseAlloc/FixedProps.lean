import Verif.BaseAlloc.Fixed
import Verif.Mem
/-! # Property C19: the fixed-chunk base allocator is sound -/
set_option linter.unusedSimpArgs false
namespace Verif.BaseAlloc.Fixed
open Mem

/-! ### Specification -/

/-- Layout facts of the platform: the page size is a positive multiple of 8, and so is the size
of the metadata, which fits a page. -/
structure CfgOk (cfg : Cfg) : Prop where
  page8 : cfg.page % 8 = 0
  page : 0 < cfg.page
  page64 : cfg.page < 2 ^ 64
  meta8 : cfg.metaSize % 8 = 0

/-- Memory the OS may hand out: page-aligned (so 8-aligned), not null, inside the address space
and apart from the memory already handed out. -/
structure OsOk (grants : List Region) (r : Region) : Prop where
  ptr : 0 < r.1
  aligned : r.1 % 8 = 0
  bound : r.1 + r.2 ≤ 2 ^ 64
  apart : ∀ g ∈ grants, Disjoint g r

/-- `Reach cfg size p live grants`: the allocator `p` for elements of `size` bytes after some
history; `live` are the addresses handed out and not freed, `grants` the OS memory taken. -/
inductive Reach (cfg : Cfg) (size : Nat) : Pool → List Nat → List Region → Prop where
  | create {p base} : create cfg size (some base) true = some p → OsOk [] (base, p.poolSize) →
      Reach cfg size p [] [(base, p.poolSize)]
  | allocFree {p live grants os p' a} : Reach cfg size p live grants → p.free ≠ [] →
      alloc p os = (p', some a) → Reach cfg size p' (a :: live) grants
  | allocNew {p live grants base p' a} : Reach cfg size p live grants → p.free = [] →
      OsOk grants (base, p.poolSize) → alloc p (some base) = (p', some a) →
      Reach cfg size p' (a :: live) ((base, p.poolSize) :: grants)
  | allocFail {p live grants os p'} : Reach cfg size p live grants →
      alloc p os = (p', none) → Reach cfg size p' live grants
  | free {p live grants a} : Reach cfg size p live grants → a ∈ live →
      Reach cfg size (free p a) (live.erase a) grants

/-- The element size is sane: 128 elements and the header are below 2^63 bytes. -/
def SizeOk (cfg : Cfg) (size : Nat) : Prop :=
  8 + cfg.metaSize + cfg.mutexSize + 128 * (size + 7) + cfg.page < 2 ^ 64

/-! ### Proof -/

theorem chunks_spec (c ptr size : Nat) :
    (∀ a ∈ chunks c ptr size, ptr ≤ a ∧ a + c ≤ ptr + size) ∧
    (chunks c ptr size).Pairwise (fun a b => a + c ≤ b) ∧
    (c % 8 = 0 → ptr % 8 = 0 → ∀ a ∈ chunks c ptr size, a % 8 = 0) := by
  fun_induction chunks c ptr size with
  | case1 ptr size h ih =>
    obtain ⟨h1, h2, h3⟩ := ih
    refine ⟨?_, ?_, ?_⟩
    · intro a ha
      rw [List.mem_cons] at ha
      rcases ha with rfl | ha
      · omega
      · have := h1 a ha; omega
    · rw [List.pairwise_cons]
      exact ⟨fun a ha => (h1 a ha).1, h2⟩
    · intro hc hp a ha
      rw [List.mem_cons] at ha
      rcases ha with rfl | ha
      · exact hp
      · exact h3 hc (by omega) a ha
  | case2 => simp

theorem divide_eq {c ptr size : Nat} (hc : 0 < c) (h : c ≤ size) :
    divide c ptr size = chunks c ptr size ∧ chunks c ptr size ≠ [] := by
  have hne : chunks c ptr size ≠ [] := by
    rw [chunks]; simp [hc, h]
  refine ⟨?_, hne⟩
  unfold divide
  split
  · rename_i h0; exact absurd h0 hne
  · rfl

/-- What holds of the allocator in every reachable state. -/
private structure Inv (cfg : Cfg) (size : Nat) (p : Pool) (live : List Nat)
    (grants : List Region) : Prop where
  chunk : size ≤ p.chunkSize ∧ 0 < p.chunkSize ∧ p.chunkSize % 8 = 0
  fits : 8 + cfg.metaSize + p.chunkSize ≤ p.poolSize
  apart : (live ++ p.free).Pairwise (fun a b => Disjoint (a, p.chunkSize) (b, p.chunkSize))
  inside : ∀ a ∈ live ++ p.free, a % 8 = 0 ∧ ∃ g ∈ grants,
    g.1 + (if g.1 = p.main then 8 + cfg.metaSize else 8) ≤ a ∧ a + p.chunkSize ≤ g.1 + g.2
  count : p.nAllocs = live.length
  regions : grants = (p.next.map fun b => (b, p.poolSize)) ++ [(p.main, p.poolSize)]
  grantsApart : grants.Pairwise Disjoint
  pos : ∀ g ∈ grants, 0 < g.1

private theorem alignUp_data {b s : Nat} (h : b % 8 = 0) : alignPtrUpSizeDown b s 8 = (b, s) := by
  simp [alignPtrUpSizeDown, h]

private theorem alignUpSafe8 {s : Nat} (h : s + 7 < 2 ^ 64) :
    s ≤ alignUpSafe s 8 ∧ alignUpSafe s 8 % 8 = 0 ∧ alignUpSafe s 8 ≤ s + 7 := by
  unfold alignUpSafe
  rw [if_neg (by omega)]
  omega

private theorem alignUpSafe_ge {s a : Nat} (ha : 0 < a) (h : s + (a - 1) < 2 ^ 64) :
    s ≤ alignUpSafe s a := by
  unfold alignUpSafe
  rw [if_neg (by omega)]
  have h1 := Nat.div_add_mod (s + (a - 1)) a
  have h2 := Nat.mod_lt (s + (a - 1)) ha
  have h3 : (s + (a - 1)) / a * a = a * ((s + (a - 1)) / a) := Nat.mul_comm _ _
  omega

private theorem pairwise_disj {c : Nat} {l : List Nat} (h : l.Pairwise (fun a b => a + c ≤ b)) :
    l.Pairwise (fun a b => Disjoint (a, c) (b, c)) :=
  h.imp fun hab => disjoint_of (Or.inl hab)

private theorem inv_create {cfg : Cfg} {size base : Nat} {p : Pool} (hcfg : CfgOk cfg)
    (hs : SizeOk cfg size) (h : create cfg size (some base) true = some p)
    (hos : OsOk [] (base, p.poolSize)) : Inv cfg size p [] [(base, p.poolSize)] := by
  unfold create at h
  simp only at h
  split at h
  · cases h
  rename_i hc0
  have h8 := alignUpSafe8 (s := size) (by unfold SizeOk at hs; omega)
  generalize hch : alignUpSafe size 8 = c at *
  split at h
  · cases h
  rename_i hp0
  have hge : 8 + cfg.metaSize + cfg.mutexSize + 128 * c ≤
      alignUpSafe (rawPoolSize cfg c) cfg.page := by
    unfold SizeOk at hs
    have hw : word (8 + cfg.metaSize + cfg.mutexSize + 128 * c) =
        8 + cfg.metaSize + cfg.mutexSize + 128 * c := Nat.mod_eq_of_lt (by omega)
    have hraw : 8 + cfg.metaSize + cfg.mutexSize + 128 * c ≤ rawPoolSize cfg c := by
      unfold rawPoolSize; rw [hw]; exact Nat.le_max_left _ _
    refine Nat.le_trans hraw ?_
    rcases Nat.lt_or_ge (rawPoolSize cfg c + (cfg.page - 1)) (2 ^ 64) with h1 | h1
    · exact alignUpSafe_ge hcfg.page h1
    · exfalso; apply hp0; unfold alignUpSafe; rw [if_pos h1]
  generalize alignUpSafe (rawPoolSize cfg c) cfg.page = P at *
  simp only [if_true, Option.some.injEq] at h
  subst h
  have hm8 := hcfg.meta8
  have hb8 : base % 8 = 0 := hos.aligned
  have hc0' : 0 < c := by omega
  rw [alignUp_data (by omega)]
  obtain ⟨hdiv, _⟩ := divide_eq (c := c) (ptr := base + (8 + cfg.metaSize))
    (size := P - (8 + cfg.metaSize)) hc0' (by omega)
  obtain ⟨hc1, hc2, hc3⟩ := chunks_spec c (base + (8 + cfg.metaSize)) (P - (8 + cfg.metaSize))
  simp only [hdiv]
  exact {
    chunk := ⟨h8.1, hc0', h8.2.1⟩
    fits := by show 8 + cfg.metaSize + c ≤ P; omega
    apart := pairwise_disj hc2
    inside := by
      intro a ha
      have h1 := hc1 a ha
      refine ⟨hc3 h8.2.1 (by omega) a ha, (base, P), by simp, ?_, ?_⟩
      · simp; omega
      · show a + c ≤ base + P; omega
    count := rfl
    regions := rfl
    grantsApart := by simp
    pos := by intro g hg; simp at hg; subst hg; exact hos.ptr }

private theorem inv_allocFree {cfg : Cfg} {size : Nat} {p p' : Pool} {live : List Nat}
    {grants : List Region} {os : Option Nat} {a : Nat} (h : Inv cfg size p live grants)
    (hne : p.free ≠ []) (ha : alloc p os = (p', some a)) : Inv cfg size p' (a :: live) grants := by
  unfold alloc at ha
  cases hf : p.free with
  | nil => exact absurd hf hne
  | cons b fr =>
    rw [hf] at ha
    simp only [Prod.mk.injEq, Option.some.injEq] at ha
    obtain ⟨rfl, rfl⟩ := ha
    have hperm : (b :: live ++ fr).Perm (live ++ p.free) := by
      rw [hf]; exact List.perm_middle.symm
    exact {
      chunk := h.chunk
      fits := h.fits
      apart := (hperm.pairwise_iff (fun h => Disjoint.symm h)).2 h.apart
      inside := fun x hx => h.inside x (hperm.mem_iff.1 hx)
      count := by simp [h.count]
      regions := h.regions
      grantsApart := h.grantsApart
      pos := h.pos }

private theorem inv_allocNew {cfg : Cfg} {size : Nat} {p p' : Pool} {live : List Nat}
    {grants : List Region} {base a : Nat} (h : Inv cfg size p live grants)
    (hemp : p.free = []) (hos : OsOk grants (base, p.poolSize))
    (ha : alloc p (some base) = (p', some a)) :
    Inv cfg size p' (a :: live) ((base, p.poolSize) :: grants) := by
  have hb8 : base % 8 = 0 := hos.aligned
  have hfit := h.fits
  obtain ⟨hdiv, hcne⟩ := divide_eq (c := p.chunkSize) (ptr := base + 8) (size := p.poolSize - 8)
    h.chunk.2.1 (by omega)
  obtain ⟨hc1, hc2, hc3⟩ := chunks_spec p.chunkSize (base + 8) (p.poolSize - 8)
  unfold alloc at ha
  rw [hemp] at ha
  simp only [alignUp_data (show (base + 8) % 8 = 0 by omega), hdiv] at ha
  cases hch : chunks p.chunkSize (base + 8) (p.poolSize - 8) with
  | nil => exact absurd hch hcne
  | cons b fr =>
    rw [hch] at ha hc1 hc2 hc3
    simp only [Prod.mk.injEq, Option.some.injEq] at ha
    obtain ⟨rfl, rfl⟩ := ha
    have hold : live ++ p.free = live := by rw [hemp]; simp
    have hperm : (b :: live ++ fr).Perm (live ++ (b :: fr)) := List.perm_middle.symm
    -- the main pool is not the new one
    have hmain : (p.main, p.poolSize) ∈ grants := by rw [h.regions]; simp
    have hbm : base ≠ p.main := by
      intro e
      have hd := hos.apart _ hmain
      exact hd base ⟨⟨by show p.main ≤ base; omega, by show base < p.main + p.poolSize; omega⟩,
        Nat.le_refl _, by show base < base + p.poolSize; omega⟩
    exact {
      chunk := h.chunk
      fits := h.fits
      apart := by
        refine (hperm.pairwise_iff (fun h => Disjoint.symm h)).2 ?_
        show (live ++ (b :: fr)).Pairwise _
        rw [List.pairwise_append]
        refine ⟨?_, pairwise_disj hc2, ?_⟩
        · have := h.apart; rw [hold] at this; exact this
        · intro x hx y hy
          obtain ⟨_, g, hg, hg1, hg2⟩ := h.inside x (by rw [hold]; exact hx)
          have h1 := hc1 y hy
          refine disjoint_of_inside (hos.apart g hg) (inside_of ?_ hg2) (inside_of ?_ ?_)
          · show g.1 ≤ x; omega
          · show base ≤ y; omega
          · show y + p.chunkSize ≤ base + p.poolSize; omega
      inside := by
        intro x hx
        have hx' := hperm.mem_iff.1 hx
        rw [List.mem_append] at hx'
        rcases hx' with hx' | hx'
        · obtain ⟨h1, g, hg, hg1, hg2⟩ := h.inside x (by rw [hold]; exact hx')
          exact ⟨h1, g, by simp [hg], hg1, hg2⟩
        · have h1 := hc1 x hx'
          refine ⟨hc3 h.chunk.2.2 (by omega) x hx', (base, p.poolSize), by simp, ?_, ?_⟩
          · show base + (if base = p.main then _ else 8) ≤ x
            rw [if_neg hbm]; omega
          · show x + p.chunkSize ≤ base + p.poolSize; omega
      count := by simp [h.count]
      regions := by show _ :: grants = _; rw [h.regions]; rfl
      grantsApart := by
        rw [List.pairwise_cons]
        exact ⟨fun g hg => (hos.apart g hg).symm, h.grantsApart⟩
      pos := by
        intro g hg
        rw [List.mem_cons] at hg
        rcases hg with rfl | hg
        · exact hos.ptr
        · exact h.pos g hg }

private theorem alloc_fail_same {cfg : Cfg} {size : Nat} {p p' : Pool} {live : List Nat}
    {grants : List Region} {os : Option Nat} (_h : Inv cfg size p live grants)
    (ha : alloc p os = (p', none)) : p' = p ∧ os = none ∧ p.free = [] := by
  unfold alloc at ha
  cases hf : p.free with
  | cons b fr => rw [hf] at ha; simp at ha
  | nil =>
    rw [hf] at ha
    cases os with
    | none => simp only [Prod.mk.injEq, and_true] at ha; exact ⟨ha.symm, rfl, rfl⟩
    | some base =>
      simp only at ha
      split at ha
      · rename_i hd
        unfold divide at hd
        split at hd
        · cases hd
        · rename_i hne; exact absurd hd hne
      · simp at ha

private theorem inv_free {cfg : Cfg} {size : Nat} {p : Pool} {live : List Nat}
    {grants : List Region} {a : Nat} (h : Inv cfg size p live grants) (ha : a ∈ live) :
    Inv cfg size (free p a) (live.erase a) grants := by
  have hin := h.inside a (by simp [ha])
  obtain ⟨_, g, hg, hg1, _⟩ := hin
  have ha0 : a ≠ 0 := by have := h.pos g hg; omega
  have e : free p a = { p with free := a :: p.free, nAllocs := p.nAllocs - 1 } := by
    simp [free, ha0]
  rw [e]
  have hperm : (live.erase a ++ (a :: p.free)).Perm (live ++ p.free) := by
    refine (List.perm_middle).trans ?_
    exact List.Perm.append_right p.free (List.perm_cons_erase ha).symm
  exact {
    chunk := h.chunk
    fits := h.fits
    apart := (hperm.pairwise_iff (fun h => Disjoint.symm h)).2 h.apart
    inside := fun x hx => h.inside x (hperm.mem_iff.1 hx)
    count := by
      show p.nAllocs - 1 = _
      rw [List.length_erase_of_mem ha, h.count]
    regions := h.regions
    grantsApart := h.grantsApart
    pos := h.pos }

private theorem reach_inv {cfg : Cfg} {size : Nat} {p : Pool} {live : List Nat}
    {grants : List Region} (hcfg : CfgOk cfg) (hs : SizeOk cfg size)
    (h : Reach cfg size p live grants) : Inv cfg size p live grants := by
  induction h with
  | create h1 h2 => exact inv_create hcfg hs h1 h2
  | allocFree _ h1 h2 ih => exact inv_allocFree ih h1 h2
  | allocNew _ h1 h2 h3 ih => exact inv_allocNew ih h1 h2 h3
  | allocFail _ h1 ih => rw [(alloc_fail_same ih h1).1]; exact ih
  | free _ h1 ih => exact inv_free ih h1

/-! ### The theorems -/

variable {cfg : Cfg} {size : Nat} {p : Pool} {live : List Nat} {grants : List Region}

/-- **C19 (partial: sane element sizes).** In every reachable state the elements handed out are
pairwise disjoint `size`-byte ranges, each 8-aligned, inside OS memory, and apart from the
headers of all pools (the main pool's metadata and the link of every pool). Missing: element
sizes of which 128 do not fit the address space, see `C19_hugeElement_violated`. -/
theorem C19_elements_partial (hcfg : CfgOk cfg) (hs : SizeOk cfg size)
    (h : Reach cfg size p live grants) :
    live.Pairwise (fun a b => Disjoint (a, size) (b, size)) ∧
    ∀ a ∈ live, a % 8 = 0 ∧ (∃ g ∈ grants, Inside (a, size) g) ∧
      Disjoint (a, size) (p.main, 8 + cfg.metaSize) ∧ ∀ g ∈ grants, Disjoint (a, size) (g.1, 8) := by
  have hi := reach_inv hcfg hs h
  have hsz := hi.chunk.1
  have hshrink : ∀ a, Inside (a, size) (a, p.chunkSize) := fun a =>
    inside_of (Nat.le_refl a) (by show a + size ≤ a + p.chunkSize; omega)
  refine ⟨?_, ?_⟩
  · have := (List.pairwise_append.1 hi.apart).1
    exact this.imp fun hab => disjoint_of_inside hab (hshrink _) (hshrink _)
  · intro a ha
    obtain ⟨h8, g, hg, hg1, hg2⟩ := hi.inside a (by simp [ha])
    have hig : Inside (a, size) g := inside_of (by show g.1 ≤ a; omega)
      (by show a + size ≤ g.1 + g.2; omega)
    -- ranges at the start of another granted region
    have hother : ∀ g' ∈ grants, g' ≠ g → ∀ n, n ≤ g'.2 → Disjoint (a, size) (g'.1, n) := by
      intro g' hg' hne n hn
      have hd : Disjoint g g' := by
        have hp := hi.grantsApart
        have hcl : ∀ l : List Region, l.Pairwise Disjoint → ∀ x ∈ l, ∀ y ∈ l, x ≠ y →
            Disjoint x y := by
          intro l hl
          induction l with
          | nil => intro x hx; cases hx
          | cons z l ih =>
            rw [List.pairwise_cons] at hl
            intro x hx y hy hxy
            rw [List.mem_cons] at hx hy
            rcases hx with rfl | hx <;> rcases hy with rfl | hy
            · exact absurd rfl hxy
            · exact hl.1 y hy
            · exact (hl.1 x hx).symm
            · exact ih hl.2 x hx y hy hxy
        exact hcl _ hp g hg g' hg' (Ne.symm hne)
      exact disjoint_of_inside hd hig
        (inside_of (Nat.le_refl _) (by show g'.1 + n ≤ g'.1 + g'.2; omega))
    have hgsize : ∀ g' ∈ grants, g'.2 = p.poolSize := by
      intro g' hg'
      rw [hi.regions, List.mem_append, List.mem_map, List.mem_singleton] at hg'
      rcases hg' with ⟨b, _, rfl⟩ | rfl <;> rfl
    have hf := hi.fits
    refine ⟨h8, ⟨g, hg, hig⟩, ?_, ?_⟩
    · by_cases hgm : g.1 = p.main
      · rw [if_pos hgm] at hg1
        exact disjoint_of (Or.inr (by show p.main + (8 + cfg.metaSize) ≤ a; omega))
      · have hm : (p.main, p.poolSize) ∈ grants := by rw [hi.regions]; simp
        refine hother (p.main, p.poolSize) hm ?_ _ (by show 8 + cfg.metaSize ≤ p.poolSize; omega)
        rintro rfl
        exact hgm rfl
    · intro g' hg'
      by_cases he : g' = g
      · subst he
        refine disjoint_of (Or.inr ?_)
        show g'.1 + 8 ≤ a
        split at hg1 <;> omega
      · exact hother g' hg' he 8 (by rw [hgsize g' hg']; omega)

/-- **C19.** An allocation fails only if there is no free element and the OS refuses a new
pool; it then changes nothing. -/
theorem C19_failsOnlyIfRefused (hcfg : CfgOk cfg) (hs : SizeOk cfg size)
    (h : Reach cfg size p live grants) (os : Option Nat) (hf : (alloc p os).2 = none) :
    os = none ∧ (alloc p os).1 = p := by
  have := alloc_fail_same (reach_inv hcfg hs h) (p' := (alloc p os).1) (os := os)
    (Prod.ext rfl hf)
  exact ⟨this.2.1, this.1⟩

/-- **C19.** A freed element is the next one handed out, without asking the OS. -/
theorem C19_reuse (hcfg : CfgOk cfg) (hs : SizeOk cfg size) (h : Reach cfg size p live grants)
    (a : Nat) (ha : a ∈ live) (os : Option Nat) : alloc (free p a) os = (p, some a) := by
  have hi := reach_inv hcfg hs h
  obtain ⟨_, g, hg, hg1, _⟩ := hi.inside a (by simp [ha])
  have ha0 : a ≠ 0 := by have := hi.pos g hg; omega
  have hc : p.nAllocs - 1 + 1 = p.nAllocs := by
    have : 0 < live.length := List.length_pos_of_mem ha
    have := hi.count
    omega
  simp [free, ha0, alloc, hc]

/-- **C19.** Destroying the allocator returns to the OS exactly the memory taken from it. -/
theorem C19_destroy (hcfg : CfgOk cfg) (hs : SizeOk cfg size) (h : Reach cfg size p live grants) :
    destroy p = grants := (reach_inv hcfg hs h).regions.symm

/-! ### A concrete history -/

private def cfg0 : Cfg := ⟨4096, 72, 40⟩
private def p0 : Pool := ⟨8192, 36864, 256, [], chunks 256 8272 36784, 0⟩

private theorem cfgOk0 : CfgOk cfg0 := ⟨by decide, by decide, by decide, by decide⟩
private theorem sizeOk0 : SizeOk cfg0 256 := by show 8 + 72 + 40 + 128 * (256 + 7) + 4096 < 2 ^ 64; omega

private theorem reach0 : Reach cfg0 256 p0 [] [(8192, 36864)] := by
  refine Reach.create (p := p0) ?_ ⟨by decide, by decide, by decide, by simp⟩
  have h1 : alignUpSafe 256 8 = 256 := by rfl
  have h2 : alignUpSafe (rawPoolSize cfg0 256) cfg0.page = 36864 := by
    simp [rawPoolSize, word, cfg0, alignUpSafe]
  have h3 : alignPtrUpSizeDown (8192 + (8 + cfg0.metaSize)) (36864 - (8 + cfg0.metaSize)) 8 =
      (8272, 36784) := by rfl
  have h4 := (divide_eq (c := 256) (ptr := 8272) (size := 36784) (by omega) (by omega)).1
  simp [create, h1, h2, h3, h4, p0]

/-- Take two elements, free the first, take one again. -/
example : CfgOk cfg0 ∧ SizeOk cfg0 256 ∧ ∃ p, Reach cfg0 256 p [8272, 8528] [(8192, 36864)] := by
  have hf : p0.free = 8272 :: 8528 :: chunks 256 8784 36272 := by
    show chunks 256 8272 36784 = _
    rw [chunks, chunks]; simp
  have e1 : alloc p0 none = ({ p0 with free := 8528 :: chunks 256 8784 36272, nAllocs := 1 }, some 8272) := by
    simp [alloc, hf]; rfl
  have h1 := Reach.allocFree reach0 (by rw [hf]; simp) e1
  have h2 := Reach.allocFree (os := none) h1 (by simp) rfl
  have h3 := Reach.free (a := 8272) h2 (by simp)
  exact ⟨cfgOk0, sizeOk0, _, Reach.allocFree (os := none) h3 (by simp [free]) rfl⟩

/-- **C19 is violated** for absurd element sizes: the multiplication by 128 is not checked, and an
allocator for elements of 2^57 bytes is created in one page; its first element is not inside the
OS memory. -/
theorem C19_hugeElement_violated : ∃ (cfg : Cfg) (size : Nat) (p : Pool) (live : List Nat)
    (grants : List Region), CfgOk cfg ∧ size < 2 ^ 64 ∧ Reach cfg size p live grants ∧
      ∃ a ∈ live, ∀ g ∈ grants, ¬ Inside (a, size) g := by
  have hc : create cfg0 (2 ^ 57) (some 8192) true =
      some ⟨8192, 4096, 2 ^ 57, [], [8272], 0⟩ := by
    have h1 : alignUpSafe (2 ^ 57) 8 = 2 ^ 57 := by rfl
    have h2 : alignUpSafe (rawPoolSize cfg0 (2 ^ 57)) cfg0.page = 4096 := by
      simp [rawPoolSize, word, cfg0, alignUpSafe]
    have h3 : alignPtrUpSizeDown (8192 + (8 + cfg0.metaSize)) (4096 - (8 + cfg0.metaSize)) 8 =
        (8272, 4016) := by rfl
    have h4 : divide (2 ^ 57) 8272 4016 = [8272] := by
      unfold divide; rw [chunks]; simp
    simp only [create, h1, h2, h3, h4]; rfl
  have h0 : Reach cfg0 (2 ^ 57) ⟨8192, 4096, 2 ^ 57, [], [8272], 0⟩ [] [(8192, 4096)] :=
    Reach.create hc ⟨by decide, by decide, by decide, by simp⟩
  have h1 : Reach cfg0 (2 ^ 57) ⟨8192, 4096, 2 ^ 57, [], [], 1⟩ [8272] [(8192, 4096)] :=
    Reach.allocFree (os := none) h0 (by simp) rfl
  refine ⟨cfg0, 2 ^ 57, _, _, _, ⟨by decide, by decide, by decide, by decide⟩, by decide, h1,
    8272, by simp, ?_⟩
  intro g hg hin
  simp at hg
  subst hg
  have := hin (8272 + 8192) ⟨by show 8272 ≤ _; omega, by show 8272 + 8192 < 8272 + 2 ^ 57; decide⟩
  have h2 : 8272 + 8192 < 8192 + 4096 := this.2
  omega

end Verif.BaseAlloc.Fixed
