import Verif.BaseAlloc.Linear
import Verif.Mem
/-! # Property C20: the linear base allocator is sound -/
set_option linter.unusedSimpArgs false
namespace Verif.BaseAlloc.Linear
open Mem Fixed

/-! ### Specification -/

/-- Layout facts of the platform: the page size is a multiple of 8 (and a power of two in
practice), the metadata and the 24-byte header fit a page. -/
structure CfgOk (cfg : Cfg) : Prop where
  page8 : cfg.page % 8 = 0
  meta8 : cfg.metaSize % 8 = 0
  fits : 8 + cfg.metaSize ≤ cfg.page
  fits24 : 24 ≤ cfg.page
  page64 : cfg.page < 2 ^ 63

/-- OS memory of a piece. -/
def region (s : Sub) : Region := (s.base, s.size)

/-- All OS memory the allocator holds, the active piece first. -/
def pools (p : Pool) : List Sub := p.next ++ [p.main]

/-- Memory the OS may hand out: page-aligned, not null, inside the address space and apart from
the memory the allocator holds. -/
structure OsOk (held : List Region) (r : Region) : Prop where
  ptr : 0 < r.1
  aligned : r.1 % 8 = 0
  bound : r.1 + r.2 ≤ 2 ^ 64
  apart : ∀ g ∈ held, Disjoint g r

/-- `Reach cfg p live`: the allocator `p` after some history; `live` are the allocations made
and not freed. Requests above 2^64-24 bytes are left out, see `C20_hugeRequest_violated`. -/
inductive Reach (cfg : Cfg) : Pool → List Region → Prop where
  | create {size base p} : create cfg size (some base) true = some p →
      OsOk [] (base, p.main.size) → Reach cfg p []
  | alloc {p live size os p' a} : Reach cfg p live → size ≤ 2 ^ 64 - 24 →
      (∀ n b, os n = some b → OsOk ((pools p).map region) (b, n)) →
      alloc cfg p size os = (p', some a) → Reach cfg p' ((a, size) :: live)
  | allocFail {p live size os p'} : Reach cfg p live →
      alloc cfg p size os = (p', none) → Reach cfg p' live
  | free {p live r} : Reach cfg p live → r ∈ live → Reach cfg (free cfg p r.1).1 (live.erase r)

/-! ### Proof -/

theorem contains_iff (s : Sub) (x : Nat) :
    s.contains x = true ↔ s.base + s.hdr ≤ x ∧ x < s.base + s.size := by simp [Sub.contains]

private def cnt (s : Sub) (live : List Region) : Nat := (live.filter fun r => s.contains r.1).length

private structure SubOk (s : Sub) : Prop where
  hdr : s.hdr ≤ s.size
  hdr8 : s.hdr % 8 = 0
  base8 : s.base % 8 = 0
  pos : 0 < s.base
  bound : s.base + s.size ≤ 2 ^ 64

private structure Inv (ps : List Sub) (dp sl : Nat) (live : List Region) : Prop where
  regs : ps.Pairwise fun s t => Disjoint (region s) (region t)
  sub : ∀ s ∈ ps, SubOk s
  livePos : ∀ r ∈ live, 0 < r.2 ∧ r.1 % 8 = 0
  liveApart : live.Pairwise Disjoint
  liveIn : ∀ r ∈ live, ∃ s ∈ ps, s.base + s.hdr ≤ r.1 ∧ r.1 + r.2 ≤ s.base + s.size
  active : ∀ s, ps.head? = some s → s.base + s.hdr ≤ dp ∧ dp + sl = s.base + s.size ∧
    ∀ r ∈ live, s.contains r.1 = true → r.1 + r.2 ≤ dp
  dp8 : dp % 8 = 0
  counts : ∀ s ∈ ps, s.n = cnt s live

private theorem not_both {s t : Sub} (h : Disjoint (region s) (region t)) {x : Nat}
    (hs : s.contains x = true) (ht : t.contains x = true) : False := by
  rw [contains_iff] at hs ht
  exact h x ⟨⟨by show s.base ≤ x; omega, hs.2⟩, by show t.base ≤ x; omega, ht.2⟩

private theorem cnt_cons (s : Sub) (r : Region) (live : List Region) :
    cnt s (r :: live) = (if s.contains r.1 then 1 else 0) + cnt s live := by
  unfold cnt
  rw [List.filter_cons]
  split <;> simp <;> omega

private theorem cnt_erase (s : Sub) {r : Region} {live : List Region} (h : r ∈ live) :
    cnt s live = (if s.contains r.1 then 1 else 0) + cnt s (live.erase r) := by
  rw [← cnt_cons]
  exact ((List.perm_cons_erase h).filter _).length_eq

/-- Piece and count updated, same memory. -/
private def Same (s t : Sub) : Prop := t.base = s.base ∧ t.size = s.size ∧ t.hdr = s.hdr

private theorem Same.contains {s t : Sub} (h : Same s t) (x : Nat) : t.contains x = s.contains x := by
  simp [Sub.contains, h.1, h.2.1, h.2.2]

/-- Replacing one piece by one with the same memory. -/
private theorem inv_replace {l1 l2 : List Sub} {s t : Sub} {dp sl dp' sl' : Nat}
    {live live' : List Region} (h : Inv (l1 ++ s :: l2) dp sl live) (hst : Same s t)
    (hlivePos : ∀ r ∈ live', 0 < r.2 ∧ r.1 % 8 = 0) (hliveApart : live'.Pairwise Disjoint)
    (hliveIn : ∀ r ∈ live', ∃ s' ∈ l1 ++ s :: l2, s'.base + s'.hdr ≤ r.1 ∧
      r.1 + r.2 ≤ s'.base + s'.size)
    (hactive : ∀ s', (l1 ++ s :: l2).head? = some s' → s'.base + s'.hdr ≤ dp' ∧
      dp' + sl' = s'.base + s'.size ∧ ∀ r ∈ live', s'.contains r.1 = true → r.1 + r.2 ≤ dp')
    (hdp : dp' % 8 = 0) (hcnt : ∀ s' ∈ l1 ++ l2, s'.n = cnt s' live') (hcntt : t.n = cnt s live') :
    Inv (l1 ++ t :: l2) dp' sl' live' := by
  have hreg : region t = region s := by simp [region, hst.1, hst.2.1]
  have hmem : ∀ s' ∈ l1 ++ t :: l2, s' = t ∨ s' ∈ l1 ++ l2 := by
    intro s' hs'
    simp only [List.mem_append, List.mem_cons] at hs' ⊢
    rcases hs' with h1 | h1 | h1
    · exact Or.inr (Or.inl h1)
    · exact Or.inl h1
    · exact Or.inr (Or.inr h1)
  have hmem' : ∀ s' ∈ l1 ++ l2, s' ∈ l1 ++ s :: l2 := by
    intro s' hs'
    simp only [List.mem_append, List.mem_cons] at hs' ⊢
    rcases hs' with h1 | h1
    · exact Or.inl h1
    · exact Or.inr (Or.inr h1)
  exact {
    regs := by
      have := h.regs
      rw [List.pairwise_append, List.pairwise_cons] at this ⊢
      refine ⟨this.1, ⟨fun x hx => ?_, this.2.1.2⟩, fun x hx y hy => ?_⟩
      · rw [hreg]; exact this.2.1.1 x hx
      · rw [List.mem_cons] at hy
        rcases hy with rfl | hy
        · rw [hreg]; exact this.2.2 x hx s (by simp)
        · exact this.2.2 x hx y (by simp [hy])
    sub := by
      intro s' hs'
      rcases hmem s' hs' with rfl | h1
      · have := h.sub s (by simp)
        constructor
        · rw [hst.2.1, hst.2.2]; exact this.hdr
        · rw [hst.2.2]; exact this.hdr8
        · rw [hst.1]; exact this.base8
        · rw [hst.1]; exact this.pos
        · rw [hst.1, hst.2.1]; exact this.bound
      · exact h.sub s' (hmem' s' h1)
    livePos := hlivePos
    liveApart := hliveApart
    liveIn := by
      intro r hr
      obtain ⟨s', hs', h1, h2⟩ := hliveIn r hr
      simp only [List.mem_append, List.mem_cons] at hs'
      rcases hs' with h3 | rfl | h3
      · exact ⟨s', by simp [h3], h1, h2⟩
      · exact ⟨t, by simp, by rw [hst.1, hst.2.2]; exact h1, by rw [hst.1, hst.2.1]; exact h2⟩
      · exact ⟨s', by simp [h3], h1, h2⟩
    active := by
      intro s' hs'
      cases l1 with
      | nil =>
        simp only [List.nil_append, List.head?_cons, Option.some.injEq] at hs'
        subst hs'
        obtain ⟨h1, h2, h3⟩ := hactive s (by simp)
        refine ⟨by rw [hst.1, hst.2.2]; exact h1, by rw [hst.1, hst.2.1]; exact h2, ?_⟩
        intro r hr hc
        rw [hst.contains] at hc
        exact h3 r hr hc
      | cons x l1 =>
        simp only [List.cons_append, List.head?_cons, Option.some.injEq] at hs'
        subst hs'
        exact hactive x (by simp)
    dp8 := hdp
    counts := by
      intro s' hs'
      rcases hmem s' hs' with rfl | h1
      · rw [hcntt]
        unfold cnt
        simp only [hst.contains]
      · exact hcnt s' h1 }

private theorem others_not {l1 l2 : List Sub} {s : Sub}
    (h : (l1 ++ s :: l2).Pairwise fun s t => Disjoint (region s) (region t)) {x : Nat}
    (hx : s.contains x = true) : ∀ t ∈ l1 ++ l2, t.contains x = false := by
  rw [List.pairwise_append, List.pairwise_cons] at h
  intro t ht
  rw [List.mem_append] at ht
  cases hc : t.contains x with
  | false => rfl
  | true =>
    rcases ht with h1 | h1
    · exact (not_both (h.2.2 t h1 s (by simp)) hc hx).elim
    · exact (not_both (h.2.1.1 t h1) hx hc).elim

private theorem head_mem {ps : List Sub} {s : Sub} (h : ps.head? = some s) : s ∈ ps := by
  cases ps with
  | nil => cases h
  | cons x l => simp at h; subst h; simp

/-- One more allocation at the bump pointer of the active piece. -/
private theorem inv_bump {s : Sub} {l2 : List Sub} {dp sl size al : Nat} {live : List Region}
    (h : Inv (s :: l2) dp sl live) (hs0 : 0 < size) (hsa : size ≤ al) (hal : al ≤ sl)
    (hal8 : al % 8 = 0) :
    Inv ({ s with n := s.n + 1 } :: l2) (dp + al) (sl - al) ((dp, size) :: live) := by
  obtain ⟨ha1, ha2, ha3⟩ := h.active s (by simp)
  have hc : s.contains dp = true := (contains_iff s dp).2 ⟨ha1, by omega⟩
  have hnot := others_not (l1 := []) h.regs hc
  refine inv_replace (l1 := []) (s := s) (t := { s with n := s.n + 1 }) h ⟨rfl, rfl, rfl⟩
    ?_ ?_ ?_ ?_ ?_ ?_ ?_
  · intro r hr
    rw [List.mem_cons] at hr
    rcases hr with rfl | hr
    · exact ⟨hs0, h.dp8⟩
    · exact h.livePos r hr
  · rw [List.pairwise_cons]
    refine ⟨fun r hr => ?_, h.liveApart⟩
    obtain ⟨t, ht, h1, h2⟩ := h.liveIn r hr
    have hrp := (h.livePos r hr).1
    rw [List.mem_cons] at ht
    rcases ht with rfl | ht
    · have := ha3 r hr ((contains_iff t r.1).2 ⟨h1, by omega⟩)
      exact disjoint_of (Or.inr this)
    · have hd := (List.pairwise_cons.1 h.regs).1 t ht
      have hsub := h.sub s (by simp)
      refine disjoint_of_inside hd (inside_of ?_ ?_) (inside_of ?_ ?_)
      · show s.base ≤ dp; omega
      · show dp + size ≤ s.base + s.size; omega
      · show t.base ≤ r.1; omega
      · exact h2
  · intro r hr
    rw [List.mem_cons] at hr
    rcases hr with rfl | hr
    · exact ⟨s, by simp, ha1, by show dp + size ≤ _; omega⟩
    · exact h.liveIn r hr
  · intro s' hs'
    simp at hs'
    subst hs'
    refine ⟨by omega, by omega, ?_⟩
    intro r hr hcr
    rw [List.mem_cons] at hr
    rcases hr with rfl | hr
    · show dp + size ≤ dp + al; omega
    · have := ha3 r hr hcr; omega
  · have := h.dp8; omega
  · intro t ht
    rw [cnt_cons, hnot t ht]
    simp
    exact h.counts t (by simp at ht; simp [ht])
  · show s.n + 1 = _
    rw [cnt_cons, hc, h.counts s (by simp)]
    simp; omega

/-- A new active piece. -/
private theorem inv_newPool {ps : List Sub} {dp sl n b : Nat} {live : List Region}
    (h : Inv ps dp sl live) (hos : OsOk (ps.map region) (b, n)) (hn : 24 ≤ n) :
    Inv (⟨b, n, 24, 0⟩ :: ps) (b + 24) (n - 24) live := by
  have hapart : ∀ s ∈ ps, Disjoint (region s) (b, n) := fun s hs =>
    hos.apart _ (List.mem_map.2 ⟨s, hs, rfl⟩)
  have hnone : ∀ r ∈ live, (⟨b, n, 24, 0⟩ : Sub).contains r.1 = false := by
    intro r hr
    cases hc : (⟨b, n, 24, 0⟩ : Sub).contains r.1 with
    | false => rfl
    | true =>
      obtain ⟨s, hs, h1, h2⟩ := h.liveIn r hr
      have hrp := (h.livePos r hr).1
      exact (not_both (s := s) (t := ⟨b, n, 24, 0⟩) (hapart s hs)
        ((contains_iff s r.1).2 ⟨h1, by omega⟩) hc).elim
  have hb8 : b % 8 = 0 := hos.aligned
  exact {
    regs := by
      rw [List.pairwise_cons]
      exact ⟨fun s hs => (hapart s hs).symm, h.regs⟩
    sub := by
      intro s hs
      rw [List.mem_cons] at hs
      rcases hs with rfl | hs
      · exact ⟨hn, (by decide : 24 % 8 = 0), hos.aligned, hos.ptr, hos.bound⟩
      · exact h.sub s hs
    livePos := h.livePos
    liveApart := h.liveApart
    liveIn := by
      intro r hr
      obtain ⟨s, hs, h1⟩ := h.liveIn r hr
      exact ⟨s, by simp [hs], h1⟩
    active := by
      intro s hs
      simp at hs
      subst hs
      refine ⟨Nat.le_refl _, by show b + 24 + (n - 24) = b + n; omega, ?_⟩
      intro r hr hc
      rw [hnone r hr] at hc; cases hc
    dp8 := by omega
    counts := by
      intro s hs
      rw [List.mem_cons] at hs
      rcases hs with rfl | hs
      · show 0 = cnt _ live
        unfold cnt
        rw [List.filter_eq_nil_iff.2 (fun r hr => by rw [hnone r hr]; simp)]; rfl
      · exact h.counts s hs }

/-- A live allocation of one piece is freed. -/
private theorem inv_dec {l1 l2 : List Sub} {s : Sub} {dp sl : Nat} {live : List Region} {r : Region}
    (h : Inv (l1 ++ s :: l2) dp sl live) (hr : r ∈ live) (hc : s.contains r.1 = true) :
    Inv (l1 ++ { s with n := s.n - 1 } :: l2) dp sl (live.erase r) := by
  have hnot := others_not h.regs hc
  have hsub : ∀ x ∈ live.erase r, x ∈ live := fun x hx => List.mem_of_mem_erase hx
  refine inv_replace h ⟨rfl, rfl, rfl⟩ (fun x hx => h.livePos x (hsub x hx))
    (h.liveApart.sublist List.erase_sublist) (fun x hx => h.liveIn x (hsub x hx)) ?_ h.dp8 ?_ ?_
  · intro s' hs'
    obtain ⟨h1, h2, h3⟩ := h.active s' hs'
    exact ⟨h1, h2, fun x hx => h3 x (hsub x hx)⟩
  · intro t ht
    have h1 := h.counts t (by
      simp only [List.mem_append, List.mem_cons] at ht ⊢
      rcases ht with h1 | h1
      · exact Or.inl h1
      · exact Or.inr (Or.inr h1))
    rw [cnt_erase t hr, hnot t ht] at h1
    simpa using h1
  · have h1 := h.counts s (by simp)
    rw [cnt_erase s hr, hc] at h1
    show s.n - 1 = _
    simp at h1
    omega

private theorem no_live {s : Sub} {live : List Region} (h : s.n = cnt s live) (h0 : s.n = 0) :
    ∀ r ∈ live, s.contains r.1 = false := by
  intro r hr
  have : (live.filter fun r => s.contains r.1) = [] := by
    apply List.eq_nil_of_length_eq_zero
    unfold cnt at h; omega
  have := List.filter_eq_nil_iff.1 this r hr
  simpa using this

/-- A piece without allocations, not the active one, is given back. -/
private theorem inv_drop {l1 l2 : List Sub} {s : Sub} {dp sl : Nat} {live : List Region}
    (h : Inv (l1 ++ s :: l2) dp sl live) (hl1 : l1 ≠ []) (h0 : s.n = 0) :
    Inv (l1 ++ l2) dp sl live := by
  have hsublist : (l1 ++ l2).Sublist (l1 ++ s :: l2) :=
    List.Sublist.append (List.Sublist.refl _) (List.sublist_cons_self _ _)
  have hnl := no_live (h.counts s (by simp)) h0
  exact {
    regs := h.regs.sublist hsublist
    sub := fun t ht => h.sub t (hsublist.subset ht)
    livePos := h.livePos
    liveApart := h.liveApart
    liveIn := by
      intro r hr
      obtain ⟨t, ht, h1, h2⟩ := h.liveIn r hr
      have hrp := (h.livePos r hr).1
      simp only [List.mem_append, List.mem_cons] at ht
      rcases ht with h3 | rfl | h3
      · exact ⟨t, by simp [h3], h1, h2⟩
      · have := hnl r hr
        rw [(contains_iff t r.1).2 ⟨h1, by omega⟩] at this; cases this
      · exact ⟨t, by simp [h3], h1, h2⟩
    active := by
      cases l1 with
      | nil => exact absurd rfl hl1
      | cons x l1 => intro s' hs'; exact h.active s' (by simpa using hs')
    dp8 := h.dp8
    counts := fun t ht => h.counts t (hsublist.subset ht) }

/-- The main piece, without allocations and not active, is cut down to one page. -/
private theorem inv_shrink {l1 : List Sub} {s : Sub} {dp sl pg : Nat} {live : List Region}
    (h : Inv (l1 ++ [s]) dp sl live) (hl1 : l1 ≠ []) (h0 : s.n = 0) (hpg : s.hdr ≤ pg)
    (hle : pg ≤ s.size) : Inv (l1 ++ [{ s with size := pg }]) dp sl live := by
  have hnl := no_live (h.counts s (by simp)) h0
  have hins : Inside (region { s with size := pg }) (region s) :=
    inside_of (Nat.le_refl _) (by show s.base + pg ≤ s.base + s.size; omega)
  have hnl' : ∀ r ∈ live, ({ s with size := pg } : Sub).contains r.1 = false := by
    intro r hr
    cases hc : ({ s with size := pg } : Sub).contains r.1 with
    | false => rfl
    | true =>
      rw [contains_iff] at hc
      have h1 := hc.1
      have h2 := hc.2
      simp only at h1 h2
      have := hnl r hr
      rw [(contains_iff s r.1).2 ⟨h1, by omega⟩] at this; cases this
  have hsub := h.sub s (by simp)
  exact {
    regs := by
      have := h.regs
      rw [List.pairwise_append] at this ⊢
      refine ⟨this.1, by simp, ?_⟩
      intro x hx y hy
      simp at hy
      subst hy
      exact disjoint_of_inside (this.2.2 x hx s (by simp)) (fun _ h => h) hins
    sub := by
      intro t ht
      simp only [List.mem_append, List.mem_singleton] at ht
      rcases ht with ht | rfl
      · exact h.sub t (by simp [ht])
      · exact ⟨hpg, hsub.hdr8, hsub.base8, hsub.pos, by
          show s.base + pg ≤ 2 ^ 64; have := hsub.bound; omega⟩
    livePos := h.livePos
    liveApart := h.liveApart
    liveIn := by
      intro r hr
      obtain ⟨t, ht, h1, h2⟩ := h.liveIn r hr
      have hrp := (h.livePos r hr).1
      simp only [List.mem_append, List.mem_singleton] at ht
      rcases ht with ht | rfl
      · exact ⟨t, by simp [ht], h1, h2⟩
      · have := hnl r hr
        rw [(contains_iff t r.1).2 ⟨h1, by omega⟩] at this; cases this
    active := by
      cases l1 with
      | nil => exact absurd rfl hl1
      | cons x l1 => intro s' hs'; exact h.active s' (by simpa using hs')
    dp8 := h.dp8
    counts := by
      intro t ht
      simp only [List.mem_append, List.mem_singleton] at ht
      rcases ht with ht | rfl
      · exact h.counts t (by simp [ht])
      · show s.n = _
        unfold cnt
        rw [List.filter_eq_nil_iff.2 (fun r hr => by rw [hnl' r hr]; simp), h0]; rfl }

/-- What `freeNext` does. -/
private theorem freeNext_spec (ptr : Nat) (first : Bool) (l : List Sub) :
    match freeNext ptr first l with
    | none => ∀ s ∈ l, s.contains ptr = false
    | some (l', rel) => ∃ l1 s l2, l = l1 ++ s :: l2 ∧ s.contains ptr = true ∧
        ((s.n - 1 = 0 ∧ (first = true → l1 ≠ []) ∧ l' = l1 ++ l2 ∧ rel = [region s]) ∨
         (l' = l1 ++ { s with n := s.n - 1 } :: l2 ∧ rel = [])) := by
  induction l generalizing first with
  | nil => simp [freeNext]
  | cons s l ih =>
    by_cases hc : s.contains ptr = true
    · by_cases h0 : s.n - 1 = 0 ∧ first = false
      · have e : freeNext ptr first (s :: l) = some (l, [(s.base, s.size)]) := by
          simp only [freeNext, hc, if_true]; rw [if_pos h0]
        rw [e]
        exact ⟨[], s, l, rfl, hc, Or.inl ⟨h0.1, by rw [h0.2]; simp, rfl, rfl⟩⟩
      · have e : freeNext ptr first (s :: l) = some ({ s with n := s.n - 1 } :: l, []) := by
          simp only [freeNext, hc, if_true]; rw [if_neg h0]
        rw [e]
        exact ⟨[], s, l, rfl, hc, Or.inr ⟨rfl, rfl⟩⟩
    · have hc' : s.contains ptr = false := by simpa using hc
      have hi := ih false
      cases hf : freeNext ptr false l with
      | none =>
        have e : freeNext ptr first (s :: l) = none := by simp [freeNext, hc', hf]
        rw [e]; rw [hf] at hi
        intro t ht
        rw [List.mem_cons] at ht
        rcases ht with rfl | ht
        · exact hc'
        · exact hi t ht
      | some r =>
        obtain ⟨l', rel⟩ := r
        have e : freeNext ptr first (s :: l) = some (s :: l', rel) := by simp [freeNext, hc', hf]
        rw [e]; rw [hf] at hi
        obtain ⟨l1, t, l2, rfl, h2, h3⟩ := hi
        refine ⟨s :: l1, t, l2, rfl, h2, ?_⟩
        rcases h3 with ⟨h4, _, rfl, h6⟩ | ⟨rfl, h5⟩
        · exact Or.inl ⟨h4, by simp, rfl, h6⟩
        · exact Or.inr ⟨rfl, h5⟩

private structure PInv (cfg : Cfg) (p : Pool) (live : List Region) : Prop where
  inv : Inv (pools p) p.dataPtr p.sizeLeft live
  hdr : p.main.hdr ≤ cfg.page

private theorem alignUpSafe8' {s : Nat} (h : s ≤ 2 ^ 64 - 24) :
    s ≤ alignUpSafe s 8 ∧ alignUpSafe s 8 % 8 = 0 ∧ alignUpSafe s 8 ≤ 2 ^ 64 - 24 := by
  unfold alignUpSafe
  rw [if_neg (by omega)]
  omega

private theorem bump_spec (p : Pool) (al : Nat) : ∃ s l, pools p = s :: l ∧
    pools (bump p al).1 = { s with n := s.n + 1 } :: l ∧
    (bump p al).1.dataPtr = p.dataPtr + al ∧
    (bump p al).1.sizeLeft = word (p.sizeLeft + 2 ^ 64 - al) ∧
    (bump p al).2 = some p.dataPtr ∧ (bump p al).1.main.hdr = p.main.hdr := by
  unfold bump pools
  cases h : p.next with
  | nil => exact ⟨p.main, [], by simp, by simp [h], rfl, rfl, rfl, rfl⟩
  | cons s l => exact ⟨s, l ++ [p.main], by simp, by simp, rfl, rfl, rfl, rfl⟩

private theorem newPoolSize_ge {cfg : Cfg} (hcfg : CfgOk cfg) {al : Nat} (hal : al ≤ 2 ^ 64 - 24)
    (h0 : newPoolSize cfg al ≠ 0) : 24 + al ≤ newPoolSize cfg al := by
  unfold newPoolSize at h0 ⊢
  have h24 := hcfg.fits24
  split
  · rename_i hlt
    rw [if_pos hlt] at h0
    have he : cfg.page + (al - (cfg.page - 24)) = al + 24 := by omega
    rw [he] at h0 ⊢
    have hne : al + 24 ≠ 2 ^ 64 := by
      intro h
      rw [h] at h0
      have : word (2 ^ 64) = 0 := by decide
      rw [this] at h0
      apply h0
      have h63 := hcfg.page64
      unfold alignUpSafe
      rw [if_neg (by omega)]
      have : (0 + (cfg.page - 1)) / cfg.page = 0 := Nat.div_eq_of_lt (by omega)
      rw [this, Nat.zero_mul]
    have hw : word (al + 24) = al + 24 := Nat.mod_eq_of_lt (by omega)
    rw [hw] at h0 ⊢
    unfold alignUpSafe at h0 ⊢
    split
    · rename_i h1; rw [if_pos h1] at h0; exact absurd rfl h0
    · have hpos : 0 < cfg.page := by omega
      have h1 := Nat.div_add_mod (al + 24 + (cfg.page - 1)) cfg.page
      have h2 := Nat.mod_lt (al + 24 + (cfg.page - 1)) hpos
      have h3 : (al + 24 + (cfg.page - 1)) / cfg.page * cfg.page =
          cfg.page * ((al + 24 + (cfg.page - 1)) / cfg.page) := Nat.mul_comm _ _
      omega
  · omega

private theorem bump_inv {cfg : Cfg} {p p' : Pool} {live : List Region} {size al a : Nat}
    (h : PInv cfg p live) (hs0 : 0 < size) (hsa : size ≤ al) (hal : al ≤ p.sizeLeft)
    (hal8 : al % 8 = 0) (hb : bump p al = (p', some a)) :
    PInv cfg p' ((a, size) :: live) := by
  obtain ⟨s, l, h1, h2, h3, h4, h5, h6⟩ := bump_spec p al
  rw [hb] at h2 h3 h4 h5 h6
  simp only [Option.some.injEq] at h5
  subst h5
  have hi := h.inv
  rw [h1] at hi
  obtain ⟨ha1, ha2, _⟩ := hi.active s (by simp)
  have hbound := (hi.sub s (by simp)).bound
  have hsl : p'.sizeLeft = p.sizeLeft - al := by
    rw [h4]
    unfold word
    have hlt : p.sizeLeft < 2 ^ 64 := by have := (hi.sub s (by simp)).pos; omega
    omega
  refine ⟨?_, by rw [h6]; exact h.hdr⟩
  rw [h2, h3, hsl]
  exact inv_bump hi hs0 hsa hal hal8

private theorem inv_alloc {cfg : Cfg} (hcfg : CfgOk cfg) {p p' : Pool} {live : List Region}
    {size a : Nat} {os : Nat → Option Nat} (h : PInv cfg p live) (hsz : size ≤ 2 ^ 64 - 24)
    (hos : ∀ n b, os n = some b → OsOk ((pools p).map region) (b, n))
    (ha : alloc cfg p size os = (p', some a)) : PInv cfg p' ((a, size) :: live) := by
  unfold alloc at ha
  split at ha
  · simp at ha
  rename_i hs0
  have h8 := alignUpSafe8' hsz
  simp only at ha
  split at ha
  · simp at ha
  split at ha
  · split at ha
    · simp at ha
    rename_i hn0
    have hge := newPoolSize_ge hcfg h8.2.2 hn0
    split at ha
    · simp at ha
    rename_i b hb
    have hosb := hos _ b hb
    have hb8 : b % 8 = 0 := hosb.aligned
    have hd : alignPtrUpSizeDown (b + 24) (newPoolSize cfg (alignUpSafe size 8) - 24) 8 =
        (b + 24, newPoolSize cfg (alignUpSafe size 8) - 24) := by
      have : (b + 24) % 8 = 0 := by omega
      simp [alignPtrUpSizeDown, this]
    rw [hd] at ha
    refine bump_inv (size := size) (al := alignUpSafe size 8) ?_ (by omega) h8.1 ?_ h8.2.1 ha
    · exact ⟨inv_newPool h.inv hosb (by omega), h.hdr⟩
    · show alignUpSafe size 8 ≤ newPoolSize cfg (alignUpSafe size 8) - 24; omega
  · rename_i hle
    exact bump_inv h (by omega) h8.1 (by omega) h8.2.1 ha

private theorem alloc_fail_same {cfg : Cfg} {p p' : Pool} {size : Nat} {os : Nat → Option Nat}
    (ha : alloc cfg p size os = (p', none)) : p' = p := by
  have hb : ∀ p al, (bump p al).2 ≠ none := by
    intro p al
    obtain ⟨_, _, _, _, _, _, h5, _⟩ := bump_spec p al
    rw [h5]; simp
  unfold alloc at ha
  split at ha
  · exact (Prod.mk.inj ha).1.symm
  simp only at ha
  split at ha
  · exact (Prod.mk.inj ha).1.symm
  split at ha
  · split at ha
    · exact (Prod.mk.inj ha).1.symm
    split at ha
    · exact (Prod.mk.inj ha).1.symm
    · exact absurd (congrArg Prod.snd ha) (hb _ _)
  · exact absurd (congrArg Prod.snd ha) (hb _ _)

/-- What `free` of a live allocation does: the invariant, and the released ranges hold no live
allocation. -/
private theorem inv_free {cfg : Cfg} {p : Pool} {live : List Region} {r : Region}
    (h : PInv cfg p live) (hr : r ∈ live) :
    PInv cfg (free cfg p r.1).1 (live.erase r) ∧ (free cfg p r.1).2.2 = true ∧
    ∀ g ∈ (free cfg p r.1).2.1, (∃ s ∈ pools p, Inside g (region s)) ∧
      ∀ s' ∈ pools (free cfg p r.1).1, Disjoint g (region s') := by
  have hi := h.inv
  obtain ⟨s0, hs0, hlo, hhi⟩ := hi.liveIn r hr
  have hrp := (hi.livePos r hr).1
  have hc0 : s0.contains r.1 = true := (contains_iff s0 r.1).2 ⟨hlo, by omega⟩
  unfold free
  by_cases hm : p.main.contains r.1 = true
  · rw [if_pos hm]
    have hd := inv_dec (l1 := p.next) (l2 := []) hi hr hm
    by_cases hsh : p.main.n - 1 = 0 ∧ p.next ≠ [] ∧ p.main.size > cfg.page
    · rw [if_pos hsh]
      have hi2 := inv_shrink (pg := cfg.page) hd hsh.2.1 hsh.1 h.hdr (by
        show cfg.page ≤ p.main.size; omega)
      refine ⟨⟨hi2, h.hdr⟩, rfl, ?_⟩
      intro g hg
      simp only [List.mem_singleton] at hg
      subst hg
      refine ⟨⟨p.main, by simp [pools], inside_of ?_ ?_⟩, ?_⟩
      · show p.main.base ≤ p.main.base + cfg.page; omega
      · show p.main.base + cfg.page + (p.main.size - cfg.page) ≤ p.main.base + p.main.size; omega
      · intro s' hs'
        simp only [pools, List.mem_append, List.mem_singleton] at hs'
        rcases hs' with h1 | rfl
        · have hdj := (List.pairwise_append.1 hi.regs).2.2 s' h1 p.main (by simp)
          refine disjoint_of_inside hdj.symm (inside_of ?_ ?_) (fun _ h => h)
          · show p.main.base ≤ p.main.base + cfg.page; omega
          · show p.main.base + cfg.page + (p.main.size - cfg.page) ≤ p.main.base + p.main.size; omega
        · exact disjoint_of (Or.inr (Nat.le_refl _))
    · rw [if_neg hsh]
      exact ⟨⟨hd, h.hdr⟩, rfl, by intro g hg; cases hg⟩
  · rw [if_neg hm]
    have hs := freeNext_spec r.1 true p.next
    cases hf : freeNext r.1 true p.next with
    | none =>
      rw [hf] at hs
      simp only [pools, List.mem_append, List.mem_singleton] at hs0
      rcases hs0 with h1 | rfl
      · rw [hs s0 h1] at hc0; cases hc0
      · exact absurd hc0 hm
    | some res =>
      obtain ⟨l', rel⟩ := res
      rw [hf] at hs
      obtain ⟨l1, s, l2, hl, hc, hcase⟩ := hs
      have hp : pools p = l1 ++ s :: (l2 ++ [p.main]) := by simp [pools, hl]
      rw [hp] at hi
      have hd := inv_dec hi hr hc
      rcases hcase with ⟨h0, hl1, rfl, rfl⟩ | ⟨rfl, rfl⟩
      · have hi2 := inv_drop hd (hl1 rfl) h0
        have e : pools { p with next := l1 ++ l2 } = l1 ++ (l2 ++ [p.main]) := by
          simp [pools]
        refine ⟨⟨?_, h.hdr⟩, rfl, ?_⟩
        · show Inv (pools { p with next := l1 ++ l2 }) p.dataPtr p.sizeLeft _
          rw [e]; exact hi2
        · intro g hg
          simp only [List.mem_singleton] at hg
          subst hg
          refine ⟨⟨s, by rw [hp]; simp, fun _ h => h⟩, ?_⟩
          intro s' hs'
          change s' ∈ pools { p with next := l1 ++ l2 } at hs'
          rw [e] at hs'
          have hr := hi.regs
          rw [List.pairwise_append, List.pairwise_cons] at hr
          rw [List.mem_append] at hs'
          rcases hs' with h1 | h1
          · exact (hr.2.2 s' h1 s (by simp)).symm
          · exact hr.2.1.1 s' h1
      · refine ⟨⟨?_, h.hdr⟩, rfl, by intro g hg; cases hg⟩
        have e : pools { p with next := l1 ++ { s with n := s.n - 1 } :: l2 } =
            l1 ++ { s with n := s.n - 1 } :: (l2 ++ [p.main]) := by simp [pools]
        show Inv (pools { p with next := l1 ++ { s with n := s.n - 1 } :: l2 }) p.dataPtr p.sizeLeft _
        rw [e]; exact hd

private theorem inv_create {cfg : Cfg} (hcfg : CfgOk cfg) {size base : Nat} {p : Pool}
    (h : create cfg size (some base) true = some p) (hos : OsOk [] (base, p.main.size)) :
    PInv cfg p [] := by
  unfold create at h
  simp only at h
  split at h
  · cases h
  rename_i hp0
  have hge : cfg.page ≤ alignUpSafe (max (word (size + (8 + cfg.metaSize))) cfg.page) cfg.page := by
    have h1 := Nat.le_max_right (word (size + (8 + cfg.metaSize))) cfg.page
    generalize max (word (size + (8 + cfg.metaSize))) cfg.page = m at *
    unfold alignUpSafe at hp0 ⊢
    split
    · rename_i h2; rw [if_pos h2] at hp0; exact absurd rfl hp0
    · have hpos : 0 < cfg.page := by have := hcfg.fits24; omega
      have h2 := Nat.div_add_mod (m + (cfg.page - 1)) cfg.page
      have h3 := Nat.mod_lt (m + (cfg.page - 1)) hpos
      have h4 : (m + (cfg.page - 1)) / cfg.page * cfg.page =
          cfg.page * ((m + (cfg.page - 1)) / cfg.page) := Nat.mul_comm _ _
      omega
  generalize alignUpSafe (max (word (size + (8 + cfg.metaSize))) cfg.page) cfg.page = P at *
  simp only [if_true, Option.some.injEq] at h
  subst h
  have hb8 : base % 8 = 0 := hos.aligned
  have hm8 := hcfg.meta8
  have hfit := hcfg.fits
  have hd : alignPtrUpSizeDown (base + (8 + cfg.metaSize)) (P - (8 + cfg.metaSize)) 8 =
      (base + (8 + cfg.metaSize), P - (8 + cfg.metaSize)) := by
    have : (base + (8 + cfg.metaSize)) % 8 = 0 := by omega
    simp [alignPtrUpSizeDown, this]
  rw [hd]
  refine ⟨?_, hfit⟩
  exact {
    regs := by simp [pools]
    sub := by
      intro s hs
      simp [pools] at hs
      subst hs
      exact ⟨by show 8 + cfg.metaSize ≤ P; omega, by show (8 + cfg.metaSize) % 8 = 0; omega,
        hb8, hos.ptr, hos.bound⟩
    livePos := by intro r hr; cases hr
    liveApart := List.Pairwise.nil
    liveIn := by intro r hr; cases hr
    active := by
      intro s hs
      simp [pools] at hs
      subst hs
      exact ⟨Nat.le_refl _, by show base + (8 + cfg.metaSize) + (P - (8 + cfg.metaSize)) = base + P; omega,
        by intro r hr; cases hr⟩
    dp8 := by show (base + (8 + cfg.metaSize)) % 8 = 0; omega
    counts := by
      intro s hs
      simp [pools] at hs
      subst hs
      rfl }

private theorem reach_inv {cfg : Cfg} (hcfg : CfgOk cfg) {p : Pool} {live : List Region}
    (h : Reach cfg p live) : PInv cfg p live := by
  induction h with
  | create h1 h2 => exact inv_create hcfg h1 h2
  | alloc _ h1 h2 h3 ih => exact inv_alloc hcfg ih h1 h2 h3
  | allocFail _ h1 ih => rw [alloc_fail_same h1]; exact ih
  | free _ h1 ih => exact (inv_free ih h1).1

/-! ### The theorems -/

variable {cfg : Cfg} {p : Pool} {live : List Region}

/-- **C20 (partial: requests up to 2^64-24 bytes).** The allocations made and not freed are
pairwise disjoint, 8-aligned, and inside the data area of a pool the allocator holds. Missing:
larger requests, see `C20_hugeRequest_violated`. -/
theorem C20_allocations_partial (hcfg : CfgOk cfg) (h : Reach cfg p live) :
    live.Pairwise Disjoint ∧
    ∀ r ∈ live, r.1 % 8 = 0 ∧ ∃ s ∈ pools p, Inside r (s.base + s.hdr, s.size - s.hdr) := by
  have hi := (reach_inv hcfg h).inv
  refine ⟨hi.liveApart, ?_⟩
  intro r hr
  refine ⟨(hi.livePos r hr).2, ?_⟩
  obtain ⟨s, hs, h1, h2⟩ := hi.liveIn r hr
  have h3 := (hi.sub s hs).hdr
  exact ⟨s, hs, inside_of h1 (by show r.1 + r.2 ≤ s.base + s.hdr + (s.size - s.hdr); omega)⟩

/-- **C20.** Freeing a live allocation succeeds, and the memory it returns to the OS was held by
the allocator and has no byte in common with what is left of it, hence with no allocation that
stays live. -/
theorem C20_free (hcfg : CfgOk cfg) (h : Reach cfg p live) (r : Region) (hr : r ∈ live) :
    (free cfg p r.1).2.2 = true ∧
    ∀ g ∈ (free cfg p r.1).2.1, (∃ s ∈ pools p, Inside g (region s)) ∧
      ∀ r' ∈ live.erase r, Disjoint g r' := by
  obtain ⟨h1, h2, h3⟩ := inv_free (reach_inv hcfg h) hr
  refine ⟨h2, fun g hg => ⟨(h3 g hg).1, ?_⟩⟩
  intro r' hr'
  obtain ⟨s, hs, h4, h5⟩ := h1.inv.liveIn r' hr'
  exact disjoint_of_inside ((h3 g hg).2 s hs) (fun _ h => h)
    (inside_of (by show s.base ≤ r'.1; omega) h5)

/-- **C20.** A pointer is reported as belonging to the allocator exactly if it is in the data
area of one of its pools, with the number of bytes to the end of that pool; 0 otherwise. -/
theorem C20_contains (hcfg : CfgOk cfg) (h : Reach cfg p live) (ptr : Nat) :
    (∀ s ∈ pools p, Has (s.base + s.hdr, s.size - s.hdr) ptr →
      containsPointer p ptr = s.base + s.size - ptr ∧ 0 < containsPointer p ptr) ∧
    ((∀ s ∈ pools p, ¬ Has (s.base + s.hdr, s.size - s.hdr) ptr) → containsPointer p ptr = 0) := by
  have hi := (reach_inv hcfg h).inv
  have hiff : ∀ s ∈ pools p, (s.contains ptr = true ↔ Has (s.base + s.hdr, s.size - s.hdr) ptr) := by
    intro s hs
    have h1 := (hi.sub s hs).hdr
    rw [contains_iff]
    unfold Has
    simp only
    constructor <;> intro h2 <;> omega
  constructor
  · intro s hs hp
    have hc := (hiff s hs).2 hp
    have hlt := ((contains_iff s ptr).1 hc).2
    have hval : containsPointer p ptr = s.base + s.size - ptr := by
      unfold containsPointer
      by_cases hm : p.main.contains ptr = true
      · rw [if_pos hm]
        simp only [pools, List.mem_append, List.mem_singleton] at hs
        rcases hs with h1 | rfl
        · exact (not_both ((List.pairwise_append.1 hi.regs).2.2 s h1 p.main (by simp)) hc hm).elim
        · rfl
      · rw [if_neg hm]
        simp only [pools, List.mem_append, List.mem_singleton] at hs
        rcases hs with h1 | rfl
        · cases hf : p.next.find? (·.contains ptr) with
          | none =>
            have := List.find?_eq_none.1 hf s h1
            simp [hc] at this
          | some t =>
            have ht := List.find?_some hf
            have htm := List.mem_of_find?_eq_some hf
            have hst : s = t := by
              have hpw := (List.pairwise_append.1 hi.regs).1
              obtain ⟨l1, l2, hl⟩ := List.append_of_mem h1
              rw [hl] at hpw htm
              have hnot := others_not hpw hc
              simp only [List.mem_append, List.mem_cons] at htm
              rcases htm with h2 | h2 | h2
              · have := hnot t (by simp [h2]); rw [ht] at this; cases this
              · exact h2.symm
              · have := hnot t (by simp [h2]); rw [ht] at this; cases this
            subst hst; rfl
        · exact absurd hc hm
    exact ⟨hval, by omega⟩
  · intro hno
    have hall : ∀ s ∈ pools p, s.contains ptr = false := by
      intro s hs
      cases hc : s.contains ptr with
      | false => rfl
      | true => exact absurd ((hiff s hs).1 hc) (hno s hs)
    unfold containsPointer
    rw [if_neg (by rw [hall p.main (by simp [pools])]; simp)]
    rw [List.find?_eq_none.2 (fun s hs => by rw [hall s (by simp [pools, hs])]; simp)]

/-- **C20.** Destroying the allocator returns to the OS exactly the memory it holds; the returned
ranges are pairwise disjoint and cover every allocation. -/
theorem C20_destroy (hcfg : CfgOk cfg) (h : Reach cfg p live) :
    (destroy p).Pairwise Disjoint ∧ (∀ g, g ∈ destroy p ↔ ∃ s ∈ pools p, g = (s.base, s.size)) ∧
    ∀ r ∈ live, ∃ g ∈ destroy p, Inside r g := by
  have hi := (reach_inv hcfg h).inv
  have e : destroy p = (pools p).map region := by
    unfold destroy pools region; simp
  refine ⟨?_, ?_, ?_⟩
  · rw [e, List.pairwise_map]; exact hi.regs
  · intro g
    rw [e, List.mem_map]
    constructor
    · rintro ⟨s, h1, h2⟩; exact ⟨s, h1, h2.symm⟩
    · rintro ⟨s, h1, h2⟩; exact ⟨s, h1, h2.symm⟩
  · intro r hr
    obtain ⟨s, hs, h1, h2⟩ := hi.liveIn r hr
    exact ⟨region s, by rw [e]; exact List.mem_map.2 ⟨s, hs, rfl⟩,
      inside_of (by show s.base ≤ r.1; omega) h2⟩

/-- **C20.** A request fails only if it is for 0 bytes, larger than the address space leaves room
for, or the OS refuses more memory; the state is then unchanged. -/
theorem C20_failsOnlyIfRefused (hcfg : CfgOk cfg) (p : Pool) (size : Nat) (os : Nat → Option Nat)
    (p' : Pool) (h : alloc cfg p size os = (p', none)) :
    p' = p ∧ (size = 0 ∨ 2 ^ 64 - 31 - cfg.page ≤ size ∨ ∃ n, os n = none) := by
  refine ⟨alloc_fail_same h, ?_⟩
  have hb : ∀ p al, (bump p al).2 ≠ none := by
    intro p al
    obtain ⟨_, _, _, _, _, _, h5, _⟩ := bump_spec p al
    rw [h5]; simp
  unfold alloc at h
  split at h
  · exact Or.inl (by assumption)
  rename_i hs0
  refine Or.inr ?_
  rcases Nat.lt_or_ge size (2 ^ 64 - 31 - cfg.page) with hlt | hge
  · refine Or.inr ?_
    have h24 := hcfg.fits24
    have h8 : size ≤ alignUpSafe size 8 ∧ alignUpSafe size 8 ≤ size + 7 := by
      unfold alignUpSafe; rw [if_neg (by omega)]; omega
    simp only at h
    split at h
    · omega
    split at h
    · split at h
      · rename_i hz
        exfalso
        unfold newPoolSize at hz
        split at hz
        · have he : cfg.page + (alignUpSafe size 8 - (cfg.page - 24)) = alignUpSafe size 8 + 24 := by
            omega
          have hw : word (alignUpSafe size 8 + 24) = alignUpSafe size 8 + 24 :=
            Nat.mod_eq_of_lt (by omega)
          rw [he, hw] at hz
          generalize alignUpSafe size 8 = A at *
          unfold alignUpSafe at hz
          rw [if_neg (by omega)] at hz
          have hpos : 0 < cfg.page := by omega
          have h1 := Nat.div_add_mod (A + 24 + (cfg.page - 1)) cfg.page
          have h2 := Nat.mod_lt (A + 24 + (cfg.page - 1)) hpos
          have h3 : (A + 24 + (cfg.page - 1)) / cfg.page * cfg.page =
              cfg.page * ((A + 24 + (cfg.page - 1)) / cfg.page) := Nat.mul_comm _ _
          omega
        · omega
      split at h
      · exact ⟨_, by assumption⟩
      · exact absurd (congrArg Prod.snd h) (hb _ _)
    · exact absurd (congrArg Prod.snd h) (hb _ _)
  · exact Or.inl hge

/-! ### Pointers into allocations -/

/-- **C20.** Any pointer into an allocation can be used to free it (the malloc replacement frees aligned pointers this way). -/
theorem C20_interior (hcfg : CfgOk cfg) (h : Reach cfg p live) (r : Region) (hr : r ∈ live) (q : Nat) (hq : Has r q) :
    free cfg p q = free cfg p r.1 := by
  have hi := (reach_inv hcfg h).inv
  obtain ⟨s, hs, h1, h2⟩ := hi.liveIn r hr
  have hsame : ∀ u ∈ pools p, u.contains q = u.contains r.1 := by
    intro u hu
    have hc1 : s.contains r.1 = true := by
      rw [contains_iff]; exact ⟨h1, by have := hq.1; have := hq.2; omega⟩
    have hc2 : s.contains q = true := by
      rw [contains_iff]; exact ⟨by have := hq.1; omega, by have := hq.2; omega⟩
    by_cases e : u = s
    · rw [e, hc1, hc2]
    · obtain ⟨l1, l2, hl⟩ := List.append_of_mem hs
      have hpw := hi.regs
      rw [hl] at hpw hu
      have hu' : u ∈ l1 ++ l2 := by
        simp only [List.mem_append, List.mem_cons] at hu ⊢
        rcases hu with h | h | h
        · exact .inl h
        · exact absurd h e
        · exact .inr h
      have n1 := others_not hpw hc2 u hu'
      have n2 := others_not hpw hc1 u hu'
      rw [n1, n2]
  have hnext : ∀ (l : List Sub) (b : Bool), (∀ u ∈ l, u.contains q = u.contains r.1) → freeNext q b l = freeNext r.1 b l := by
    intro l
    induction l with
    | nil => intros; rfl
    | cons u l ih =>
      intro b hl
      unfold freeNext
      rw [hl u (by simp), ih false (fun v hv => hl v (by simp [hv]))]
  unfold free
  rw [hsame p.main (by simp [pools]), hnext p.next true (fun u hu => hsame u (by simp [pools, hu]))]

/-- A pointer outside of the data areas is refused, and nothing changes. -/
theorem free_foreign {q : Nat} (hq : ∀ s ∈ pools p, ¬ Has (region s) q) : free cfg p q = (p, [], false) := by
  have hall : ∀ s ∈ pools p, s.contains q = false := by
    intro s hs
    cases hc : s.contains q with
    | false => rfl
    | true =>
      rw [contains_iff] at hc
      exact absurd ⟨by show s.base ≤ q; omega, hc.2⟩ (hq s hs)
  have hnext : ∀ (l : List Sub) (b : Bool), (∀ u ∈ l, u.contains q = false) → freeNext q b l = none := by
    intro l
    induction l with
    | nil => intros; rfl
    | cons u l ih =>
      intro b hl
      unfold freeNext
      rw [hl u (by simp), ih false (fun v hv => hl v (by simp [hv]))]
      rfl
  unfold free
  rw [hall p.main (by simp [pools]), hnext p.next true (fun u hu => hall u (by simp [pools, hu]))]
  rfl

/-- Freeing never adds memory. -/
theorem free_pools (q : Nat) :
    ∀ s ∈ pools (free cfg p q).1, ∃ s' ∈ pools p, Inside (region s) (region s') := by
  have hnext : ∀ (l : List Sub) (b : Bool) l' rel, freeNext q b l = some (l', rel) →
      ∀ s ∈ l', ∃ s' ∈ l, Inside (region s) (region s') := by
    intro l
    induction l with
    | nil => intro b l' rel h; cases h
    | cons u l ih =>
      intro b l' rel h s hs
      unfold freeNext at h
      split at h
      · split at h
        · cases h; exact ⟨s, by simp [hs], fun _ h => h⟩
        · cases h
          rcases List.mem_cons.1 hs with rfl | hs
          · exact ⟨u, by simp, fun _ h => h⟩
          · exact ⟨s, by simp [hs], fun _ h => h⟩
      · split at h
        · cases h
        · rename_i l2 rel2 h2
          cases h
          rcases List.mem_cons.1 hs with rfl | hs
          · exact ⟨s, by simp, fun _ h => h⟩
          · obtain ⟨s', h3, h4⟩ := ih false _ _ h2 s hs
            exact ⟨s', by simp [h3], h4⟩
  unfold free
  split
  · split
    · rename_i h1
      intro s hs
      simp only [pools, List.mem_append, List.mem_singleton] at hs
      rcases hs with hs | rfl
      · exact ⟨s, by simp [pools, hs], fun _ h => h⟩
      · exact ⟨p.main, by simp [pools], inside_of (Nat.le_refl _) (by show p.main.base + cfg.page ≤ p.main.base + p.main.size; omega)⟩
    · intro s hs
      simp only [pools, List.mem_append, List.mem_singleton] at hs
      rcases hs with hs | rfl
      · exact ⟨s, by simp [pools, hs], fun _ h => h⟩
      · exact ⟨p.main, by simp [pools], fun _ h => h⟩
  · split
    · intro s hs; exact ⟨s, hs, fun _ h => h⟩
    · rename_i l2 rel2 h2
      intro s hs
      simp only [pools, List.mem_append, List.mem_singleton] at hs
      rcases hs with hs | rfl
      · obtain ⟨s', h3, h4⟩ := hnext _ _ _ _ h2 s hs
        exact ⟨s', by simp [pools, h3], h4⟩
      · exact ⟨p.main, by simp [pools], fun _ h => h⟩

/-- An allocation adds at most one piece of memory, which the OS gave. -/
theorem alloc_pools {size : Nat} {os : Nat → Option Nat} {p' : Pool} {a : Option Nat} (h : alloc cfg p size os = (p', a)) :
    ∀ s ∈ pools p', (∃ s' ∈ pools p, region s' = region s) ∨ os s.size = some s.base := by
  have hb : ∀ (p : Pool) al, ∀ s ∈ pools (bump p al).1, ∃ s' ∈ pools p, region s' = region s := by
    intro p al s hs
    unfold bump at hs
    simp only [pools] at hs ⊢
    cases hn : p.next with
    | nil =>
      rw [hn] at hs
      simp only [hn, List.nil_append, List.mem_singleton] at hs
      subst hs
      exact ⟨p.main, by simp, rfl⟩
    | cons u l =>
      rw [hn] at hs
      simp only [List.cons_append, List.mem_cons, List.mem_append, List.not_mem_nil, or_false] at hs
      rcases hs with rfl | hs | rfl
      · exact ⟨u, by simp, rfl⟩
      · exact ⟨s, by simp [hs], rfl⟩
      · exact ⟨p.main, by simp, rfl⟩
  unfold alloc at h
  split at h
  · cases h; intro s hs; exact .inl ⟨s, hs, rfl⟩
  simp only at h
  split at h
  · cases h; intro s hs; exact .inl ⟨s, hs, rfl⟩
  split at h
  · split at h
    · cases h; intro s hs; exact .inl ⟨s, hs, rfl⟩
    · split at h
      · cases h; intro s hs; exact .inl ⟨s, hs, rfl⟩
      · rename_i base hos
        intro s hs
        obtain ⟨s', h1, h2⟩ := hb _ _ s (by rw [h]; exact hs)
        simp only [pools, List.cons_append, List.mem_cons] at h1
        rcases h1 with rfl | h1
        · right
          have e1 : s.base = base := (congrArg Prod.fst h2).symm
          have e2 : s.size = _ := (congrArg Prod.snd h2).symm
          rw [e1, e2]; exact hos
        · exact .inl ⟨s', h1, h2⟩
  · intro s hs
    exact .inl (hb _ _ s (by rw [h]; exact hs))

/-- Allocations are not empty. -/
theorem live_pos (hcfg : CfgOk cfg) (h : Reach cfg p live) : ∀ r ∈ live, 0 < r.2 :=
  fun r hr => ((reach_inv hcfg h).inv.livePos r hr).1

/-- Allocations are inside the address space and not at NULL. -/
theorem live_bound (hcfg : CfgOk cfg) (h : Reach cfg p live) : ∀ r ∈ live, 0 < r.1 ∧ r.1 + r.2 ≤ 2 ^ 64 := by
  intro r hr
  have hi := (reach_inv hcfg h).inv
  obtain ⟨s, hs, h1, h2⟩ := hi.liveIn r hr
  have := (hi.sub s hs).pos
  have := (hi.sub s hs).bound
  omega

/-! ### A concrete history -/

private def cfg0 : Cfg := ⟨4096, 72⟩
private theorem cfgOk0 : CfgOk cfg0 := ⟨by decide, by decide, by decide, by decide, by decide⟩

/-- The main pool of two pages is filled, a second pool added, then the only allocation of
the main pool freed and its second page returned to the OS; one more allocation. -/
private theorem demo : Reach cfg0 ⟨⟨8192, 4096, 80, 0⟩, [⟨65536, 4096, 24, 2⟩], 65880, 3752⟩
      [(65776, 100), (65560, 216)] := by
  have h0 : Reach cfg0 ⟨⟨8192, 8192, 80, 0⟩, [], 8272, 8112⟩ [] := by
    refine Reach.create (size := 8000) (base := 8192) ?_ ⟨by decide, by decide, by decide, by simp⟩
    simp [create, cfg0, word, alignUpSafe, alignPtrUpSizeDown]
  have h1 : Reach cfg0 ⟨⟨8192, 8192, 80, 1⟩, [], 16272, 112⟩ [(8272, 8000)] := by
    refine Reach.alloc (os := fun _ => none) h0 (by decide) (by simp) ?_
    simp [alloc, cfg0, word, alignUpSafe, bump]
  have h2 : Reach cfg0 ⟨⟨8192, 8192, 80, 1⟩, [⟨65536, 4096, 24, 1⟩], 65776, 3856⟩
      [(65560, 216), (8272, 8000)] := by
    refine Reach.alloc (os := fun n => if n = 4096 then some 65536 else none) h1 (by decide) ?_ ?_
    · intro n b hb
      by_cases hn : n = 4096
      · subst hn
        simp at hb
        subst hb
        refine ⟨by decide, by decide, by decide, ?_⟩
        intro g hg
        simp [pools, region] at hg
        subst hg
        exact disjoint_of (Or.inl (by decide))
      · simp [hn] at hb
    · simp [alloc, cfg0, word, alignUpSafe, bump, newPoolSize, alignPtrUpSizeDown]
  have h3 : Reach cfg0 ⟨⟨8192, 4096, 80, 0⟩, [⟨65536, 4096, 24, 1⟩], 65776, 3856⟩
      [(65560, 216)] := Reach.free (r := (8272, 8000)) h2 (by simp)
  refine Reach.alloc (os := fun _ => none) h3 (by decide) (by simp) ?_
  simp [alloc, cfg0, word, alignUpSafe, bump]

/-- The hypotheses of the theorems hold in a concrete case. -/
example : CfgOk cfg0 ∧ Reach cfg0 ⟨⟨8192, 4096, 80, 0⟩, [⟨65536, 4096, 24, 2⟩], 65880, 3752⟩
      [(65776, 100), (65560, 216)] := ⟨cfgOk0, demo⟩

/-- **C20, violated for huge requests.** A request of 2^64-16 bytes succeeds: the size of the new
pool wraps around to one page. The returned range does not fit the memory the allocator holds. -/
theorem C20_hugeRequest_violated : ∃ (cfg : Cfg) (p p' : Pool) (live : List Region) (a : Nat)
    (os : Nat → Option Nat), CfgOk cfg ∧ Reach cfg p live ∧
    (∀ n b, os n = some b → OsOk ((pools p).map region) (b, n)) ∧
    alloc cfg p (2 ^ 64 - 16) os = (p', some a) ∧
    ¬ ∃ s ∈ pools p', Inside (a, 2 ^ 64 - 16) (region s) := by
  have h0 : Reach cfg0 ⟨⟨8192, 8192, 80, 0⟩, [], 8272, 8112⟩ [] := by
    refine Reach.create (size := 8000) (base := 8192) ?_ ⟨by decide, by decide, by decide, by simp⟩
    simp [create, cfg0, word, alignUpSafe, alignPtrUpSizeDown]
  refine ⟨cfg0, _, ⟨⟨8192, 8192, 80, 0⟩, [⟨65536, 4096, 24, 1⟩], 65560 + (2 ^ 64 - 16), 4088⟩, [],
    65560, fun n => if n = 4096 then some 65536 else none, cfgOk0, h0, ?_, ?_, ?_⟩
  · intro n b hb
    by_cases hn : n = 4096
    · subst hn
      simp at hb
      subst hb
      refine ⟨by decide, by decide, by decide, ?_⟩
      intro g hg
      simp [pools, region] at hg
      subst hg
      exact disjoint_of (Or.inl (by decide))
    · simp [hn] at hb
  · simp [alloc, cfg0, word, alignUpSafe, bump, newPoolSize, alignPtrUpSizeDown]
  · rintro ⟨s, hs, hin⟩
    have := hin (65560 + 2 ^ 63) ⟨by show 65560 ≤ _; omega, by show _ < 65560 + (2 ^ 64 - 16); omega⟩
    simp only [pools, List.mem_append, List.mem_singleton] at hs
    rcases hs with rfl | rfl
    · have := this.2; simp [region] at this
    · have := this.2; simp [region] at this

end Verif.BaseAlloc.Linear
