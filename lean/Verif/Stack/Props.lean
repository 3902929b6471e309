import Verif.Stack.Room
/-!
# C70: disjoint pools on fixed memory providers, from the user's call to the user's memory

`Hist s live` (`Verif.Stack.Spec`): the system after some history, `live` the user's allocations,
each with the pool it came from. Nothing is assumed of the providers: they are the ones of the
library. The theorems are partial: the host allocator has to provide the coarse allocator's list
elements (`OrcOk`), the pool parameters and alignments are those of C22–C26, the pools have their
own limits, and calls are atomic.
-/
namespace Verif.Stack
open Mem

variable {s : Sys} {live : List Alloc} {k : Nat} {o : Orc}

theorem pairwise_of {L : List Alloc} (h1 : ∀ k, (liveOf L k).Pairwise Mem.Disjoint)
    (h2 : ∀ a ∈ L, ∀ b ∈ L, a.1 ≠ b.1 → Mem.Disjoint a.2 b.2) :
    L.Pairwise fun a b => Mem.Disjoint a.2 b.2 := by
  induction L with
  | nil => exact List.Pairwise.nil
  | cons x L ih =>
    obtain ⟨k, a⟩ := x
    rw [List.pairwise_cons]
    constructor
    · intro b hb
      by_cases hk : b.1 = k
      · have h3 := h1 k
        rw [liveOf_cons_self, List.pairwise_cons] at h3
        refine h3.1 b.2 (mem_liveOf.2 ?_)
        rw [← hk]
        exact hb
      · exact h2 (k, a) (by simp) b (by simp [hb]) (fun e => hk e.symm)
    · refine ih (fun j => ?_) (fun a ha b hb => h2 a (by simp [ha]) b (by simp [hb]))
      have h3 := h1 j
      by_cases hj : j = k
      · subst hj
        rw [liveOf_cons_self, List.pairwise_cons] at h3
        exact h3.2
      · rw [liveOf_cons_ne hj] at h3
        exact h3

/-- An allocation of the user lies in a range its pool got from the provider. -/
theorem in_mem {mem : Nat → List Region} (h : SInv s live mem) {a : Region} (ha : (k, a) ∈ live) :
    ∃ m ∈ mem k, Inside a m := by
  obtain ⟨p, hp⟩ := h.alive (k, a) ha
  dsimp only at hp
  obtain ⟨f, hh, hr⟩ := h.here hp
  exact (Disjoint.C23_disjoint_partial hh.cfg hr).2 a (mem_liveOf.2 ha)

theorem mem_buf {mem : Nat → List Region} (h : SInv s live mem) {m : Region} (hm : m ∈ mem k) :
    ∃ buf, BufOf s k buf ∧ Inside m buf := by
  obtain ⟨_, _, v, f, h1, h2, h3⟩ := h.w.mem_pos hm
  unfold ownOf at h1
  cases hp : s.pool k with
  | none => rw [hp] at h1; cases h1
  | some p =>
    rw [hp] at h1
    have h4 : p.prov = v := by simpa using h1
    exact ⟨f.buf, ⟨p, f, hp, by rw [h4]; exact h2, rfl⟩, h3⟩

/-- **C70**: whatever the history, allocations of the user, from the same pool or from different
pools, never have a byte in common, and each lies in the memory its pool was created on. -/
theorem C70_disjoint_partial (h : Hist s live) :
    (live.Pairwise fun a b => Mem.Disjoint a.2 b.2) ∧
    ∀ a ∈ live, 0 < a.2.2 ∧ ∃ buf, BufOf s a.1 buf ∧ Inside a.2 buf := by
  obtain ⟨mem, hi⟩ := hist_inv h
  refine ⟨pairwise_of ?_ ?_, ?_⟩
  · intro k
    cases hp : s.pool k with
    | some p =>
      obtain ⟨f, hh, hr⟩ := hi.here hp
      exact (Disjoint.C23_disjoint_partial hh.cfg hr).1
    | none =>
      cases hl : liveOf live k with
      | nil => exact List.Pairwise.nil
      | cons a l =>
        obtain ⟨q, hq⟩ := hi.alive (k, a) (mem_liveOf.1 (by rw [hl]; exact List.mem_cons_self))
        rw [show s.pool (k, a).1 = none from hp] at hq
        cases hq
  · intro a ha b hb hne
    obtain ⟨m, h1, h2⟩ := in_mem hi (k := a.1) (a := a.2) ha
    obtain ⟨n, h3, h4⟩ := in_mem hi (k := b.1) (a := b.2) hb
    exact disjoint_of_inside (hi.w.disj h1 h3 (fun e => hne (by injection e))) h2 h4
  · intro a ha
    obtain ⟨m, h1, h2⟩ := in_mem hi (k := a.1) (a := a.2) ha
    obtain ⟨buf, h3, h4⟩ := mem_buf hi h1
    exact ⟨live_pos hi (k := a.1) (a := a.2) ha, buf, h3, fun x hx => h4 x (h2 x hx)⟩

/-- **C70**: `umfPoolByPtr` names the right pool for every byte of every allocation, and only
names a pool for bytes of the memory that pool was created on. -/
theorem C70_owner_partial (h : Hist s live) (x : Nat) :
    (∀ k a, (k, a) ∈ live → Has a x → poolByPtr s x = some k) ∧
    (∀ k, poolByPtr s x = some k → ∃ buf, BufOf s k buf ∧ Has buf x) := by
  obtain ⟨mem, hi⟩ := hist_inv h
  refine ⟨fun k a ha hx => owner_of hi ha hx, fun k hk => ?_⟩
  by_cases hex : ∃ j, ∃ r ∈ mem j, Has r x
  · obtain ⟨j, r, hr, hx⟩ := hex
    have h1 := (info_of hi.w hr hx).2.1
    unfold poolByPtr at hk
    rw [h1] at hk
    cases hk
    obtain ⟨buf, h2, h3⟩ := mem_buf hi hr
    exact ⟨buf, h2, h3 x hx⟩
  · have := info_none hi.w (x := x) (fun j r hr hx => hex ⟨j, r, hr, hx⟩)
    unfold poolByPtr at hk
    rw [this] at hk
    cases hk

/-- **C70**: every allocation can be freed, and it makes no difference whether the user names the
pool or leaves it to `umfFree` to find it. -/
theorem C70_free_partial {l1 l2 : List Alloc} {a : Region} (h : Hist s (l1 ++ (k, a) :: l2))
    (ho : OrcOk o) :
    (free s k a.1 o).2 = .success ∧ umfFree s a.1 o = free s k a.1 o := by
  obtain ⟨mem, hi⟩ := hist_inv h
  exact ⟨(free_step hi ho).1, umfFree_eq hi (by simp)⟩

theorem usable_eq {mem : Nat → List Region} (h : SInv s live mem) {a : Region} (ha : (k, a) ∈ live)
    {p : Pool} (hp : s.pool k = some p) :
    usable s k a.1 = Disjoint.usableSize p.cfg (p.st (mem k)) a.1 := by
  obtain ⟨m, h1, h2⟩ := in_mem h ha
  obtain ⟨h3, _, h4⟩ := info_of h.w h1 (h2 a.1 ⟨Nat.le_refl _, by have := live_pos h ha; omega⟩)
  unfold usable
  rw [hp]
  dsimp only
  unfold usableSize Disjoint.usableSize
  have hm : (p.st (mem k)).mem = mem k := rfl
  have hk : (p.st (mem k)).known = p.known := rfl
  rw [h3, hm, hk, h4]
  by_cases h0 : a.1 = 0
  · rw [if_pos h0, if_pos h0]
  · rw [if_neg h0, if_neg h0]
    cases Disjoint.findLe p.known a.1 with
    | none => rfl
    | some r => rfl

/-- **C70**: the usable size is at least what was asked for, and all of the usable bytes are in
the memory of the pool and in no other allocation of any pool. -/
theorem C70_usable_partial {l1 l2 : List Alloc} {a : Region} (h : Hist s (l1 ++ (k, a) :: l2)) :
    a.2 ≤ usable s k a.1 ∧ (∃ buf, BufOf s k buf ∧ Inside (a.1, usable s k a.1) buf) ∧
    ∀ b ∈ l1 ++ l2, Mem.Disjoint (a.1, usable s k a.1) b.2 := by
  obtain ⟨mem, hi⟩ := hist_inv h
  have ha : (k, a) ∈ l1 ++ (k, a) :: l2 := by simp
  obtain ⟨p, hp⟩ := hi.alive (k, a) ha
  dsimp only at hp
  obtain ⟨f, hh, hr⟩ := hi.here hp
  rw [liveOf_append, liveOf_cons_self] at hr
  obtain ⟨h1, ⟨m, h2, h3⟩, h4⟩ := Disjoint.C23_usable_partial hh.cfg hr
  rw [usable_eq hi ha hp]
  obtain ⟨buf, h5, h6⟩ := mem_buf hi (k := k) h2
  refine ⟨h1, ⟨buf, h5, fun x hx => h6 x (h3 x hx)⟩, ?_⟩
  intro b hb
  by_cases hk : b.1 = k
  · refine h4 b.2 ?_
    rw [← liveOf_append]
    exact mem_liveOf.2 (by rw [← hk]; exact hb)
  · obtain ⟨n, h7, h8⟩ := in_mem hi (k := b.1) (a := b.2) (by
      simp only [List.mem_append, List.mem_cons] at hb ⊢
      rcases hb with hb | hb
      · exact Or.inl hb
      · exact Or.inr (Or.inr hb))
    exact disjoint_of_inside (hi.w.disj h2 h7 (fun e => hk (by injection e with e1; exact e1.symm))) h3 h8

/-- **C70**: no allocation request has undefined behaviour, and aligned requests are answered
with aligned addresses. -/
theorem C70_defined_partial (h : Hist s live) (ho : OrcOk o) {p : Pool} (hp : s.pool k = some p)
    (size j : Nat) :
    (malloc s k size o).2 ≠ .ub ∧
    (Disjoint.AlignOk p.cfg size (2 ^ j) → (alignedMalloc s k size (2 ^ j) o).2 ≠ .ub ∧
      ∀ q, (alignedMalloc s k size (2 ^ j) o).2 = .ok q → 2 ^ j ∣ q) := by
  obtain ⟨mem, hi⟩ := hist_inv h
  refine ⟨(malloc_step hi ho hp (s' := (malloc s k size o).1) (r := (malloc s k size o).2) rfl).1, ?_⟩
  intro hal
  have h1 := aligned_step hi ho hp hal (s' := (alignedMalloc s k size (2 ^ j) o).1)
    (r := (alignedMalloc s k size (2 ^ j) o).2) rfl
  exact ⟨h1.1, fun q hq => (h1.2.2 q hq).1⟩

/-- **C70**: when the last pool on a provider is destroyed and the user has freed everything, the
provider has its memory back: one free block, the whole area; and no byte of it belongs to a
pool. -/
theorem C70_destroy_partial (h : Hist s live) (ho : OrcOk o) (hl : ∀ a ∈ live, a.1 ≠ k) {p : Pool}
    (hp : s.pool k = some p) (hlast : ∀ j q, s.pool j = some q → j ≠ k → q.prov ≠ p.prov)
    {f : Fixed} (hf : s.w.prov p.prov = some f) :
    ∃ f', (dropPool s k o).w.prov p.prov = some f' ∧ f'.buf = f.buf ∧
      Coarse.freeRanges f'.co = [f.buf] ∧ Coarse.stats f'.co = (f.buf.2, 0, 1, 1) ∧
      ∀ x, Has f.buf x → Unused (dropPool s k o) x := by
  obtain ⟨mem, hi⟩ := hist_inv h
  obtain ⟨mem', h1, h2, h3, f1, co, h4, h5⟩ := dropPool_step hi ho hl hp
  rw [hf] at h4
  cases h4
  have hv : (dropPool s k o).w.prov p.prov = some { f with co := co } := by
    rw [h5, setCo_prov, if_pos rfl]
  obtain ⟨cl, h6, h7⟩ := h1.w.co _ _ hv
  have hpool : ∀ j, (dropPool s k o).pool j = if j = k then none else s.pool j := by
    intro j
    unfold dropPool
    rw [hp]
    rfl
  have hnot : ∀ j, ownOf (dropPool s k o) j ≠ some p.prov := by
    intro j e
    unfold ownOf at e
    rw [hpool] at e
    by_cases hj : j = k
    · rw [if_pos hj] at e; cases e
    · rw [if_neg hj] at e
      cases hq : s.pool j with
      | none => rw [hq] at e; cases e
      | some q => rw [hq] at e; exact hlast j q hq hj (by simpa using e)
  have hcl : cl = [] := by
    cases cl with
    | nil => rfl
    | cons r l =>
      obtain ⟨j, h8, _⟩ := (h7 r).1 List.mem_cons_self
      exact absurd h8 (hnot j)
  subst hcl
  obtain ⟨m, hm⟩ := (h1.w.ok _ _ hv).page
  obtain ⟨h8, h9⟩ := Coarse.C04_allFreed (k := m) (start := f.buf.1) (size := f.buf.2) hm h6
    (h1.w.ok _ _ hv).size (by
      intro x
      constructor
      · rintro ⟨g, hg, hx⟩
        rw [List.mem_singleton] at hg
        subst hg
        exact hx
      · intro hx
        exact ⟨f.buf, by simp, hx⟩)
  refine ⟨_, hv, rfl, h8, h9, fun x hx => ?_⟩
  refine info_none h1.w fun j r hr hrx => ?_
  obtain ⟨_, _, v, g, h10, h11, h12⟩ := h1.w.mem_pos hr
  by_cases hvp : v = p.prov
  · rw [hvp] at h10
    exact hnot j h10
  · exact h1.w.apart v g p.prov _ h11 hv hvp x ⟨h12 x hrx, hx⟩

/-- **C70**: a request is refused only when there is no room for it: if no host allocation fails
and the memory of the pool has a run of bytes no pool has, one page longer than the request, or,
for a pooled request, one page longer than a slab of the request's class, the request is served. -/
theorem C70_room_partial (h : Hist s live) (ho : OrcOk o) (hc : Calm o) {p : Pool}
    (hp : s.pool k = some p) {f : Fixed} (hf : s.w.prov p.prov = some f) {size n start : Nat}
    (hs : 0 < size) (hbig : p.cfg.maxPoolable < size → size ≤ n)
    (hsmall : size ≤ p.cfg.maxPoolable → ∀ cl,
      Disjoint.Tightest (Disjoint.classes p.cfg.minBucket) size cl → max cl p.cfg.slabMin ≤ n)
    (hrun : ∀ x, Has (start, n + f.page) x → Has f.buf x ∧ Unused s x) :
    ∃ q, (malloc s k size o).2 = .ok q := by
  obtain ⟨mem, hi⟩ := hist_inv h
  obtain ⟨f', hh, hr⟩ := hi.here hp
  rw [hh.prov] at hf
  cases hf
  have hdef := (C70_defined_partial h ho hp size 0).1
  have hmal : ∀ w' p' r, poolMalloc s.w k p size o = (w', p', r) → (malloc s k size o).2 = r := by
    intro w' p' r e
    unfold malloc
    rw [hp]
    dsimp only
    rw [e]
  rcases hpm : poolMalloc s.w k p size o with ⟨w', p', r⟩
  have hres := hmal _ _ _ hpm
  rw [hres] at hdef ⊢
  cases r with
  | ub => exact absurd rfl hdef
  | ok q => exact ⟨q, rfl⟩
  | null =>
    exfalso
    obtain ⟨mem', _, hd⟩ := malloc_sim hh ho hpm
    rcases malloc_null hh.cfg hr (asEnv_ok hh ho) hs hd with h1 | h1 | ⟨h1, h2⟩ | ⟨h1, cl, h2, h3⟩
    · rw [show (asEnv s.w k p o).host = o.slab from rfl, hc.slab] at h1; cases h1
    · rw [show (asEnv s.w k p o).reg = o.reg from rfl, hc.reg] at h1; cases h1
    · exact provAlloc_room hi.w ho hc hh.prov hs (hbig h1) hrun h2
    · exact provAlloc_room hi.w ho hc hh.prov (by have := hh.cfg.slabMin; omega) (hsmall h1 cl h2) hrun h3

end Verif.Stack
