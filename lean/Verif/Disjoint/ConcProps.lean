import Verif.Disjoint.ConcAccount
import Verif.Disjoint.ConcSpec
/-!
# The disjoint pool under all interleavings: C23, C24, C25, C26, C67

Concrete cases that meet the hypotheses are in `Verif.Disjoint.ConcWitness`.
-/
set_option linter.unusedSimpArgs false
namespace Verif.Disjoint.Conc
open Mem

section
variable {c : Cfg} {s s' : St} {home : Nat → Home} {t : Nat}

theorem disj_iff {p z q w : Nat} (h : p + z ≤ q ∨ q + w ≤ p) : Mem.Disjoint (p, z) (q, w) := by
  rintro x ⟨⟨h1, h2⟩, h3, h4⟩
  simp only at *
  omega

/-- The unit of memory an allocation has. -/
theorem Inv.unit (hI : Inv c s home) {n : Nat} {a : Own} (ha : s.own n = some a) :
    ∃ p z u w, s.mem p = some z ∧ p ≤ u ∧ u + w ≤ p + z ∧ u ≤ a.ptr ∧ a.ptr + a.size ≤ u + w ∧
      match home n with
      | .chunk id k => ∃ o, s.objs id = some o ∧ o.has = true ∧ o.base = p ∧ z = slabSize c o.bkt ∧
          u = o.base + k * csize c o.bkt ∧ w = csize c o.bkt
      | .direct => u = p ∧ w = z ∧ a.ptr = p ∧ a.size = z ∧
          ∀ id o, s.objs id = some o → o.has = true → o.base ≠ a.ptr := by
  have h := (hI.owners.ok n a ha).2.2
  revert h
  cases home n with
  | chunk id k =>
    rintro ⟨o, h1, h2, h3, h4, h5, h6, h7⟩
    have hm := (hI.heap.objMem id o h1 h2).1
    have hk := @chunk_bound c o.bkt k (by rw [← (hI.heap.obj id o h1).2.1]; exact get_lt h4)
    exact ⟨o.base, slabSize c o.bkt, o.base + k * csize c o.bkt, csize c o.bkt, hm, by omega,
      by omega, h5, h6, o, h1, h2, rfl, rfl, rfl, rfl⟩
  | direct =>
    rintro ⟨h1, h2⟩
    exact ⟨a.ptr, a.size, a.ptr, a.size, h1, by omega, by omega, by omega, by omega, rfl, rfl, rfl,
      rfl, h2⟩

/-- Different allocations have different units. -/
theorem Inv.unit_sep (hI : Inv c s home) {n m : Nat} {a b : Own} (ha : s.own n = some a)
    (hb : s.own m = some b) (hne : n ≠ m) : ∃ u w v x, u ≤ a.ptr ∧ a.ptr + a.size ≤ u + w ∧
      v ≤ b.ptr ∧ b.ptr + b.size ≤ v + x ∧ (u + w ≤ v ∨ v + x ≤ u) ∧
      (∃ p z, s.mem p = some z ∧ p ≤ u ∧ u + w ≤ p + z) ∧
      match home n with
      | .chunk id k => ∃ o, s.objs id = some o ∧ u = o.base + k * csize c o.bkt ∧ w = csize c o.bkt
      | .direct => u = a.ptr ∧ w = a.size := by
  obtain ⟨p, z, u, w, m1, l1, l2, l3, l4, hh⟩ := hI.unit ha
  obtain ⟨q, y, v, x, m2, r1, r2, r3, r4, hh'⟩ := hI.unit hb
  have hmem : p = q ∨ p + z ≤ q ∨ q + y ≤ p := by
    by_cases h : p = q
    · exact Or.inl h
    · exact Or.inr (hI.heap.memSep _ _ _ _ m1 m2 h)
  refine ⟨u, w, v, x, l3, l4, r3, r4, ?_, ⟨p, z, m1, l1, l2⟩, ?_⟩
  · cases hn : home n with
    | chunk id k =>
      rw [hn] at hh
      obtain ⟨o, e1, e2, e3, e4, e5, e6⟩ := hh
      cases hm : home m with
      | chunk id' k' =>
        rw [hm] at hh'
        obtain ⟨o', f1, f2, f3, f4, f5, f6⟩ := hh'
        rcases hmem with h | h
        · have hid := hI.heap.objInj id o id' o' e1 f1 e2 f2 (by omega)
          subst hid
          rw [e1] at f1; cases f1
          have hkk : k ≠ k' := by
            rintro rfl
            exact hne (hI.owners.injChunk n m a b id k ha hb hn hm)
          rw [e5, e6, f5, f6]
          rcases Nat.lt_or_gt_of_ne hkk with h1 | h1
          · left
            have := Nat.mul_le_mul_right (csize c o.bkt) (show k + 1 ≤ k' from h1)
            rw [Nat.add_mul, Nat.one_mul] at this
            omega
          · right
            have := Nat.mul_le_mul_right (csize c o.bkt) (show k' + 1 ≤ k from h1)
            rw [Nat.add_mul, Nat.one_mul] at this
            omega
        · omega
      | direct =>
        rw [hm] at hh'
        obtain ⟨g1, g2, g3, g4, g5⟩ := hh'
        have := g5 id o e1 e2
        omega
    | direct =>
      rw [hn] at hh
      obtain ⟨g1, g2, g3, g4, g5⟩ := hh
      cases hm : home m with
      | chunk id' k' =>
        rw [hm] at hh'
        obtain ⟨o', f1, f2, f3, f4, f5, f6⟩ := hh'
        have := g5 id' o' f1 f2
        omega
      | direct =>
        rw [hm] at hh'
        obtain ⟨f1, f2, f3, f4, f5⟩ := hh'
        have : a.ptr ≠ b.ptr := fun e => hne (hI.owners.injDirect n m a b ha hb hn hm e)
        omega
  · revert hh
    cases home n with
    | chunk id k => rintro ⟨o, e1, e2, e3, e4, e5, e6⟩; exact ⟨o, e1, e5, e6⟩
    | direct => rintro ⟨g1, g2, g3, g4, g5⟩; exact ⟨by omega, by omega⟩

/-! ## C23 and C24: what is handed out -/

/-- **C23** and **C24** for every interleaving of any number of threads (partial: `CfgOk`, `ReqOk`).
Allocations that were handed out and not given back share no byte, lie in memory the pool holds from
the provider, are not null, and have the requested alignment. -/
theorem C23_threads_partial (hc : CfgOk c) (h : Reach c s) :
    (∀ n m a b, s.own n = some a → s.own m = some b → n ≠ m → Mem.Disjoint a.range b.range) ∧
    ∀ n a, s.own n = some a → 0 < a.ptr ∧ InMem s a.range ∧ (a.al ≠ 0 → a.al ∣ a.ptr) := by
  obtain ⟨home, hI⟩ := reach_inv hc h
  constructor
  · intro n m a b ha hb hne
    obtain ⟨u, w, v, x, l3, l4, r3, r4, hs, -⟩ := hI.unit_sep ha hb hne
    exact disj_iff (by omega)
  · intro n a ha
    obtain ⟨p, z, u, w, m1, l1, l2, l3, l4, hh⟩ := hI.unit ha
    have := (hI.heap.memOk p z m1).1
    refine ⟨by omega, ⟨p, z, m1, ?_⟩, (hI.owners.ok n a ha).2.1⟩
    rintro x ⟨h1, h2⟩
    simp only [Own.range] at h1 h2
    exact ⟨by show p ≤ x; omega, by show x < p + z; omega⟩

/-- **C23**, the size, for every interleaving (partial as above): a call of
`umfPoolMallocUsableSize` reports at least the requested size, and the bytes it reports are in
memory of the pool and in no other allocation. -/
theorem C23_threadsUsable_partial (hc : CfgOk c) (h : Reach c s) {tk z : Nat}
    (hs : Step c t s (.usable tk z) s') : ∃ a, s.own tk = some a ∧ a.size ≤ z ∧
      InMem s (a.ptr, z) ∧ ∀ n b, s.own n = some b → n ≠ tk → Mem.Disjoint (a.ptr, z) b.range := by
  obtain ⟨home, hI⟩ := reach_inv hc h
  have hp := hI.pcs t
  -- it suffices that the reported end is the end of the unit
  have key : ∀ a, s.own tk = some a → (match home tk with
      | .chunk id k => ∃ o, s.objs id = some o ∧
          a.ptr + z = o.base + k * csize c o.bkt + csize c o.bkt
      | .direct => z = a.size) → a.size ≤ z ∧ InMem s (a.ptr, z) ∧
        ∀ n b, s.own n = some b → n ≠ tk → Mem.Disjoint (a.ptr, z) b.range := by
    intro a ha hk
    obtain ⟨p, y, u, w, m1, l1, l2, l3, l4, hh⟩ := hI.unit ha
    have hend : a.ptr + z = u + w := by
      cases hn : home tk with
      | chunk id k =>
        rw [hn] at hk hh
        obtain ⟨o, k1, k2⟩ := hk
        obtain ⟨o', e1, e2, e3, e4, e5, e6⟩ := hh
        rw [k1] at e1; cases e1
        omega
      | direct =>
        rw [hn] at hk hh
        obtain ⟨g1, g2, g3, g4, g5⟩ := hh
        simp only at hk
        omega
    refine ⟨by omega, ⟨p, y, m1, ?_⟩, ?_⟩
    · rintro x ⟨h1, h2⟩
      simp only at h1 h2
      exact ⟨by show p ≤ x; omega, by show x < p + y; omega⟩
    · intro n b hb hne
      obtain ⟨u', w', v, x, l3', l4', r3, r4, hsep, -, hh'⟩ := hI.unit_sep ha hb (Ne.symm hne)
      have : u' + w' = u + w ∧ u' = u := by
        revert hh hh'
        cases home tk with
        | chunk id k =>
          rintro ⟨o', e1, e2, e3, e4, e5, e6⟩ ⟨o, f1, f2, f3⟩
          rw [f1] at e1; cases e1
          omega
        | direct =>
          rintro ⟨g1, g2, g3, g4, g5⟩ ⟨f1, f2⟩
          omega
      exact disj_iff (by omega)
  cases hs with
  | @readUsable _ ptr id o a h1 h2 h3 h4 =>
    rw [h1] at hp
    obtain ⟨g1, g2, g3⟩ := hp
    obtain ⟨hptr, -⟩ := g1.own h4
    subst hptr
    refine ⟨a, h4, key a h4 ?_⟩
    cases hh : home tk with
    | chunk id' k =>
      rw [hh] at g3
      have g3 : id = id' := g3
      subst g3
      have hok := (hI.owners.ok tk a h4).2.2
      have hsz := (hI.owners.ok tk a h4).1
      rw [hh] at hok
      obtain ⟨o2, j1, j2, j3, j4, j5, j6, j7⟩ := hok
      rw [h2] at j1; cases j1
      refine ⟨o, h2, ?_⟩
      have hcs := csize_pos hc (hI.heap.obj id o h2).1
      rw [chunk_idx hcs (k := k) (by omega) (by omega)]
      omega
    | direct =>
      rw [hh] at g3
      have := g3 o h2
      unfold slabEnd at h3
      omega
  | @infoUsable _ ptr _ a h1 h2 h3 =>
    rw [h1] at hp
    obtain ⟨b, k1, k2, k3⟩ := hI.direct_mem hp.1 hp.2
    rw [h3] at k1; cases k1
    rw [h2] at k3; cases k3
    refine ⟨a, h3, key a h3 ?_⟩
    rw [hp.2]
  | infoInsideUsable h1 h2 _ _ _ =>
    rw [h1] at hp
    obtain ⟨a, _, _, h⟩ := hI.direct_mem hp.1 hp.2
    rw [h2] at h; cases h
  | infoNoneUsable h1 h2 _ =>
    rw [h1] at hp
    obtain ⟨a, _, _, h⟩ := hI.direct_mem hp.1 hp.2
    rw [h2] at h; cases h

/-! ## C25: where freed memory goes -/

/-- **C25** for every interleaving (partial as above): the provider is never asked to take memory
it has not given to the pool or has got back. -/
theorem C25_threads_partial (hc : CfgOk c) (h : Reach c s) : s.bad = false := by
  obtain ⟨home, hI⟩ := reach_inv hc h
  exact hI.bad

/-- **C25**, the result (partial as above): a call of `umfPoolFree` that returns has succeeded, the
allocation is gone and no other allocation is touched. -/
theorem C25_threadsFree_partial (hc : CfgOk c) (h : Reach c s) {tk : Nat} {ok : Bool}
    (hs : Step c t s (.freed tk ok) s') :
    ok = true ∧ (∃ a, s.own tk = some a ∧ a.freeing = some t) ∧ s'.own tk = none ∧
      ∀ n, n ≠ tk → s'.own n = s.own n := by
  obtain ⟨home, hI⟩ := reach_inv hc h
  have hp := hI.pcs t
  cases hs with
  | infoNone h1 h2 _ =>
    rw [h1] at hp
    obtain ⟨a, _, _, h⟩ := hI.direct_mem hp.1 hp.2
    rw [h2] at h; cases h
  | @pfree _ ptr z h1 =>
    rw [h1] at hp
    obtain ⟨⟨a, k1, k2, k3⟩, -⟩ := hp
    have e : (s.provFree ptr z).own = s.own := by unfold St.provFree; split <;> rfl
    refine ⟨rfl, ⟨a, k1, k3⟩, upd_eq, fun n hn => ?_⟩
    show Function.update (s.provFree ptr z).own tk none n = _
    rw [upd_ne hn, e]
  | chunkOk h1 h2 =>
    rw [h1] at hp
    obtain ⟨-, ⟨a, k1, k2, k3⟩, -⟩ := hp
    exact ⟨rfl, ⟨a, k1, k3⟩, upd_eq, fun n hn => upd_ne hn⟩

/-- One step obtains memory or returns memory, not both. -/
theorem step_mem {e : Ev} (h : Step c t s e s') :
    (∀ p z, s.mem p = some z → s'.mem p = none → ∀ q w, s'.mem q = some w → s.mem q = some w) := by
  have hpf : ∀ (q w p z : Nat) , (s.provFree q w).mem p = some z → s.mem p = some z := by
    intro q w p z h
    unfold St.provFree at h
    split at h
    · exact (upd_none h).2
    · exact h
  cases h with
  | directOk p h1 h2 =>
    intro p' z h3 h4
    have h4 : Function.update s.mem p (some _) p' = none := h4
    by_cases hp : p' = p
    · subst hp; rw [upd_eq] at h4; cases h4
    · rw [upd_ne hp, h3] at h4; cases h4
  | makeOk p h1 h2 =>
    intro p' z h3 h4
    have h4 : Function.update s.mem p (some _) p' = none := h4
    by_cases hp : p' = p
    · subst hp; rw [upd_eq] at h4; cases h4
    · rw [upd_ne hp, h3] at h4; cases h4
  | drop _ _ => intro _ _ _ _ q w h; exact hpf _ _ _ _ h
  | pfree _ => intro _ _ _ _ q w h; exact hpf _ _ _ _ h
  | _ => intro _ _ _ _ q w h; exact h

/-- **C25**, what is released (partial as above): memory is returned to the provider only while no
allocation lies in it. -/
theorem C25_threadsRelease_partial (hc : CfgOk c) (h : Reach c s) (hu : s.ub = false) {e : Ev}
    (hs : Step c t s e s') {p z : Nat} (h1 : s.mem p = some z) (h2 : s'.mem p = none) :
    ∀ n b, s'.own n = some b → Mem.Disjoint b.range (p, z) := by
  obtain ⟨home, hI⟩ := reach_inv hc h
  have h' := Reach.step h hu hs
  intro n b hb
  obtain ⟨-, ⟨q, w, hm, hin⟩, -⟩ := (C23_threads_partial hc h').2 n b hb
  have hm' := step_mem hs p z h1 h2 q w hm
  have hne : q ≠ p := by rintro rfl; rw [h2] at hm; cases hm
  have := hI.heap.memSep q w p z hm' h1 hne
  rintro x ⟨g1, g2⟩
  obtain ⟨k1, k2⟩ := hin x g1
  obtain ⟨j1, j2⟩ := g2
  simp only at *
  omega

theorem provFree_same (q w : Nat) : (s.provFree q w).objs = s.objs ∧ (s.provFree q w).bk = s.bk ∧
    (s.provFree q w).ub = s.ub := by
  unfold St.provFree; split <;> exact ⟨rfl, rfl, rfl⟩

/-- Destroying a list of slabs. -/
theorem destroy_ok (i : Nat) (l : List Nat) : ∀ s : St, s.bad = false →
    (∀ id ∈ l, ∃ o, s.objs id = some o ∧ s.mem o.base = some (slabSize c i)) →
    l.Pairwise (fun x y => ∀ o o', s.objs x = some o → s.objs y = some o' → o.base ≠ o'.base) →
    (destroySlabs c s i l).bad = false ∧ (destroySlabs c s i l).ub = s.ub ∧
    (destroySlabs c s i l).objs = s.objs ∧ (destroySlabs c s i l).bk = s.bk ∧
    ∀ p z, (destroySlabs c s i l).mem p = some z ↔
      s.mem p = some z ∧ ∀ id ∈ l, ∀ o, s.objs id = some o → o.base ≠ p := by
  induction l with
  | nil => intro s h1 _ _; exact ⟨h1, rfl, rfl, rfl, fun p z => by simp [destroySlabs]⟩
  | cons id l ih =>
    intro s hb hm hpw
    obtain ⟨o, ho, hmo⟩ := hm id (List.mem_cons_self ..)
    obtain ⟨hp1, hp2⟩ := List.pairwise_cons.1 hpw
    have e : s.provFree o.base (slabSize c i) = s.setMem o.base none := by
      unfold St.provFree; rw [if_pos hmo]
    have e2 : destroySlabs c s i (id :: l) = destroySlabs c (s.setMem o.base none) i l := by
      unfold destroySlabs
      rw [List.foldl_cons, ho]
      dsimp only
      rw [e]
    rw [e2]
    obtain ⟨g1, g2, g3, g4, g5⟩ := ih (s.setMem o.base none) hb (by
      intro x hx
      obtain ⟨ox, k1, k2⟩ := hm x (List.mem_cons_of_mem _ hx)
      refine ⟨ox, k1, ?_⟩
      show Function.update s.mem o.base none ox.base = _
      rw [upd_ne (Ne.symm (hp1 x hx o ox ho k1))]; exact k2) hp2
    refine ⟨g1, g2, g3, g4, fun p z => ?_⟩
    rw [g5]
    show Function.update s.mem o.base none p = some z ∧ _ ↔ _
    constructor
    · rintro ⟨k1, k2⟩
      obtain ⟨k3, k4⟩ := upd_none k1
      refine ⟨k4, fun x hx ox hox => ?_⟩
      rcases List.mem_cons.1 hx with rfl | hx
      · rw [ho] at hox; cases hox; exact Ne.symm k3
      · exact k2 x hx ox hox
    · rintro ⟨k1, k2⟩
      refine ⟨?_, fun x hx ox hox => k2 x (List.mem_cons_of_mem _ hx) ox hox⟩
      rw [upd_ne (Ne.symm (k2 id (List.mem_cons_self ..) o ho))]; exact k1

/-- Destroying the first `n` buckets. -/
theorem destroyAll_ok (hI : Inv c s home) (n : Nat) :
    ∀ r, r = (List.range n).foldl
      (fun s i => destroySlabs c s i ((s.bk i).avail ++ (s.bk i).unavail)) s →
    r.bad = false ∧ r.ub = s.ub ∧ r.objs = s.objs ∧ r.bk = s.bk ∧
    ∀ p z, r.mem p = some z ↔ s.mem p = some z ∧
      ∀ i, i < n → ∀ id, Listed s id i → ∀ o, s.objs id = some o → o.base ≠ p := by
  induction n with
  | zero =>
    rintro r rfl
    exact ⟨hI.bad, rfl, rfl, rfl, fun p z => by simp⟩
  | succ n ih =>
    rintro r rfl
    rw [List.range_succ, List.foldl_append]
    obtain ⟨h1, h2, h3, h4, h5⟩ := ih _ rfl
    generalize (List.range n).foldl
      (fun s i => destroySlabs c s i ((s.bk i).avail ++ (s.bk i).unavail)) s = r at *
    rw [List.foldl_cons, List.foldl_nil, h4]
    obtain ⟨g1, g2, g3, g4, g5⟩ := destroy_ok (c := c) n ((s.bk n).avail ++ (s.bk n).unavail) r h1
      (by
        intro id hid
        obtain ⟨o, k1, k2, k3, k4⟩ := hI.heap.listed n id (List.mem_append.1 hid)
        refine ⟨o, by rw [h3]; exact k1, ?_⟩
        rw [h5]
        refine ⟨by rw [← k2]; exact (hI.heap.objMem id o k1 k3).1, fun i hi x hx ox hox e => ?_⟩
        obtain ⟨o2, j1, j2, j3, j4⟩ := hI.heap.listed i x hx
        rw [hox] at j1; cases j1
        have := hI.heap.objInj x ox id o hox k1 j3 k3 e
        subst this
        rw [k1] at hox; cases hox
        omega)
      (by
        refine (hI.heap.nodup n).imp_of_mem ?_
        intro x y hx hy hxy o o' ho ho' e
        obtain ⟨ox, j1, j2, j3, j4⟩ := hI.heap.listed n x (List.mem_append.1 hx)
        obtain ⟨oy, k1, k2, k3, k4⟩ := hI.heap.listed n y (List.mem_append.1 hy)
        rw [h3] at ho ho'
        rw [ho] at j1; cases j1
        rw [ho'] at k1; cases k1
        exact hxy (hI.heap.objInj x o y o' ho ho' j3 k3 e))
    refine ⟨g1, by rw [g2, h2], by rw [g3, h3], by rw [g4, h4], fun p z => ?_⟩
    rw [g5, h5]
    constructor
    · rintro ⟨⟨k1, k2⟩, k3⟩
      refine ⟨k1, fun i hi id hid o ho => ?_⟩
      by_cases hin : i = n
      · subst hin
        exact k3 id (List.mem_append.2 hid) o (by rw [h3]; exact ho)
      · exact k2 i (by omega) id hid o ho
    · rintro ⟨k1, k2⟩
      refine ⟨⟨k1, fun i hi => k2 i (by omega)⟩, fun id hid o ho => ?_⟩
      exact k2 n (by omega) id (List.mem_append.1 hid) o (by rw [← h3]; exact ho)

/-- **C25**, destruction after any history of interleaved calls (partial as above): once no thread
is in a call, destroying the pool returns every slab once; what remains is the memory of allocations
that were passed on from the provider and not freed. -/
theorem C25_threadsDestroy_partial (hc : CfgOk c) (h : Reach c s) (hq : Quiet s) :
    (finalize c s).bad = false ∧ (finalize c s).ub = s.ub ∧
    ∀ p z, (finalize c s).mem p = some z ↔
      s.mem p = some z ∧ ∃ n a, s.own n = some a ∧ Large c a ∧ a.range = (p, z) := by
  obtain ⟨home, hI, hA⟩ := reach_full hc h
  obtain ⟨h1, h2, h3, h4, h5⟩ := destroyAll_ok hI (classes c.minBucket).length (finalize c s) rfl
  refine ⟨h1, h2, fun p z => ?_⟩
  rw [h5]
  constructor
  · rintro ⟨k1, k2⟩
    refine ⟨k1, ?_⟩
    rcases hI.owners.cover p z k1 with ⟨id, o, j1, j2, j3⟩ | ⟨n, a, j1, j2, j3⟩
    · exfalso
      rcases hA id o j1 with hl | ⟨t, ht⟩
      · exact k2 o.bkt (hI.heap.obj id o j1).1 id hl o j1 j3
      · rw [hq t] at ht; cases ht
    · refine ⟨n, a, j1, (hI.owners.kind n a j1).1 j2, ?_⟩
      have := (hI.owners.ok n a j1).2.2
      rw [j2] at this
      have := this.1
      rw [j3, k1] at this
      cases this
      rw [← j3]; rfl
  · rintro ⟨k1, n, a, j1, j2, j3⟩
    refine ⟨k1, fun i hi id hid o ho => ?_⟩
    have hd := (hI.owners.kind n a j1).2 j2
    have hok := (hI.owners.ok n a j1).2.2
    rw [hd] at hok
    obtain ⟨o2, g1, g2, g3, g4⟩ := hI.heap.listed i id hid
    rw [ho] at g1; cases g1
    have : a.ptr = p := congrArg Prod.fst j3
    rw [← this]
    exact hok.2 id o ho g3

/-! ## C26: what is kept -/

theorem emptySlabs_eq (hI : Inv c s home) (i : Nat) : emptySlabs s i = zeros s i := by
  unfold emptySlabs zeros
  apply countP_congr'
  intro id hid
  obtain ⟨o, h1, -⟩ := hI.heap.listed i id (Or.inl hid)
  have hcnt := (hI.heap.obj id o h1).2.2
  rw [isEmpty_iff h1, h1]
  show o.free.all (fun b => b) = _
  rw [hcnt]
  have : ∀ l : List Bool, l.all (fun b => b) = decide (l.count false = 0) := by
    intro l
    induction l with
    | nil => rfl
    | cons b l ih => cases b <;> simp [ih]
  exact this _

/-- **C26**, per class, for every interleaving (partial as above): while no thread holds the lock of
a class, it keeps at most the configured number of empty slabs (one if its chunks are at most half a
slab); while a thread works on it, at most one more. -/
theorem C26_threads_partial (hc : CfgOk c) (h : Reach c s) (i : Nat) :
    emptySlabs s i ≤ (if csize c i ≤ c.slabMin / 2 then 1 else c.capacity) + 1 ∧
    ((s.bk i).lock = none →
      emptySlabs s i ≤ if csize c i ≤ c.slabMin / 2 then 1 else c.capacity) := by
  obtain ⟨home, hI⟩ := reach_inv hc h
  rw [emptySlabs_eq hI]
  have hlim := hI.lim i
  unfold maxPooled at hlim
  constructor
  · cases hl : (s.bk i).lock with
    | none => have := hI.free i hl; omega
    | some t =>
      have hsec := (hI.lock i t).1 hl
      have hp := hI.pcs t
      revert hp hsec
      have hhe : headEmpty s i ≤ 1 := by unfold headEmpty; split <;> (try split) <;> omega
      cases s.pc t <;> simp only [sec, PcOk, Option.some.injEq, reduceCtorEq, false_implies] <;>
        (intro e; subst e; intro hp)
      · have := hp.2; omega
      · have := hp.2.1; omega
      · have := hp.2.1; omega
      · have := hp.2.1; omega
      · omega
      · have := hp.1; omega
      · have := hp.1; omega
      · have := hp.1; omega
      · have := hp.1.2.2; omega
      · have := hp.1.2.2; omega
      · have := hp.2.2; omega
      · have := hp.2.2; omega
  · intro hl
    have := hI.free i hl
    omega

/-! ## C67: undefined behaviour and progress -/

theorem all_used {o : Obj} (h : firstFree o.free = none) (hc : o.used = o.free.count false) :
    o.used = o.free.length := by rw [hc]; exact firstFree_none h

/-- **C67** (partial: `CfgOk`, `ReqOk`). The only undefined behaviour is the use of a slab object
that was freed, by a thread that frees, or asks for the size of, an allocation above the largest
pooled size. -/
theorem C67_onlyLarge_partial (hc : CfgOk c) (h : Reach c s) (hu : s.ub = false) {e : Ev}
    (hs : Step c t s e s') (hu' : s'.ub = true) :
    ∃ tk a id us, s.pc t = .read tk a.ptr id us ∧ s.own tk = some a ∧ Large c a ∧
      s.objs id = none := by
  obtain ⟨home, hI⟩ := reach_inv hc h
  have hp := hI.pcs t
  have no : ∀ {P : Prop}, s.ub = true → P := fun h => by rw [hu] at h; cases h
  have hpf : ∀ q w, (s.provFree q w).ub = s.ub := fun q w => (provFree_same q w).2.2
  cases hs with
  | lockBad h1 h2 =>
    rw [h1] at hp
    exact absurd hp.lt h2
  | @getEmptyBad i r id rest o h1 h2 h3 h4 h5 =>
    rw [h1] at hp
    have := hp.2
    unfold zeros at this
    rw [h2, List.countP_cons, isEmpty_iff h3] at this
    simp [h4] at this
    omega
  | takeBad h1 h2 h3 h4 =>
    have := all_used h4 (hI.heap.obj _ _ h3).2.2
    have := hI.heap.av _ _ _ (by rw [h2]; exact List.mem_cons_self ..) h3
    omega
  | chunkBad h1 h2 =>
    rw [h1] at hp
    obtain ⟨-, -, k, -, o, g1, -⟩ := hp
    rw [h2] at g1; cases g1
  | @readBad tk ptr id us h1 h2 =>
    rw [h1] at hp
    obtain ⟨⟨a, k1, k2, -⟩, g2, g3⟩ := hp
    subst k2
    refine ⟨tk, a, id, us, h1, k1, (hI.owners.kind tk a k1).1 ?_, h2⟩
    cases hh : home tk with
    | direct => rfl
    | chunk id' k =>
      rw [hh] at g3
      have g3 : id = id' := g3
      have := (hI.owners.ok tk a k1).2.2
      rw [hh] at this
      obtain ⟨o, j1, -⟩ := this
      rw [← g3, h2] at j1; cases j1
  | drop h1 h2 =>
    have hu' : (s.provFree _ _).ub = true := hu'
    rw [hpf] at hu'; exact no hu'
  | pfree h1 =>
    have hu' : (s.provFree _ _).ub = true := hu'
    rw [hpf] at hu'; exact no hu'
  | _ => exact no hu'

/-- **C67**, the other side: while no live allocation is above the largest pooled size, no step of
any thread has undefined behaviour. -/
theorem C67_pooled_partial (hc : CfgOk c) (h : Reach c s) (hu : s.ub = false)
    (hsmall : ∀ n a, s.own n = some a → ¬ Large c a) {e : Ev} (hs : Step c t s e s') :
    s'.ub = false := by
  cases hu' : s'.ub with
  | false => rfl
  | true =>
    obtain ⟨tk, a, id, us, -, h2, h3, -⟩ := C67_onlyLarge_partial hc h hu hs hu'
    exact absurd h3 (hsmall tk a h2)

/-- Some answer of `critnib_find_le` is possible. -/
theorem find_answer (maps : List (Nat → Option Nat)) (hm : maps ≠ []) (x : Nat) :
    ∃ res, FindOk maps x res := by
  by_cases h : ∃ a, a ≤ x ∧ ∀ m ∈ maps, m a ≠ none ∧ ∀ k, a < k → k ≤ x → m k = none
  · obtain ⟨a, h1, h2⟩ := h
    obtain ⟨m, hmm⟩ := List.exists_mem_of_ne_nil maps hm
    obtain ⟨id, hid⟩ := Option.ne_none_iff_exists'.1 (h2 m hmm).1
    refine ⟨some (a, id), ?_, ?_⟩
    · intro b id' e; cases e; exact ⟨h1, m, hmm, hid⟩
    · intro a' h3 h4
      have : a' = a := by
        rcases Nat.lt_trichotomy a' a with hlt | rfl | hlt
        · exact absurd ((h4 m hmm).2 a hlt h1) (h2 m hmm).1
        · rfl
        · exact absurd ((h2 m hmm).2 a' hlt h3) (h4 m hmm).1
      subst this
      exact ⟨m, hmm, id, hid, rfl⟩
  · refine ⟨none, ?_, ?_⟩
    · intro b id e; cases e
    · intro a h1 h2; exact absurd ⟨a, h1, h2⟩ h

/-- A thread in a call that does not wait for a lock can go on. -/
theorem can_step (hI : Inv c s home) (hw : ∀ i, ¬ Waiting s t i) : CanStep c s t := by
  have hp := hI.pcs t
  cases hpc : s.pc t with
  | idle => exact ⟨_, _, Step.call ⟨1, 0⟩ hpc (by decide) (Or.inl (by decide))⟩
  | direct r => exact ⟨_, _, Step.directFail hpc⟩
  | wait i r => exact absurd (Or.inl ⟨r, hpc⟩) (hw i)
  | get i r =>
    rw [hpc] at hp
    cases hav : (s.bk i).avail with
    | nil => exact ⟨_, _, Step.getNoHost hpc hav⟩
    | cons id rest =>
      obtain ⟨o, h1, -⟩ := hI.heap.listed i id (Or.inl (by rw [hav]; exact List.mem_cons_self ..))
      by_cases h0 : o.used = 0
      · by_cases hz : (s.bk i).pooled = 0
        · exact ⟨_, _, Step.getEmptyBad hpc hav h1 h0 hz⟩
        · exact ⟨_, _, Step.getEmpty hpc hav h1 h0 (by omega)⟩
      · exact ⟨_, _, Step.getUsed hpc hav h1 h0⟩
  | make i r => exact ⟨_, _, Step.makeFail hpc⟩
  | reg i r id => exact ⟨_, _, Step.regFail hpc⟩
  | take i r =>
    rw [hpc] at hp
    cases hav : (s.bk i).avail with
    | nil => exact absurd hav hp.2.2
    | cons id rest =>
      obtain ⟨o, h1, -⟩ := hI.heap.listed i id (Or.inl (by rw [hav]; exact List.mem_cons_self ..))
      cases hf : firstFree o.free with
      | none => exact ⟨_, _, Step.takeBad hpc hav h1 hf⟩
      | some k => exact ⟨_, _, Step.takeOk hpc hav h1 hf⟩
  | fin i fr => exact ⟨_, _, Step.unlock hpc⟩
  | drop id i fr =>
    rw [hpc] at hp
    obtain ⟨-, o, h1, -⟩ := hp
    exact ⟨_, _, Step.drop hpc h1⟩
  | dropObj id i fr => exact ⟨_, _, Step.dropObj hpc⟩
  | find tk ptr t0 us =>
    obtain ⟨res, hres⟩ := find_answer (s.seen t0) (by simp [St.seen]) ptr
    cases res with
    | none => exact ⟨_, _, Step.findNone hpc hres⟩
    | some p => exact ⟨_, _, Step.findSome p.1 p.2 hpc hres⟩
  | read tk ptr id us =>
    rw [hpc] at hp
    obtain ⟨⟨a, k1, -⟩, -⟩ := hp
    cases ho : s.objs id with
    | none => exact ⟨_, _, Step.readBad hpc ho⟩
    | some o =>
      by_cases h : slabEnd c o.base ≤ ptr
      · exact ⟨_, _, Step.readPast hpc ho h⟩
      · cases us with
        | false => exact ⟨_, _, Step.readFree hpc ho (by omega)⟩
        | true => exact ⟨_, _, Step.readUsable hpc ho (by omega) k1⟩
  | info tk ptr us =>
    rw [hpc] at hp
    obtain ⟨a, k1, k2, k3⟩ := hI.direct_mem hp.1 hp.2
    cases us with
    | false => exact ⟨_, _, Step.infoFree hpc k3⟩
    | true => exact ⟨_, _, Step.infoUsable hpc k3 k1⟩
  | pfree tk ptr z => exact ⟨_, _, Step.pfree hpc⟩
  | fwait tk ptr id i => exact absurd (Or.inr ⟨tk, ptr, id, hpc⟩) (hw i)
  | chunk tk ptr id i =>
    rw [hpc] at hp
    obtain ⟨-, -, k, -, o, g1, -⟩ := hp
    exact ⟨_, _, Step.chunkOk hpc g1⟩
  | add id i => exact ⟨_, _, Step.add hpc⟩
  | cmp id i prev =>
    by_cases h : (prev + slabSize c i) % 2 ^ 64 ≤ c.limMax
    · exact ⟨_, _, Step.keep hpc h⟩
    · exact ⟨_, _, Step.exceed hpc h⟩
  | back id i => exact ⟨_, _, Step.back hpc⟩
  | unreg id i =>
    rw [hpc] at hp
    obtain ⟨-, ⟨o, h1, -⟩, -⟩ := hp
    exact ⟨_, _, Step.unreg hpc h1⟩

/-- **C67**, no deadlock (partial as above): a thread can always go on, unless it waits for a bucket
lock; then that lock is free, or its holder can go on. -/
theorem C67_progress_partial (hc : CfgOk c) (h : Reach c s) (t : Nat) :
    CanStep c s t ∨ ∃ i u, Waiting s t i ∧ (s.bk i).lock = some u ∧ CanStep c s u := by
  obtain ⟨home, hI⟩ := reach_inv hc h
  by_cases hw : ∃ i, Waiting s t i
  · obtain ⟨i, hw⟩ := hw
    cases hl : (s.bk i).lock with
    | some u =>
      refine Or.inr ⟨i, u, hw, hl, can_step hI ?_⟩
      have hsec := (hI.lock i u).1 hl
      rintro j (⟨r, hr⟩ | ⟨tk, ptr, id, hr⟩) <;> rw [hr] at hsec <;> cases hsec
    | none =>
      left
      rcases hw with ⟨r, hr⟩ | ⟨tk, ptr, id, hr⟩
      · by_cases hi : i < (classes c.minBucket).length
        · exact ⟨_, _, Step.lock hr hi hl⟩
        · exact ⟨_, _, Step.lockBad hr hi⟩
      · exact ⟨_, _, Step.flock hr hl⟩
  · exact Or.inl (can_step hI (fun i h => hw ⟨i, h⟩))

/-- How many steps a call can still take. -/
def rank : Pc → Nat
  | .idle => 0
  | .direct _ => 1
  | .wait _ _ => 7
  | .get _ _ => 6
  | .make _ _ => 5
  | .reg _ _ _ => 4
  | .take _ _ => 1
  | .fin _ _ => 1
  | .drop _ _ _ => 3
  | .dropObj _ _ _ => 2
  | .find _ _ _ _ => 11
  | .read _ _ _ _ => 10
  | .info _ _ _ => 2
  | .pfree _ _ _ => 1
  | .fwait _ _ _ _ => 9
  | .chunk _ _ _ _ => 8
  | .add _ _ => 7
  | .cmp _ _ _ => 6
  | .back _ _ => 5
  | .unreg _ _ => 4

theorem rank_afterPut (id i u p : Nat) : rank (afterPut c id i u p) ≤ 7 := by
  unfold afterPut
  split
  · split <;> simp [rank]
  · simp [rank]

theorem step_rank {e : Ev} (h : Step c t s e s') (hp : s.pc t ≠ .idle) :
    s'.ub = true ∨ rank (s'.pc t) < rank (s.pc t) := by
  cases h with
  | call _ h _ _ => exact absurd h hp
  | callFree h _ _ _ => exact absurd h hp
  | callUsable h _ _ => exact absurd h hp
  | lockBad _ _ => exact Or.inl rfl
  | getEmptyBad _ _ _ _ _ => exact Or.inl rfl
  | takeBad _ _ _ _ => exact Or.inl rfl
  | readBad _ _ => exact Or.inl rfl
  | chunkBad _ _ => exact Or.inl rfl
  | @chunkOk _ ptr id i o h h2 =>
    right
    show rank (Function.update (β := fun _ => Pc) _ t _ t) < _
    rw [upd_eq, h]
    exact Nat.lt_succ_of_le (rank_afterPut ..)
  | _ =>
    rename_i h
    right
    show rank (Function.update (β := fun _ => Pc) _ t _ t) < _
    rw [upd_eq]
    simp [*, rank]

theorem step_pc_other {e : Ev} {u : Nat} (h : Step c u s e s') (hne : t ≠ u) : s'.pc t = s.pc t := by
  have hpf : ∀ q w, (s.provFree q w).pc = s.pc := by
    intro q w; unfold St.provFree; split <;> rfl
  cases h with
  | lockBad _ _ => rfl
  | getEmptyBad _ _ _ _ _ => rfl
  | takeBad _ _ _ _ => rfl
  | readBad _ _ => rfl
  | chunkBad _ _ => rfl
  | drop _ _ =>
    show Function.update (s.provFree _ _).pc u _ t = _
    rw [upd_ne hne, hpf]
  | pfree _ =>
    show Function.update (s.provFree _ _).pc u _ t = _
    rw [upd_ne hne, hpf]
  | _ => exact upd_ne hne

/-- **C67**, the length of a call: inside one call a thread takes at most twelve steps, whatever the
other threads do (waiting for a lock is not a step). -/
theorem C67_bounded {n : Nat} (h : During c t s n s') : n ≤ 12 := by
  have key : n + rank (s'.pc t) ≤ rank (s.pc t) ∨ (s'.ub = true ∧ n ≤ rank (s.pc t) + 1) := by
    induction h with
    | nil => left; omega
    | own _ hu hp hs ih =>
      rcases ih with ih | ⟨ih, -⟩
      · rcases step_rank hs hp with h | h
        · right; exact ⟨h, by omega⟩
        · left; omega
      · rw [hu] at ih; cases ih
    | other _ hu hne hs ih =>
      rcases ih with ih | ⟨ih, -⟩
      · left; rw [step_pc_other hs (Ne.symm hne)]; exact ih
      · rw [hu] at ih; cases ih
    | total x _ ih => exact ih
  have : rank (s.pc t) ≤ 11 := by cases s.pc t <;> simp [rank]
  omega

end

end Verif.Disjoint.Conc
