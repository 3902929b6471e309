import Verif.Disjoint.Lemmas
/-! # Destruction, usable sizes and kept slabs: proofs -/
set_option linter.unusedSimpArgs false
namespace Verif.Disjoint
open Mem

theorem foldFree_ok : ∀ (L : List Slab) (sz : Nat) (st : St),
    (L.map Slab.base).Nodup → (∀ s ∈ L, (s.base, sz) ∈ st.mem) → st.mem.Nodup →
    (L.foldl (fun s sl => provFree s (sl.base, sz)) st).bad = st.bad ∧
    (L.foldl (fun s sl => provFree s (sl.base, sz)) st).bk = st.bk ∧
    (L.foldl (fun s sl => provFree s (sl.base, sz)) st).mem.Nodup ∧
    ∀ r, r ∈ (L.foldl (fun s sl => provFree s (sl.base, sz)) st).mem ↔
      r ∈ st.mem ∧ ∀ s ∈ L, r ≠ (s.base, sz) := by
  intro L sz
  induction L with
  | nil => intro st _ _ h; exact ⟨rfl, rfl, h, fun r => by simp⟩
  | cons x L ih =>
    intro st h1 h2 h3
    rw [List.map_cons, List.nodup_cons] at h1
    have hx := h2 x List.mem_cons_self
    rw [List.foldl_cons, provFree_mem hx]
    have hne : ∀ s ∈ L, (s.base, sz) ≠ (x.base, sz) := by
      intro s hs e
      exact h1.1 (List.mem_map.2 ⟨s, hs, congrArg Prod.fst e⟩)
    obtain ⟨i1, i2, i3, i4⟩ := ih { st with mem := st.mem.erase (x.base, sz) } h1.2
      (fun s hs => (List.mem_erase_of_ne (hne s hs)).2 (h2 s (List.mem_cons_of_mem _ hs)))
      (h3.erase _)
    refine ⟨i1, i2, i3, fun r => ?_⟩
    rw [i4]
    show r ∈ st.mem.erase (x.base, sz) ∧ _ ↔ _
    rw [h3.mem_erase_iff]
    simp only [List.mem_cons, forall_eq_or_imp]
    tauto

theorem finalize_loop {c : Cfg} {st : St} {G ext} (hI : Inv c st G ext) : ∀ n, n ≤ nb c →
    ((List.range n).foldl (fun s i => destroyBucket c i s) st).bad = false ∧
    ((List.range n).foldl (fun s i => destroyBucket c i s) st).bk = st.bk ∧
    ((List.range n).foldl (fun s i => destroyBucket c i s) st).mem.Nodup ∧
    ∀ r, r ∈ ((List.range n).foldl (fun s i => destroyBucket c i s) st).mem ↔
      r ∈ st.mem ∧ ∀ i, i < n → ∀ s ∈ slabs (st.bk i), r ≠ (s.base, slabSize c i) := by
  intro n
  induction n with
  | zero => intro _; exact ⟨hI.core.bad, rfl, hI.core.mem.nodup, fun r => by simp⟩
  | succ n ih =>
    intro hn
    obtain ⟨i1, i2, i3, i4⟩ := ih (by omega)
    rw [List.range_succ, List.foldl_append, List.foldl_cons, List.foldl_nil]
    generalize (List.range n).foldl (fun s i => destroyBucket c i s) st = s1 at *
    have hbn := hI.bk n (by omega)
    unfold destroyBucket
    rw [i2]
    obtain ⟨j1, j2, j3, j4⟩ := foldFree_ok (slabs (st.bk n)) (slabSize c n) s1 hbn.nodup (by
      intro s hs
      rw [i4]
      refine ⟨(hbn.slab s hs).inMem, ?_⟩
      intro i hi t ht e
      have := (slab_unique hI.core hI.bk (by omega : n < nb c) (by omega) hs ht
        (congrArg Prod.fst e)).1
      omega) i3
    refine ⟨j1.trans i1, j2.trans i2, j3, fun r => ?_⟩
    refine (j4 r).trans ?_
    rw [i4]
    constructor
    · rintro ⟨⟨h1, h2⟩, h3⟩
      refine ⟨h1, fun i hi s hs => ?_⟩
      by_cases hin : i = n
      · subst hin; exact h3 s hs
      · exact h2 i (by omega) s hs
    · rintro ⟨h1, h2⟩
      exact ⟨⟨h1, fun i hi s hs => h2 i (by omega) s hs⟩, fun s hs => h2 n (by omega) s hs⟩

theorem finalize_inv {c : Cfg} {st : St} {G ext} (hI : Inv c st G ext) :
    (finalize c st).bad = false ∧
    ∀ r, r ∈ (finalize c st).mem ↔ r ∈ st.mem ∧ (r, r) ∈ G ∧ ∀ k ∈ st.known, k.1 ≠ r.1 := by
  obtain ⟨h1, _, _, h4⟩ := finalize_loop hI (nb c) (Nat.le_refl _)
  refine ⟨h1, fun r => ?_⟩
  unfold finalize
  rw [h4]
  constructor
  · rintro ⟨hr, hn⟩
    have hkn : ∀ k ∈ st.known, k.1 ≠ r.1 := by
      intro k hk e
      obtain ⟨h5, t, ht, h6⟩ := hI.core.knownSlab k hk
      have hto := ((hI.bk _ h5).slab t ht).inMem
      exact hn k.2 h5 t ht (hI.core.mem.eq_of_start hr hto (by simp only; omega))
    rcases hI.core.cover r hr with ⟨k, hk, h⟩ | ⟨g, hg, h⟩
    · exact absurd (by rw [h]) (hkn k hk)
    · exact ⟨hr, by rw [← h]; exact hg, hkn⟩
  · rintro ⟨hr, _, hn⟩
    refine ⟨hr, fun i hi s hs e => ?_⟩
    exact hn _ ((hI.bk i hi).slab s hs).reg (by rw [e])

/-- The usable size of a live allocation reaches to the end of the memory it owns. -/
theorem usable_inv {c : Cfg} (hc : CfgOk c) {st : St} {G ext} (hI : Inv c st G ext) {u a : Region}
    (hg : (u, a) ∈ G) : usableSize c st a.1 = u.1 + u.2 - a.1 ∧ a.1 + a.2 ≤ u.1 + u.2 := by
  obtain ⟨hsz, hown⟩ := hI.core.owns _ hg
  simp only at hsz hown
  unfold usableSize
  rcases hown with ⟨i, s, k, hi, hs, hk, hu, h1, h2, h3⟩ | ⟨h1, h2, h3⟩
  · have hso := (hI.bk i hi).slab s hs
    have hpos := (hI.core.mem.ok _ hso.inMem).1
    have hub := unit_bounds hI hi hs hk
    have hcs := csize_pos hc hi
    have hu1 : u.1 = s.base + k * csize c i := by rw [hu]; rfl
    have hu2 : u.2 = csize c i := by rw [hu]; rfl
    simp only at hpos
    rw [if_neg (by omega), findLe_slab hI hi hs (by omega) (by omega)]
    simp only
    rw [if_neg (by omega), chunk_idx hcs (k := k) (by omega) (by omega)]
    omega
  · obtain ⟨hp0, hp1, hp2⟩ := hI.core.mem.ok _ h2
    rw [if_neg (by omega)]
    rw [allocInfo_eq hI.core.mem h2 (Nat.le_refl _) (by omega)]
    subst h1
    rcases findLe_direct hI h2 h3 with h | ⟨base, i, h, h'⟩
    · rw [h]; simp only; omega
    · rw [h]; simp only; rw [if_pos h']; omega

/-- What `bucket_free_chunk` does with provider memory. -/
theorem freeChunk_mem {c : Cfg} {st : St} {i : Nat} {p : Nat}
    (hb : BInv c st.known st.mem i (st.bk i) p) {s : Slab} (hs : s ∈ slabs (st.bk i)) {k : Nat}
    {st' : St} (h : freeChunk c i st s.base k = some st') :
    st'.mem = st.mem ∨ st'.mem = st.mem.erase (s.base, slabSize c i) := by
  rw [freeChunk_eq hb hs] at h
  by_cases hu : s.used - 1 = 0
  · rw [if_pos hu] at h
    have hgone : ∀ stx : St, stx.mem = st.mem →
        (provFree stx (s.base, slabSize c i)).mem = st.mem.erase (s.base, slabSize c i) := by
      intro stx e
      rw [provFree_mem (by rw [e]; exact (hb.slab s hs).inMem)]
      show stx.mem.erase _ = _
      rw [e]
    unfold canPool at h
    by_cases h1 : ((setBk st i (freeB1 (st.bk i) s.base k s)).bk i).pooled + 1 ≤ maxPooled c i
    · simp only [if_pos h1] at h
      by_cases h2 : (setBk st i (freeB1 (st.bk i) s.base k s)).total + slabSize c i ≤ c.limMax
      · simp only [if_pos h2] at h; cases h; exact Or.inl rfl
      · simp only [if_neg h2] at h; cases h; exact Or.inr (hgone _ rfl)
    · simp only [if_neg h1] at h; cases h; exact Or.inr (hgone _ rfl)
  · rw [if_neg hu] at h; cases h; exact Or.inl rfl

/-- What `umfPoolFree` of a live allocation does with provider memory. -/
theorem free_mem {c : Cfg} (hc : CfgOk c) {st : St} {G} {u a : Region} {ext : Nat}
    (hI : Inv c st G ext) (hg : (u, a) ∈ G) {st' : St} {r : FRes}
    (hf : free c st a.1 = (st', r)) :
    ∃ m ∈ st.mem, Inside a m ∧ (st'.mem = st.mem ∨ st'.mem = st.mem.erase m) ∧
      ((∀ k ∈ st.known, k.1 ≠ m.1) → m = a ∧ st'.mem = st.mem.erase a) := by
  obtain ⟨hsz, hown⟩ := hI.core.owns _ hg
  simp only at hsz hown
  unfold free at hf
  rcases hown with ⟨i, s, k, hi, hs, hk, hu, h1, h2, h3⟩ | ⟨h1, h2, h3⟩
  · have hso := (hI.bk i hi).slab s hs
    have hpos := (hI.core.mem.ok _ hso.inMem).1
    have hub := unit_bounds hI hi hs hk
    have hcs := csize_pos hc hi
    have hu1 : u.1 = s.base + k * csize c i := by rw [hu]; rfl
    have hu2 : u.2 = csize c i := by rw [hu]; rfl
    simp only at hpos
    rw [if_neg (by omega), findLe_slab hI hi hs (by omega) (by omega)] at hf
    simp only at hf
    rw [if_neg (by omega)] at hf
    rw [chunk_idx hcs (k := k) (by omega) (by omega)] at hf
    refine ⟨_, hso.inMem, inside_of (by simp only; omega) (by simp only; omega), ?_,
      fun h => absurd rfl (h (s.base, i) hso.reg)⟩
    cases hfc : freeChunk c i st s.base k with
    | none => rw [hfc] at hf; cases hf; exact Or.inl rfl
    | some st1 => rw [hfc] at hf; cases hf; exact freeChunk_mem (hI.bk i hi) hs hfc
  · obtain ⟨hp0, hp1, hp2⟩ := hI.core.mem.ok _ h2
    rw [if_neg (by omega)] at hf
    have hreg : (st', r) = regularFree st a.1 := by
      rcases findLe_direct hI h2 h3 with h | ⟨base, i, h, h'⟩
      · rw [h] at hf; exact hf.symm
      · rw [h] at hf; simp only at hf; rw [if_pos h'] at hf; exact hf.symm
    unfold regularFree at hreg
    rw [allocInfo_eq hI.core.mem h2 (Nat.le_refl _) (by omega)] at hreg
    simp only at hreg
    rw [provFree_mem (by exact h2)] at hreg
    cases hreg
    exact ⟨a, h2, fun x hx => hx, Or.inr rfl, fun _ => ⟨rfl, rfl⟩⟩

/-- Empty slabs are the ones the counter counts. -/
theorem kept_eq {c : Cfg} {st : St} {G ext} (hI : Inv c st G ext) {i : Nat} (hi : i < nb c) :
    kept st i = (st.bk i).pooled := by
  have hb := hI.bk i hi
  have hall : ∀ s : Slab, s.used = s.free.count false → (s.free.all id = true ↔ (s.used == 0) = true) := by
    intro s hs
    rw [hs, List.all_eq_true, beq_iff_eq, List.count_eq_zero]
    constructor
    · intro h hf; have := h false hf; simp at this
    · intro h b hb
      cases b with
      | true => rfl
      | false => exact absurd hb h
  unfold kept
  rw [List.countP_append, hb.pooled]
  have h1 : (st.bk i).unavail.countP (fun s => s.free.all id) = 0 := by
    rw [List.countP_eq_zero]
    intro s hs h
    have hso := hb.slab s (by unfold slabs; simp [hs])
    have h2 := (hall s hso.cnt).1 h
    have h3 := hb.un s hs
    have h4 := hso.len
    simp only [beq_iff_eq] at h2
    have : 0 < numChunks c i := by unfold numChunks; omega
    omega
  rw [h1, Nat.add_zero]
  unfold zeros
  apply List.countP_congr
  intro s hs
  exact hall s (hb.slab s (by unfold slabs; simp [hs])).cnt

end Verif.Disjoint
