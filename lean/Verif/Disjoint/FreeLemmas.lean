import Verif.Disjoint.AllocLemmas
/-! # Freeing keeps the invariant -/
set_option linter.unusedSimpArgs false
namespace Verif.Disjoint
open Mem

/-- The bucket after the chunk was marked free, before the slab is possibly released. -/
def freeB1 (b : Bucket) (base idx : Nat) (s : Slab) : Bucket :=
  let s' : Slab := ⟨base, s.free.set idx true, s.used - 1⟩
  if s'.free.length - s'.used = 1 then
    { b with
      avail := s' :: b.avail
      unavail := b.unavail.filter fun t => t.base != base }
  else
    { b with
      avail := b.avail.map fun t => if t.base = base then s' else t
      unavail := b.unavail.map fun t => if t.base = base then s' else t }

theorem provFree_mem {st : St} {r : Region} (h : r ∈ st.mem) :
    provFree st r = { st with mem := st.mem.erase r } := if_pos h

theorem filter_ne {l1 l2 : List Slab} {s : Slab} {base : Nat} (hs : s.base = base)
    (h1 : ∀ t ∈ l1, t.base ≠ base) (h2 : ∀ t ∈ l2, t.base ≠ base) :
    (l1 ++ s :: l2).filter (fun t => t.base != base) = l1 ++ l2 := by
  rw [List.filter_append, List.filter_cons_of_neg (by simp [hs])]
  rw [List.filter_eq_self.2 (fun t ht => by simp [h1 t ht]),
    List.filter_eq_self.2 (fun t ht => by simp [h2 t ht])]

theorem map_ne {l : List Slab} {s' : Slab} {base : Nat} (h : ∀ t ∈ l, t.base ≠ base) :
    l.map (fun t => if t.base = base then s' else t) = l := by
  induction l with
  | nil => rfl
  | cons x l ih =>
    rw [List.map_cons, ih (fun t ht => h t (List.mem_cons_of_mem _ ht)), if_neg (h x List.mem_cons_self)]

/-- Shape of the bucket after marking a chunk free. -/
theorem freeB1_shape {c known mem i} {b : Bucket} {p : Nat} (hb : BInv c known mem i b p) {s : Slab}
    (hs : s ∈ slabs b) {k : Nat} (hk : s.free[k]? = some false) :
    ∃ p1 p2 U, freeB1 b s.base k s =
        { avail := p1 ++ ⟨s.base, s.free.set k true, s.used - 1⟩ :: p2, unavail := U,
          pooled := b.pooled } ∧
      (s :: (p1 ++ p2 ++ U)).Perm (slabs b) ∧ zeros (p1 ++ p2) = zeros b.avail ∧
      (∀ t ∈ p1 ++ p2, t ∈ b.avail) ∧ (∀ t ∈ U, t ∈ b.unavail) := by
  have hso := hb.slab s hs
  have h1 := count_set_true hk
  have h2 := hso.cnt
  have hle : s.free.count false ≤ s.free.length := List.count_le_length
  have hnd := hb.nodup
  unfold slabs at hs
  rw [List.mem_append] at hs
  rcases hs with hs | hs
  · -- the slab was available
    have hlt := hb.av s hs
    obtain ⟨l1, l2, hl⟩ := List.append_of_mem hs
    refine ⟨l1, l2, b.unavail, ?_, ?_, ?_, ?_, fun t ht => ht⟩
    · unfold slabs at hnd
      rw [hl] at hnd
      simp only [List.map_append, List.map_cons, List.append_assoc, List.cons_append] at hnd
      have hnd' := (List.perm_middle.nodup_iff).1 hnd
      rw [List.nodup_cons] at hnd'
      have hne : ∀ t, (t ∈ l1 ∨ t ∈ l2 ∨ t ∈ b.unavail) → t.base ≠ s.base := by
        intro t ht e
        apply hnd'.1
        rw [← e]
        simp only [List.mem_append, List.mem_map]
        rcases ht with ht | ht | ht
        · exact Or.inl ⟨t, ht, rfl⟩
        · exact Or.inr (Or.inl ⟨t, ht, rfl⟩)
        · exact Or.inr (Or.inr ⟨t, ht, rfl⟩)
      unfold freeB1
      simp only [List.length_set]
      rw [if_neg (by omega), hl]
      simp only [List.map_append, List.map_cons, if_true]
      rw [map_ne (fun t ht => hne t (Or.inl ht)), map_ne (fun t ht => hne t (Or.inr (Or.inl ht))),
        map_ne (fun t ht => hne t (Or.inr (Or.inr ht)))]
    · unfold slabs
      rw [hl]
      simp only [List.append_assoc, List.cons_append]
      exact List.perm_middle.symm
    · rw [hl]
      unfold zeros
      rw [List.countP_append, List.countP_append, List.countP_cons_of_neg]
      simp; omega
    · intro t ht
      rw [hl]
      simp at ht ⊢; tauto
  · -- the slab was full
    have hfull := hb.un s hs
    obtain ⟨l1, l2, hl⟩ := List.append_of_mem hs
    refine ⟨[], b.avail, l1 ++ l2, ?_, ?_, rfl, fun t ht => ht, ?_⟩
    · unfold slabs at hnd
      rw [hl] at hnd
      simp only [List.map_append, List.map_cons] at hnd
      have hnd2 := (List.nodup_append.1 hnd).2.1
      have hnd' := (List.perm_middle.nodup_iff).1 hnd2
      rw [List.nodup_cons] at hnd'
      have hne : ∀ t, (t ∈ l1 ∨ t ∈ l2) → t.base ≠ s.base := by
        intro t ht e
        apply hnd'.1
        rw [← e]
        simp only [List.mem_append, List.mem_map]
        rcases ht with ht | ht
        · exact Or.inl ⟨t, ht, rfl⟩
        · exact Or.inr ⟨t, ht, rfl⟩
      unfold freeB1
      simp only [List.length_set]
      rw [if_pos (by omega), hl, filter_ne rfl (fun t ht => hne t (Or.inl ht))
        (fun t ht => hne t (Or.inr ht))]
      rfl
    · unfold slabs
      rw [hl]
      simp only [List.nil_append]
      rw [← List.append_assoc]
      have := @List.perm_middle _ s (b.avail ++ l1) l2
      simp only [List.append_assoc, List.cons_append] at this ⊢
      exact this.symm
    · intro t ht
      rw [hl]
      simp at ht ⊢; tauto

theorem find_slab {c known mem i} {b : Bucket} {p : Nat} (hb : BInv c known mem i b p) {s : Slab}
    (hs : s ∈ slabs b) : (b.avail ++ b.unavail).find? (fun t => t.base == s.base) = some s := by
  cases hf : (b.avail ++ b.unavail).find? (fun t => t.base == s.base) with
  | none =>
    rw [List.find?_eq_none] at hf
    have := hf s hs
    simp at this
  | some t =>
    have h1 := List.mem_of_find?_eq_some hf
    have h2 := List.find?_some hf
    simp only [beq_iff_eq] at h2
    rw [nodup_map_inj hb.nodup h1 hs h2]

theorem freeChunk_eq {c : Cfg} {st : St} {i : Nat} {p : Nat}
    (hb : BInv c st.known st.mem i (st.bk i) p) {s : Slab} (hs : s ∈ slabs (st.bk i)) (k : Nat) :
    freeChunk c i st s.base k =
      (if s.used - 1 = 0 then
        match canPool c i (setBk st i (freeB1 (st.bk i) s.base k s)) with
        | (st2, true) => some st2
        | (st2, false) =>
          some (provFree { setBk st2 i { st2.bk i with
            avail := (st2.bk i).avail.filter fun t => t.base != s.base } with
              known := st2.known.filter fun k => k.1 != s.base } (s.base, slabSize c i))
      else some (setBk st i (freeB1 (st.bk i) s.base k s))) := by
  unfold freeChunk
  simp only [find_slab hb hs]
  rfl

/-- Freeing a chunk. -/
theorem freeChunk_inv {c : Cfg} (hcfg : CfgOk c) {st : St} {G1 G2 : List (Region × Region)}
    {u a : Region} {ext : Nat} (hI : Inv c st (G1 ++ (u, a) :: G2) ext) {i : Nat} (hi : i < nb c)
    {s : Slab} (hs : s ∈ slabs (st.bk i)) {k : Nat} (hk : s.free[k]? = some false)
    (hu : u = unit c i s.base k) :
    ∃ st', freeChunk c i st s.base k = some st' ∧ Inv c st' (G1 ++ G2) ext := by
  have hbi := hI.bk i hi
  have hso := hbi.slab s hs
  have hcs := csize_pos hcfg hi
  have hkn : k < numChunks c i := by rw [← hso.len]; exact get_lt hk
  obtain ⟨p1, p2, U, hb1, hperm, hz, hp, hU⟩ := freeB1_shape hbi hs hk
  obtain ⟨s', hs'⟩ : ∃ s' : Slab, s' = ⟨s.base, s.free.set k true, s.used - 1⟩ := ⟨_, rfl⟩
  rw [← hs'] at hb1
  have hbase : s'.base = s.base := by rw [hs']
  have hlen : s'.free.length = s.free.length := by rw [hs']; simp
  have hused : s'.used = s.used - 1 := by rw [hs']
  have hfree : s'.free = s.free.set k true := by rw [hs']
  have hct := count_set_true hk
  have hcnt := hso.cnt
  have hle : s.free.count false ≤ s.free.length := List.count_le_length
  have hnd : (s.base :: (p1 ++ p2 ++ U).map Slab.base).Nodup := by
    have := (hperm.map Slab.base).nodup_iff.2 hbi.nodup
    simpa using this
  have hne : ∀ t ∈ p1 ++ p2 ++ U, t.base ≠ s.base := by
    intro t ht e
    rw [List.nodup_cons] at hnd
    exact hnd.1 (by rw [← e]; exact List.mem_map.2 ⟨t, ht, rfl⟩)
  have hmem0 : ∀ t, t ∈ slabs (st.bk i) ↔ t = s ∨ t ∈ p1 ++ p2 ++ U := by
    intro t; rw [← hperm.mem_iff]; simp
  -- the other allocations do not use this chunk
  have hother : ∀ g ∈ G1 ++ G2, g ∈ G1 ++ (u, a) :: G2 ∧ Mem.Disjoint g.1 u := by
    intro g hg
    have hd := hI.core.disj
    rw [List.map_append, List.map_cons] at hd
    have hd' := (List.perm_middle.pairwise_iff (fun h => Mem.Disjoint.symm h)).1 hd
    rw [List.pairwise_cons] at hd'
    refine ⟨by simp at hg ⊢; tauto, (hd'.1 g.1 ?_).symm⟩
    rw [← List.map_append]
    exact List.mem_map.2 ⟨g, hg, rfl⟩
  have hdisj : ((G1 ++ G2).map Prod.fst).Pairwise Mem.Disjoint := by
    have hd := hI.core.disj
    rw [List.map_append, List.map_cons] at hd
    have hd' := (List.perm_middle.pairwise_iff (fun h => Mem.Disjoint.symm h)).1 hd
    rw [List.pairwise_cons] at hd'
    rw [List.map_append]; exact hd'.2
  have hsok : SlabOk c st.known st.mem i s' := by
    refine ⟨by rw [hbase]; exact hso.inMem, by rw [hbase]; exact hso.reg,
      by rw [hlen]; exact hso.len, ?_, by rw [hbase]; exact hso.page⟩
    rw [hused, hfree]; omega
  -- ownership when the slab stays
  have hownStay : ∀ g ∈ G1 ++ G2, ∀ stx : St, stx.mem = st.mem → stx.known = st.known →
      (∀ j, j ≠ i → slabs (stx.bk j) = slabs (st.bk j)) →
      (∀ t, t = s' ∨ t ∈ p1 ++ p2 ++ U → t ∈ slabs (stx.bk i)) → Owns c stx g.1 g.2 := by
    intro g hg stx e1 e2 e3 e4
    obtain ⟨hg', hgd⟩ := hother g hg
    unfold Owns
    rw [e1, e2]
    rcases (hI.core.owns g hg').2 with ⟨j, t, m, hj, ht, hm, hug, h5, h6, h7⟩ | h
    · left
      by_cases hji : j = i
      · subst hji
        rcases (hmem0 t).1 ht with rfl | ht'
        · refine ⟨j, s', m, hj, e4 s' (Or.inl rfl), ?_, by rw [hbase]; exact hug, h5, h6,
            by rw [hbase]; exact h7⟩
          rw [hfree]
          by_cases hmk : m = k
          · subst hmk
            exfalso
            rw [hug, hu] at hgd
            exact hgd _ ⟨⟨Nat.le_refl _, Nat.lt_add_of_pos_right hcs⟩, Nat.le_refl _, Nat.lt_add_of_pos_right hcs⟩
          · rw [List.getElem?_set_ne (fun h => hmk h.symm)]; exact hm
        · exact ⟨j, t, m, hj, e4 t (Or.inr ht'), hm, hug, h5, h6, h7⟩
      · exact ⟨j, t, m, hj, by rw [e3 j hji]; exact ht, hm, hug, h5, h6, h7⟩
    · exact Or.inr h
  have hfull : ∀ (j : Nat) t m, j < nb c → t ∈ slabs (st.bk j) → t.free[m]? = some false →
      (t = s → m ≠ k) → ∃ g ∈ G1 ++ G2, g.1 = unit c j t.base m := by
    intro j t m hj ht hm hne'
    obtain ⟨g, hg, h⟩ := hI.core.full j t m hj ht hm
    refine ⟨g, ?_, h⟩
    by_contra hin
    have hgu : g = (u, a) := by simp at hg hin; tauto
    rw [hgu] at h
    have hto := (hI.bk j hj).slab t ht
    have hd := unit_disj hI.core hI.bk hj hi ht hs (k := m) (m := k)
      (by rw [← hto.len]; exact get_lt hm) hkn (by
        rintro ⟨e1, e2⟩
        exact hne' (slab_unique hI.core hI.bk hj hi ht hs e1).2 e2)
    rw [← h, ← hu] at hd
    have hin : Has u u.1 := ⟨Nat.le_refl _, by rw [hu]; exact Nat.lt_add_of_pos_right hcs⟩
    exact hd u.1 ⟨hin, hin⟩
  have hcover : ∀ r ∈ st.mem, (∃ k ∈ st.known, r = (k.1, slabSize c k.2)) ∨
      ∃ g ∈ G1 ++ G2, g = (r, r) := by
    intro r hr
    rcases hI.core.cover r hr with h | ⟨g, hg, h⟩
    · exact Or.inl h
    · by_cases hin : g ∈ G1 ++ G2
      · exact Or.inr ⟨g, hin, h⟩
      · left
        have hgu : g = (u, a) := by simp at hg hin; tauto
        refine ⟨_, hso.reg, ?_⟩
        have hru : r = u := by rw [hgu] at h; exact (congrArg Prod.fst h).symm
        by_contra hner
        have h9 := hI.core.mem.sep hr hso.inMem hner
        rw [hru, hu] at h9
        have h10 := chunk_bound hkn
        simp only [unit] at h9
        omega
  have hB1 : ∀ pl, pl ≤ maxPooled c i →
      pl = zeros (p1 ++ s' :: p2) →
      BInv c st.known st.mem i ⟨p1 ++ s' :: p2, U, pl⟩ (zeros (p1 ++ s' :: p2)) := by
    intro pl hlim hz'
    refine ⟨?_, ?_, ?_, ?_, hz', hlim⟩
    · intro t ht
      have : t = s' ∨ t ∈ p1 ++ p2 ++ U := by unfold slabs at ht; simp at ht ⊢; tauto
      rcases this with rfl | ht
      · exact hsok
      · exact hbi.slab t ((hmem0 t).2 (Or.inr ht))
    · unfold slabs
      simp only [List.map_append, List.map_cons, List.append_assoc, List.cons_append]
      rw [List.perm_middle.nodup_iff, hbase]
      simpa [List.map_append] using hnd
    · intro t ht
      have : t = s' ∨ t ∈ p1 ++ p2 := by simp at ht ⊢; tauto
      rcases this with rfl | ht
      · rw [hlen, hused]; have := get_lt hk; omega
      · exact hbi.av t (hp t ht)
    · intro t ht; exact hbi.un t (hU t ht)
  have hzs : zeros (p1 ++ s' :: p2) = zeros (st.bk i).avail + (if s'.used = 0 then 1 else 0) := by
    rw [← hz]
    unfold zeros
    simp only [List.countP_append, List.countP_cons, beq_iff_eq]
    omega
  have hmem1 : ∀ pl t, t ∈ slabs ⟨p1 ++ s' :: p2, U, pl⟩ ↔ t = s' ∨ t ∈ p1 ++ p2 ++ U := by
    intro pl t; unfold slabs; simp; tauto
  rw [freeChunk_eq hbi hs k, hb1]
  -- invariant of a state in which the slab stays
  have hstay : ∀ pl tot, pl ≤ maxPooled c i → pl = zeros (p1 ++ s' :: p2) →
      tot = ext + sumTo (fun j => ((setBk st i ⟨p1 ++ s' :: p2, U, pl⟩).bk j).pooled * slabSize c j)
        (nb c) → tot ≤ c.limMax →
      Inv c { setBk st i ⟨p1 ++ s' :: p2, U, pl⟩ with total := tot } (G1 ++ G2) ext := by
    intro pl tot h1 h2 h3 h4
    have hbs : (setBk st i ⟨p1 ++ s' :: p2, U, pl⟩).bk i = ⟨p1 ++ s' :: p2, U, pl⟩ :=
      setBk_same st i _
    have hbk : ∀ j, j ≠ i → (setBk st i ⟨p1 ++ s' :: p2, U, pl⟩).bk j = st.bk j :=
      fun j hj => setBk_ne st _ hj
    refine ⟨⟨hI.core.mem, hI.core.knownNodup, ?_, ?_, hdisj, hcover, hI.core.bad, ?_⟩, ?_, h3, h4⟩
    · intro e he
      obtain ⟨h5, t, ht, h6⟩ := hI.core.knownSlab e he
      refine ⟨h5, ?_⟩
      show ∃ s ∈ slabs ((setBk st i ⟨p1 ++ s' :: p2, U, pl⟩).bk e.2), s.base = e.1
      by_cases hji : e.2 = i
      · rw [hji] at ht ⊢
        rw [hbs]
        rcases (hmem0 t).1 ht with rfl | ht'
        · exact ⟨s', (hmem1 pl s').2 (Or.inl rfl), by rw [hbase]; exact h6⟩
        · exact ⟨t, (hmem1 pl t).2 (Or.inr ht'), h6⟩
      · rw [hbk _ hji]; exact ⟨t, ht, h6⟩
    · intro g hg
      refine ⟨(hI.core.owns g (hother g hg).1).1, hownStay g hg _ rfl rfl ?_ ?_⟩
      · intro j hj
        show slabs ((setBk st i ⟨p1 ++ s' :: p2, U, pl⟩).bk j) = _
        rw [hbk j hj]
      · intro t ht
        show t ∈ slabs ((setBk st i ⟨p1 ++ s' :: p2, U, pl⟩).bk i)
        rw [hbs]; exact (hmem1 pl t).2 ht
    · intro j t m hj ht hm
      change t ∈ slabs ((setBk st i ⟨p1 ++ s' :: p2, U, pl⟩).bk j) at ht
      by_cases hji : j = i
      · subst hji
        rw [hbs] at ht
        rcases (hmem1 pl t).1 ht with rfl | ht'
        · by_cases hmk : m = k
          · subst hmk
            rw [hfree, List.getElem?_set_self (get_lt hk)] at hm
            exact absurd hm (by simp)
          · rw [hfree, List.getElem?_set_ne (fun h => hmk h.symm)] at hm
            rw [hbase]
            exact hfull j s m hj hs hm (fun _ => hmk)
        · exact hfull j t m hj ((hmem0 t).2 (Or.inr ht')) hm
            (fun e => absurd (by rw [e]) (hne t ht'))
      · rw [hbk j hji] at ht
        exact hfull j t m hj ht hm
          (fun e => absurd (slab_unique hI.core hI.bk hj hi ht hs (by rw [e])).1 hji)
    · intro j hj
      show BInv c st.known st.mem j ((setBk st i ⟨p1 ++ s' :: p2, U, pl⟩).bk j)
        (zeros ((setBk st i ⟨p1 ++ s' :: p2, U, pl⟩).bk j).avail)
      by_cases hji : j = i
      · subst hji; rw [hbs]; exact hB1 pl h1 h2
      · rw [hbk j hji]; exact hI.bk j hj
  have hsumeq : ∀ pl, pl = (st.bk i).pooled →
      sumTo (fun j => ((setBk st i ⟨p1 ++ s' :: p2, U, pl⟩).bk j).pooled * slabSize c j) (nb c) =
      sumTo (fun j => (st.bk j).pooled * slabSize c j) (nb c) := by
    intro pl hpl
    apply sumTo_congr
    intro j _
    by_cases hji : j = i
    · subst hji; rw [setBk_same, hpl]
    · rw [setBk_ne st _ hji]
  by_cases hu0 : s.used - 1 = 0
  · rw [if_pos hu0]
    have hu0' : s'.used = 0 := by rw [hused]; exact hu0
    rw [if_pos hu0'] at hzs
    have hnofalse : s'.free.count false = 0 := by
      have := hsok.cnt; omega
    -- the slab is released
    have hflt : (p1 ++ s' :: p2).filter (fun t => t.base != s.base) = p1 ++ p2 :=
      filter_ne hbase (fun t ht => hne t (by simp; tauto)) (fun t ht => hne t (by simp; tauto))
    have hgone : Inv c (provFree { setBk (setBk st i ⟨p1 ++ s' :: p2, U, (st.bk i).pooled⟩) i
          ⟨(p1 ++ s' :: p2).filter (fun t => t.base != s.base), U, (st.bk i).pooled⟩ with
          known := st.known.filter fun k => k.1 != s.base } (s.base, slabSize c i)) (G1 ++ G2) ext := by
      have hss : provFree { setBk (setBk st i ⟨p1 ++ s' :: p2, U, (st.bk i).pooled⟩) i
          ⟨(p1 ++ s' :: p2).filter (fun t => t.base != s.base), U, (st.bk i).pooled⟩ with
          known := st.known.filter fun k => k.1 != s.base } (s.base, slabSize c i) =
          { setBk st i ⟨p1 ++ p2, U, (st.bk i).pooled⟩ with
            known := st.known.filter fun k => k.1 != s.base
            mem := st.mem.erase (s.base, slabSize c i) } := by
        rw [hflt]
        rw [provFree_mem (by exact hso.inMem)]
        unfold setBk
        simp only [St.mk.injEq, and_true]
        funext j
        by_cases hj : j = i <;> simp [hj]
      rw [hss]
      have hbs : (setBk st i ⟨p1 ++ p2, U, (st.bk i).pooled⟩).bk i = ⟨p1 ++ p2, U, (st.bk i).pooled⟩ :=
        setBk_same st i _
      have hbk : ∀ j, j ≠ i → (setBk st i ⟨p1 ++ p2, U, (st.bk i).pooled⟩).bk j = st.bk j :=
        fun j hj => setBk_ne st _ hj
      have hkeep : ∀ (j : Nat) t, t.base ≠ s.base → SlabOk c st.known st.mem j t →
          SlabOk c (st.known.filter fun k => k.1 != s.base) (st.mem.erase (s.base, slabSize c i)) j t := by
        intro j t hn h
        refine ⟨(List.mem_erase_of_ne ?_).2 h.inMem, ?_, h.len, h.cnt, h.page⟩
        · intro e; exact hn (congrArg Prod.fst e)
        · rw [List.mem_filter]; exact ⟨h.reg, by simp [hn]⟩
      have hnej : ∀ (j : Nat) t, j < nb c → j ≠ i → t ∈ slabs (st.bk j) → t.base ≠ s.base := by
        intro j t hj hji ht e
        exact hji (slab_unique hI.core hI.bk hj hi ht hs e).1
      refine ⟨⟨?_, ?_, ?_, ?_, hdisj, ?_, hI.core.bad, ?_⟩, ?_, ?_, hI.lim⟩
      · exact ⟨hI.core.mem.disj.sublist List.erase_sublist,
          fun r hr => hI.core.mem.ok r (List.mem_of_mem_erase hr)⟩
      · show (List.map Prod.fst (st.known.filter fun k => k.1 != s.base)).Nodup
        exact hI.core.knownNodup.sublist (List.filter_sublist.map _)
      · intro e he
        obtain ⟨he1, he2⟩ := List.mem_filter.1 he
        simp only [bne_iff_ne, ne_eq] at he2
        obtain ⟨h5, t, ht, h6⟩ := hI.core.knownSlab e he1
        refine ⟨h5, t, ?_, h6⟩
        show t ∈ slabs ((setBk st i ⟨p1 ++ p2, U, (st.bk i).pooled⟩).bk e.2)
        by_cases hji : e.2 = i
        · rw [hji] at ht ⊢
          rw [hbs]
          rcases (hmem0 t).1 ht with rfl | ht'
          · exact absurd h6.symm he2
          · exact ht'
        · rw [hbk _ hji]; exact ht
      · intro g hg
        obtain ⟨hg', hgd⟩ := hother g hg
        refine ⟨(hI.core.owns g hg').1, ?_⟩
        rcases (hI.core.owns g hg').2 with ⟨j, t, m, hj, ht, hm, hug, h5, h6, h7⟩ | ⟨h5, h6, h7⟩
        · left
          by_cases hji : j = i
          · subst hji
            rcases (hmem0 t).1 ht with rfl | ht'
            · exfalso
              by_cases hmk : m = k
              · subst hmk
                rw [hug, hu] at hgd
                exact hgd _ ⟨⟨Nat.le_refl _, Nat.lt_add_of_pos_right hcs⟩, Nat.le_refl _,
                  Nat.lt_add_of_pos_right hcs⟩
              · apply count_false_zero hnofalse (k := m)
                rw [hfree, List.getElem?_set_ne (fun h => hmk h.symm)]; exact hm
            · refine ⟨j, t, m, hj, ?_, hm, hug, h5, h6, h7⟩
              show t ∈ slabs ((setBk st j ⟨p1 ++ p2, U, (st.bk j).pooled⟩).bk j)
              rw [hbs]; exact ht'
          · refine ⟨j, t, m, hj, ?_, hm, hug, h5, h6, h7⟩
            show t ∈ slabs ((setBk st i ⟨p1 ++ p2, U, (st.bk i).pooled⟩).bk j)
            rw [hbk j hji]; exact ht
        · right
          refine ⟨h5, ?_, ?_⟩
          · refine (List.mem_erase_of_ne ?_).2 h6
            intro e; exact h7 _ hso.reg (by rw [e])
          · intro q hq; exact h7 q (List.mem_filter.1 hq).1
      · intro r hr
        have hr' := (hI.core.mem.nodup.mem_erase_iff).1 hr
        rcases hcover r hr'.2 with ⟨q, hq, h⟩ | h
        · left
          refine ⟨q, ?_, h⟩
          show q ∈ st.known.filter fun k => k.1 != s.base
          rw [List.mem_filter]
          refine ⟨hq, ?_⟩
          simp only [bne_iff_ne, ne_eq]
          intro e
          have hq2 := nodup_map_inj hI.core.knownNodup hq hso.reg e
          apply hr'.1
          rw [h, hq2]
        · exact Or.inr h
      · intro j t m hj ht hm
        change t ∈ slabs ((setBk st i ⟨p1 ++ p2, U, (st.bk i).pooled⟩).bk j) at ht
        by_cases hji : j = i
        · subst hji
          rw [hbs] at ht
          exact hfull j t m hj ((hmem0 t).2 (Or.inr ht)) hm (fun e => absurd (by rw [e]) (hne t ht))
        · rw [hbk j hji] at ht
          exact hfull j t m hj ht hm
            (fun e => absurd (slab_unique hI.core hI.bk hj hi ht hs (by rw [e])).1 hji)
      · intro j hj
        show BInv c (st.known.filter fun k => k.1 != s.base) (st.mem.erase (s.base, slabSize c i)) j
          ((setBk st i ⟨p1 ++ p2, U, (st.bk i).pooled⟩).bk j)
          (zeros ((setBk st i ⟨p1 ++ p2, U, (st.bk i).pooled⟩).bk j).avail)
        by_cases hji : j = i
        · subst hji
          rw [hbs]
          refine ⟨?_, ?_, fun t ht => hbi.av t (hp t ht), fun t ht => hbi.un t (hU t ht), ?_, hbi.lim⟩
          · intro t ht
            exact hkeep j t (hne t ht) (hbi.slab t ((hmem0 t).2 (Or.inr ht)))
          · rw [List.nodup_cons] at hnd; exact hnd.2
          · rw [hz]; exact hbi.pooled
        · rw [hbk j hji]
          have h := hI.bk j hj
          exact ⟨fun t ht => hkeep j t (hnej j t hj hji ht) (h.slab t ht), h.nodup, h.av, h.un,
            h.pooled, h.lim⟩
      · show st.total = ext + sumTo (fun j =>
          ((setBk st i ⟨p1 ++ p2, U, (st.bk i).pooled⟩).bk j).pooled * slabSize c j) (nb c)
        rw [hI.total]
        congr 1
        apply sumTo_congr
        intro j _
        by_cases hji : j = i
        · subst hji; rw [hbs]
        · rw [hbk j hji]
    unfold canPool
    simp only [setBk_same]
    by_cases hcap : (st.bk i).pooled + 1 ≤ maxPooled c i
    · rw [if_pos hcap]
      by_cases hlim : (setBk st i ⟨p1 ++ s' :: p2, U, (st.bk i).pooled⟩).total + slabSize c i ≤ c.limMax
      · rw [if_pos hlim]
        refine ⟨_, rfl, ?_⟩
        have hss : setBk (setBk st i ⟨p1 ++ s' :: p2, U, (st.bk i).pooled⟩) i
            ⟨p1 ++ s' :: p2, U, (st.bk i).pooled + 1⟩ =
            setBk st i ⟨p1 ++ s' :: p2, U, (st.bk i).pooled + 1⟩ := by
          unfold setBk
          simp only [St.mk.injEq, and_true]
          funext j
          by_cases hj : j = i <;> simp [hj]
        show Inv c { setBk (setBk st i ⟨p1 ++ s' :: p2, U, (st.bk i).pooled⟩) i
            ⟨p1 ++ s' :: p2, U, (st.bk i).pooled + 1⟩ with total := st.total + slabSize c i } (G1 ++ G2) ext
        rw [hss]
        refine hstay _ _ hcap (by rw [hzs, hbi.pooled]) ?_ hlim
        have hsum := sumTo_update
          (f := fun j => ((setBk st i ⟨p1 ++ s' :: p2, U, (st.bk i).pooled + 1⟩).bk j).pooled * slabSize c j)
          (g := fun j => (st.bk j).pooled * slabSize c j) hi
          (by intro j hj; simp only [setBk_ne st _ hj])
        simp only [setBk_same, Nat.add_mul, Nat.one_mul] at hsum
        have := hI.total
        omega
      · rw [if_neg hlim]
        simp only [setBk_same]
        exact ⟨_, rfl, hgone⟩
    · rw [if_neg hcap]
      simp only [setBk_same]
      exact ⟨_, rfl, hgone⟩
  · rw [if_neg hu0]
    refine ⟨_, rfl, ?_⟩
    have hu0' : ¬ s'.used = 0 := by rw [hused]; exact hu0
    rw [if_neg hu0'] at hzs
    refine hstay _ st.total hbi.lim (by rw [hzs, hbi.pooled]; rfl) ?_ hI.lim
    rw [hsumeq _ rfl]; exact hI.total

end Verif.Disjoint
