import Verif.Disjoint.Inv
/-! # Allocation keeps the invariant -/
set_option linter.unusedSimpArgs false
namespace Verif.Disjoint
open Mem

/-- The buckets of a state are well formed, with the given pooled counts. -/
def Bks (c : Cfg) (st : St) (P : Nat → Nat) : Prop :=
  ∀ i, i < nb c → BInv c st.known st.mem i (st.bk i) (P i)

/-- Slabs with the same address are the same slab. -/
theorem slab_unique {c : Cfg} {st : St} {G P} (hc : Core c st G) (hb : Bks c st P) {i j : Nat}
    {s t : Slab} (hi : i < nb c) (hj : j < nb c) (hs : s ∈ slabs (st.bk i))
    (ht : t ∈ slabs (st.bk j)) (he : s.base = t.base) : i = j ∧ s = t := by
  have h1 := ((hb i hi).slab s hs).reg
  have h2 := ((hb j hj).slab t ht).reg
  have h3 := nodup_map_inj hc.knownNodup h1 h2 he
  have h4 : i = j := congrArg Prod.snd h3
  subst h4
  exact ⟨rfl, nodup_map_inj (hb i hi).nodup hs ht he⟩

theorem get_lt {l : List Bool} {k : Nat} {b : Bool} (h : l[k]? = some b) : k < l.length := by
  by_contra hk
  rw [List.getElem?_eq_none (by omega)] at h
  exact absurd h (by simp)

/-- Different chunks do not overlap. -/
theorem unit_disj {c : Cfg} {st : St} {G P} (hc : Core c st G) (hb : Bks c st P) {i j : Nat}
    {s t : Slab} (hi : i < nb c) (hj : j < nb c) (hs : s ∈ slabs (st.bk i))
    (ht : t ∈ slabs (st.bk j)) {k m : Nat} (hk : k < numChunks c i) (hm : m < numChunks c j)
    (hne : ¬ (s.base = t.base ∧ k = m)) : Mem.Disjoint (unit c i s.base k) (unit c j t.base m) := by
  by_cases he : s.base = t.base
  · obtain ⟨rfl, rfl⟩ := slab_unique hc hb hi hj hs ht he
    have hkm : k ≠ m := fun h => hne ⟨rfl, h⟩
    apply disjoint_of
    show s.base + k * csize c i + csize c i ≤ s.base + m * csize c i ∨
      s.base + m * csize c i + csize c i ≤ s.base + k * csize c i
    rcases Nat.lt_or_ge k m with h | h
    · left
      have : (k + 1) * csize c i ≤ m * csize c i := Nat.mul_le_mul_right _ h
      rw [Nat.add_mul, Nat.one_mul] at this; omega
    · right
      have : (m + 1) * csize c i ≤ k * csize c i := Nat.mul_le_mul_right _ (by omega)
      rw [Nat.add_mul, Nat.one_mul] at this; omega
  · have h1 := ((hb i hi).slab s hs).inMem
    have h2 := ((hb j hj).slab t ht).inMem
    have h3 := hc.mem.sep h1 h2 (fun h => he (congrArg Prod.fst h))
    have h4 := chunk_bound hk
    have h5 := chunk_bound hm
    apply disjoint_of
    show s.base + k * csize c i + csize c i ≤ t.base + m * csize c j ∨
      t.base + m * csize c j + csize c j ≤ s.base + k * csize c i
    simp only at h3
    rcases h3 with h3 | h3
    · left; omega
    · right; omega

/-- A chunk and memory obtained directly do not overlap. -/
theorem unit_direct_disj {c : Cfg} {st : St} {G P} (hc : Core c st G) (hb : Bks c st P) {i : Nat}
    {s : Slab} (hi : i < nb c) (hs : s ∈ slabs (st.bk i)) {k : Nat} (hk : k < numChunks c i)
    {a : Region} (ha : a ∈ st.mem) (hn : ∀ k ∈ st.known, k.1 ≠ a.1) :
    Mem.Disjoint (unit c i s.base k) a := by
  have h1 := ((hb i hi).slab s hs)
  have h3 := hc.mem.sep h1.inMem ha (fun h => hn _ h1.reg (by rw [← h]))
  have h4 := chunk_bound hk
  apply disjoint_of
  show s.base + k * csize c i + csize c i ≤ a.1 ∨ a.1 + a.2 ≤ s.base + k * csize c i
  simp only at h3
  rcases h3 with h3 | h3
  · left; omega
  · right; omega

theorem setBk_same (st : St) (i : Nat) (b : Bucket) : (setBk st i b).bk i = b := by
  simp [setBk]

theorem setBk_ne (st : St) {i j : Nat} (b : Bucket) (h : j ≠ i) : (setBk st i b).bk j = st.bk j := by
  simp [setBk, h]

theorem takeHead_inv {c : Cfg} {st : St} {G P} (hc : Core c st G) (hb : Bks c st P) {i : Nat}
    (hi : i < nb c) {s : Slab} {rest : List Slab} (hav : (st.bk i).avail = s :: rest)
    (hP : P i = zeros rest) (hP' : ∀ j, j ≠ i → P j = zeros (st.bk j).avail) :
    ∃ k st', takeHead c i st = (st', .ok (s.base + k * csize c i)) ∧ k < numChunks c i ∧
      st'.mem = st.mem ∧ st'.known = st.known ∧ st'.total = st.total ∧
      (∀ j, (st'.bk j).pooled = (st.bk j).pooled) ∧
      Bks c st' (fun j => zeros (st'.bk j).avail) ∧
      ∀ a : Region, (unit c i s.base k).1 ≤ a.1 →
        a.1 + a.2 ≤ (unit c i s.base k).1 + (unit c i s.base k).2 → 0 < a.2 →
        a.1 < slabEnd c s.base → Core c st' ((unit c i s.base k, a) :: G) := by
  have hbi := hb i hi
  have hsl : s ∈ slabs (st.bk i) := by unfold slabs; rw [hav]; simp
  have hso := hbi.slab s hsl
  have hlt := hbi.av s (by rw [hav]; simp)
  cases hff : firstFree s.free with
  | none =>
    have := firstFree_none hff
    have := hso.cnt
    omega
  | some k =>
    have hk1 := firstFree_some hff
    have hk : k < numChunks c i := by rw [← hso.len]; exact get_lt hk1
    -- the new slab and bucket
    obtain ⟨s', hs'⟩ : ∃ s' : Slab, s' = ⟨s.base, s.free.set k false, s.used + 1⟩ := ⟨_, rfl⟩
    obtain ⟨b', hb'⟩ : ∃ b' : Bucket, b' =
        (if s'.used < s'.free.length then { st.bk i with avail := s' :: rest }
         else { st.bk i with avail := rest, unavail := s' :: (st.bk i).unavail }) := ⟨_, rfl⟩
    have hth : takeHead c i st = (setBk st i b', .ok (s.base + k * csize c i)) := by
      unfold takeHead
      simp only [hav, hff]
      rw [hb', hs']
    have hbase : s'.base = s.base := by rw [hs']
    have hlen : s'.free.length = s.free.length := by rw [hs']; simp
    have hused : s'.used = s.used + 1 := by rw [hs']
    have hfree : s'.free = s.free.set k false := by rw [hs']
    have hmem' : ∀ t, t ∈ slabs b' ↔ t = s' ∨ t ∈ rest ∨ t ∈ (st.bk i).unavail := by
      intro t
      rw [hb']
      unfold slabs
      split
      all_goals simp
      all_goals tauto
    have hmem0 : ∀ t, t ∈ slabs (st.bk i) ↔ t = s ∨ t ∈ rest ∨ t ∈ (st.bk i).unavail := by
      intro t; unfold slabs; rw [hav]; simp
    have hnd0 : (s.base :: (rest.map Slab.base ++ (st.bk i).unavail.map Slab.base)).Nodup := by
      have := hbi.nodup
      unfold slabs at this
      rw [hav] at this
      simpa using this
    have hsok : SlabOk c st.known st.mem i s' := by
      refine ⟨by rw [hbase]; exact hso.inMem, by rw [hbase]; exact hso.reg,
        by rw [hlen]; exact hso.len, ?_, by rw [hbase]; exact hso.page⟩
      rw [hused, hfree, count_set_false hk1, hso.cnt]
    have hpool : b'.pooled = (st.bk i).pooled := by rw [hb']; split <;> rfl
    have hz : zeros b'.avail = zeros rest := by
      rw [hb']
      split
      · unfold zeros
        rw [List.countP_cons_of_neg]
        rw [hused]; simp
      · rfl
    have hBi : BInv c st.known st.mem i b' (zeros b'.avail) := by
      refine ⟨?_, ?_, ?_, ?_, ?_, ?_⟩
      · intro t ht
        rcases (hmem' t).1 ht with rfl | ht | ht
        · exact hsok
        · exact hbi.slab t ((hmem0 t).2 (Or.inr (Or.inl ht)))
        · exact hbi.slab t ((hmem0 t).2 (Or.inr (Or.inr ht)))
      · rw [hb']
        unfold slabs
        split
        · simpa [hbase] using hnd0
        · simp only [List.map_append, List.map_cons, hbase]
          exact (List.perm_middle.nodup_iff).2 hnd0
      · intro t ht
        rw [hb'] at ht
        split at ht
        · rename_i hlt'
          rcases List.mem_cons.1 ht with rfl | ht
          · exact hlt'
          · exact hbi.av t (by rw [hav]; exact List.mem_cons_of_mem _ ht)
        · exact hbi.av t (by rw [hav]; exact List.mem_cons_of_mem _ ht)
      · intro t ht
        rw [hb'] at ht
        split at ht
        · exact hbi.un t ht
        · rename_i hlt'
          rcases List.mem_cons.1 ht with rfl | ht
          · omega
          · exact hbi.un t ht
      · rw [hpool, hz, hbi.pooled, hP]
      · rw [hpool]; exact hbi.lim
    have hbk : ∀ j, j ≠ i → (setBk st i b').bk j = st.bk j := fun j hj => setBk_ne st b' hj
    refine ⟨k, setBk st i b', hth, hk, rfl, rfl, rfl, ?_, ?_, ?_⟩
    · intro j
      by_cases hj : j = i
      · subst hj; rw [setBk_same, hpool]
      · rw [hbk j hj]
    · intro j hj
      by_cases hji : j = i
      · subst hji
        simp only [setBk_same]; exact hBi
      · simp only [hbk j hji]
        have := hb j hj
        rw [hP' j hji] at this
        exact this
    · intro a h1 h2 h3 h4
      have hown : ∀ g ∈ G, Owns c (setBk st i b') g.1 g.2 := by
        intro g hg
        rcases (hc.owns g hg).2 with ⟨j, t, m, hj, ht, hm, hu, h5, h6, h7⟩ | ⟨h5, h6, h7⟩
        · left
          by_cases hji : j = i
          · subst hji
            rcases (hmem0 t).1 ht with rfl | ht'
            · refine ⟨j, s', m, hj, ?_, ?_, ?_, h5, h6, ?_⟩
              · rw [setBk_same]; exact (hmem' s').2 (Or.inl rfl)
              · rw [hfree]
                by_cases hmk : m = k
                · subst hmk; rw [hk1] at hm; exact absurd hm (by simp)
                · rw [List.getElem?_set_ne (fun h => hmk h.symm)]; exact hm
              · rw [hbase]; exact hu
              · rw [hbase]; exact h7
            · refine ⟨j, t, m, hj, ?_, hm, hu, h5, h6, h7⟩
              rw [setBk_same]; exact (hmem' t).2 (Or.inr ht')
          · exact ⟨j, t, m, hj, by rw [hbk j hji]; exact ht, hm, hu, h5, h6, h7⟩
        · exact Or.inr ⟨h5, h6, h7⟩
      refine ⟨hc.mem, hc.knownNodup, ?_, ?_, ?_, ?_, hc.bad, ?_⟩
      · intro e he
        obtain ⟨h5, t, ht, h6⟩ := hc.knownSlab e he
        refine ⟨h5, ?_⟩
        by_cases hji : e.2 = i
        · rw [hji] at ht ⊢
          rw [setBk_same]
          rcases (hmem0 t).1 ht with rfl | ht'
          · exact ⟨s', (hmem' s').2 (Or.inl rfl), by rw [hbase]; exact h6⟩
          · exact ⟨t, (hmem' t).2 (Or.inr ht'), h6⟩
        · rw [hbk _ hji]; exact ⟨t, ht, h6⟩
      · intro g hg
        rcases List.mem_cons.1 hg with rfl | hg
        · refine ⟨h3, Or.inl ⟨i, s', k, hi, ?_, ?_, ?_, h1, h2, ?_⟩⟩
          · rw [setBk_same]; exact (hmem' s').2 (Or.inl rfl)
          · rw [hfree, List.getElem?_set_self (get_lt hk1)]
          · rw [hbase]
          · rw [hbase]; exact h4
        · exact ⟨(hc.owns g hg).1, hown g hg⟩
      · rw [List.map_cons, List.pairwise_cons]
        refine ⟨?_, hc.disj⟩
        intro u hu
        rw [List.mem_map] at hu
        obtain ⟨g, hg, rfl⟩ := hu
        rcases (hc.owns g hg).2 with ⟨j, t, m, hj, ht, hm, hu, _, _, _⟩ | ⟨h5, h6, h7⟩
        · rw [hu]
          have hm' : m < numChunks c j := by
            rw [← ((hb j hj).slab t ht).len]; exact get_lt hm
          refine unit_disj hc hb hi hj hsl ht hk hm' ?_
          rintro ⟨he, rfl⟩
          obtain ⟨_, rfl⟩ := slab_unique hc hb hi hj hsl ht he
          rw [hk1] at hm; exact absurd hm (by simp)
        · rw [h5]
          exact unit_direct_disj hc hb hi hsl hk h6 h7
      · intro r hr
        rcases hc.cover r hr with h | ⟨g, hg, h⟩
        · exact Or.inl h
        · exact Or.inr ⟨g, List.mem_cons_of_mem _ hg, h⟩
      · intro j t m hj ht hm
        have hold : t ∈ slabs (st.bk j) → ∃ g ∈ (unit c i s.base k, a) :: G, g.1 = unit c j t.base m := by
          intro ht'
          obtain ⟨g, hg, h⟩ := hc.full j t m hj ht' hm
          exact ⟨g, List.mem_cons_of_mem _ hg, h⟩
        by_cases hji : j = i
        · subst hji
          rw [setBk_same] at ht
          rcases (hmem' t).1 ht with rfl | ht'
          · by_cases hmk : m = k
            · subst hmk
              exact ⟨_, List.mem_cons_self, by rw [hbase]⟩
            · rw [hfree, List.getElem?_set_ne (fun h => hmk h.symm)] at hm
              obtain ⟨g, hg, h⟩ := hc.full j s m hj hsl hm
              exact ⟨g, List.mem_cons_of_mem _ hg, by rw [hbase]; exact h⟩
          · exact hold ((hmem0 t).2 (Or.inr ht'))
        · rw [hbk j hji] at ht; exact hold ht

theorem MemInv.cons {c : Cfg} {mem : List Region} {env : Env} (h : MemInv mem) (he : EnvOk c mem env)
    {p size al : Nat} (hp : env.up size al = some p) (hs : 0 < size) : MemInv ((p, size) :: mem) := by
  obtain ⟨h1, h2, h3, _, _⟩ := he size al p hp hs
  refine ⟨List.pairwise_cons.2 ⟨h3, h.disj⟩, ?_⟩
  intro r hr
  rcases List.mem_cons.1 hr with rfl | hr
  · exact ⟨h1, hs, h2⟩
  · exact h.ok r hr

theorem fresh_start {c : Cfg} {mem : List Region} {env : Env} (h : MemInv mem) (he : EnvOk c mem env)
    {p size al : Nat} (hp : env.up size al = some p) (hs : 0 < size) {r : Region} (hr : r ∈ mem) :
    r.1 ≠ p := by
  obtain ⟨_, _, h3, _, _⟩ := he size al p hp hs
  intro e
  exact h3 r hr p ⟨⟨Nat.le_refl _, by show p < p + size; omega⟩, by omega, by
    have := (h.ok r hr).2.1; omega⟩

/-- Creating a slab. -/
theorem createSlab_inv {c : Cfg} (hcfg : CfgOk c) {st : St} {G ext} (hI : Inv c st G ext) {i : Nat}
    (hi : i < nb c) (hav : (st.bk i).avail = []) {env : Env} (he : EnvOk c st.mem env) {st1 : St}
    (hcr : createSlab c i st env = some st1) :
    ∃ s, (st1.bk i).avail = [s] ∧ Core c st1 G ∧ Bks c st1
        (fun j => if j = i then 0 else zeros (st1.bk j).avail) ∧
      st1.total = st.total ∧ (∀ j, (st1.bk j).pooled = (st.bk j).pooled) ∧
      (c.page ≠ 0 → c.page ∣ s.base) ∧ (s.base, slabSize c i) ∈ st1.mem := by
  unfold createSlab at hcr
  by_cases hh : env.host = false
  · rw [if_pos hh] at hcr; exact absurd hcr (by simp)
  rw [if_neg hh] at hcr
  cases hup : env.up (slabSize c i) 0 with
  | none => rw [hup] at hcr; exact absurd hcr (by simp)
  | some p =>
    rw [hup] at hcr
    simp only at hcr
    by_cases hr : env.reg = false ∨ st.known.any (fun k => k.1 == p) = true
    · rw [if_pos hr] at hcr; exact absurd hcr (by simp)
    rw [if_neg hr] at hcr
    cases hcr
    have hpos := slabSize_pos hcfg i
    have hfs : ∀ r ∈ st.mem, r.1 ≠ p := fun r hr => fresh_start hI.core.mem he hup hpos hr
    have hpg := (he _ _ p hup hpos).2.2.2.1
    obtain ⟨s, hs⟩ : ∃ s : Slab, s = ⟨p, List.replicate (numChunks c i) true, 0⟩ := ⟨_, rfl⟩
    rw [← hs]
    have hsb : s.base = p := by rw [hs]
    have hkn : ∀ k ∈ st.known, k.1 ≠ p := by
      intro k hk e
      apply hr; right
      rw [List.any_eq_true]
      exact ⟨k, hk, by simp [e]⟩
    have hbi := hI.bk i hi
    have hup' : ∀ (j : Nat) t, j < nb c → t ∈ slabs (st.bk j) → t.base ≠ p := by
      intro j t hj ht
      exact hkn _ ((hI.bk j hj).slab t ht).reg
    have hok : ∀ (j : Nat) t, SlabOk c st.known st.mem j t →
        SlabOk c ((p, i) :: st.known) ((p, slabSize c i) :: st.mem) j t := by
      intro j t h
      exact ⟨List.mem_cons_of_mem _ h.inMem, List.mem_cons_of_mem _ h.reg, h.len, h.cnt, h.page⟩
    have hsok : SlabOk c ((p, i) :: st.known) ((p, slabSize c i) :: st.mem) i s := by
      refine ⟨by rw [hsb]; exact List.mem_cons_self, by rw [hsb]; exact List.mem_cons_self, ?_, ?_,
        by rw [hsb]; exact hpg⟩
      · rw [hs]; simp
      · rw [hs]; simp [List.count_replicate]
    have hbk : ∀ j, j ≠ i → (setBk st i { st.bk i with avail := s :: (st.bk i).avail }).bk j = st.bk j :=
      fun j hj => setBk_ne st _ hj
    have hbs : (setBk st i { st.bk i with avail := s :: (st.bk i).avail }).bk i =
        { st.bk i with avail := s :: (st.bk i).avail } := setBk_same st i _
    have hsl : ∀ (j : Nat) t, t ∈ slabs (st.bk j) →
        t ∈ slabs ((setBk st i { st.bk i with avail := s :: (st.bk i).avail }).bk j) := by
      intro j t ht
      by_cases hj : j = i
      · subst hj; rw [hbs]; unfold slabs at ht ⊢; simp at ht ⊢; tauto
      · rw [hbk j hj]; exact ht
    refine ⟨s, ?_, ?_, ?_, rfl, ?_, by rw [hsb]; exact hpg, by rw [hsb]; exact List.mem_cons_self⟩
    · show ((setBk st i { st.bk i with avail := s :: (st.bk i).avail }).bk i).avail = [s]
      rw [hbs]; simp [hav]
    · refine ⟨hI.core.mem.cons he hup hpos, ?_, ?_, ?_, hI.core.disj, ?_, hI.core.bad, ?_⟩
      · show (List.map Prod.fst ((p, i) :: st.known)).Nodup
        rw [List.map_cons, List.nodup_cons]
        refine ⟨?_, hI.core.knownNodup⟩
        rw [List.mem_map]
        rintro ⟨k, hk, e⟩
        exact hkn k hk e
      · intro k hk
        rcases List.mem_cons.1 hk with rfl | hk
        · refine ⟨hi, s, ?_, hsb⟩
          show s ∈ slabs ((setBk st i { st.bk i with avail := s :: (st.bk i).avail }).bk i)
          rw [hbs]; unfold slabs; simp
        · obtain ⟨h1, t, ht, h2⟩ := hI.core.knownSlab k hk
          exact ⟨h1, t, hsl _ t ht, h2⟩
      · intro g hg
        obtain ⟨h0, h⟩ := hI.core.owns g hg
        refine ⟨h0, ?_⟩
        rcases h with ⟨j, t, m, hj, ht, hm, hu, h5, h6, h7⟩ | ⟨h5, h6, h7⟩
        · exact Or.inl ⟨j, t, m, hj, hsl j t ht, hm, hu, h5, h6, h7⟩
        · refine Or.inr ⟨h5, List.mem_cons_of_mem _ h6, ?_⟩
          intro k hk
          rcases List.mem_cons.1 hk with rfl | hk
          · exact (hfs _ h6).symm
          · exact h7 k hk
      · intro r hr'
        rcases List.mem_cons.1 hr' with rfl | hr'
        · exact Or.inl ⟨(p, i), List.mem_cons_self, rfl⟩
        · rcases hI.core.cover r hr' with ⟨k, hk, h⟩ | h
          · exact Or.inl ⟨k, List.mem_cons_of_mem _ hk, h⟩
          · exact Or.inr h
      · intro j t m hj ht hm
        change t ∈ slabs ((setBk st i { st.bk i with avail := s :: (st.bk i).avail }).bk j) at ht
        by_cases hji : j = i
        · subst hji
          rw [hbs] at ht
          have : t = s ∨ t ∈ slabs (st.bk j) := by unfold slabs at ht ⊢; simp at ht ⊢; tauto
          rcases this with rfl | ht'
          · exact absurd hm (count_false_zero (by rw [← hsok.cnt, hs]))
          · exact hI.core.full j t m hj ht' hm
        · rw [hbk j hji] at ht; exact hI.core.full j t m hj ht hm
    · intro j hj
      by_cases hji : j = i
      · subst hji
        simp only [if_true]
        show BInv c ((p, j) :: st.known) ((p, slabSize c j) :: st.mem) j
          ((setBk st j { st.bk j with avail := s :: (st.bk j).avail }).bk j) 0
        rw [hbs]
        have hz : (st.bk j).pooled = 0 := by rw [hbi.pooled, hav]; rfl
        refine ⟨?_, ?_, ?_, ?_, hz, hbi.lim⟩
        · intro t ht
          have : t = s ∨ t ∈ slabs (st.bk j) := by unfold slabs at ht ⊢; simp at ht ⊢; tauto
          rcases this with rfl | ht
          · exact hsok
          · exact hok j t (hbi.slab t ht)
        · show (List.map Slab.base (s :: slabs (st.bk j))).Nodup
          rw [List.map_cons, List.nodup_cons]
          refine ⟨?_, hbi.nodup⟩
          rw [List.mem_map]
          rintro ⟨t, ht, e⟩
          exact hup' j t hj ht (by rw [e, hsb])
        · intro t ht
          simp only [hav, List.mem_singleton] at ht
          subst ht
          rw [hs]
          simp [numChunks]
        · exact hbi.un
      · simp only [if_neg hji]
        show BInv c ((p, i) :: st.known) ((p, slabSize c i) :: st.mem) j
          ((setBk st i { st.bk i with avail := s :: (st.bk i).avail }).bk j)
          (zeros ((setBk st i { st.bk i with avail := s :: (st.bk i).avail }).bk j).avail)
        rw [hbk j hji]
        have h := hI.bk j hj
        exact ⟨fun t ht => hok j t (h.slab t ht), h.nodup, h.av, h.un, h.pooled, h.lim⟩
    · intro j
      show ((setBk st i { st.bk i with avail := s :: (st.bk i).avail }).bk j).pooled = _
      by_cases hji : j = i
      · subst hji; rw [hbs]
      · rw [hbk j hji]

/-- `bucket_get_free_chunk`. -/
theorem getFreeChunk_inv {c : Cfg} (hcfg : CfgOk c) {st : St} {G ext} (hI : Inv c st G ext)
    {i : Nat} (hi : i < nb c) {env : Env} (he : EnvOk c st.mem env) {st' : St} {r : Res}
    (hg : getFreeChunk c i st env = (st', r)) :
    (r = .null ∧ st' = st) ∨
    ∃ base k, r = .ok (base + k * csize c i) ∧ k < numChunks c i ∧ (c.page ≠ 0 → c.page ∣ base) ∧
      (base, slabSize c i) ∈ st'.mem ∧ MemInv st'.mem ∧
      ∀ a : Region, (unit c i base k).1 ≤ a.1 →
        a.1 + a.2 ≤ (unit c i base k).1 + (unit c i base k).2 → 0 < a.2 →
        a.1 < slabEnd c base → Inv c st' ((unit c i base k, a) :: G) ext := by
  unfold getFreeChunk at hg
  cases hav : (st.bk i).avail with
  | nil =>
    simp only [hav] at hg
    cases hcr : createSlab c i st env with
    | none => rw [hcr] at hg; cases hg; exact Or.inl ⟨rfl, rfl⟩
    | some st1 =>
      rw [hcr] at hg
      simp only at hg
      right
      obtain ⟨s, h1, h2, h3, h4, h5, h6, h7⟩ := createSlab_inv hcfg hI hi hav he hcr
      obtain ⟨k, st2, h8, h9, h10, h11, h12, h13, h14, h15⟩ :=
        takeHead_inv h2 h3 hi h1 (by simp [zeros]) (by intro j hj; simp [hj])
      rw [h8] at hg
      cases hg
      refine ⟨s.base, k, rfl, h9, h6, by rw [h10]; exact h7, by rw [h10]; exact h2.mem, ?_⟩
      intro a a1 a2 a3 a4
      refine ⟨h15 a a1 a2 a3 a4, h14, ?_, by rw [h12, h4]; exact hI.lim⟩
      rw [h12, h4, hI.total]
      congr 1
      apply sumTo_congr
      intro j _
      rw [h13, h5]
  | cons s rest =>
    simp only [hav] at hg
    right
    have hbi := hI.bk i hi
    have hsl : s ∈ slabs (st.bk i) := by unfold slabs; rw [hav]; simp
    have hso := hbi.slab s hsl
    by_cases hu : s.used = 0
    · rw [if_pos hu] at hg
      have hz : zeros (st.bk i).avail = zeros rest + 1 := by
        rw [hav]; unfold zeros; rw [List.countP_cons_of_pos]; simp [hu]
      have hp := hbi.pooled
      obtain ⟨b0, hb0⟩ : ∃ b0 : Bucket, b0 = { st.bk i with pooled := (st.bk i).pooled - 1 } :=
        ⟨_, rfl⟩
      obtain ⟨st1, hst1⟩ : ∃ st1 : St, st1 =
        { setBk st i b0 with total := st.total - slabSize c i } := ⟨_, rfl⟩
      replace hg : takeHead c i st1 = (st', r) := by rw [hst1, hb0]; simp only [hav]; exact hg
      have hbs : st1.bk i = b0 := by rw [hst1]; exact setBk_same st i b0
      have hbk : ∀ j, j ≠ i → st1.bk j = st.bk j := by
        intro j hj; rw [hst1]; exact setBk_ne st b0 hj
      have hslj : ∀ j, slabs (st1.bk j) = slabs (st.bk j) := by
        intro j
        by_cases hj : j = i
        · subst hj; rw [hbs, hb0]; rfl
        · rw [hbk j hj]
      have hmem : st1.mem = st.mem := by rw [hst1]; rfl
      have hkn : st1.known = st.known := by rw [hst1]; rfl
      have hcore : Core c st1 G := by
        refine ⟨by rw [hmem]; exact hI.core.mem, by rw [hkn]; exact hI.core.knownNodup, ?_, ?_,
          hI.core.disj, ?_, by rw [hst1]; exact hI.core.bad, ?_⟩
        · rw [hkn]; intro e he'; rw [hslj]; exact hI.core.knownSlab e he'
        · intro g hg'
          obtain ⟨h0, h⟩ := hI.core.owns g hg'
          refine ⟨h0, ?_⟩
          unfold Owns
          rw [hmem, hkn]
          rcases h with ⟨j, t, m, hj, ht, h⟩ | h
          · exact Or.inl ⟨j, t, m, hj, by rw [hslj]; exact ht, h⟩
          · exact Or.inr h
        · rw [hmem, hkn]; exact hI.core.cover
        · intro j t m hj ht hm
          rw [hslj] at ht
          exact hI.core.full j t m hj ht hm
      have hbks : Bks c st1 (fun j => if j = i then zeros rest else zeros (st1.bk j).avail) := by
        intro j hj
        by_cases hji : j = i
        · subst hji
          simp only [if_true]
          rw [hbs, hb0, hmem, hkn]
          refine ⟨hbi.slab, hbi.nodup, hbi.av, hbi.un, ?_, ?_⟩
          · show (st.bk j).pooled - 1 = _; omega
          · show (st.bk j).pooled - 1 ≤ _
            have := hbi.lim; omega
        · simp only [if_neg hji]
          rw [hbk j hji, hmem, hkn]
          exact hI.bk j hj
      have hav1 : (st1.bk i).avail = s :: rest := by rw [hbs, hb0]; exact hav
      obtain ⟨k, st2, h8, h9, h10, h11, h12, h13, h14, h15⟩ :=
        takeHead_inv hcore hbks hi hav1 (by simp) (by intro j hj; simp [hj])
      rw [h8] at hg
      cases hg
      have hsum := sumTo_update (f := fun j => (st1.bk j).pooled * slabSize c j)
        (g := fun j => (st.bk j).pooled * slabSize c j) hi (by intro j hj; simp only [hbk j hj])
      have e1 : (st1.bk i).pooled = (st.bk i).pooled - 1 := by rw [hbs, hb0]
      have e2 : (st.bk i).pooled * slabSize c i =
          ((st.bk i).pooled - 1) * slabSize c i + slabSize c i := by
        obtain ⟨q, hq⟩ : ∃ q, (st.bk i).pooled = q + 1 := ⟨(st.bk i).pooled - 1, by omega⟩
        rw [hq, Nat.add_sub_cancel, Nat.add_mul, Nat.one_mul]
      simp only [e1] at hsum
      have ht := hI.total
      have htot1 : st1.total = st.total - slabSize c i := by rw [hst1]
      refine ⟨s.base, k, rfl, h9, hso.page, by rw [h10, hmem]; exact hso.inMem,
        by rw [h10, hmem]; exact hI.core.mem, ?_⟩
      intro a a1 a2 a3 a4
      refine ⟨h15 a a1 a2 a3 a4, h14, ?_, ?_⟩
      · have : sumTo (fun j => (st'.bk j).pooled * slabSize c j) (nb c) =
            sumTo (fun j => (st1.bk j).pooled * slabSize c j) (nb c) := by
          apply sumTo_congr; intro j _; rw [h13]
        rw [this, h12, htot1]
        omega
      · rw [h12, htot1]; have := hI.lim; omega
    · rw [if_neg hu] at hg
      have hz : zeros (st.bk i).avail = zeros rest := by
        rw [hav]; unfold zeros; rw [List.countP_cons_of_neg]; simp [hu]
      have hbks : Bks c st (fun j => if j = i then zeros rest else zeros (st.bk j).avail) := by
        intro j hj
        by_cases hji : j = i
        · subst hji; simp only [if_true]; rw [← hz]; exact hbi
        · simp only [if_neg hji]; exact hI.bk j hj
      obtain ⟨k, st2, h8, h9, h10, h11, h12, h13, h14, h15⟩ :=
        takeHead_inv hI.core hbks hi hav (by simp) (by intro j hj; simp [hj])
      rw [h8] at hg
      cases hg
      refine ⟨s.base, k, rfl, h9, hso.page, by rw [h10]; exact hso.inMem,
        by rw [h10]; exact hI.core.mem, ?_⟩
      intro a a1 a2 a3 a4
      refine ⟨h15 a a1 a2 a3 a4, h14, ?_, by rw [h12]; exact hI.lim⟩
      rw [h12, hI.total]
      congr 1
      apply sumTo_congr
      intro j _
      rw [h13]

/-- Memory passed on from the provider. -/
theorem direct_inv {c : Cfg} {st : St} {G ext} (hI : Inv c st G ext) {size al : Nat}
    (hs : 0 < size) {env : Env} (he : EnvOk c st.mem env) {st' : St} {r : Res}
    (hd : direct st size al env = (st', r)) :
    (r = .null ∧ st' = st) ∨
    ∃ p, r = .ok p ∧ (al ≠ 0 → al ∣ p) ∧ st'.mem = (p, size) :: st.mem ∧
      Inv c st' (((p, size), (p, size)) :: G) ext := by
  unfold direct at hd
  cases hup : env.up size al with
  | none => rw [hup] at hd; cases hd; exact Or.inl ⟨rfl, rfl⟩
  | some p =>
    rw [hup] at hd
    cases hd
    right
    have hfs : ∀ r ∈ st.mem, r.1 ≠ p := fun r hr => fresh_start hI.core.mem he hup hs hr
    obtain ⟨_, _, hdis, _, hal⟩ := he size al p hup hs
    have hkn : ∀ k ∈ st.known, k.1 ≠ p := by
      intro k hk
      obtain ⟨h1, t, ht, h2⟩ := hI.core.knownSlab k hk
      have := ((hI.bk _ h1).slab t ht).inMem
      rw [← h2]
      exact hfs _ this
    refine ⟨p, rfl, hal, rfl, ?_, ?_, hI.total, hI.lim⟩
    · refine ⟨hI.core.mem.cons he hup hs, hI.core.knownNodup, hI.core.knownSlab, ?_, ?_, ?_,
        hI.core.bad, ?_⟩
      · intro g hg
        rcases List.mem_cons.1 hg with rfl | hg
        · exact ⟨hs, Or.inr ⟨rfl, List.mem_cons_self, hkn⟩⟩
        · obtain ⟨h0, h⟩ := hI.core.owns g hg
          refine ⟨h0, ?_⟩
          rcases h with h | ⟨h5, h6, h7⟩
          · exact Or.inl h
          · exact Or.inr ⟨h5, List.mem_cons_of_mem _ h6, h7⟩
      · rw [List.map_cons, List.pairwise_cons]
        refine ⟨?_, hI.core.disj⟩
        intro u hu
        rw [List.mem_map] at hu
        obtain ⟨g, hg, rfl⟩ := hu
        rcases (hI.core.owns g hg).2 with ⟨j, t, m, hj, ht, hm, hu, _, _, _⟩ | ⟨h5, h6, h7⟩
        · have hso := (hI.bk j hj).slab t ht
          refine disjoint_of_inside (hdis _ hso.inMem) (fun x hx => hx) ?_
          rw [hu]
          have hm' : m < numChunks c j := by rw [← hso.len]; exact get_lt hm
          have := chunk_bound hm'
          apply inside_of
          · show t.base ≤ t.base + m * csize c j; omega
          · show t.base + m * csize c j + csize c j ≤ t.base + slabSize c j; omega
        · rw [h5]; exact hdis _ h6
      · intro r hr
        rcases List.mem_cons.1 hr with rfl | hr
        · exact Or.inr ⟨_, List.mem_cons_self, rfl⟩
        · rcases hI.core.cover r hr with h | ⟨g, hg, h⟩
          · exact Or.inl h
          · exact Or.inr ⟨g, List.mem_cons_of_mem _ hg, h⟩
      · intro i t m hi ht hm
        obtain ⟨g, hg, h⟩ := hI.core.full i t m hi ht hm
        exact ⟨g, List.mem_cons_of_mem _ hg, h⟩
    · intro i hi
      have h := hI.bk i hi
      refine ⟨?_, h.nodup, h.av, h.un, h.pooled, h.lim⟩
      intro t ht
      have h' := h.slab t ht
      exact ⟨List.mem_cons_of_mem _ h'.inMem, h'.reg, h'.len, h'.cnt, h'.page⟩

end Verif.Disjoint
