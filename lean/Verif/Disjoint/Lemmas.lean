import Verif.Disjoint.FreeLemmas
/-! # The invariant holds in every reachable state -/
set_option linter.unusedSimpArgs false
namespace Verif.Disjoint
open Mem

theorem alignUpSafe_nat {v k : Nat} (hk : k < 64) (h : v + (2 ^ k - 1) < 2 ^ 64) :
    2 ^ k ∣ alignUpSafe v (2 ^ k) ∧ v ≤ alignUpSafe v (2 ^ k) ∧
      alignUpSafe v (2 ^ k) ≤ v + (2 ^ k - 1) := by
  have hp := Nat.two_pow_pos k
  have hv : (BitVec.ofNat 64 v).toNat = v := by
    rw [BitVec.toNat_ofNat]; exact Nat.mod_eq_of_lt (by omega)
  have hpw : BitVec.ofNat 64 (2 ^ k) = Utils.pow2 k := by
    apply BitVec.eq_of_toNat_eq
    rw [Utils.toNat_pow2 hk, BitVec.toNat_ofNat]
    exact Nat.mod_eq_of_lt (Nat.pow_lt_pow_right (by decide) hk)
  unfold alignUpSafe Utils.alignUpSafe
  rw [hpw, if_neg (Utils.pow2_ne_zero hk), if_neg, Utils.alignUp_toNat hk _ (by rw [hv]; exact h), hv]
  · refine ⟨⟨_, Nat.mul_comm _ _⟩, ?_, Nat.div_mul_le_self _ _⟩
    have h1 := Nat.div_add_mod (v + (2 ^ k - 1)) (2 ^ k)
    have h2 := Nat.mod_lt (v + (2 ^ k - 1)) hp
    rw [Nat.mul_comm] at h1
    omega
  · rw [Utils.add_sub_one_lt_iff hk, hv]; omega

theorem mult_between {a x y : Nat} (ha : 0 < a) (hx : a ∣ x) (hy : a ∣ y) (h1 : x ≤ y)
    (h2 : y ≤ x + (a - 1)) : y = x := by
  obtain ⟨m, rfl⟩ := hx
  obtain ⟨n, rfl⟩ := hy
  have h3 : n < m + 1 := by
    apply Nat.lt_of_mul_lt_mul_left (a := a)
    rw [Nat.mul_add, Nat.mul_one]; omega
  have h4 : m ≤ n := Nat.le_of_mul_le_mul_left h1 ha
  have : n = m := by omega
  rw [this]

/-- A chunk address is below the routing end of the slab. -/
theorem route_ok {c : Cfg} (hc : CfgOk c) {i k d : Nat} (hk : k < numChunks c i)
    (hd : d < csize c i) (hd' : d < c.slabMin) : k * csize c i + d < c.slabMin := by
  have := hc.slabMin
  rcases @chunk_route c i k hk with h | h
  · omega
  · subst h; omega

/-- `umfPoolMalloc`. -/
theorem malloc_inv {c : Cfg} (hc : CfgOk c) {st : St} {G ext} (hI : Inv c st G ext) {size : Nat}
    {env : Env} (he : EnvOk c st.mem env) {st' : St} {r : Res}
    (hm : malloc c st size env = (st', r)) :
    (r = .null ∧ st' = st) ∨ ∃ p u, r = .ok p ∧ Inv c st' ((u, (p, size)) :: G) ext := by
  unfold malloc at hm
  by_cases h0 : size = 0
  · rw [if_pos h0] at hm; cases hm; exact Or.inl ⟨rfl, rfl⟩
  rw [if_neg h0] at hm
  by_cases h1 : c.maxPoolable < size
  · rw [if_pos h1] at hm
    rcases direct_inv hI (by omega) he hm with h | ⟨p, h2, _, _, h3⟩
    · exact Or.inl h
    · exact Or.inr ⟨p, _, h2, h3⟩
  rw [if_neg h1] at hm
  unfold fromBucket at hm
  have hidx := idx_lt hc (size := size) (by omega)
  have hsz := idx_size hc (size := size) (by omega)
  generalize sizeToIdx (minExp c.minBucket) size = i at *
  simp only [if_pos hidx] at hm
  rcases getFreeChunk_inv hc hI hidx he hm with h | ⟨base, k, h2, h3, h4, h5, h6, h7⟩
  · exact Or.inl h
  · right
    refine ⟨_, _, h2, h7 _ (Nat.le_refl _) ?_ (by show 0 < size; omega) ?_⟩
    · show base + k * csize c i + size ≤ base + k * csize c i + csize c i; omega
    · have := route_ok hc h3 (d := 0) (by omega) hc.slabMin
      show base + k * csize c i < base + c.slabMin
      omega

/-- `umfPoolAlignedMalloc`. -/
theorem aligned_inv {c : Cfg} (hc : CfgOk c) {st : St} {G ext} (hI : Inv c st G ext) {size q : Nat}
    {env : Env} (he : EnvOk c st.mem env) (ha : AlignOk c size (2 ^ q)) {st' : St} {r : Res}
    (hm : alignedMalloc c st size (2 ^ q) env = (st', r)) :
    (r = .null ∧ st' = st) ∨ ∃ p u, r = .ok p ∧ 2 ^ q ∣ p ∧
      Inv c st' ((u, (p, size)) :: G) ext := by
  have hq := Nat.two_pow_pos q
  unfold alignedMalloc at hm
  by_cases h0 : size = 0
  · rw [if_pos h0] at hm; cases hm; exact Or.inl ⟨rfl, rfl⟩
  rw [if_neg h0] at hm
  by_cases h1 : 2 ^ q ≤ 1
  · rw [if_pos h1] at hm
    rcases malloc_inv hc hI he hm with h | ⟨p, u, h2, h3⟩
    · exact Or.inl h
    · refine Or.inr ⟨p, u, h2, ?_, h3⟩
      rw [show 2 ^ q = 1 by omega]; exact Nat.one_dvd p
  rw [if_neg h1] at hm
  have hq64 : q < 64 := by
    have h2 : 2 ^ q < 2 ^ 64 := by have := ha.nowrap; omega
    exact (Nat.pow_lt_pow_iff_right (by decide)).1 h2
  by_cases h2 : c.maxPoolable < alignedSize c size (2 ^ q)
  · rw [if_pos h2] at hm
    rcases direct_inv hI (by omega) he hm with h | ⟨p, h3, h4, _, h5⟩
    · exact Or.inl h
    · exact Or.inr ⟨p, _, h3, h4 (by omega), h5⟩
  rw [if_neg h2] at hm
  -- facts about the padded size
  have hal : size ≤ alignedSize c size (2 ^ q) ∧ 0 < alignedSize c size (2 ^ q) ∧
      (2 ^ q ≤ c.page → 2 ^ q ∣ alignedSize c size (2 ^ q)) ∧
      (¬ 2 ^ q ≤ c.page → alignedSize c size (2 ^ q) = size + (2 ^ q - 1)) := by
    unfold alignedSize
    by_cases hp : 2 ^ q ≤ c.page
    · rw [if_pos hp]
      by_cases hs1 : 1 < size
      · rw [if_pos hs1]
        obtain ⟨a1, a2, a3⟩ := alignUpSafe_nat hq64 (v := size) (by have := ha.nowrap; omega)
        exact ⟨a2, by omega, fun _ => a1, fun h => absurd hp h⟩
      · rw [if_neg hs1]
        exact ⟨by omega, hq, fun _ => Nat.dvd_refl _, fun h => absurd hp h⟩
    · rw [if_neg hp, Nat.mod_eq_of_lt ha.nowrap]
      exact ⟨by omega, by omega, fun h => absurd h hp, fun _ => by omega⟩
  obtain ⟨hal1, hal2, hal3, hal4⟩ := hal
  have hroute := ha.route
  generalize alignedSize c size (2 ^ q) = asz at *
  unfold fromBucket at hm
  have hidx := idx_lt hc (size := asz) (by omega)
  have hsz := idx_size hc (size := asz) (by omega)
  have hdv : 2 ^ q ∣ asz → 2 ^ q ∣ csize c (sizeToIdx (minExp c.minBucket) asz) :=
    fun h => idx_dvd hc (by omega) hal2 h
  generalize sizeToIdx (minExp c.minBucket) asz = i at *
  simp only [if_pos hidx] at hm
  cases hg : getFreeChunk c i st env with
  | mk st1 r1 =>
    rw [hg] at hm
    rcases getFreeChunk_inv hc hI hidx he hg with ⟨e1, e2⟩ | ⟨base, k, h3, h4, h5, h6, h7, h8⟩
    · subst e1
      cases hm
      exact Or.inl ⟨rfl, e2⟩
    · subst h3
      cases hm
      right
      have hb := (h7.ok _ h6).2.2
      simp only at hb
      have hcb := chunk_bound h4
      by_cases hp : 2 ^ q ≤ c.page
      · -- the chunk is aligned already
        have hpd : 2 ^ q ∣ c.page := by
          rcases hc.page with h | ⟨m, h⟩
          · omega
          · rw [h] at hp ⊢; exact Utils.pow2_dvd_of_le hp
        have hbase : 2 ^ q ∣ base := Nat.dvd_trans hpd (h5 (by omega))
        have hch : 2 ^ q ∣ base + k * csize c i :=
          Nat.dvd_add hbase (Dvd.dvd.mul_left (hdv (hal3 hp)) k)
        have hno : base + k * csize c i + (2 ^ q - 1) < 2 ^ 64 := by
          have hle : base + k * csize c i < 2 ^ 64 := by omega
          obtain ⟨m, hm⟩ := hch
          have h64 : 2 ^ 64 = 2 ^ q * 2 ^ (64 - q) := by
            rw [← Nat.pow_add]; congr 1; omega
          rw [hm, h64] at hle
          have : m < 2 ^ (64 - q) := Nat.lt_of_mul_lt_mul_left hle
          have : 2 ^ q * (m + 1) ≤ 2 ^ q * 2 ^ (64 - q) := Nat.mul_le_mul_left _ this
          rw [Nat.mul_add, Nat.mul_one] at this
          omega
        obtain ⟨a1, a2, a3⟩ := alignUpSafe_nat hq64 hno
        have heq := mult_between hq hch a1 a2 a3
        rw [heq]
        refine ⟨_, unit c i base k, rfl, hch, h8 _ (Nat.le_refl _) ?_ (by show 0 < size; omega) ?_⟩
        · show base + k * csize c i + size ≤ base + k * csize c i + csize c i; omega
        · have := route_ok hc h4 (d := 0) (by omega) hc.slabMin
          show base + k * csize c i < base + c.slabMin
          omega
      · have hasz := hal4 hp
        obtain ⟨a1, a2, a3⟩ := alignUpSafe_nat hq64 (v := base + k * csize c i) (by omega)
        refine ⟨_, unit c i base k, rfl, a1, h8 _ a2 ?_ (by show 0 < size; omega) ?_⟩
        · show alignUpSafe (base + k * csize c i) (2 ^ q) + size ≤
            base + k * csize c i + csize c i
          omega
        · have := route_ok hc h4 (d := alignUpSafe (base + k * csize c i) (2 ^ q) -
            (base + k * csize c i)) (by omega) (by omega)
          show alignUpSafe (base + k * csize c i) (2 ^ q) < base + c.slabMin
          omega

/-- Where the address of a live chunk is found. -/
theorem findLe_slab {c : Cfg} {st : St} {G ext} (hI : Inv c st G ext) {i : Nat}
    (hi : i < nb c) {s : Slab} (hs : s ∈ slabs (st.bk i)) {x : Nat} (h1 : s.base ≤ x)
    (h2 : x < s.base + slabSize c i) : findLe st.known x = some (s.base, i) := by
  have hso := (hI.bk i hi).slab s hs
  cases hf : findLe st.known x with
  | none => have := findLe_none hf _ hso.reg; simp only at this; omega
  | some e =>
    obtain ⟨h3, h4, h5⟩ := findLe_some hf
    have h6 := h5 _ hso.reg h1
    obtain ⟨h7, t, ht, h8⟩ := hI.core.knownSlab e h3
    have hto := (hI.bk _ h7).slab t ht
    by_cases he : e.1 = s.base
    · rw [nodup_map_inj hI.core.knownNodup h3 hso.reg he]
    · exfalso
      have := hI.core.mem.sep hto.inMem hso.inMem (fun h => he (by
        have := congrArg Prod.fst h; simp only at this; omega))
      have := (hI.core.mem.ok _ hto.inMem).2.1
      simp only at *
      omega

/-- Memory obtained directly is not taken for a slab. -/
theorem findLe_direct {c : Cfg} {st : St} {G ext} (hI : Inv c st G ext)
    {a : Region} (ha : a ∈ st.mem) (hn : ∀ k ∈ st.known, k.1 ≠ a.1) :
    findLe st.known a.1 = none ∨
      ∃ base i, findLe st.known a.1 = some (base, i) ∧ slabEnd c base ≤ a.1 := by
  cases hf : findLe st.known a.1 with
  | none => exact Or.inl rfl
  | some e =>
    right
    obtain ⟨h3, h4, _⟩ := findLe_some hf
    obtain ⟨h7, t, ht, h8⟩ := hI.core.knownSlab e h3
    have hto := (hI.bk _ h7).slab t ht
    refine ⟨e.1, e.2, rfl, ?_⟩
    have hne := hn e h3
    have := hI.core.mem.sep hto.inMem ha (fun h => hne (by rw [← h, h8]))
    have := (hI.core.mem.ok _ ha).2.1
    have := @slabMin_le c e.2
    unfold slabEnd
    simp only at *
    omega

theorem unit_bounds {c : Cfg} {st : St} {G ext} (hI : Inv c st G ext) {i : Nat}
    (hi : i < nb c) {s : Slab} (hs : s ∈ slabs (st.bk i)) {k : Nat} (hk : s.free[k]? = some false) :
    s.base + k * csize c i + csize c i ≤ s.base + slabSize c i := by
  have hso := (hI.bk i hi).slab s hs
  have := @chunk_bound c i k (by rw [← hso.len]; exact get_lt hk)
  omega

/-- The chunk number computed from an address in the chunk. -/
theorem chunk_idx {base k cs x : Nat} (hcs : 0 < cs) (h1 : base + k * cs ≤ x)
    (h2 : x < base + k * cs + cs) : (x - base) / cs = k := by
  rw [Nat.div_eq_iff hcs]
  constructor <;> omega

/-- `umfPoolFree` of a live allocation. -/
theorem free_inv {c : Cfg} (hc : CfgOk c) {st : St} {G1 G2 : List (Region × Region)}
    {u a : Region} {ext : Nat} (hI : Inv c st (G1 ++ (u, a) :: G2) ext) {st' : St} {r : FRes}
    (hf : free c st a.1 = (st', r)) : r = .success ∧ Inv c st' (G1 ++ G2) ext := by
  have hmemG : (u, a) ∈ G1 ++ (u, a) :: G2 := by simp
  obtain ⟨hsz, hown⟩ := hI.core.owns _ hmemG
  simp only at hsz hown
  unfold free at hf
  rcases hown with ⟨i, s, k, hi, hs, hk, hu, h1, h2, h3⟩ | ⟨h1, h2, h3⟩
  · have hso := (hI.bk i hi).slab s hs
    have hpos := (hI.core.mem.ok _ hso.inMem).1
    have hub := unit_bounds hI hi hs hk
    have hcs := csize_pos hc hi
    have hu1 : u.1 = s.base + k * csize c i := by rw [hu]; rfl
    have hu2 : u.2 = csize c i := by rw [hu]; rfl
    simp only at hpos
    rw [if_neg (by omega), findLe_slab hI hi hs (by omega) (by omega)] at hf
    simp only at hf
    rw [if_neg (by omega)] at hf
    rw [chunk_idx hcs (k := k) (by omega) (by omega)] at hf
    obtain ⟨st1, h4, h5⟩ := freeChunk_inv hc hI hi hs hk hu
    rw [h4] at hf
    cases hf
    exact ⟨rfl, h5⟩
  · obtain ⟨hp0, hp1, hp2⟩ := hI.core.mem.ok _ h2
    rw [if_neg (by omega)] at hf
    have hreg : (st', r) = regularFree st a.1 := by
      rcases findLe_direct hI h2 h3 with h | ⟨base, i, h, h'⟩
      · rw [h] at hf; exact hf.symm
      · rw [h] at hf; simp only at hf; rw [if_pos h'] at hf; exact hf.symm
    unfold regularFree at hreg
    rw [allocInfo_eq hI.core.mem h2 (Nat.le_refl _) (by omega)] at hreg
    simp only at hreg
    rw [provFree_mem (by exact h2)] at hreg
    cases hreg
    refine ⟨rfl, ⟨?_, hI.core.knownNodup, hI.core.knownSlab, ?_, ?_, ?_, hI.core.bad, ?_⟩, ?_,
      hI.total, hI.lim⟩
    · exact ⟨hI.core.mem.disj.sublist List.erase_sublist,
        fun r hr => hI.core.mem.ok r (List.mem_of_mem_erase hr)⟩
    · intro g hg
      have hg' : g ∈ G1 ++ (u, a) :: G2 := by simp at hg ⊢; tauto
      obtain ⟨h0, h⟩ := hI.core.owns g hg'
      refine ⟨h0, ?_⟩
      rcases h with h | ⟨h5, h6, h7⟩
      · exact Or.inl h
      · refine Or.inr ⟨h5, ?_, h7⟩
        show g.2 ∈ st.mem.erase a
        rw [hI.core.mem.nodup.mem_erase_iff]
        refine ⟨?_, h6⟩
        intro e
        have hd := hI.core.disj
        rw [List.map_append, List.map_cons] at hd
        have hd' := (List.perm_middle.pairwise_iff (fun h => Mem.Disjoint.symm h)).1 hd
        rw [List.pairwise_cons, ← List.map_append] at hd'
        have := hd'.1 g.1 (List.mem_map.2 ⟨g, hg, rfl⟩)
        rw [h5, e, h1] at this
        have hin : Has a a.1 := ⟨Nat.le_refl _, by omega⟩
        exact this a.1 ⟨hin, hin⟩
    · have hd := hI.core.disj
      rw [List.map_append, List.map_cons] at hd
      have hd' := (List.perm_middle.pairwise_iff (fun h => Mem.Disjoint.symm h)).1 hd
      rw [List.pairwise_cons, ← List.map_append] at hd'
      exact hd'.2
    · intro q hq
      have hq' := (hI.core.mem.nodup.mem_erase_iff).1 hq
      rcases hI.core.cover q hq'.2 with h | ⟨g, hg, h⟩
      · exact Or.inl h
      · right
        refine ⟨g, ?_, h⟩
        by_contra hin
        have hgu : g = (u, a) := by simp at hg hin; tauto
        apply hq'.1
        rw [hgu] at h
        exact (congrArg Prod.snd h).symm
    · intro i t m hi ht hm
      obtain ⟨g, hg, hgu⟩ := hI.core.full i t m hi ht hm
      refine ⟨g, ?_, hgu⟩
      by_contra hin
      have hgu' : g = (u, a) := by simp at hg hin; tauto
      have hto := (hI.bk i hi).slab t ht
      have hd := unit_direct_disj hI.core hI.bk hi ht (by rw [← hto.len]; exact get_lt hm) h2 h3
      rw [← hgu, hgu', h1] at hd
      have hin : Has a a.1 := ⟨Nat.le_refl _, by omega⟩
      exact hd a.1 ⟨hin, hin⟩
    · intro i hi
      have h := hI.bk i hi
      refine ⟨?_, h.nodup, h.av, h.un, h.pooled, h.lim⟩
      intro t ht
      have h' := h.slab t ht
      refine ⟨(List.mem_erase_of_ne ?_).2 h'.inMem, h'.reg, h'.len, h'.cnt, h'.page⟩
      intro e
      have e1 := congrArg Prod.fst e
      exact h3 _ h'.reg e1

theorem sumTo_zero (f : Nat → Nat) (h : ∀ i, f i = 0) (n : Nat) : sumTo f n = 0 := by
  induction n with
  | zero => rfl
  | succ n ih => show sumTo f n + f n = 0; rw [ih, h]

theorem init_inv (c : Cfg) : Inv c initSt [] 0 := by
  refine ⟨⟨⟨List.Pairwise.nil, ?_⟩, List.nodup_nil, ?_, ?_, List.Pairwise.nil, ?_, rfl, ?_⟩, ?_, ?_, ?_⟩
  · intro r hr; exact absurd hr (by simp [initSt])
  · intro k hk; exact absurd hk (by simp [initSt])
  · intro g hg; exact absurd hg (by simp)
  · intro r hr; exact absurd hr (by simp [initSt])
  · intro i s k hi hs; exact absurd hs (by simp [initSt, slabs])
  · intro i hi
    refine ⟨?_, ?_, ?_, ?_, rfl, Nat.zero_le _⟩
    · intro s hs; exact absurd hs (by simp [initSt, slabs])
    · simp [initSt, slabs]
    · intro s hs; exact absurd hs (by simp [initSt])
    · intro s hs; exact absurd hs (by simp [initSt])
  · rw [sumTo_zero _ (fun i => by simp [initSt])]; rfl
  · exact Nat.zero_le _

theorem reach_inv {c : Cfg} (hc : CfgOk c) {st : St} {live : List Region} {ext : Nat}
    (h : Reach c st live ext) : ∃ G, G.map Prod.snd = live ∧ Inv c st G ext := by
  induction h with
  | init => exact ⟨[], rfl, init_inv c⟩
  | malloc _ he hm ih =>
    obtain ⟨G, hG, hI⟩ := ih
    rcases malloc_inv hc hI he hm with ⟨h, _⟩ | ⟨p, u, h1, h2⟩
    · exact absurd h (by simp)
    · cases h1
      exact ⟨_, by rw [List.map_cons, hG], h2⟩
  | mallocNull _ he hm ih =>
    obtain ⟨G, hG, hI⟩ := ih
    rcases malloc_inv hc hI he hm with ⟨_, h⟩ | ⟨p, u, h1, _⟩
    · subst h; exact ⟨G, hG, hI⟩
    · exact absurd h1 (by simp)
  | aligned _ he ha hm ih =>
    obtain ⟨G, hG, hI⟩ := ih
    rcases aligned_inv hc hI he ha hm with ⟨h, _⟩ | ⟨p, u, h1, _, h2⟩
    · exact absurd h (by simp)
    · cases h1
      exact ⟨_, by rw [List.map_cons, hG], h2⟩
  | alignedNull _ he ha hm ih =>
    obtain ⟨G, hG, hI⟩ := ih
    rcases aligned_inv hc hI he ha hm with ⟨_, h⟩ | ⟨p, u, h1, _⟩
    · subst h; exact ⟨G, hG, hI⟩
    · exact absurd h1 (by simp)
  | free _ hf ih =>
    obtain ⟨G, hG, hI⟩ := ih
    obtain ⟨G1, G', rfl, h1, h2⟩ := List.map_eq_append_iff.1 hG
    obtain ⟨⟨u, a'⟩, G2, rfl, h3, h4⟩ := List.map_eq_cons_iff.1 h2
    simp only at h3
    subst h3
    have := (free_inv hc hI hf).2
    exact ⟨G1 ++ G2, by rw [List.map_append, h1, h4], this⟩
  | others _ hl ih =>
    rename_i st live ext ext' _
    obtain ⟨G, hG, hI⟩ := ih
    refine ⟨G, hG, ⟨hI.core.mem, hI.core.knownNodup, hI.core.knownSlab, hI.core.owns, hI.core.disj,
      hI.core.cover, hI.core.bad, hI.core.full⟩, hI.bk, ?_, ?_⟩
    · have := hI.total
      show st.total - ext + ext' = ext' + sumTo (fun i => (st.bk i).pooled * slabSize c i) (nb c)
      omega
    · have := hI.lim
      have := hI.total
      show st.total - ext + ext' ≤ c.limMax
      omega

end Verif.Disjoint
