import Verif.Disjoint.Final
/-!
# Theorems about the disjoint pool (C22–C25)

The specification is in `Verif.Disjoint.Spec`.
-/
namespace Verif.Disjoint
open Mem

/-! ## C22: size classes -/

/-- **C22.** Whatever minimal bucket size creation accepts, and for every request up to 2 GiB, the
index computed for the request is inside the bucket array and denotes the least configured class
that can hold the request. -/
theorem C22_tightestClass (minBucket size : Nat) (hmin : isPow2 minBucket = true)
    (hs : size ≤ 2 ^ 31) :
    ∃ cl, (classes minBucket)[sizeToIdx (minExp minBucket) size]? = some cl ∧
      Tightest (classes minBucket) size cl := by
  obtain ⟨k, rfl⟩ := isPow2_iff.1 hmin
  obtain ⟨h1, h2⟩ := @minExp_bounds k
  have hlt := @sizeToIdx_lt (minExp (2 ^ k)) size (by omega) h2 (by unfold cutOff; omega)
  obtain ⟨h3, h4⟩ := @sizeToIdx_spec (minExp (2 ^ k)) size (by omega)
  refine ⟨_, classes_get hlt, List.mem_of_getElem? (classes_get hlt), h3, ?_⟩
  intro d hd hsd
  obtain ⟨i, hi⟩ := List.mem_iff_getElem?.1 hd
  have hil : i < 2 * (31 - minExp (2 ^ k)) + 1 := by
    rw [← classes_length]
    by_contra hn
    rw [List.getElem?_eq_none (by omega)] at hi
    exact absurd hi (by simp)
  rw [classes_get hil] at hi
  cases hi
  exact classAt_mono (by omega) (h4 i hsd)

/-- The classes: powers of two and the values half way between them, from the smallest class to
2 GiB; the smallest class is the setting, but at least 8 bytes and at most 2 GiB. -/
theorem C22_classes (k x : Nat) :
    x ∈ classes (2 ^ k) ↔
      ∃ j, max (min k 31) 3 ≤ j ∧ j ≤ 31 ∧ (x = 2 ^ j ∨ (j < 31 ∧ x = 2 ^ j + 2 ^ j / 2)) := by
  obtain ⟨h1, h2⟩ := @minExp_bounds k
  have hmin := @minExp_pow k
  rw [List.mem_iff_getElem?]
  constructor
  · rintro ⟨i, hi⟩
    have hil : i < 2 * (31 - minExp (2 ^ k)) + 1 := by
      rw [← classes_length]
      by_contra hn
      rw [List.getElem?_eq_none (by omega)] at hi
      exact absurd hi (by simp)
    rw [classes_get hil] at hi
    cases hi
    refine ⟨minExp (2 ^ k) + i / 2, by omega, by omega, ?_⟩
    unfold classAt
    split
    · left; rfl
    · right; exact ⟨by omega, (three_half (by omega)).symm⟩
  · rintro ⟨j, h3, h4, h5⟩
    rcases h5 with rfl | ⟨h5, rfl⟩
    · refine ⟨2 * (j - minExp (2 ^ k)), ?_⟩
      rw [classes_get (by omega), classAt_even, show minExp (2 ^ k) + (j - minExp (2 ^ k)) = j by omega]
    · refine ⟨2 * (j - minExp (2 ^ k)) + 1, ?_⟩
      rw [classes_get (by omega), classAt_odd,
        show minExp (2 ^ k) + (j - minExp (2 ^ k)) - 1 = j - 1 by omega, three_half (by omega)]

example : isPow2 16 = true ∧ (100 : Nat) ≤ 2 ^ 31 ∧ sizeToIdx (minExp 16) 100 = 6 ∧
    (classes 16)[6]? = some 128 := by decide +kernel

/-- **C22** for the pool: the usable size of what `umfPoolMalloc` returns for a pooled request is
the least configured class that holds the request. -/
theorem C22_mallocClass {c : Cfg} (hc : CfgOk c) {st : St} {live : List Region} {ext size : Nat}
    {env : Env} {st' : St} {p : Nat} (h : Reach c st live ext) (he : EnvOk c st.mem env)
    (hs : size ≤ c.maxPoolable) (hm : malloc c st size env = (st', .ok p)) :
    Tightest (classes c.minBucket) size (usableSize c st' p) := by
  obtain ⟨G, hG, hI⟩ := reach_inv hc h
  have h0 : size ≠ 0 := by
    rintro rfl
    unfold malloc at hm
    simp at hm
  unfold malloc at hm
  rw [if_neg h0, if_neg (by omega)] at hm
  unfold fromBucket at hm
  have hidx := idx_lt hc hs
  have hsz := idx_size hc hs
  obtain ⟨k, hk⟩ := hc.minBucket
  obtain ⟨cl, hcl, ht⟩ := C22_tightestClass c.minBucket size (isPow2_iff.2 ⟨k, hk⟩)
    (Nat.le_trans hs hc.maxPoolable)
  have hcs : csize c (sizeToIdx (minExp c.minBucket) size) = cl := by unfold csize; rw [hcl]; rfl
  rw [← hcs] at ht
  generalize sizeToIdx (minExp c.minBucket) size = i at *
  simp only [if_pos hidx] at hm
  rcases getFreeChunk_inv hc hI hidx he hm with ⟨e, _⟩ | ⟨base, k, h2, h3, h4, h5, h6, h7⟩
  · exact absurd e (by simp)
  · cases h2
    have hI' := h7 (base + k * csize c i, size) (Nat.le_refl _)
      (by show base + k * csize c i + size ≤ base + k * csize c i + csize c i; omega)
      (by show 0 < size; omega)
      (by have := route_ok hc h3 (d := 0) (by omega) hc.slabMin
          show base + k * csize c i < base + c.slabMin
          omega)
    have := (usable_inv hc hI' List.mem_cons_self).1
    simp only [unit] at this
    rw [this]
    rw [show base + k * csize c i + csize c i - (base + k * csize c i) = csize c i by omega]
    exact ht

/-- A pool whose largest pooled size is above 2 GiB: creation accepts the setting, and a request
between 2 GiB and the setting indexes past the end of the bucket array. -/
theorem C22_aboveCutOff_violated :
    ∃ c : Cfg, initOk c = true ∧ ∃ size env, size ≤ c.maxPoolable ∧
      (malloc c initSt size env).2 = .ub :=
  ⟨⟨65536, 2 ^ 32, 4, 8, 4096, 2 ^ 64 - 1⟩, by decide +kernel, 2 ^ 31 + 1, ⟨true, fun _ _ => none, true⟩,
    by decide +kernel, by decide +kernel⟩

/-! ## A concrete history, used below -/

/-- 64-byte slabs, pooled up to 256 bytes. -/
def exCfg : Cfg := ⟨64, 256, 4, 8, 16, 1000⟩

theorem exCfg_ok : CfgOk exCfg := ⟨⟨3, rfl⟩, by decide, by decide, Or.inr ⟨4, rfl⟩⟩

/-- A provider that answers one particular request. -/
def exEnv (size alignment p : Nat) : Env :=
  ⟨true, fun s a => if s = size ∧ a = alignment then some p else none, true⟩

theorem exEnv_ok {c : Cfg} {mem : List Region} {size alignment p : Nat}
    (h : 0 < p ∧ p + size < 2 ^ 64 ∧ (∀ r ∈ mem, p + size ≤ r.1 ∨ r.1 + r.2 ≤ p) ∧
      (c.page ≠ 0 → c.page ∣ p) ∧ (alignment ≠ 0 → alignment ∣ p)) :
    EnvOk c mem (exEnv size alignment p) := by
  intro s a q hq _
  simp only [exEnv] at hq
  split at hq
  · rename_i hsa
    cases hq
    obtain ⟨rfl, rfl⟩ := hsa
    exact ⟨h.1, h.2.1, fun r hr => disjoint_of (h.2.2.1 r hr), h.2.2.2.1, h.2.2.2.2⟩
  · exact absurd hq (by simp)

/-- After one allocation of 20 bytes from a new slab. -/
def ex1 : St := (malloc exCfg initSt 20 (exEnv 64 0 4096)).1

theorem ex1_eq : malloc exCfg initSt 20 (exEnv 64 0 4096) = (ex1, .ok 4096) :=
  Prod.ext rfl (by decide +kernel)

theorem ex1_reach : Reach exCfg ex1 [(4096, 20)] 0 :=
  Reach.malloc Reach.init (exEnv_ok (by decide +kernel)) ex1_eq

/-- After a second one, from the same slab. -/
def ex2 : St := (malloc exCfg ex1 24 (exEnv 64 0 8192)).1

theorem ex2_eq : malloc exCfg ex1 24 (exEnv 64 0 8192) = (ex2, .ok 4120) :=
  Prod.ext rfl (by decide +kernel)

theorem ex2_reach : Reach exCfg ex2 [(4120, 24), (4096, 20)] 0 :=
  Reach.malloc ex1_reach (exEnv_ok (by decide +kernel)) ex2_eq

/-- After a third one, too large for the pool. -/
def ex3 : St := (malloc exCfg ex2 300 (exEnv 300 0 8192)).1

theorem ex3_eq : malloc exCfg ex2 300 (exEnv 300 0 8192) = (ex3, .ok 8192) :=
  Prod.ext rfl (by decide +kernel)

theorem ex3_reach : Reach exCfg ex3 [(8192, 300), (4120, 24), (4096, 20)] 0 :=
  Reach.malloc ex2_reach (exEnv_ok (by decide +kernel)) ex3_eq

/-! ## C23: no overlap -/

/-- **C23** (partial: for the configurations `CfgOk` and the aligned requests `AlignOk`; the
operations are atomic). In every reachable state the live allocations share no byte, and each lies
in memory the pool holds from the provider. -/
theorem C23_disjoint_partial {c : Cfg} (hc : CfgOk c) {st : St} {live : List Region} {ext : Nat}
    (h : Reach c st live ext) :
    live.Pairwise Mem.Disjoint ∧ ∀ a ∈ live, ∃ m ∈ st.mem, Inside a m := by
  obtain ⟨G, rfl, hI⟩ := reach_inv hc h
  have hin : ∀ g ∈ G, Inside g.2 g.1 ∧ ∃ m ∈ st.mem, Inside g.1 m := by
    intro g hg
    rcases (hI.core.owns g hg).2 with ⟨i, s, k, hi, hs, hk, hu, h1, h2, h3⟩ | ⟨h1, h2, h3⟩
    · refine ⟨inside_of h1 h2, _, ((hI.bk i hi).slab s hs).inMem, ?_⟩
      have := unit_bounds hI hi hs hk
      rw [hu]
      exact inside_of (Nat.le_add_right _ _) this
    · exact ⟨by rw [h1]; exact fun x hx => hx, g.1, by rw [h1]; exact h2, fun x hx => hx⟩
  constructor
  · rw [List.pairwise_map]
    have := hI.core.disj
    rw [List.pairwise_map] at this
    refine this.imp_of_mem ?_
    intro a b ha hb hd
    exact disjoint_of_inside hd (hin a ha).1 (hin b hb).1
  · intro a ha
    obtain ⟨g, hg, rfl⟩ := List.mem_map.1 ha
    obtain ⟨h1, m, h2, h3⟩ := hin g hg
    exact ⟨m, h2, fun x hx => h3 x (h1 x hx)⟩

/-- **C23**, the size (partial as above): the usable size of a live allocation is at least the
requested size, and the usable bytes are in memory of the pool and in no other live allocation. -/
theorem C23_usable_partial {c : Cfg} (hc : CfgOk c) {st : St} {l1 l2 : List Region} {a : Region}
    {ext : Nat} (h : Reach c st (l1 ++ a :: l2) ext) :
    a.2 ≤ usableSize c st a.1 ∧ (∃ m ∈ st.mem, Inside (a.1, usableSize c st a.1) m) ∧
      ∀ b ∈ l1 ++ l2, Mem.Disjoint (a.1, usableSize c st a.1) b := by
  obtain ⟨G, hG, hI⟩ := reach_inv hc h
  obtain ⟨G1, G', rfl, h1, h2⟩ := List.map_eq_append_iff.1 hG
  obtain ⟨⟨u, a'⟩, G2, rfl, h3, h4⟩ := List.map_eq_cons_iff.1 h2
  simp only at h3
  subst h3
  have hg : (u, a') ∈ G1 ++ (u, a') :: G2 := by simp
  obtain ⟨h5, h6⟩ := usable_inv hc hI hg
  have hin : ∀ g ∈ G1 ++ (u, a') :: G2, g.1.1 ≤ g.2.1 ∧ Inside g.2 g.1 ∧ ∃ m ∈ st.mem, Inside g.1 m := by
    intro g hg
    rcases (hI.core.owns g hg).2 with ⟨i, s, k, hi, hs, hk, hu, h1, h2, h3⟩ | ⟨h1, h2, h3⟩
    · refine ⟨h1, inside_of h1 h2, _, ((hI.bk i hi).slab s hs).inMem, ?_⟩
      have := unit_bounds hI hi hs hk
      rw [hu]
      exact inside_of (Nat.le_add_right _ _) this
    · exact ⟨by rw [h1], by rw [h1]; exact fun x hx => hx, g.1, by rw [h1]; exact h2, fun x hx => hx⟩
  obtain ⟨h7, h8, m, hm, h9⟩ := hin _ hg
  have hiu : Inside (a'.1, usableSize c st a'.1) u := by
    apply inside_of
    · exact h7
    · show a'.1 + usableSize c st a'.1 ≤ u.1 + u.2; omega
  refine ⟨by omega, ⟨m, hm, fun x hx => h9 x (hiu x hx)⟩, ?_⟩
  intro b hb
  rw [← h1, ← h4, ← List.map_append] at hb
  obtain ⟨g, hgm, rfl⟩ := List.mem_map.1 hb
  have hd := hI.core.disj
  rw [List.map_append, List.map_cons] at hd
  have hd' := (List.perm_middle.pairwise_iff (fun h => Mem.Disjoint.symm h)).1 hd
  rw [List.pairwise_cons, ← List.map_append] at hd'
  exact disjoint_of_inside (hd'.1 g.1 (List.mem_map.2 ⟨g, hgm, rfl⟩)) hiu
    (hin g (by simp at hgm ⊢; tauto)).2.1

/-- No operation on a reachable pool has undefined behaviour (partial as above). -/
theorem C23_defined_partial {c : Cfg} (hc : CfgOk c) {st : St} {live : List Region} {ext : Nat}
    (h : Reach c st live ext) {env : Env} (he : EnvOk c st.mem env) (size k : Nat) :
    (malloc c st size env).2 ≠ .ub ∧
      (AlignOk c size (2 ^ k) → (alignedMalloc c st size (2 ^ k) env).2 ≠ .ub) := by
  obtain ⟨G, rfl, hI⟩ := reach_inv hc h
  refine ⟨fun e => ?_, fun ha e => ?_⟩
  · rcases malloc_inv hc hI he (st' := (malloc c st size env).1)
      (r := (malloc c st size env).2) rfl with ⟨h1, _⟩ | ⟨p, u, h1, _⟩ <;> rw [e] at h1 <;>
      exact absurd h1 (by simp)
  · rcases aligned_inv hc hI he ha (st' := (alignedMalloc c st size (2 ^ k) env).1)
      (r := (alignedMalloc c st size (2 ^ k) env).2) rfl with ⟨h1, _⟩ | ⟨p, u, h1, _⟩ <;>
      rw [e] at h1 <;> exact absurd h1 (by simp)

example : Reach exCfg ex3 [(8192, 300), (4120, 24), (4096, 20)] 0 ∧ CfgOk exCfg ∧
    ex3.mem = [(8192, 300), (4096, 64)] ∧ usableSize exCfg ex3 4120 = 24 :=
  ⟨ex3_reach, exCfg_ok, by decide +kernel, by decide +kernel⟩

/-! ## C24: alignment -/

/-- **C24** (partial: the padded size must be representable and the alignment must be routable, see
`AlignOk`). A pointer returned by `umfPoolAlignedMalloc` is a multiple of the alignment and has at
least the requested bytes, all in memory of the pool. -/
theorem C24_aligned_partial {c : Cfg} (hc : CfgOk c) {st : St} {live : List Region}
    {ext size k : Nat} {env : Env} {st' : St} {p : Nat} (h : Reach c st live ext)
    (he : EnvOk c st.mem env) (ha : AlignOk c size (2 ^ k))
    (hm : alignedMalloc c st size (2 ^ k) env = (st', .ok p)) :
    2 ^ k ∣ p ∧ size ≤ usableSize c st' p ∧ ∃ m ∈ st'.mem, Inside (p, size) m := by
  have h' := Reach.aligned h he ha hm
  obtain ⟨G, rfl, hI⟩ := reach_inv hc h
  rcases aligned_inv hc hI he ha hm with ⟨e, _⟩ | ⟨q, u, h1, h2, h3⟩
  · exact absurd e (by simp)
  · cases h1
    refine ⟨h2, (C23_usable_partial (l1 := []) hc h').1, (C23_disjoint_partial hc h').2 _ List.mem_cons_self⟩

/-- An aligned allocation served from a slab, at an address above the start of its chunk. -/
example : EnvOk exCfg ex3.mem (exEnv 64 0 12304) ∧ AlignOk exCfg 10 (2 ^ 5) ∧
    (alignedMalloc exCfg ex3 10 (2 ^ 5) (exEnv 64 0 12304)).2 = .ok 12320 :=
  ⟨exEnv_ok (by decide +kernel), ⟨by decide, Or.inr (Or.inl (by decide))⟩, by decide +kernel⟩

/-- A request so large that rounding it up to the alignment overflows is served from the smallest
class: the call succeeds with 64 usable bytes for a request of `2^64 - 1` bytes. -/
theorem C24_roundUp_violated :
    ∃ (c : Cfg) (env : Env), CfgOk c ∧ EnvOk c [] env ∧ ∃ st' p,
      alignedMalloc c initSt (2 ^ 64 - 1) (2 ^ 6) env = (st', .ok p) ∧ usableSize c st' p < 2 ^ 64 - 1 := by
  refine ⟨⟨65536, 65536, 4, 64, 4096, 2 ^ 64 - 1⟩, exEnv 65536 0 4096,
    ⟨⟨6, rfl⟩, by decide, by decide, Or.inr ⟨12, rfl⟩⟩, exEnv_ok (by decide +kernel), _, 4096,
    Prod.ext rfl (by decide +kernel), by decide +kernel⟩

/-- The same for an alignment above the provider's page size, where the padding is added. -/
theorem C24_padding_violated :
    ∃ (c : Cfg) (env : Env), CfgOk c ∧ EnvOk c [] env ∧ ∃ st' p,
      alignedMalloc c initSt (2 ^ 64 - 100) (2 ^ 13) env = (st', .ok p) ∧
        usableSize c st' p < 2 ^ 64 - 100 := by
  refine ⟨⟨65536, 65536, 4, 64, 4096, 2 ^ 64 - 1⟩, exEnv 65536 0 4096,
    ⟨⟨6, rfl⟩, by decide, by decide, Or.inr ⟨12, rfl⟩⟩, exEnv_ok (by decide +kernel), _, 8192,
    Prod.ext rfl (by decide +kernel), by decide +kernel⟩

/-! ## C25: where freed memory goes -/

/-- **C25** (partial: `CfgOk` and `AlignOk`). Freeing a live allocation succeeds, the provider is
never asked to release memory it has not given to the pool (or has been given back), and the only
memory that can be released is the range the allocation lies in, when no other live allocation is
in it. Memory that is not a slab's is released. -/
theorem C25_free_partial {c : Cfg} (hc : CfgOk c) {st : St} {l1 l2 : List Region} {a : Region}
    {ext : Nat} (h : Reach c st (l1 ++ a :: l2) ext) {st' : St} {r : FRes}
    (hf : free c st a.1 = (st', r)) :
    r = .success ∧ st'.bad = false ∧ ∃ m ∈ st.mem, Inside a m ∧
      (st'.mem = st.mem ∨ (st'.mem = st.mem.erase m ∧ ∀ b ∈ l1 ++ l2, Mem.Disjoint b m)) ∧
      (¬ IsSlab st m → m = a ∧ st'.mem = st.mem.erase a) := by
  have h' := Reach.free h hf
  have h23 := (C23_disjoint_partial hc h').2
  obtain ⟨G, hG, hI⟩ := reach_inv hc h
  obtain ⟨G1, G', rfl, h1, h2⟩ := List.map_eq_append_iff.1 hG
  obtain ⟨⟨u, a'⟩, G2, rfl, h3, h4⟩ := List.map_eq_cons_iff.1 h2
  simp only at h3
  subst h3
  obtain ⟨h5, hI'⟩ := free_inv hc hI hf
  obtain ⟨m, hm, hin, h6, h7⟩ := free_mem hc hI (u := u) (by simp) hf
  refine ⟨h5, hI'.core.bad, m, hm, hin, ?_, fun hn => h7 fun k hk e => hn ⟨k, hk, e⟩⟩
  rcases h6 with h6 | h6
  · exact Or.inl h6
  · refine Or.inr ⟨h6, fun b hb => ?_⟩
    obtain ⟨q, hq, hbq⟩ := h23 b hb
    rw [h6] at hq
    have hq' := (hI.core.mem.nodup.mem_erase_iff).1 hq
    exact disjoint_of_inside (pairwise_ne (fun h => Mem.Disjoint.symm h) hI.core.mem.disj hq'.2 hm hq'.1)
      hbq (fun x hx => hx)

/-- **C25**, the slab's side (partial as above): a chunk is marked as handed out exactly when a
live allocation lies in it, so that a freed allocation is returned to its slab. -/
theorem C25_inUse_partial {c : Cfg} (hc : CfgOk c) {st : St} {live : List Region} {ext : Nat}
    (h : Reach c st live ext) {i base k : Nat} (hi : i < (classes c.minBucket).length)
    (hk : (base, i) ∈ st.known) (hn : k < numChunks c i) :
    InUse st i base k ↔ ∃ a ∈ live, Inside a (base + k * csize c i, csize c i) ∧ 0 < a.2 := by
  obtain ⟨G, rfl, hI⟩ := reach_inv hc h
  constructor
  · rintro ⟨s, hs, rfl, hf⟩
    obtain ⟨g, hg, hgu⟩ := hI.core.full i s k hi hs hf
    refine ⟨g.2, List.mem_map.2 ⟨g, hg, rfl⟩, ?_, (hI.core.owns g hg).1⟩
    rcases (hI.core.owns g hg).2 with ⟨j, t, m, hj, ht, hm, hu, h1, h2, h3⟩ | ⟨h1, h2, h3⟩
    · have := inside_of h1 h2
      rw [hgu] at this
      exact this
    · rw [← h1, hgu]; exact fun x hx => hx
  · rintro ⟨a, ha, hin, h0⟩
    obtain ⟨g, hg, rfl⟩ := List.mem_map.1 ha
    obtain ⟨h5, s, hs, h6⟩ := hI.core.knownSlab _ hk
    simp only at hs h6
    have hx : Has g.2 g.2.1 := ⟨Nat.le_refl _, by omega⟩
    have hx' := hin _ hx
    rcases (hI.core.owns g hg).2 with ⟨j, t, m, hj, ht, hm, hu, h1, h2, h3⟩ | ⟨h1, h2, h3⟩
    · have hto := (hI.bk j hj).slab t ht
      by_cases heq : s.base = t.base ∧ k = m
      · obtain ⟨rfl, rfl⟩ := slab_unique hI.core hI.bk hi hj hs ht heq.1
        exact ⟨s, hs, h6, by rw [heq.2]; exact hm⟩
      · exfalso
        have hd := unit_disj hI.core hI.bk hi hj hs ht hn (by rw [← hto.len]; exact get_lt hm) heq
        rw [← hu, h6] at hd
        exact hd _ ⟨hx', h1, by omega⟩
    · exfalso
      have hd := unit_direct_disj hI.core hI.bk hi hs hn h2 h3
      rw [h6] at hd
      exact hd _ ⟨hx', hx⟩

/-- **C25**, destruction (partial as above): destroying the pool releases every slab once and
nothing else; what remains are live allocations that were passed on from the provider. -/
theorem C25_destroy_partial {c : Cfg} (hc : CfgOk c) {st : St} {live : List Region} {ext : Nat}
    (h : Reach c st live ext) :
    (finalize c st).bad = false ∧
      (∀ r, r ∈ (finalize c st).mem ↔ r ∈ st.mem ∧ r ∈ live ∧ ¬ IsSlab st r) ∧
      (live = [] → (finalize c st).mem = []) := by
  obtain ⟨G, rfl, hI⟩ := reach_inv hc h
  obtain ⟨h1, h2⟩ := finalize_inv hI
  have hiff : ∀ r, r ∈ (finalize c st).mem ↔ r ∈ st.mem ∧ r ∈ G.map Prod.snd ∧ ¬ IsSlab st r := by
    intro r
    rw [h2]
    constructor
    · rintro ⟨h3, h4, h5⟩
      exact ⟨h3, List.mem_map.2 ⟨_, h4, rfl⟩, fun ⟨k, hk, e⟩ => h5 k hk e⟩
    · rintro ⟨h3, _, h5⟩
      have hkn : ∀ k ∈ st.known, k.1 ≠ r.1 := fun k hk e => h5 ⟨k, hk, e⟩
      refine ⟨h3, ?_, hkn⟩
      rcases hI.core.cover r h3 with ⟨k, hk, e⟩ | ⟨g, hg, e⟩
      · exact absurd (by rw [e]) (hkn k hk)
      · rw [← e]; exact hg
  refine ⟨h1, hiff, fun hl => ?_⟩
  rw [List.eq_nil_iff_forall_not_mem]
  intro r hr
  have := ((hiff r).1 hr).2.1
  rw [hl] at this
  exact absurd this (by simp)

example : Reach exCfg ex3 ([(8192, 300)] ++ (4120, 24) :: [(4096, 20)]) 0 ∧
    (free exCfg ex3 4120).2 = .success ∧ InUse ex3 3 4096 1 ∧
    (classes exCfg.minBucket).length = 57 ∧ (4096, 3) ∈ ex3.known ∧
    numChunks exCfg 3 = 2 ∧ (finalize exCfg ex3).mem = [(8192, 300)] :=
  ⟨ex3_reach, by decide +kernel, ⟨⟨4096, [false, false], 2⟩, by decide +kernel, by decide +kernel⟩, by decide +kernel, by decide +kernel, by decide +kernel,
    by decide +kernel⟩

/-- A pool with `slab_min_size = 0` (the default value of the parameter): a pointer from a slab is
taken for memory that was passed on. `umfPoolFree` gives the slab's memory to the provider and
keeps the slab; destroying the pool releases it again. -/
theorem C25_slabMin0_violated :
    ∃ (c : Cfg) (env : Env), initOk c = true ∧ c.slabMin = 0 ∧ EnvOk c [] env ∧ ∃ st1 p st2,
      malloc c initSt 100 env = (st1, .ok p) ∧ free c st1 p = (st2, .success) ∧
      st2.mem = [] ∧ (finalize c st2).bad = true := by
  refine ⟨⟨0, 4096, 4, 8, 4096, 2 ^ 64 - 1⟩, exEnv 128 0 4096, by decide +kernel, rfl,
    exEnv_ok (by decide +kernel), _, 4096, _, Prod.ext rfl (by decide +kernel),
    Prod.ext rfl (by decide +kernel), by decide +kernel, by decide +kernel⟩

/-- After such a free, the provider may return the same address again; the pool then fails to
register the new slab and refuses the request. -/
theorem C25_slabMin0_refused_violated :
    ∃ (c : Cfg) (env : Env), initOk c = true ∧ c.slabMin = 0 ∧ EnvOk c [] env ∧ ∃ st1 p st2,
      malloc c initSt 100 env = (st1, .ok p) ∧ free c st1 p = (st2, .success) ∧
      EnvOk c st2.mem env ∧ (malloc c st2 100 env).2 = .null := by
  refine ⟨⟨0, 4096, 4, 8, 4096, 2 ^ 64 - 1⟩, exEnv 128 0 4096, by decide +kernel, rfl,
    exEnv_ok (by decide +kernel), _, 4096, _, Prod.ext rfl (by decide +kernel),
    Prod.ext rfl (by decide +kernel), exEnv_ok (by decide +kernel), by decide +kernel⟩

/-- An aligned allocation in a class larger than `slab_min_size`: the aligned address can lie past
`mem_ptr + slab_min_size`. Freeing it asks the provider to release a range it never gave out, and
the slab is never freed. (64 KiB slabs, 4 KiB pages, 2 MiB alignment.) -/
theorem C25_alignedFree_violated :
    ∃ (c : Cfg) (env : Env), CfgOk c ∧ EnvOk c [] env ∧ ∃ st1 p,
      alignedMalloc c initSt 4096 (2 ^ 21) env = (st1, .ok p) ∧ 2 ^ 21 ∣ p ∧
      (free c st1 p).1.bad = true := by
  refine ⟨⟨65536, 2 ^ 24, 4, 8, 4096, 2 ^ 64 - 1⟩, exEnv 3145728 0 4096,
    ⟨⟨3, rfl⟩, by decide, by decide, Or.inr ⟨12, rfl⟩⟩, exEnv_ok (by decide +kernel), _, 2 ^ 21,
    Prod.ext rfl (by decide +kernel), by decide +kernel, by decide +kernel⟩

/-! ## C26: what is kept -/

/-- **C26**, per class and shared total, operations atomic (see `Verif.Disjoint.Limits` for
interleavings). A class whose chunks are at most half a slab keeps at most one empty slab, any other
class at most `capacity`; the empty slabs this pool keeps and the share `ext` of other pools
together stay within the limit. -/
theorem C26_kept_partial {c : Cfg} (hc : CfgOk c) {st : St} {live : List Region} {ext : Nat}
    (h : Reach c st live ext) :
    (∀ i, i < (classes c.minBucket).length →
      kept st i ≤ (if csize c i ≤ c.slabMin / 2 then 1 else c.capacity)) ∧
    ext + keptBytes c st ≤ c.limMax := by
  obtain ⟨G, rfl, hI⟩ := reach_inv hc h
  constructor
  · intro i hi
    rw [kept_eq hI hi]
    exact (hI.bk i hi).lim
  · have h1 := hI.lim
    have h2 := hI.total
    have : keptBytes c st = sumTo (fun i => (st.bk i).pooled * slabSize c i) (nb c) := by
      unfold keptBytes
      apply sumTo_congr
      intro i hi
      rw [kept_eq hI hi]
    omega

/-- When everything has been freed, the pool holds nothing but the empty slabs it may keep. -/
theorem C26_idle_partial {c : Cfg} (hc : CfgOk c) {st : St} {ext : Nat} (h : Reach c st [] ext) :
    ∀ r ∈ st.mem, ∃ i s, i < (classes c.minBucket).length ∧
      s ∈ (st.bk i).avail ++ (st.bk i).unavail ∧ r = (s.base, slabSize c i) ∧
      s.free.all id = true := by
  obtain ⟨G, hG, hI⟩ := reach_inv hc h
  have hnil : G = [] := List.map_eq_nil_iff.1 hG
  subst hnil
  intro r hr
  rcases hI.core.cover r hr with ⟨k, hk, e⟩ | ⟨g, hg, _⟩
  · obtain ⟨h5, s, hs, h6⟩ := hI.core.knownSlab k hk
    refine ⟨k.2, s, h5, hs, by rw [e, h6], ?_⟩
    rw [List.all_eq_true]
    intro b hb
    cases b with
    | true => rfl
    | false =>
      obtain ⟨m, hm⟩ := List.mem_iff_getElem?.1 hb
      obtain ⟨g, hg, _⟩ := hI.core.full k.2 s m h5 hs hm
      exact absurd hg (by simp)
  · exact absurd hg (by simp)

/-- A kept slab: both chunks freed. -/
def ex4 : St := (free exCfg (free exCfg ex2 4120).1 4096).1

theorem ex4_reach : Reach exCfg ex4 [] 0 := by
  have h1 : Reach exCfg (free exCfg ex2 4120).1 [(4096, 20)] 0 :=
    Reach.free (l1 := []) (a := (4120, 24)) ex2_reach (st' := (free exCfg ex2 4120).1)
      (r := (free exCfg ex2 4120).2) rfl
  exact Reach.free (l1 := []) (a := (4096, 20)) (l2 := []) h1 (r := (free exCfg (free exCfg ex2 4120).1 4096).2) rfl

example : Reach exCfg ex4 [] 0 ∧ kept ex4 3 = 1 ∧ ex4.mem = [(4096, 64)] ∧ ex4.total = 64 :=
  ⟨ex4_reach, by decide +kernel, by decide +kernel, by decide +kernel⟩

/-- With `capacity = 0` a class of small chunks still keeps an empty slab. -/
theorem C26_capacity0_violated :
    ∃ (c : Cfg), CfgOk c ∧ c.capacity = 0 ∧ ∃ st ext i, Reach c st [] ext ∧ c.capacity < kept st i := by
  refine ⟨⟨64, 256, 0, 8, 16, 1000⟩, ⟨⟨3, rfl⟩, by decide, by decide, Or.inr ⟨4, rfl⟩⟩, rfl, _, 0, 0,
    Reach.free (l1 := []) (a := (4096, 8)) (l2 := [])
      (Reach.malloc (size := 8) (env := exEnv 64 0 4096) Reach.init (exEnv_ok (by decide +kernel))
        (Prod.ext rfl (by decide +kernel))) (r := .success) (Prod.ext rfl (by decide +kernel)),
    by decide +kernel⟩

end Verif.Disjoint
