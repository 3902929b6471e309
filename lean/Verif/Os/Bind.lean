import Verif.Os.BindLemmas
import Mathlib.Order.Interval.Finset.Nat
/-!
# C28, C29: pages and NUMA nodes
-/
namespace Verif.Os

/-! ## C28: split mode -/

theorem splitLoop_spec {parts : List Part} {n P : Nat} (hg : Good parts n) (hP : 0 < P)
    (hw : n * P < W) : ∀ (fuel p c : Nat) (b : It), 0 < c → p + c ≤ n → n - p ≤ fuel →
      b.size = c * P → Ready parts n (p + c) b → SetOk parts n p (p + c) b.set →
      ∃ binds, splitLoop parts n P fuel ((n - p) * P) (p * P) b = some binds ∧
        Tiles binds (p * P) (n * P) ∧
        ∀ bd ∈ binds, ∃ q d, bd.addr = q * P ∧ bd.size = d * P ∧ q + d ≤ n ∧
          SetOk parts n q (q + d) bd.node := by
  intro fuel
  induction fuel with
  | zero => intro p c b h1 h2 h3; omega
  | succ fuel ih =>
    intro p c b h1 h2 h3 h4 h5 h6
    have hcP : c * P ≤ (n - p) * P := Nat.mul_le_mul_right _ (by omega)
    have hnp : (n - p) * P ≤ n * P := Nat.mul_le_mul_right _ (by omega)
    have hleft : ((n - p) * P + (W - b.size)) % W = (n - (p + c)) * P := by
      rw [h4, show (n - p) * P + (W - c * P) = (n - p) * P - c * P + W by omega, Nat.add_mod_right,
        ← Nat.sub_mul, Nat.mod_eq_of_lt (Nat.lt_of_le_of_lt (Nat.mul_le_mul_right P (by omega)) hw)]
      congr 1
      omega
    have hpc : p * P + c * P = (p + c) * P := by rw [Nat.add_mul]
    have hc0 : 0 < c * P := Nat.mul_pos h1 hP
    unfold splitLoop
    simp only
    rw [hleft]
    by_cases he : p + c = n
    · rw [if_pos (by rw [he]; simp)]
      refine ⟨_, rfl, ⟨rfl, by simp only; omega, ?_⟩, ?_⟩
      · show _ = _
        simp only
        rw [h4, hpc, he]
      · intro bd hbd
        rw [List.mem_singleton] at hbd
        subst hbd
        exact ⟨p, c, rfl, h4, h2, h6⟩
    · have hne : ¬ (n - (p + c)) * P = 0 := by
        have := Nat.mul_pos (show 0 < n - (p + c) by omega) hP
        omega
      rw [if_neg hne]
      obtain ⟨b', d, e1, e2, e3, e4, e5, e6⟩ := nextBind_spec hg (show p + c < n by omega) hw h5
      rw [e1]
      simp only
      obtain ⟨binds, f1, f2, f3⟩ := ih (p + c) d b' e2 e3 (by omega) e4 e5 e6
      rw [h4, hpc, f1]
      refine ⟨_, rfl, ⟨rfl, hc0, ?_⟩, ?_⟩
      · simp only
        rw [hpc]
        exact f2
      · intro bd hbd
        rcases List.mem_cons.1 hbd with rfl | hbd
        · exact ⟨p, c, rfl, rfl, h2, h6⟩
        · exact f3 bd hbd

/-- Every page has a partition. -/
theorem overlaps_exists {parts : List Part} {n q : Nat} (hq : q < n) (hs : 0 < weightSum parts) :
    ∃ j, Overlaps parts n q j := by
  have key : ∀ k, q * weightSum parts < n * before parts k →
      ∃ j, j < k ∧ n * before parts j ≤ q * weightSum parts ∧
        q * weightSum parts < n * before parts (j + 1) := by
    intro k
    induction k with
    | zero => intro h; rw [before_zero] at h; omega
    | succ k ih =>
      intro h
      by_cases hk : n * before parts k ≤ q * weightSum parts
      · exact ⟨k, by omega, hk, h⟩
      · obtain ⟨j, h1, h2⟩ := ih (by omega)
        exact ⟨j, by omega, h2⟩
  have hlt : q * weightSum parts < n * before parts parts.length := by
    rw [before_len (Nat.le_refl _)]
    exact Nat.mul_lt_mul_of_pos_right hq hs
  obtain ⟨j, h1, h2, h3⟩ := key _ hlt
  refine ⟨j, h1, ?_, h3⟩
  rw [Nat.add_mul]
  omega

theorem initPartitions_good {nodes : List Nat} (hn : nodes ≠ []) {params parts : List Part}
    (h : initPartitions nodes params = some parts) :
    (∀ p ∈ parts, 0 < p.weight) ∧ (∀ p ∈ parts, p.target ∈ nodes) ∧ parts ≠ [] := by
  unfold initPartitions at h
  split at h
  · cases h
  · rename_i hany
    split at h
    · cases h
      refine ⟨?_, ?_, by simpa using hn⟩
      · intro p hp
        obtain ⟨x, -, rfl⟩ := List.mem_map.1 hp
        exact Nat.one_pos
      · intro p hp
        obtain ⟨x, hx, rfl⟩ := List.mem_map.1 hp
        exact hx
    · cases h
      rename_i hne
      have hall : ∀ p ∈ params, p.weight ≠ 0 ∧ p.target ∈ nodes := by
        intro p hp
        by_contra hc
        apply hany
        rw [List.any_eq_true]
        refine ⟨p, hp, ?_⟩
        simp only [Bool.or_eq_true, beq_iff_eq, Bool.not_eq_true', List.contains_eq_mem,
          decide_eq_false_iff_not]
        by_cases h0 : p.weight = 0
        · exact Or.inl h0
        · exact Or.inr fun h => hc ⟨h0, h⟩
      exact ⟨fun p hp => Nat.pos_of_ne_zero (hall p hp).1, fun p hp => (hall p hp).2, hne⟩

/-- **C28** (missing: allocations so large that pages times weight does not fit in 64 bits, for
which it is false, see `C28_overflow_violated`). For every NUMA list, every list of partitions the provider
accepts and every number of pages: the calls that bind memory follow each other in address order
and cover the allocation exactly, in whole pages; and the nodes to which a page is bound are
those of the partitions whose share of the allocation has a part of this page, and there is at
least one. -/
theorem C28_split_partial {nodes : List Nat} (hn : nodes ≠ []) {params parts : List Part}
    (hi : initPartitions nodes params = some parts) {n P : Nat} (h0 : 0 < n) (hP : 0 < P)
    (hsz : n * P < 2 ^ 64) (hmul : ∀ p ∈ parts, n * p.weight < 2 ^ 64)
    (hsum : 2 * weightSum parts ≤ 2 ^ 64) {fuel : Nat} (hf : n ≤ fuel) :
    ∃ binds, splitBinds nodes parts n P fuel = some binds ∧ Tiles binds 0 (n * P) ∧
      ∀ bd ∈ binds, P ∣ bd.addr ∧ P ∣ bd.size ∧
        ∀ q, bd.addr ≤ q * P → q * P < bd.addr + bd.size →
          (∃ t, t ∈ bd.node) ∧
          ∀ t, t ∈ bd.node ↔ ∃ j, Overlaps parts n q j ∧ (parts[j]?).map Part.target = some t := by
  obtain ⟨g1, g2, g3⟩ := initPartitions_good hn hi
  have hg : Good parts n := ⟨g1, h0, hmul, hsum, g3⟩
  have hs := hg.sumPos
  have hnP : 0 < n * P := Nat.mul_pos h0 hP
  unfold splitBinds
  by_cases h1 : nodes.length = 1
  · rw [if_pos h1]
    refine ⟨_, rfl, ⟨rfl, hnP, by show _ = _; simp⟩, ?_⟩
    intro bd hbd
    rw [List.mem_singleton] at hbd
    subst hbd
    refine ⟨Nat.dvd_zero _, Nat.dvd_mul_left _ _, ?_⟩
    intro q hq1 hq2
    simp only at hq2 ⊢
    have hq : q < n := Nat.lt_of_mul_lt_mul_right (by omega : q * P < n * P)
    obtain ⟨a, rfl⟩ := List.length_eq_one_iff.1 h1
    refine ⟨⟨a, List.mem_cons_self⟩, fun t => ?_⟩
    rw [List.mem_singleton]
    constructor
    · rintro rfl
      obtain ⟨j, hj⟩ := overlaps_exists hq hs
      refine ⟨j, hj, ?_⟩
      rw [List.getElem?_eq_getElem hj.1]
      have := g2 _ (List.getElem_mem hj.1)
      rw [List.mem_singleton] at this
      simp [this]
    · rintro ⟨j, hj, ht⟩
      rw [List.getElem?_eq_getElem hj.1] at ht
      have := g2 _ (List.getElem_mem hj.1)
      rw [List.mem_singleton] at this
      rw [← this]
      exact (Option.some.inj ht).symm
  · rw [if_neg h1]
    obtain ⟨b, c, e1, e2, e3, e4, e5, e6⟩ := nextBind_spec (b := ⟨0, 0, 0, [], 0⟩) hg h0 hsz
      (Or.inl ⟨rfl, rfl, by rw [before_zero]; simp⟩)
    rw [e1]
    simp only
    obtain ⟨binds, f1, f2, f3⟩ := splitLoop_spec hg hP hsz fuel 0 c b e2 e3 (by omega) e4 e5 e6
    rw [Nat.sub_zero, Nat.zero_mul] at f1
    rw [Nat.zero_mul] at f2
    refine ⟨binds, f1, f2, ?_⟩
    intro bd hbd
    obtain ⟨q0, d, k1, k2, k3, k4⟩ := f3 bd hbd
    refine ⟨k1 ▸ Nat.dvd_mul_left _ _, k2 ▸ Nat.dvd_mul_left _ _, ?_⟩
    intro q hq1 hq2
    rw [k1] at hq1 hq2
    rw [k2, ← Nat.add_mul] at hq2
    have b1 : q0 ≤ q := Nat.le_of_mul_le_mul_right hq1 hP
    have b2 : q < q0 + d := Nat.lt_of_mul_lt_mul_right hq2
    refine ⟨?_, k4 q b1 b2⟩
    obtain ⟨j, hj⟩ := overlaps_exists (show q < n by omega) hs
    refine ⟨parts[j]'hj.1 |>.target, (k4 q b1 b2 _).2 ⟨j, hj, ?_⟩⟩
    rw [List.getElem?_eq_getElem hj.1]
    rfl

/-- Partitions 3 : 1 : 1 of nodes 5, 6, 7 and seven pages: the last page of the first share and the first of
the second are the same page. -/
example : initPartitions [5, 6, 7] [⟨3, 5⟩, ⟨1, 6⟩, ⟨1, 7⟩] = some [⟨3, 5⟩, ⟨1, 6⟩, ⟨1, 7⟩] ∧
    splitBinds [5, 6, 7] [⟨3, 5⟩, ⟨1, 6⟩, ⟨1, 7⟩] 7 4096 7 =
      some [⟨0, 16384, [5]⟩, ⟨16384, 4096, [5, 6]⟩, ⟨20480, 4096, [6, 7]⟩, ⟨24576, 4096, [7]⟩] := by
  decide +kernel

instance (parts : List Part) (n q j : Nat) : Decidable (Overlaps parts n q j) := by
  unfold Overlaps; infer_instance

/-- **C28**, shares: the number of pages that have a part of partition `j` is its weight's share of the
pages, up to less than two pages. (The nodes of these pages are given by `C28_split_partial`.) -/
theorem C28_share {parts : List Part} {n j : Nat} (hs : 0 < weightSum parts) (hj : j < parts.length) :
    let count := ((Finset.range n).filter fun q => Overlaps parts n q j).card
    n * (parts[j]).weight ≤ count * weightSum parts ∧
      count * weightSum parts < n * (parts[j]).weight + 2 * weightSum parts := by
  have hb := before_succ hj
  have hle : n * before parts (j + 1) ≤ n * weightSum parts := Nat.mul_le_mul_left _ (before_le _ _)
  have hnb : n * before parts (j + 1) = n * before parts j + n * (parts[j]).weight := by
    rw [hb, Nat.mul_add]
  generalize hX : n * before parts j = X at *
  generalize hY : n * before parts (j + 1) = Y at *
  generalize hW : weightSum parts = w at *
  have d1 := Nat.div_add_mod X w
  have d2 := Nat.mod_lt X hs
  have d3 := Nat.div_add_mod (Y + w - 1) w
  have d4 := Nat.mod_lt (Y + w - 1) hs
  have hset : ((Finset.range n).filter fun q => Overlaps parts n q j) =
      Finset.Ico (X / w) ((Y + w - 1) / w) := by
    ext q
    simp only [Finset.mem_filter, Finset.mem_range, Finset.mem_Ico, Overlaps, hX, hY, hW]
    have c1 : X < (q + 1) * w ↔ X / w ≤ q := by
      rw [← Nat.div_lt_iff_lt_mul hs]; omega
    have c2 : q * w < Y ↔ q < (Y + w - 1) / w := by
      rw [Nat.lt_iff_add_one_le, Nat.lt_iff_add_one_le (m := q), Nat.le_div_iff_mul_le hs, Nat.add_mul]
      omega
    constructor
    · rintro ⟨a, b, c, d⟩
      exact ⟨c1.1 c, c2.1 d⟩
    · rintro ⟨a, b⟩
      refine ⟨?_, hj, c1.2 a, c2.2 b⟩
      have := c2.2 b
      exact Nat.lt_of_mul_lt_mul_right (by omega : q * w < n * w)
  simp only
  rw [hset, Nat.card_Ico, Nat.sub_mul, Nat.mul_comm (X / w), Nat.mul_comm ((Y + w - 1) / w)]
  omega

/-- **C28** fails when pages times weight exceeds 64 bits (here 32 TiB and the weights `2^32 - 1` and
`1`): a page that belongs wholly to the first partition is bound to the node of the second. -/
theorem C28_overflow_violated : ∃ (nodes : List Nat) (parts : List Part) (n P q : Nat),
    initPartitions nodes parts = some parts ∧ (∀ p ∈ parts, p.weight < 2 ^ 32) ∧ n * P < 2 ^ 47 ∧
      (∀ j, Overlaps parts n q j → j = 0) ∧
      ∀ fuel binds, splitBinds nodes parts n P fuel = some binds →
        ∃ bd ∈ binds, bd.addr ≤ q * P ∧ q * P < bd.addr + bd.size ∧ bd.node = [1] := by
  refine ⟨[0, 1], [⟨2 ^ 32 - 1, 0⟩, ⟨1, 1⟩], 2 ^ 33, 4096, 2 ^ 32 - 2, by decide, by decide, by decide, ?_, ?_⟩
  · rintro j ⟨h1, h2, h3⟩
    have : j < 2 := h1
    by_contra hj
    have : j = 1 := by omega
    subst this
    simp [before, weightSum] at h2
  · intro fuel binds h
    have e1 : nextBind [⟨2 ^ 32 - 1, 0⟩, ⟨1, 1⟩] (2 ^ 33) 4096 ⟨0, 0, 0, [], 0⟩ =
        some ⟨1, 0, 0, [0], 4096 * (2 ^ 32 - 2)⟩ := by decide +kernel
    have e2 : nextBind [⟨2 ^ 32 - 1, 0⟩, ⟨1, 1⟩] (2 ^ 33) 4096 ⟨1, 0, 0, [0], 4096 * (2 ^ 32 - 2)⟩ =
        some ⟨2, 0, 0, [1], 8192⟩ := by decide +kernel
    unfold splitBinds at h
    rw [if_neg (by decide), e1] at h
    simp only at h
    cases fuel with
    | zero => cases h
    | succ fuel =>
      unfold splitLoop at h
      simp only at h
      rw [if_neg (by decide), e2] at h
      simp only at h
      cases fuel with
      | zero => cases h
      | succ fuel =>
        rw [Option.map_eq_some_iff] at h
        obtain ⟨bs, hbs, rfl⟩ := h
        unfold splitLoop at hbs
        simp only at hbs
        have hl : ¬ ((2 ^ 33 * 4096 + (W - 4096 * (2 ^ 32 - 2))) % W + (W - 8192)) % W = 0 := by decide
        rw [if_neg hl] at hbs
        have e3 : nextBind [⟨2 ^ 32 - 1, 0⟩, ⟨1, 1⟩] (2 ^ 33) 4096 ⟨2, 0, 0, [1], 8192⟩ =
            some ⟨2, 0, 0, [1], 8192⟩ := by decide +kernel
        rw [e3] at hbs
        simp only at hbs
        rw [Option.map_eq_some_iff] at hbs
        obtain ⟨cs, hcs, rfl⟩ := hbs
        exact ⟨_, List.mem_cons_of_mem _ List.mem_cons_self, by decide, by decide, rfl⟩

/-! ## C29: interleave mode -/

theorem ilvLoop_spec {len part s0 size : Nat} (hpart : 0 < part) (hsz : size < W) :
    ∀ (fuel k addr sz : Nat), addr = k * part → addr < size → size - addr ≤ fuel →
      sz = (if size - addr < part then size - addr else part) →
      ∃ binds, ilvLoop len part fuel (size - addr) addr ((s0 + k) % len) sz = some binds ∧
        Tiles binds addr size ∧
        ∀ bd ∈ binds, ∃ i, bd.addr = i * part ∧ bd.size ≤ part ∧ bd.node = (s0 + i) % len := by
  intro fuel
  induction fuel with
  | zero => intro k addr sz h1 h2 h3; omega
  | succ fuel ih =>
    intro k addr sz h1 h2 h3 h4
    have hsz1 : sz ≤ size - addr := by rw [h4]; split <;> omega
    have hsz2 : sz ≤ part := by rw [h4]; split <;> omega
    have hsz3 : 0 < sz := by rw [h4]; split <;> omega
    have hleft : (size - addr + (W - sz)) % W = size - (addr + sz) := by
      rw [show size - addr + (W - sz) = size - (addr + sz) + W by omega, Nat.add_mod_right,
        Nat.mod_eq_of_lt (by omega)]
    unfold ilvLoop
    simp only
    rw [hleft]
    by_cases he : size - (addr + sz) = 0
    · rw [if_pos he]
      refine ⟨_, rfl, ⟨rfl, hsz3, by show _ = _; simp only; omega⟩, ?_⟩
      intro bd hbd
      rw [List.mem_singleton] at hbd
      subst hbd
      exact ⟨k, h1, hsz2, rfl⟩
    · rw [if_neg he]
      have hfull : sz = part := by
        rw [h4]
        split
        · rename_i h; rw [if_pos h] at h4; omega
        · rfl
      have haddr : addr + sz = (k + 1) * part := by rw [Nat.add_mul, hfull, h1]; omega
      obtain ⟨binds, f1, f2, f3⟩ := ih (k + 1) (addr + sz) _ haddr (by omega) (by omega) rfl
      have hnode : ((s0 + k) % len + 1) % len = (s0 + (k + 1)) % len := by
        rw [Nat.mod_add_mod]; rfl
      rw [hnode, f1]
      refine ⟨_, rfl, ⟨rfl, hsz3, f2⟩, ?_⟩
      intro bd hbd
      rcases List.mem_cons.1 hbd with rfl | hbd
      · exact ⟨k, h1, hsz2, rfl⟩
      · exact f3 bd hbd

/-- **C29.** For every number of nodes, part size, page size, history of allocated bytes and every
allocation of whole pages: the bindings follow each other, cover the allocation exactly once and do not
pass its end; and the byte at offset `x` is bound to the node number
`(first + x / part) mod len`, where `part` is the part size rounded up to pages: consecutive parts
go to consecutive nodes. -/
theorem C29_interleave {len partSize P sum size : Nat} (hlen : 0 < len) (hps : 0 < partSize)
    (hP : 0 < P) (h0 : 0 < size) (hsz : size < 2 ^ 64) {fuel : Nat} (hf : size ≤ fuel) {part : Nat}
    (hpart : IsPageEnd P partSize part) :
    ∃ binds, ilvBinds len partSize P sum size fuel = some binds ∧ Tiles binds 0 size ∧
      ∀ bd ∈ binds, ∀ x, bd.addr ≤ x → x < bd.addr + bd.size →
        bd.node < len ∧ bd.node = (sum / partSize + x / part) % len := by
  obtain ⟨r1, r2, r3⟩ := roundUp_spec hP partSize
  have hpe : part = roundUp P partSize := (roundUp_eq hP hpart).symm
  have hpp : 0 < part := by have := hpart.2.1; omega
  unfold ilvBinds
  by_cases h1 : len = 1
  · rw [if_pos h1]
    refine ⟨_, rfl, ⟨rfl, h0, by show _ = _; simp⟩, ?_⟩
    intro bd hbd x _ _
    rw [List.mem_singleton] at hbd
    subst hbd
    rw [h1, Nat.mod_one]
    exact ⟨Nat.one_pos, rfl⟩
  · rw [if_neg h1]
    simp only
    rw [← hpe]
    obtain ⟨binds, f1, f2, f3⟩ := ilvLoop_spec (len := len) (s0 := sum / partSize) hpp
      (show size < W from hsz) fuel 0 0 _ (by omega) h0 (by omega) rfl
    rw [Nat.sub_zero, Nat.add_zero] at f1
    refine ⟨binds, f1, f2, ?_⟩
    intro bd hbd x hx1 hx2
    obtain ⟨i, e1, e2, e3⟩ := f3 bd hbd
    rw [e3]
    refine ⟨Nat.mod_lt _ hlen, ?_⟩
    have : x / part = i := by
      apply Nat.div_eq_of_lt_le
      · omega
      · rw [Nat.add_mul]; omega
    rw [this]

/-- Parts of 5000 bytes, rounded up to two pages, over three nodes; 9000 bytes have been allocated before. -/
example : ilvBinds 3 5000 4096 9000 20480 20480 =
    some [⟨0, 8192, 1⟩, ⟨8192, 8192, 2⟩, ⟨16384, 4096, 0⟩] := by decide +kernel

end Verif.Os
