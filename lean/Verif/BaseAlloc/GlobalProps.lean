import Verif.BaseAlloc.Global
import Verif.BaseAlloc.FixedProps
import Verif.Mem
/-! # Property C21: the global base allocator's round trip -/
set_option linter.unusedSimpArgs false
namespace Verif.BaseAlloc.Global
open Mem
open Fixed (word alignUpSafe)

/-! ### Specification -/

/-- A request that was granted: address, size and alignment asked for, and the chunk it was cut
from: source, first byte, size asked from the source, size of the chunk. -/
structure Alloc where
  user : Nat
  size : Nat
  align : Nat
  src : Src
  ptr : Nat
  total : Nat
  len : Nat

def Alloc.range (a : Alloc) : Region := (a.user, a.size)
def Alloc.chunk (a : Alloc) : Region := (a.ptr, a.len)

/-- A chunk a source may hand out when asked for `n` bytes: 8-aligned, not null, inside the
address space, apart from the chunks in use; of the class size (of exactly `n` bytes from the
OS). For the classes this is what C19 proves of the fixed-chunk allocator
(`C21_classChunks`). -/
structure ChunkOk (used : List Region) (src : Src) (n ptr len : Nat) : Prop where
  pos : 0 < ptr
  aligned : ptr % 8 = 0
  bound : ptr + len ≤ 2 ^ 64
  apart : ∀ g ∈ used, Disjoint g (ptr, len)
  len : match src with
    | .cls i => len = classSize i
    | .os => len = n

/-- Storing `v` in the 8 bytes at `x`. -/
def Stored (mem mem' : Nat → Nat) (x v : Nat) : Prop :=
  mem' x = v ∧ ∀ y, Disjoint (y, 8) (x, 8) → mem' y = mem y

/-- `Reach ac mem live`: memory and granted requests after some history. A request has a
power-of-two alignment and size + 8 + alignment below 2^32 (larger ones are excluded by
assertions in debug builds, see `C21_hugeRequest_violated`). Between calls, clients and chunk
sources may write anywhere except in the part of a chunk in use that precedes the user's
range. -/
inductive Reach (ac : Nat → Bool) : (Nat → Nat) → List Alloc → Prop where
  | init {mem} : Reach ac mem []
  | alloc {mem mem' : Nat → Nat} {live chunk size k total ptr len user w} : Reach ac mem live →
      size + 8 + 2 ^ k < 2 ^ 32 → totalSize size (2 ^ k) = some total →
      chunk (source ac total) total = some ptr →
      ChunkOk (live.map Alloc.chunk) (source ac total) total ptr len →
      alignedAlloc ac chunk size (2 ^ k) = .ok user w → Stored mem mem' (user - 8) w →
      Reach ac mem' (⟨user, size, 2 ^ k, source ac total, ptr, total, len⟩ :: live)
  | free {mem live a} : Reach ac mem live → a ∈ live →
      Reach ac mem (live.filter fun b => b.user ≠ a.user)
  | write {mem mem' : Nat → Nat} {live} : Reach ac mem live →
      (∀ x, (∃ a ∈ live, Inside (x, 8) (a.ptr, a.user - a.ptr)) → mem' x = mem x) →
      Reach ac mem' live

/-! ### Proof -/

private theorem and_pred_eq_zero {n : Nat} (hn : n ≠ 0) (h : n &&& (n - 1) = 0) :
    n = 2 ^ Nat.log2 n := by
  have h1 := Nat.log2_self_le hn
  have h2 := Nat.lt_log2_self (n := n)
  rcases Nat.lt_or_ge (2 ^ Nat.log2 n) n with hlt | hge
  · exfalso
    have hb : (n &&& (n - 1)).testBit (Nat.log2 n) = true := by
      rw [Nat.testBit_and]
      have e : ∀ m, 2 ^ Nat.log2 n ≤ m → m < 2 ^ (Nat.log2 n + 1) → m.testBit (Nat.log2 n) = true := by
        intro m hm1 hm2
        rw [Nat.testBit_eq_decide_div_mod_eq]
        have : m / 2 ^ Nat.log2 n = 1 := by
          apply Nat.div_eq_of_lt_le
          · simpa using hm1
          · rw [Nat.pow_succ] at hm2; omega
        simp [this]
      rw [e n h1 h2, e (n - 1) (by omega) (by omega)]; rfl
    rw [h] at hb; simp at hb
  · omega

/-- The class index is the least one whose size is enough. -/
theorem sizeToIdx_spec (n : Nat) : n ≤ 2 ^ (4 + sizeToIdx n) ∧
    (sizeToIdx n = 0 ∨ 2 ^ (3 + sizeToIdx n) < n) := by
  unfold sizeToIdx
  split
  · exact ⟨by simpa using by assumption, Or.inl rfl⟩
  rename_i h16
  have hn : n ≠ 0 := by omega
  have h1 := Nat.log2_self_le hn
  have h2 := Nat.lt_log2_self (n := n)
  have h4 : 4 ≤ Nat.log2 n := by
    rcases Nat.lt_or_ge (Nat.log2 n) 4 with h | h
    · exfalso
      have : 2 ^ (Nat.log2 n + 1) ≤ 2 ^ 4 := Nat.pow_le_pow_right (by decide) (by omega)
      omega
    · exact h
  split
  · rename_i hp
    have he := and_pred_eq_zero hn hp
    have e1 : 4 + (Nat.log2 n + 0 - 4) = Nat.log2 n := by omega
    rw [e1]
    refine ⟨by omega, ?_⟩
    rcases Nat.lt_or_ge 4 (Nat.log2 n) with h | h
    · right
      have e2 : 3 + (Nat.log2 n + 0 - 4) = Nat.log2 n - 1 := by omega
      rw [e2]
      have : 2 ^ (Nat.log2 n - 1) < 2 ^ Nat.log2 n := Nat.pow_lt_pow_right (by decide) (by omega)
      omega
    · left; omega
  · rename_i hp
    have e1 : 4 + (Nat.log2 n + 1 - 4) = Nat.log2 n + 1 := by omega
    have e2 : 3 + (Nat.log2 n + 1 - 4) = Nat.log2 n := by omega
    rw [e1, e2]
    refine ⟨by omega, Or.inr ?_⟩
    rcases Nat.lt_or_ge (2 ^ Nat.log2 n) n with h | h
    · exact h
    · exfalso
      apply hp
      have he : n = 2 ^ Nat.log2 n := by omega
      rw [he, Nat.and_two_pow_sub_one_eq_mod, Nat.mod_self]

private theorem classSize_eq {i : Nat} (h : i < numClasses) : classSize i = 2 ^ (4 + i) := by
  unfold numClasses at h
  match i, h with
  | 0, _ => rfl
  | 1, _ => rfl
  | 2, _ => rfl
  | 3, _ => rfl
  | 4, _ => rfl
  | n + 5, h => omega

/-- A chunk of the chosen source has room for the total size. -/
private theorem len_ge {ac used total ptr len} (h : ChunkOk used (source ac total) total ptr len) :
    total ≤ len := by
  have hl := h.len
  unfold source at hl
  split at hl
  · rename_i i hi
    split at hi
    · cases hi
    split at hi
    · simp only [Src.cls.injEq] at hi
      subst hi
      rw [hl, classSize_eq (by omega)]
      exact (sizeToIdx_spec total).1
    · cases hi
  · omega

private theorem alignUp_facts {v k : Nat} (h : v + (2 ^ k - 1) < 2 ^ 64) :
    v ≤ alignUpSafe v (2 ^ k) ∧ alignUpSafe v (2 ^ k) ≤ v + (2 ^ k - 1) ∧
    alignUpSafe v (2 ^ k) % 2 ^ k = 0 := by
  unfold alignUpSafe
  rw [if_neg (by omega)]
  have hpos : 0 < 2 ^ k := Nat.pow_pos (by decide)
  have h1 := Nat.div_add_mod (v + (2 ^ k - 1)) (2 ^ k)
  have h2 := Nat.mod_lt (v + (2 ^ k - 1)) hpos
  have h3 := Nat.mul_comm ((v + (2 ^ k - 1)) / 2 ^ k) (2 ^ k)
  refine ⟨by omega, by omega, Nat.mul_mod_left _ _⟩

private theorem meta_decode {off total : Nat} (ho : off < 2 ^ 32) (ht : total < 2 ^ 32) :
    (word (total ||| word (off <<< 32))) >>> 32 = off ∧
    (word (total ||| word (off <<< 32))) &&& (2 ^ 32 - 1) = total := by
  have e1 : word (off <<< 32) = off <<< 32 := by
    unfold word; rw [Nat.shiftLeft_eq]; exact Nat.mod_eq_of_lt (by omega)
  rw [e1, Nat.or_comm, ← Nat.shiftLeft_add_eq_or_of_lt ht, Nat.shiftLeft_eq]
  have e2 : word (off * 2 ^ 32 + total) = off * 2 ^ 32 + total := Nat.mod_eq_of_lt (by omega)
  rw [e2, Nat.shiftRight_eq_div_pow, Nat.and_two_pow_sub_one_eq_mod]
  omega

private structure AOk (ac : Nat → Bool) (mem : Nat → Nat) (a : Alloc) : Prop where
  hdr : a.ptr + 8 ≤ a.user
  pos : 0 < a.ptr
  off : a.user - a.ptr < 2 ^ 32
  total : a.total < 2 ^ 32
  inTotal : a.user + a.size ≤ a.ptr + a.total
  totalLe : a.total ≤ a.len
  sizePos : 0 < a.size
  bound : a.ptr + a.len ≤ 2 ^ 64
  align : a.user % a.align = 0
  align8 : a.user % 8 = 0
  src : a.src = source ac a.total
  word : mem (a.user - 8) = word (a.total ||| word ((a.user - a.ptr) <<< 32))

private structure Inv (ac : Nat → Bool) (mem : Nat → Nat) (live : List Alloc) : Prop where
  each : ∀ a ∈ live, AOk ac mem a
  apart : live.Pairwise fun a b => Disjoint a.chunk b.chunk

private theorem user_facts {k ptr total size len : Nat} (hsz : size + 8 + 2 ^ k < 2 ^ 32)
    (ht : totalSize size (2 ^ k) = some total) (_hp : 0 < ptr) (hp8 : ptr % 8 = 0)
    (hb : ptr + len ≤ 2 ^ 64) (hl : total ≤ len) :
    0 < size ∧ total < 2 ^ 32 ∧ ptr + 8 ≤ userPtr ptr (2 ^ k) ∧
    userPtr ptr (2 ^ k) + size ≤ ptr + total ∧ userPtr ptr (2 ^ k) % 2 ^ k = 0 ∧
    userPtr ptr (2 ^ k) % 8 = 0 := by
  have hkp : 0 < 2 ^ k := Nat.pow_pos (by decide)
  unfold totalSize at ht
  split at ht
  · cases ht
  split at ht
  · cases ht
  unfold userPtr
  split at ht
  · rename_i hgt
    split at ht
    · cases ht
    simp only [Option.some.injEq] at ht
    subst ht
    rw [if_neg (by omega)]
    have hw : word (ptr + 8) = ptr + 8 := Nat.mod_eq_of_lt (by omega)
    rw [hw]
    obtain ⟨h1, h2, h3⟩ := alignUp_facts (v := ptr + 8) (k := k) (by omega)
    refine ⟨by omega, by omega, by omega, by omega, h3, ?_⟩
    have hk : 3 ≤ k := by
      rcases Nat.lt_or_ge k 3 with h | h
      · exfalso
        have : 2 ^ k ≤ 2 ^ 3 := Nat.pow_le_pow_right (by decide) (by omega)
        omega
      · exact h
    have hd : (8 : Nat) ∣ 2 ^ k := by
      have := Nat.pow_dvd_pow 2 hk
      simpa using this
    exact Nat.mod_eq_zero_of_dvd (Nat.dvd_trans hd (Nat.dvd_of_mod_eq_zero h3))
  · rename_i hle
    simp only [Option.some.injEq] at ht
    subst ht
    rw [if_pos (by omega)]
    have hw : word (ptr + 8) = ptr + 8 := Nat.mod_eq_of_lt (by omega)
    rw [hw]
    refine ⟨by omega, by omega, by omega, by omega, ?_, by omega⟩
    have hk : k ≤ 3 := by
      rcases Nat.lt_or_ge 3 k with h | h
      · exfalso
        have : 2 ^ 4 ≤ 2 ^ k := Nat.pow_le_pow_right (by decide) h
        omega
      · exact h
    have h8 : (2 : Nat) ^ k ∣ 2 ^ 3 := Nat.pow_dvd_pow 2 hk
    exact Nat.mod_eq_zero_of_dvd (Nat.dvd_trans h8 (Nat.dvd_of_mod_eq_zero (by omega)))

private theorem reach_inv {ac : Nat → Bool} {mem : Nat → Nat} {live : List Alloc}
    (h : Reach ac mem live) : Inv ac mem live := by
  induction h with
  | init => exact ⟨by simp, by simp⟩
  | @alloc mem mem' live chunk size k total ptr len user w _ hsz ht hc hok ha hst ih =>
    have hl := len_ge hok
    obtain ⟨f1, f2, f3, f4, f5, f6⟩ := user_facts hsz ht hok.pos hok.aligned hok.bound hl
    unfold alignedAlloc at ha
    rw [ht] at ha
    simp only [hc, addMetadataAndAlign] at ha
    rw [if_neg (by omega)] at ha
    simp only [Res.ok.injEq] at ha
    obtain ⟨hu, hw⟩ := ha
    rw [hu] at f3 f4 f5 f6 hw
    have hoff : word (user + 2 ^ 64 - ptr) = user - ptr := by
      have hb := hok.bound
      unfold word; omega
    have hb := hok.bound
    constructor
    · intro a hmem
      rw [List.mem_cons] at hmem
      rcases hmem with rfl | hmem
      · exact { hdr := f3, pos := hok.pos, off := by show user - ptr < 2 ^ 32; omega, total := f2,
                inTotal := f4, totalLe := hl, sizePos := f1, bound := hb, align := f5,
                align8 := f6, src := rfl,
                word := by
                  show mem' (user - 8) = _
                  rw [hst.1, ← hw]
                  unfold metaWord
                  rw [hoff] }
      · have ha := ih.each a hmem
        have hd := hok.apart a.chunk (List.mem_map.2 ⟨a, hmem, rfl⟩)
        have hdj : Disjoint (a.user - 8, 8) (user - 8, 8) := by
          have h1 := ha.hdr
          have h2 := ha.inTotal
          have h3 := ha.totalLe
          have h4 := ha.sizePos
          refine disjoint_of_inside hd (inside_of ?_ ?_) (inside_of ?_ ?_)
          · show a.ptr ≤ a.user - 8; omega
          · show a.user - 8 + 8 ≤ a.ptr + a.len; omega
          · show ptr ≤ user - 8; omega
          · show user - 8 + 8 ≤ ptr + len; omega
        exact { ha with word := by rw [hst.2 _ hdj]; exact ha.word }
    · rw [List.pairwise_cons]
      refine ⟨fun a hmem => ?_, ih.apart⟩
      exact (hok.apart a.chunk (List.mem_map.2 ⟨a, hmem, rfl⟩)).symm
  | free _ _ ih =>
    exact ⟨fun b hb => ih.each b (List.mem_filter.1 hb).1, ih.apart.filter _⟩
  | @write mem mem' live _ hw ih =>
    refine ⟨fun a ha => ?_, ih.apart⟩
    have h := ih.each a ha
    refine { h with word := ?_ }
    have h1 := h.hdr
    rw [hw (a.user - 8) ⟨a, ha, inside_of (by show a.ptr ≤ a.user - 8; omega)
      (by show a.user - 8 + 8 ≤ a.ptr + (a.user - a.ptr); omega)⟩]
    exact h.word

/-! ### The theorems -/

variable {ac : Nat → Bool} {mem : Nat → Nat} {live : List Alloc}

/-- **C21 (partial: requests whose size + 8 + alignment is below 2^32).** After any history of
requests, frees and client writes: every range in use is aligned as asked, lies inside its chunk,
and shares no byte with any other range in use. -/
theorem C21_ranges_partial (h : Reach ac mem live) :
    (∀ a ∈ live, a.user % a.align = 0 ∧ Inside a.range a.chunk) ∧
    live.Pairwise (fun a b => Disjoint a.range b.range) := by
  have hi := reach_inv h
  have hin : ∀ a ∈ live, Inside a.range a.chunk := by
    intro a ha
    have h1 := hi.each a ha
    have h2 := h1.hdr
    have h3 := h1.inTotal
    have h4 := h1.totalLe
    exact inside_of (by show a.ptr ≤ a.user; omega) (by show a.user + a.size ≤ a.ptr + a.len; omega)
  refine ⟨fun a ha => ⟨(hi.each a ha).align, hin a ha⟩, ?_⟩
  exact hi.apart.imp_of_mem fun ha hb hd => disjoint_of_inside hd (hin _ ha) (hin _ hb)

/-- **C21 (same scope).** Freeing a range in use returns exactly the chunk it was cut from, to
the source it came from, with the size that was asked from that source. -/
theorem C21_free_partial (h : Reach ac mem live) (a : Alloc) (ha : a ∈ live) :
    free ac mem a.user = some (a.src, a.ptr, a.total) := by
  have h1 := (reach_inv h).each a ha
  have hd := meta_decode h1.off h1.total
  unfold free
  have h2 := h1.hdr
  have h3 := h1.inTotal
  have h4 := h1.totalLe
  have h5 := h1.bound
  have h6 := h1.sizePos
  rw [if_neg (by omega)]
  simp only [getOriginalAlloc, h1.word, hd.1, hd.2, h1.src]
  have : word (a.user + 2 ^ 64 - (a.user - a.ptr)) = a.ptr := by unfold word; omega
  rw [this]

/-- **C21 (same scope).** The usable size is at least the size asked for, and all usable bytes
are inside the chunk. -/
theorem C21_usable_partial (h : Reach ac mem live) (a : Alloc) (ha : a ∈ live) :
    a.size ≤ usableSize mem a.user ∧ Inside (a.user, usableSize mem a.user) a.chunk := by
  have h1 := (reach_inv h).each a ha
  have hd := meta_decode h1.off h1.total
  have h2 := h1.hdr
  have h3 := h1.inTotal
  have h4 := h1.totalLe
  have h5 := h1.total
  have e : usableSize mem a.user = a.ptr + a.total - a.user := by
    unfold usableSize
    rw [if_neg (by omega)]
    simp only [getOriginalAlloc, h1.word, hd.1, hd.2]
    unfold word; omega
  rw [e]
  refine ⟨by omega, inside_of ?_ ?_⟩
  · show a.ptr ≤ a.user; omega
  · show a.user + (a.ptr + a.total - a.user) ≤ a.ptr + a.len; omega

/-- **C21 (same scope).** If the sources have chunks, the request succeeds. -/
theorem C21_succeeds_partial (chunk : Src → Nat → Option Nat) (size k : Nat) (h0 : 0 < size)
    (hsz : size + 8 + 2 ^ k < 2 ^ 32)
    (hc : ∀ src n, n < 2 ^ 32 → ∃ ptr len, chunk src n = some ptr ∧ ChunkOk [] src n ptr len) :
    ∃ user w, alignedAlloc ac chunk size (2 ^ k) = .ok user w := by
  have hkp : 0 < 2 ^ k := Nat.pow_pos (by decide)
  unfold alignedAlloc
  have ht : ∃ total, totalSize size (2 ^ k) = some total ∧ total < 2 ^ 32 := by
    unfold totalSize
    rw [if_neg (by omega), if_neg (by omega)]
    split
    · rw [if_neg (by omega)]; exact ⟨_, rfl, by omega⟩
    · exact ⟨_, rfl, by omega⟩
  obtain ⟨total, ht, hlt⟩ := ht
  obtain ⟨ptr, len, hp, hok⟩ := hc (source ac total) total hlt
  have f := user_facts hsz ht hok.pos hok.aligned hok.bound (len_ge hok)
  rw [ht]
  simp only [hp, addMetadataAndAlign]
  rw [if_neg (by omega)]
  exact ⟨_, _, rfl⟩

private theorem grants_ok {cfg : Fixed.Cfg} {size : Nat} {p : Fixed.Pool} {live : List Nat}
    {grants : List Region} (h : Fixed.Reach cfg size p live grants) :
    ∀ g ∈ grants, 0 < g.1 ∧ g.1 + g.2 ≤ 2 ^ 64 := by
  induction h with
  | create _ h => intro g hg; simp at hg; subst hg; exact ⟨h.ptr, h.bound⟩
  | allocFree _ _ _ ih => exact ih
  | allocNew _ _ h _ ih =>
    intro g hg
    rw [List.mem_cons] at hg
    rcases hg with rfl | hg
    · exact ⟨h.ptr, h.bound⟩
    · exact ih g hg
  | allocFail _ _ ih => exact ih
  | free _ _ ih => exact ih

/-- **C21.** The assumption on the chunk sources is met by the fixed-chunk allocators: an element
just handed out by the allocator of class `i` is acceptable, where the chunks in use are other
elements of that allocator or lie outside its OS memory. -/
theorem C21_classChunks {cfg : Fixed.Cfg} (hcfg : Fixed.CfgOk cfg) {i a n : Nat} {p : Fixed.Pool}
    {live : List Nat} {grants used : List Region} (hi : i < 5)
    (hs : Fixed.SizeOk cfg (classSize i))
    (h : Fixed.Reach cfg (classSize i) p (a :: live) grants)
    (hu : ∀ g ∈ used, (∃ b ∈ live, g = (b, classSize i)) ∨ ∀ r ∈ grants, Disjoint g r) :
    ChunkOk used (.cls i) n a (classSize i) := by
  obtain ⟨h1, h2⟩ := Fixed.C19_elements_partial hcfg hs h
  obtain ⟨h3, ⟨g, hg, hin⟩, _⟩ := h2 a (by simp)
  obtain ⟨g1, g2⟩ := grants_ok h g hg
  have hcs : 0 < classSize i := by
    rw [classSize_eq hi]; exact Nat.pow_pos (by decide)
  have ha : g.1 ≤ a := (hin a ⟨Nat.le_refl _, by show a < a + classSize i; omega⟩).1
  have hb := (hin (a + classSize i - 1) ⟨by show a ≤ _; omega, by show _ < a + classSize i; omega⟩).2
  refine ⟨by omega, h3, by omega, ?_, rfl⟩
  intro u hu'
  rcases hu u hu' with ⟨b, hb, rfl⟩ | hr
  · exact ((List.pairwise_cons.1 h1).1 b hb).symm
  · exact disjoint_of_inside (hr g hg) (fun _ h => h) hin

/-! ### Concrete cases and violations -/

private def ch0 : Src → Nat → Option Nat
  | .cls i, _ => some (4096 + 256 * i)
  | .os, _ => some 65536

/-- Non-vacuity: 100 bytes aligned to 64 (class 256, index 4) are in use, then 1000 bytes from
the OS. -/
example : ∃ mem live, Reach (fun _ => true) mem live ∧ live.length = 2 := by
  have t1 : totalSize 100 (2 ^ 6) = some 172 := by decide
  have s1 : source (fun _ => true) 172 = .cls 4 := by decide +kernel
  have t2 : totalSize 1000 (2 ^ 0) = some 1008 := by decide
  have s2 : source (fun _ => true) 1008 = .os := by decide +kernel
  have u1 : alignedAlloc (fun _ => true) ch0 100 (2 ^ 6) = .ok 5184 (metaWord 5120 5184 172) := by
    simp [alignedAlloc, t1, s1, ch0, addMetadataAndAlign, userPtr, word, alignUpSafe]
  have u2 : alignedAlloc (fun _ => true) ch0 1000 (2 ^ 0) = .ok 65544 (metaWord 65536 65544 1008) := by
    simp [alignedAlloc, t2, s2, ch0, addMetadataAndAlign, userPtr, word, alignUpSafe]
  have h1 := Reach.alloc (ac := fun _ => true) (chunk := ch0) (mem := fun _ => 0)
    (mem' := fun x => if x = 5176 then metaWord 5120 5184 172 else 0) (size := 100) (k := 6)
    (total := 172) (ptr := 5120) (len := 256) (user := 5184) Reach.init (by decide) t1
    (by rw [s1]; rfl) (by rw [s1]; exact ⟨by decide, by decide, by decide, by simp, rfl⟩) u1
    ⟨by simp, fun y hy => by
      have : y ≠ 5176 := by
        rintro rfl; exact hy 5176 ⟨⟨by decide, by decide⟩, by decide, by decide⟩
      simp [this]⟩
  have h2 := Reach.alloc (ac := fun _ => true) (chunk := ch0)
    (mem' := fun x => if x = 65536 then metaWord 65536 65544 1008 else
      if x = 5176 then metaWord 5120 5184 172 else 0) (size := 1000) (k := 0)
    (total := 1008) (ptr := 65536) (len := 1008) (user := 65544) h1 (by decide) t2
    (by rw [s2]; rfl) (by
      rw [s2]
      refine ⟨by decide, by decide, by decide, ?_, rfl⟩
      intro g hg
      simp [Alloc.chunk] at hg
      subst hg
      exact disjoint_of (Or.inl (by decide))) u2
    ⟨by simp, fun y hy => by
      have : y ≠ 65536 := by
        rintro rfl; exact hy 65536 ⟨⟨by decide, by decide⟩, by decide, by decide⟩
      simp [this]⟩
  exact ⟨_, _, h2, rfl⟩

/-- **C21, violated for requests of 4 GiB and more.** The size does not fit the 32 bits the
metadata word has for it: a request of 2^32 bytes is granted, but freeing it passes a wrong
address and a wrong size on, to the allocator of a size class instead of the OS. -/
theorem C21_hugeRequest_violated : ∃ (chunk : Src → Nat → Option Nat) (user w : Nat)
    (mem : Nat → Nat), (∀ n, n < 2 ^ 63 → ChunkOk [] .os n 65536 n) ∧ chunk .os (2 ^ 32 + 8) = some 65536 ∧
    alignedAlloc (fun _ => true) chunk (2 ^ 32) 8 = .ok user w ∧ mem (user - 8) = w ∧
    free (fun _ => true) mem user = some (.cls 0, 65535, 8) := by
  have t : totalSize (2 ^ 32) 8 = some (2 ^ 32 + 8) := by decide
  have s : source (fun _ => true) (2 ^ 32 + 8) = .os := by decide +kernel
  have s' : source (fun _ => true) 8 = .cls 0 := by decide +kernel
  have hm : metaWord 65536 65544 (2 ^ 32 + 8) = 9 * 2 ^ 32 + 8 := by decide +kernel
  refine ⟨ch0, 65544, 9 * 2 ^ 32 + 8, fun _ => 9 * 2 ^ 32 + 8, ?_, rfl, ?_, rfl, ?_⟩
  · intro n hn
    exact ⟨by decide, by decide, by show 65536 + n ≤ 2 ^ 64; omega, by simp, rfl⟩
  · simp only [alignedAlloc, t, s, ch0, addMetadataAndAlign]
    have : userPtr 65536 8 = 65544 := by decide
    rw [this, hm]; rfl
  · unfold free
    have h1 : (9 * 2 ^ 32 + 8) >>> 32 = 9 := by decide
    have h2 : (9 * 2 ^ 32 + 8) &&& (2 ^ 32 - 1) = 8 := by decide
    simp only [getOriginalAlloc, h1, h2, s']
    rfl

/-- **C21, violated when the source refuses.** If no chunk is available the allocator does not
return NULL: it writes the metadata word relative to a null pointer. -/
theorem C21_refused_violated (size k : Nat) (h0 : 0 < size) (hsz : size + 8 + 2 ^ k < 2 ^ 32) :
    alignedAlloc ac (fun _ _ => none) size (2 ^ k) = .ub := by
  have hkp : 0 < 2 ^ k := Nat.pow_pos (by decide)
  unfold alignedAlloc
  have ht : ∃ total, totalSize size (2 ^ k) = some total := by
    unfold totalSize
    rw [if_neg (by omega), if_neg (by omega)]
    split
    · rw [if_neg (by omega)]; exact ⟨_, rfl⟩
    · exact ⟨_, rfl⟩
  obtain ⟨total, ht⟩ := ht
  rw [ht]; rfl

end Verif.BaseAlloc.Global
