import Verif.Tracker.Lemmas3
/-! # Properties of the memory tracker: C14, C15, C16, C35 -/
set_option linter.unusedSimpArgs false
namespace Verif.Tracker
open Mem

/-! ### Lemmas relating the invariant to the specification -/

private theorem innermost_of {st : St} {G : List Node} (h : Inv st G) {x : Nat} {n : Node}
    (hd : Deepest G x n) : Innermost (G.map Node.alloc) x n.alloc := by
  obtain ⟨m1, m2, hG⟩ := List.append_of_mem hd.mem
  subst hG
  obtain ⟨_, o1, o2⟩ := pw_mid.1 h.ord
  refine ⟨m1.map Node.alloc, m2.map Node.alloc, by simp, hd.has, ?_, ?_⟩
  · intro b hb hx
    obtain ⟨m, hm, rfl⟩ := List.mem_map.1 hb
    rcases o1 m hm with h1 | h1
    · exact h1 x ⟨hx, hd.has⟩
    · have := hd.max m (by simp [hm]) hx; omega
  · intro b hb hx
    obtain ⟨m, hm, rfl⟩ := List.mem_map.1 hb
    rcases o2 m hm with h1 | h1
    · exact (h1 x ⟨hd.has, hx⟩).elim
    · exact h1.1

private theorem innermost_unique {live : List Alloc} {x : Nat} {a b : Alloc}
    (ha : Innermost live x a) (hb : Innermost live x b) : a = b := by
  obtain ⟨l1, l2, h1, h2, h3, _⟩ := ha
  obtain ⟨m1, m2, g1, g2, g3, _⟩ := hb
  subst h1
  rcases List.append_eq_append_iff.1 g1 with ⟨k, e1, e2⟩ | ⟨k, e1, e2⟩
  · cases k with
    | nil => simp at e2; exact e2.1
    | cons c k =>
      simp at e2
      exact (g3 a (by rw [e1, e2.1]; simp) h2).elim
  · cases k with
    | nil => simp at e2; exact e2.1.symm
    | cons c k =>
      simp at e2
      exact (h3 b (by rw [e1, e2.1]; simp) g2).elim

private theorem info_of {st : St} {G : List Node} (h : Inv st G) {x : Nat} {n : Node}
    (hd : Deepest G x n) : getAllocInfo st x = some (n.ptr, n.size, n.pool) := by
  obtain ⟨e, h1, h2⟩ := infoLoop_spec h hd 8 0 none (by omega) (by omega)
  have := (h.ok n hd.mem).ptr
  have hx : n.ptr ≤ x := hd.has.1
  unfold getAllocInfo
  rw [if_neg (by omega), h1, Option.map_some, h2.1, h2.2.1, h2.2.2.1]

private theorem info_none {st : St} {G : List Node} (h : Inv st G) {x : Nat}
    (hno : ∀ n ∈ G, ¬ Has n.rg x) : getAllocInfo st x = none := by
  unfold getAllocInfo
  split
  · rfl
  · rw [infoLoop_none h (fun n hn _ => hno n hn)]; rfl

private theorem tracked_iff {st : St} {G : List Node} (h : Inv st G) (a : Alloc) :
    Tracked st a ↔ a ∈ G.map Node.alloc := by
  constructor
  · rintro ⟨l, e, _, he, h1, h2, h3⟩
    have := (h.sound l e he).1
    refine List.mem_map.2 ⟨_, this, ?_⟩
    simp [Node.alloc, h1, h2, h3]
  · intro ha
    obtain ⟨n, hn, rfl⟩ := List.mem_map.1 ha
    obtain ⟨e, _, he, hent, _⟩ := hit h hn (has_self (h.ok n hn))
    exact ⟨n.level, e, h.lt8 n hn, he, hent.1, hent.2.1, hent.2.2.1⟩

/-! ### A concrete history -/

/-- Pool 1 gets [0x1000, 0x2000); pool 2 gets [0x1100, 0x1200) from it, pool 3 [0x1100, 0x1180)
from that; pool 1 gets [0x3000, 0x4000) and splits it at 0x3400. -/
def demo1 : St := (trackingAlloc empty 1 0x1000 (.ok 0x1000) true).1
def demo2 : St := (trackingAlloc demo1 2 0x100 (.ok 0x1100) true).1
def demo3 : St := (trackingAlloc demo2 3 0x80 (.ok 0x1100) true).1
def demo4 : St := (trackingAlloc demo3 1 0x1000 (.ok 0x3000) true).1
def demo5 : St := (trackingSplit demo4 1 0x3000 0x1000 0x400 none true true).1

private theorem fresh_nil {r : Region} (h1 : 0 < r.1) (h2 : 0 < r.2) (h3 : r.1 + r.2 < 2 ^ 64) :
    Fresh [] r := ⟨h1, h2, h3, by intro a ha; cases ha⟩

theorem demo_reach (oom : Bool) : Reach oom demo5
    [⟨0x3400, 0xc00, 1⟩, ⟨0x3000, 0x400, 1⟩, ⟨0x1100, 0x80, 3⟩, ⟨0x1100, 0x100, 2⟩,
      ⟨0x1000, 0x1000, 1⟩] := by
  have r1 : Reach oom demo1 [⟨0x1000, 0x1000, 1⟩] :=
    .alloc (host := true) .init (fresh_nil (by decide) (by decide) (by decide)) rfl
  have r2 : Reach oom demo2 [⟨0x1100, 0x100, 2⟩, ⟨0x1000, 0x1000, 1⟩] := by
    refine .alloc (host := true) r1 ⟨by decide, by decide, by decide, ?_⟩ rfl
    intro a ha
    simp only [List.mem_singleton] at ha
    subst ha
    exact Or.inr (inside_of (by decide) (by decide))
  have r3 : Reach oom demo3 [⟨0x1100, 0x80, 3⟩, ⟨0x1100, 0x100, 2⟩, ⟨0x1000, 0x1000, 1⟩] := by
    refine .alloc (host := true) r2 ⟨by decide, by decide, by decide, ?_⟩ rfl
    intro a ha
    simp only [List.mem_cons, List.mem_nil_iff, or_false] at ha
    rcases ha with rfl | rfl
    · exact Or.inr (inside_of (by decide) (by decide))
    · exact Or.inr (inside_of (by decide) (by decide))
  have r4 : Reach oom demo4 [⟨0x3000, 0x1000, 1⟩, ⟨0x1100, 0x80, 3⟩, ⟨0x1100, 0x100, 2⟩,
      ⟨0x1000, 0x1000, 1⟩] := by
    refine .alloc (host := true) r3 ⟨by decide, by decide, by decide, ?_⟩ rfl
    intro a ha
    simp only [List.mem_cons, List.mem_nil_iff, or_false] at ha
    rcases ha with rfl | rfl | rfl
    all_goals exact Or.inl (disjoint_of (by decide))
  exact .split (l1 := []) (a := ⟨0x3000, 0x1000, 1⟩) (first := 0x400) (r := .success) r4
    (by intro b hb; cases hb) rfl

/-! ### C14 -/

/-- **C14.** After every history, for every address: the library reports the pool (and base and
size) of the innermost tracked live allocation that contains the address; it reports none iff
there is no such allocation. -/
theorem C14_poolByPtr {oom : Bool} {st : St} {live : List Alloc} (h : Reach oom st live) (x : Nat) :
    (∀ a, Innermost live x a →
      poolByPtr st x = some a.pool ∧ getAllocInfo st x = some (a.ptr, a.size, a.pool)) ∧
    ((∀ a ∈ live, ¬ Has a.range x) → poolByPtr st x = none) ∧
    ((∃ a, Innermost live x a) ∨ ∀ a ∈ live, ¬ Has a.range x) := by
  obtain ⟨G, hi, rfl⟩ := reach_inv h
  refine ⟨?_, ?_, ?_⟩
  · intro a ha
    obtain ⟨l1, l2, h1, h2, _⟩ := id ha
    have hm : a ∈ G.map Node.alloc := by rw [h1]; simp
    obtain ⟨n, hn, rfl⟩ := List.mem_map.1 hm
    obtain ⟨d, hd⟩ := deepest_exists ⟨n, hn, h2⟩
    have heq := innermost_unique ha (innermost_of hi hd)
    have hinfo := info_of hi hd
    have e1 : n.ptr = d.ptr := congrArg Alloc.ptr heq
    have e2 : n.size = d.size := congrArg Alloc.size heq
    have e3 : n.pool = d.pool := congrArg Alloc.pool heq
    have hinfo' : getAllocInfo st x = some (n.ptr, n.size, n.pool) := by rw [hinfo, e1, e2, e3]
    exact ⟨by unfold poolByPtr; rw [hinfo']; rfl, hinfo'⟩
  · intro hno
    unfold poolByPtr
    rw [info_none hi (fun n hn => hno n.alloc (List.mem_map_of_mem hn))]
    rfl
  · by_cases hex : ∃ n ∈ G, Has n.rg x
    · obtain ⟨d, hd⟩ := deepest_exists hex
      exact Or.inl ⟨_, innermost_of hi hd⟩
    · refine Or.inr ?_
      intro a ha hx
      obtain ⟨n, hn, rfl⟩ := List.mem_map.1 ha
      exact hex ⟨n, hn, hx⟩

example : [0x1050, 0x1100, 0x117f, 0x1180, 0x1200, 0x33ff, 0x3400, 0x4000, 0].map (poolByPtr demo5) =
    [some 1, some 3, some 3, some 2, some 1, some 1, some 1, none, none] := by decide +kernel
example : getAllocInfo demo5 0x3400 = some (0x3400, 0xc00, 1) := by decide +kernel
example : Innermost [⟨0x3400, 0xc00, 1⟩, ⟨0x3000, 0x400, 1⟩, ⟨0x1100, 0x80, 3⟩, ⟨0x1100, 0x100, 2⟩,
      ⟨0x1000, 0x1000, 1⟩] 0x1190 ⟨0x1100, 0x100, 2⟩ := by
  refine ⟨[⟨0x3400, 0xc00, 1⟩, ⟨0x3000, 0x400, 1⟩, ⟨0x1100, 0x80, 3⟩], [⟨0x1000, 0x1000, 1⟩], rfl,
    ⟨by decide, by decide⟩, ?_, ?_⟩
  · intro b hb
    simp only [List.mem_cons, List.mem_nil_iff, or_false] at hb
    rcases hb with rfl | rfl | rfl <;> rintro ⟨h1, h2⟩ <;> revert h1 h2 <;> decide
  · intro b hb _
    simp only [List.mem_singleton] at hb
    subst hb
    exact inside_of (by decide) (by decide)

/-! ### C35 -/

/-- **C35.** `umfFree(ptr)` calls the free operation of the pool that owns the innermost tracked
live allocation around `ptr`, with `ptr`, and makes no call if there is none. -/
theorem C35_umfFree {oom : Bool} {st : St} {live : List Alloc} (h : Reach oom st live) (x : Nat) :
    (∀ a, Innermost live x a → umfFree st x = some (a.pool, x)) ∧
    ((∀ a ∈ live, ¬ Has a.range x) → umfFree st x = none) := by
  obtain ⟨h1, h2, _⟩ := C14_poolByPtr h x
  constructor
  · intro a ha
    unfold umfFree
    rw [(h1 a ha).1]; rfl
  · intro hno
    unfold umfFree
    rw [h2 hno]; rfl

example : umfFree demo5 0x1120 = some (3, 0x1120) ∧ umfFree demo5 0x5000 = none := by
  decide +kernel

/-! ### C15 -/

private theorem addLoop_exceeds {st : St} {G : List Node} (h : Inv st G) {x size : Nat} {m : Node}
    (hm : m ∈ G) (hx : Has m.rg x) (hb : x + size < 2 ^ 64) (hex : m.ptr + m.size < x + size)
    (fuel l : Nat) (p : Option Nat) (hfl : fuel + l = 8) (hl : l ≤ m.level) :
    addLoop st x size fuel l p = .exceeds ∨ addLoop st x size fuel l p = .tooDeep := by
  have hw : word (x + size) = x + size := Nat.mod_eq_of_lt hb
  induction fuel generalizing l p with
  | zero => have := h.lt8 m hm; omega
  | succ fuel ih =>
    obtain ⟨q, hq, hql, hqx⟩ := anc h (m.level - l) m hm hx l (by omega)
    obtain ⟨e, h1, he, hent, h3⟩ := hit h hq hqx
    rw [hql] at h1 he
    have hs := stop_eq h he
    unfold addLoop
    rw [h1]
    simp only [h3, if_true]
    by_cases h7 : l = 7
    · rw [if_pos h7]; exact Or.inr rfl
    · rw [if_neg h7]
      by_cases hc : word (x + size) > e.stop
      · rw [if_pos hc]; exact Or.inl rfl
      · rw [if_neg hc]
        rcases Nat.lt_or_ge l m.level with hlt | hge
        · obtain ⟨p', hp', hpl, hpx⟩ := anc h (m.level - (l + 1)) m hm hx (l + 1) (by omega)
          have hcp := cnt_pos h hq hp' (by omega) hqx hpx
          rw [if_pos (by rw [hent.2.2.2]; exact hcp)]
          exact ih (l + 1) (some e.key) (by omega) (by omega)
        · exfalso
          have : q = m := uniq h hq hm (by omega) hqx hx
          subst this
          apply hc
          rw [hw, hs, hent.1, hent.2.1]
          exact hex

/-- **C15**, registering: a range that starts in a tracked allocation and ends outside it is
refused; the tracker is unchanged, the client gets no address and the range goes back upstream.
Missing: ranges that start outside (`C15_overlap_violated`). -/
theorem C15_add_partial {oom : Bool} {st st' : St} {live : List Alloc} (h : Reach oom st live)
    {a : Alloc} (ha : a ∈ live) {pool ptr size given : Nat} {host : Bool} {r : Res}
    {back : Option (Nat × Nat)} (hx : Has a.range ptr) (hout : ¬ Inside (ptr, size) a.range)
    (hb : ptr + size < 2 ^ 64)
    (hadd : trackingAlloc st pool size (.ok ptr) host = (st', r, given, back)) :
    st' = st ∧ r ≠ .success ∧ given = 0 ∧ back = some (ptr, size) := by
  obtain ⟨G, hi, rfl⟩ := reach_inv h
  obtain ⟨m, hm, rfl⟩ := List.mem_map.1 ha
  have hpos := (hi.ok m hm).ptr
  have hle : m.ptr ≤ ptr := hx.1
  have hex : m.ptr + m.size < ptr + size := by
    rcases Nat.lt_or_ge (m.ptr + m.size) (ptr + size) with h1 | h1
    · exact h1
    · exact absurd (inside_of hle h1) hout
  have hl := addLoop_exceeds hi hm hx hb hex 8 0 none (by omega) (by omega)
  unfold trackingAlloc at hadd
  simp only at hadd
  rw [if_neg (by omega)] at hadd
  unfold add at hadd
  rcases hl with hl | hl <;> rw [hl] at hadd <;> simp only at hadd <;>
    injection hadd with h1 h2 <;> injection h2 with h2 h3 <;> injection h3 with h3 h4 <;>
    exact ⟨h1.symm, by rw [← h2]; simp, h3.symm, h4.symm⟩

example : (trackingAlloc demo5 9 0x100 (.ok 0x11c0) true).2 =
    (.invalidArgument, 0, some (0x11c0, 0x100)) := by decide +kernel

/-- **C15**, every refusal: whatever the tracker and the range, if registering fails nothing
changes and the range goes back upstream. -/
theorem C15_refusedAlloc {st st' : St} {pool ptr size given : Nat} {host : Bool} {r : Res}
    {back : Option (Nat × Nat)} (hp : ptr ≠ 0)
    (hadd : trackingAlloc st pool size (.ok ptr) host = (st', r, given, back)) (hr : r ≠ .success) :
    st' = st ∧ given = 0 ∧ back = some (ptr, size) := by
  unfold trackingAlloc at hadd
  simp only at hadd
  rw [if_neg hp] at hadd
  cases hq : add st pool ptr size host with
  | mk s q =>
    rw [hq] at hadd
    cases q with
    | success =>
      simp only at hadd
      injection hadd with h1 h2; injection h2 with h2 h3; exact absurd h2.symm hr
    | _ =>
      simp only at hadd
      injection hadd with h1 h2; injection h2 with h2 h3; injection h3 with h3 h4
      exact ⟨by rw [← h1]; exact add_fail hq (by simp), h3.symm, h4.symm⟩

/-- **C15 is violated** for ranges that start before a tracked allocation: with [100, 200) tracked,
[50, 150) is accepted; address 120 is then reported as owned by the first pool only, and freeing
moves on from there. -/
theorem C15_overlap_violated : ∃ st st' : St, Reach false st [⟨100, 100, 1⟩] ∧
    trackingAlloc st 2 100 (.ok 50) true = (st', .success, 50, none) ∧
    ¬ (Disjoint (50, 100) (100, 100) ∨ Inside (50, 100) (100, 100) ∨ Inside (100, 100) (50, 100)) := by
  refine ⟨(trackingAlloc empty 1 100 (.ok 100) true).1, _,
    .alloc (host := true) .init (fresh_nil (by decide) (by decide) (by decide)) rfl, rfl, ?_⟩
  rintro (h | h | h)
  · exact h 120 ⟨⟨by decide, by decide⟩, by decide, by decide⟩
  · exact absurd (h 60 ⟨by decide, by decide⟩).1 (by decide)
  · exact absurd (h 190 ⟨by decide, by decide⟩).2 (by decide)

/-- **C15**, removing: an allocation that contains a newer live one (which does not start at the
same address) cannot be removed; the tracker is unchanged. -/
theorem C15_remove {oom : Bool} {st : St} {l1 l2 : List Alloc} {a b : Alloc}
    (h : Reach oom st (l1 ++ a :: l2)) (hb : b ∈ l1) (hin : Inside b.range a.range)
    (hne : ∀ c ∈ l1, c.ptr ≠ a.ptr) : remove st a.ptr = (st, .unknown) := by
  obtain ⟨G, hi, hG⟩ := reach_inv h
  obtain ⟨m1, n, m2, rfl, rfl, rfl, rfl⟩ := map_split hG
  obtain ⟨nb, hnb, rfl⟩ := List.mem_map.1 hb
  have hn : n ∈ m1 ++ n :: m2 := by simp
  have hnb' : nb ∈ m1 ++ n :: m2 := by simp [hnb]
  have hself := has_self (hi.ok n hn)
  have hselfb := has_self (hi.ok nb hnb')
  obtain ⟨_, o1, o2⟩ := pw_mid.1 hi.ord
  have hd : Deepest (m1 ++ n :: m2) n.ptr n := by
    refine ⟨hn, hself, ?_⟩
    intro m hm hx
    rw [mem_mid, List.mem_append] at hm
    rcases hm with rfl | hm | hm
    · exact Nat.le_refl _
    · exfalso
      rcases o1 m hm with h1 | h1
      · exact h1 _ ⟨hx, hself⟩
      · have g1 : m.ptr ≤ n.ptr := hx.1
        have g2 := (h1.1 _ (has_self (hi.ok m (by simp [hm])))).1
        have g3 : n.ptr ≤ m.ptr := g2
        exact hne m.alloc (List.mem_map_of_mem hm) (by show m.ptr = n.ptr; omega)
    · rcases o2 m hm with h1 | h1
      · exact (h1 _ ⟨hself, hx⟩).elim
      · omega
  have hcnt : cnt (m1 ++ n :: m2) (n.level + 1) n.rg ≠ 0 := by
    rcases o1 nb hnb with h1 | h1
    · exact (h1 _ ⟨hselfb, hin _ hselfb⟩).elim
    · obtain ⟨p, hp, hpl, hpx⟩ := anc hi (nb.level - (n.level + 1)) nb hnb' hselfb (n.level + 1) (by omega)
      exact cnt_pos hi hn hp (by omega) (h1.1 _ hselfb) hpx
  have hmn : mostNested st n.ptr true = none := by
    obtain ⟨e, hent, hcase⟩ := nestedLoop_spec hi hd 8 0 none none (by omega) (by omega)
    rcases hcase with ⟨h0, _⟩ | ⟨h0, lv, f, hl, hf⟩
    · rw [hent.2.2.2] at h0; exact absurd h0 hcnt
    · unfold mostNested
      rw [hl]
      simp only
      rcases hf with rfl | hf
      · by_cases hk : f.key ≠ n.ptr
        · rw [if_pos hk]
        · rw [if_neg hk, if_pos ⟨trivial, by omega⟩]
      · rw [if_pos hf]
  show remove st n.ptr = _
  unfold remove
  rw [hmn]

example : (remove demo5 0x1000).2 = .unknown ∧ (remove demo5 0x1100).2 = .success := by
  decide +kernel

/-! ### C16 -/

/-- **C16**, the tracked set: without host memory exhaustion the tracked allocations are exactly
the live ones. -/
theorem C16_tracked_partial {st : St} {live : List Alloc} (h : Reach false st live) (a : Alloc) :
    Tracked st a ↔ a ∈ live := by
  obtain ⟨G, hi, rfl⟩ := reach_inv h
  exact tracked_iff hi a

example : Tracked demo5 ⟨0x3400, 0xc00, 1⟩ :=
  (C16_tracked_partial (demo_reach false) _).2 (by simp)

/-- **C16**, free: the caller gets upstream's answer; if upstream frees the allocation it is no
longer tracked and nothing else changes; if upstream fails, exactly the same allocations are
tracked as before. -/
theorem C16_free_partial {st : St} {l1 l2 : List Alloc} {a : Alloc}
    (h : Reach false st (l1 ++ a :: l2)) (hleaf : ∀ b ∈ l1, Disjoint b.range a.range) :
    (∀ size host, (trackingFree st a.pool a.ptr size none host).2 = .success ∧
      ∀ b, Tracked (trackingFree st a.pool a.ptr size none host).1 b ↔ b ∈ l1 ++ l2) ∧
    (∀ code, (trackingFree st a.pool a.ptr a.size (some code) true).2 = .upstream code ∧
      ∀ b, Tracked (trackingFree st a.pool a.ptr a.size (some code) true).1 b ↔
        b ∈ l1 ++ a :: l2) := by
  refine ⟨fun size host => ⟨rfl, C16_tracked_partial (.free h hleaf)⟩,
    fun code => ⟨?_, C16_tracked_partial (.freeFail h hleaf)⟩⟩
  unfold trackingFree
  simp only
  generalize (if a.ptr = 0 then (st, Res.unknown) else remove st a.ptr) = q
  by_cases hq : q.2 = .success
  · rw [if_pos hq]
  · rw [if_neg hq]

private theorem mostNested_some {st : St} {G : List Node} (h : Inv st G) {x lvl : Nat}
    {p : Option Nat} {e : Entry} (hm : mostNested st x true = some (lvl, p, e)) :
    ∃ l1 a l2, G = l1 ++ a :: l2 ∧ a.ptr = x ∧ a.size = e.size ∧
      ∀ b ∈ l1, Disjoint b.rg a.rg := by
  by_cases hex : ∃ n ∈ G, Has n.rg x
  · obtain ⟨n, hd⟩ := deepest_exists hex
    obtain ⟨e', hent, hcase⟩ := nestedLoop_spec h hd 8 0 none none (by omega) (by omega)
    have hkey : ∀ f : Entry, ∀ q : Nat × Option Nat, (nestedLoop st x 8 0 none none) = (q.1, q.2, some f) →
        f = e ∧ f.key = x ∧ f.nch = 0 := by
      intro f q hq
      unfold mostNested at hm
      rw [hq] at hm
      simp only at hm
      split at hm
      · cases hm
      · rename_i hk
        split at hm
        · cases hm
        · rename_i hc
          injection hm with hm
          injection hm with _ hm
          injection hm with _ hm
          refine ⟨hm, by simpa using hk, ?_⟩
          simp at hc
          exact hc
    rcases hcase with ⟨h0, par', hl, _⟩ | ⟨h0, lv, f, hl, hf⟩
    · obtain ⟨g1, g2, g3⟩ := hkey e' (n.level, par') hl
      subst g1
      obtain ⟨l1, l2, rfl⟩ := List.append_of_mem hd.mem
      refine ⟨l1, n, l2, rfl, by rw [← hent.1, g2], hent.2.1.symm, ?_⟩
      intro b hb
      rcases (pw_mid.1 h.ord).2.1 b hb with h1 | h1
      · exact h1
      · exfalso
        have hbm : b ∈ l1 ++ n :: l2 := by simp [hb]
        have hbs := has_self (h.ok b hbm)
        obtain ⟨q, hq, hql, hqx⟩ := anc h (b.level - (n.level + 1)) b hbm hbs (n.level + 1) (by omega)
        have := cnt_pos h hd.mem hq (by omega) (h1.1 _ hbs) hqx
        rw [hent.2.2.2] at g3
        exact this g3
    · obtain ⟨g1, g2, g3⟩ := hkey f (lv, some e'.key) hl
      rcases hf with hf | hf
      · subst hf; exact absurd g3 h0
      · exact absurd g2 hf
  · obtain ⟨lv, q, f, hl, hf⟩ := nestedLoop_none h (x := x) (by
      intro n hn hx; exact hex ⟨n, hn, hx⟩)
    unfold mostNested at hm
    rw [hl] at hm
    cases f with
    | none => simp at hm
    | some f =>
      simp only at hm
      rw [if_pos (hf f rfl)] at hm
      cases hm

/-- **C16**, split: for every request, either upstream has split an allocation that is live with
exactly the given address and size, the call succeeds and the two parts are tracked instead of
it; or the call fails and the tracker is unchanged, and upstream has not split anything. The
missing case: a host allocation made after the upstream call fails (`host2 = false`,
`C16_splitOom_violated`). -/
theorem C16_split_partial {oom : Bool} {st st' : St} {live : List Alloc} (h : Reach oom st live)
    {pool ptr total first : Nat} {up : Option Nat} {host1 host2 performed : Bool} {r : Res}
    (hs : trackingSplit st pool ptr total first up host1 host2 = (st', r, performed)) :
    (performed = true ∧ r = .success ∧ up = none ∧ 0 < first ∧ first < total ∧
      ∃ l1 a l2, live = l1 ++ a :: l2 ∧ a.ptr = ptr ∧ a.size = total ∧
        ∀ b, Tracked st' b ↔
          b ∈ l1 ++ ⟨ptr + first, total - first, pool⟩ :: ⟨ptr, first, pool⟩ :: l2) ∨
    (r ≠ .success ∧ st' = st ∧ (performed = false ∨ host2 = false)) := by
  cases performed with
  | false =>
    obtain ⟨h1, h2⟩ := trackingSplit_refused hs
    exact Or.inr ⟨h2, h1, Or.inl rfl⟩
  | true =>
    cases host2 with
    | false =>
      right
      refine ⟨?_, trackingSplit_lost hs, Or.inr rfl⟩
      unfold trackingSplit at hs
      split at hs
      · injection hs with h1 h2; injection h2 with h2 h3; cases h3
      · split at hs
        · injection hs with h1 h2; injection h2 with h2 h3; cases h3
        · split at hs
          · injection hs with h1 h2; injection h2 with h2 h3; cases h3
          · split at hs
            · rw [addAtLevel_host] at hs
              simp only at hs
              injection hs with h1 h2; injection h2 with h2 h3
              rw [← h2]; simp
            · injection hs with h1 h2; injection h2 with h2 h3; cases h3
    | true =>
    left
    obtain ⟨g1, g2, g3⟩ := trackingSplit_performed hs
    subst g3
    obtain ⟨G, hi, rfl⟩ := reach_inv h
    have hmn : ∃ lvl p e, mostNested st ptr true = some (lvl, p, e) ∧ e.size = total ∧ host1 = true := by
      unfold trackingSplit at hs
      split at hs
      · injection hs with h1 h2; injection h2 with h2 h3; cases h3
      · rename_i hh
        split at hs
        · injection hs with h1 h2; injection h2 with h2 h3; cases h3
        · rename_i lvl p e hm
          split at hs
          · injection hs with h1 h2; injection h2 with h2 h3; cases h3
          · rename_i hz
            exact ⟨lvl, p, e, hm, by simpa using hz, by simpa using hh⟩
    obtain ⟨lvl, p, e, hm, hz, hh⟩ := hmn
    subst hh
    obtain ⟨l1, a, l2, rfl, ha, hza, hdis⟩ := mostNested_some hi hm
    subst ha
    have hsz : a.size = total := by omega
    subst hsz
    obtain ⟨st'', hs', hi'⟩ := inv_split (pool := pool) hi hdis g1 g2
    rw [hs'] at hs
    injection hs with h1 h2
    injection h2 with h2 _
    subst h1
    refine ⟨rfl, h2.symm, rfl, g1, g2, l1.map Node.alloc, a.alloc, l2.map Node.alloc, by simp, rfl, rfl, ?_⟩
    intro b
    rw [tracked_iff hi' b]
    simp [Node.alloc]

example : (trackingSplit demo4 1 0x3000 0x1000 0x400 none true true).2 = (.success, true) ∧
    (trackingSplit demo4 1 0x3000 0x1000 0x400 (some 3) true true).2 = (.upstream 3, false) ∧
    (trackingSplit demo4 1 0x1000 0x1000 0x400 none true true).2 = (.invalidArgument, false) := by
  decide +kernel

private theorem mostNested_mem {st : St} {G : List Node} (h : Inv st G) {x lvl : Nat}
    {p : Option Nat} {e : Entry} (hm : mostNested st x false = some (lvl, p, e)) :
    ∃ a ∈ G, a.ptr = x ∧ a.size = e.size ∧ a.pool = e.pool := by
  by_cases hex : ∃ n ∈ G, Has n.rg x
  · obtain ⟨n, hd⟩ := deepest_exists hex
    obtain ⟨e', hent, hcase⟩ := nestedLoop_spec h hd 8 0 none none (by omega) (by omega)
    have hkey : ∀ f : Entry, ∀ q : Nat × Option Nat, (nestedLoop st x 8 0 none none) = (q.1, q.2, some f) →
        f = e ∧ f.key = x := by
      intro f q hq
      unfold mostNested at hm
      rw [hq] at hm
      simp only at hm
      split at hm
      · cases hm
      · rename_i hk
        split at hm
        · cases hm
        · injection hm with hm
          injection hm with _ hm
          injection hm with _ hm
          exact ⟨hm, by simpa using hk⟩
    rcases hcase with ⟨h0, par', hl, _⟩ | ⟨h0, lv, f, hl, hf⟩
    · obtain ⟨g1, g2⟩ := hkey e' (n.level, par') hl
      subst g1
      exact ⟨n, hd.mem, by rw [← hent.1, g2], hent.2.1.symm, hent.2.2.1.symm⟩
    · obtain ⟨g1, g2⟩ := hkey f (lv, some e'.key) hl
      rcases hf with hf | hf
      · subst hf; subst g1
        exact ⟨n, hd.mem, by rw [← hent.1, g2], hent.2.1.symm, hent.2.2.1.symm⟩
      · exact absurd g2 hf
  · obtain ⟨lv, q, f, hl, hf⟩ := nestedLoop_none h (x := x) (by
      intro n hn hx; exact hex ⟨n, hn, hx⟩)
    unfold mostNested at hm
    rw [hl] at hm
    cases f with
    | none => simp at hm
    | some f =>
      simp only at hm
      rw [if_pos (hf f rfl)] at hm
      cases hm

/-- **C16**, merge: for every request, if upstream has merged then the call succeeds, both
addresses are those of live allocations of one pool, and the total is the sum of their sizes;
otherwise the call fails and the tracker is unchanged. If the two allocations are adjacent and
no other live allocation has a byte in common with them, the merged one is tracked instead of
them. Missing: nested allocations (`C16_nestedMerge_violated`). -/
theorem C16_merge_partial {oom : Bool} {st st' : St} {live : List Alloc} (h : Reach oom st live)
    {pool low high total : Nat} {up : Option Nat} {host performed : Bool} {r : Res}
    (hm : trackingMerge st pool low high total up host = (st', r, performed)) :
    (performed = true → r = .success ∧ up = none ∧ low < high ∧
      ∃ lo ∈ live, ∃ hi ∈ live, lo.ptr = low ∧ hi.ptr = high ∧ lo.pool = hi.pool ∧
        (lo.size + hi.size) % 2 ^ 64 = total) ∧
    (performed = false → r ≠ .success ∧ st' = st) ∧
    ∀ lo hi : Alloc, lo ∈ live → hi ∈ live.erase lo → lo.ptr = low → hi.ptr = high →
      lo.pool = pool → hi.pool = pool → hi.ptr = lo.ptr + lo.size → total = lo.size + hi.size →
      (∀ c ∈ (live.erase lo).erase hi, Disjoint c.range (lo.ptr, lo.size + hi.size)) →
      performed = true →
      ∀ b, Tracked st' b ↔ b ∈ ⟨low, total, pool⟩ :: (live.erase lo).erase hi := by
  have hperf : performed = true → r = .success ∧ up = none ∧ host = true ∧ low < high ∧
      ∃ lo ∈ live, ∃ hi ∈ live, lo.ptr = low ∧ hi.ptr = high ∧ lo.pool = hi.pool ∧
        (lo.size + hi.size) % 2 ^ 64 = total := by
    intro hp
    subst hp
    obtain ⟨G, hinv, rfl⟩ := reach_inv h
    unfold trackingMerge at hm
    split at hm
    · injection hm with h1 h2; injection h2 with h2 h3; cases h3
    · rename_i hh
      split at hm
      · rename_i ll p1 lo hl p2 hi hmlo hmhi
        split at hm
        · injection hm with h1 h2; injection h2 with h2 h3; cases h3
        · split at hm
          · injection hm with h1 h2; injection h2 with h2 h3; cases h3
          · rename_i hpool
            split at hm
            · injection hm with h1 h2; injection h2 with h2 h3; cases h3
            · rename_i htot
              split at hm
              · rename_i hum
                injection hm with h1 h2; injection h2 with h2 h3
                obtain ⟨a1, m1, q1, q2, q3⟩ := mostNested_mem hinv hmlo
                obtain ⟨a2, m2, q4, q5, q6⟩ := mostNested_mem hinv hmhi
                have hsum : ∃ lo ∈ G.map Node.alloc, ∃ hi ∈ G.map Node.alloc, lo.ptr = low ∧
                    hi.ptr = high ∧ lo.pool = hi.pool ∧ (lo.size + hi.size) % 2 ^ 64 = total := by
                  refine ⟨a1.alloc, List.mem_map_of_mem m1, a2.alloc, List.mem_map_of_mem m2, q1, q4, ?_, ?_⟩
                  · show a1.pool = a2.pool
                    rw [q3, q6]; simpa using hpool
                  · show (a1.size + a2.size) % 2 ^ 64 = total
                    rw [q2, q5]
                    unfold word at htot
                    omega
                unfold upMerge at hum
                split at hum
                · cases hum
                · split at hum
                  · cases hum
                  · rename_i hlt
                    split at hum
                    · cases hum
                    · cases up with
                      | none => exact ⟨h2.symm, rfl, by simpa using hh, by omega, hsum⟩
                      | some c => cases hum
              · injection hm with h1 h2; injection h2 with h2 h3; cases h3
      · injection hm with h1 h2; injection h2 with h2 h3; cases h3
  refine ⟨fun hp => ⟨(hperf hp).1, (hperf hp).2.1, (hperf hp).2.2.2⟩, ?_, ?_⟩
  · intro hp
    subst hp
    obtain ⟨h1, h2⟩ := trackingMerge_refused hm
    exact ⟨h2, h1⟩
  · intro lo hi hlo hhi h1 h2 h3 h4 hadj htot hdis hp b
    obtain ⟨g1, g2, g3, _⟩ := hperf hp
    subst hp h1 h2 h3 htot g2 g3
    have hr := Reach.merge h hlo hhi hadj h4 hdis hm
    obtain ⟨G, hi', hG⟩ := reach_inv hr
    rw [tracked_iff hi' b, hG]

example : (trackingMerge demo5 1 0x3000 0x3400 0x1000 none true).2 = (.success, true) := by
  decide +kernel

/-! ### Violations of C16 -/

/-- **C16 is violated** when host memory runs out in the middle of a split: upstream has split the
allocation, the call fails, and the tracker still has the whole one. -/
theorem C16_splitOom_violated : ∃ st : St, Reach false st [⟨0x1000, 0x1000, 1⟩] ∧
    ∃ st', trackingSplit st 1 0x1000 0x1000 0x400 none true false = (st', .outOfHostMemory, true) ∧
      getAllocInfo st' 0x1800 = some (0x1000, 0x1000, 1) :=
  ⟨demo1, .alloc (host := true) .init (fresh_nil (by decide) (by decide) (by decide)) rfl, demo1, rfl,
    by decide +kernel⟩

/-- **C16 is violated** when upstream refuses to free and host memory runs out: the allocation is
live but not tracked any more. -/
theorem C16_freeOom_violated : ∃ st : St, Reach false st [⟨0x1000, 0x1000, 1⟩] ∧
    (trackingFree st 1 0x1000 0x1000 (some 7) false).2 = .upstream 7 ∧
    poolByPtr (trackingFree st 1 0x1000 0x1000 (some 7) false).1 0x1000 = none :=
  ⟨demo1, .alloc (host := true) .init (fresh_nil (by decide) (by decide) (by decide)) rfl, by decide +kernel,
    by decide +kernel⟩

/-- **C16 is violated** when upstream refuses to free because of a wrong size argument: the
allocation is tracked again with that size, so the end of it is no longer owned by any pool. -/
theorem C16_freeSize_violated : ∃ st : St, Reach false st [⟨0x1000, 0x1000, 1⟩] ∧
    (trackingFree st 1 0x1000 0x100 (some 7) true).2 = .upstream 7 ∧
    poolByPtr st 0x1800 = some 1 ∧
    poolByPtr (trackingFree st 1 0x1000 0x100 (some 7) true).1 0x1800 = none :=
  ⟨demo1, .alloc (host := true) .init (fresh_nil (by decide) (by decide) (by decide)) rfl, by decide +kernel,
    by decide +kernel, by decide +kernel⟩

/-- **C16 is violated** after merging two allocations that lie inside a third: the child count
of the outer one is not decremented. After the merged allocation and then the outer one
are freed, the outer one is still tracked and its address is reported as owned by its pool. -/
theorem C16_nestedMerge_violated :
    let s1 := (trackingAlloc empty 1 0x1000 (.ok 0x1000) true).1
    let s2 := (trackingAlloc s1 2 0x100 (.ok 0x1000) true).1
    let s3 := (trackingAlloc s2 2 0x100 (.ok 0x1100) true).1
    let m := trackingMerge s3 2 0x1000 0x1100 0x200 none true
    let s4 := (trackingFree m.1 2 0x1000 0x200 none true)
    let s5 := (trackingFree s4.1 1 0x1000 0x1000 none true)
    m.2 = (.success, true) ∧ s4.2 = .success ∧ s5.2 = .success ∧
      poolByPtr s4.1 0x1000 = some 1 ∧ poolByPtr s5.1 0x1000 = some 1 := by
  decide +kernel

end Verif.Tracker
