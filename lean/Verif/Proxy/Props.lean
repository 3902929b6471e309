import Verif.Proxy.Spec
import Mathlib.Tactic.ByContra
/-! # Property C43: every pointer goes back to the allocator it came from -/
namespace Verif.Proxy
open BaseAlloc Mem
open Linear (CfgOk OsOk pools region)

/-! ### Invariant -/

/-- The blocks of the linear allocator: each is part of one allocation of it. -/
def LeakOk (cfg : Linear.Cfg) (l : Linear.Pool) (live : List Blk) : Prop :=
  ∃ (ll : List Region) (Z : List (Blk × Region)), Linear.Reach cfg l ll ∧ ll.Perm (Z.map Prod.snd) ∧
    (live.filter (·.org = .leak)).Perm (Z.map Prod.fst) ∧
    ∀ z ∈ Z, Has z.2 z.1.ptr ∧ Inside (z.1.ptr, z.1.size) z.2

structure Inv (cfg : Linear.Cfg) (s : State) (live : List Blk) (busy : Nat → List (Option Blk)) (regs : List Region) : Prop where
  none : s.once = false → s.leak = none ∧ ∀ b ∈ live, b.org ≠ .leak
  leak : s.once = true → ∃ l, s.leak = some l ∧ LeakOk cfg l live
  pool : ∀ b ∈ live, b.org = .pool → s.pool = true ∧ InAny regs b.ptr
  sys : ∀ b ∈ live, b.org = .system → s.threshold ≠ 0 ∧ ¬ InAny regs b.ptr ∧ ¬ InAny (leakMem s) b.ptr
  apart : ∀ g ∈ leakMem s, ∀ r ∈ regs, Disjoint g r
  ptr : ∀ b ∈ live, b.ptr ≠ 0
  busy : ∀ t b, some b ∈ busy t → b.org = .pool ∧ b.ptr ≠ 0
  pend : ∀ t, s.pending t ≠ [] → s.pool = true

variable {cfg : Linear.Cfg} {s : State} {live : List Blk} {busy : Nat → List (Option Blk)} {regs : List Region} {a : Ans}

theorem Inv.perm {live' : List Blk} (h : Inv cfg s live busy regs) (hp : live.Perm live') : Inv cfg s live' busy regs where
  none := fun ho => ⟨(h.none ho).1, fun b hb => (h.none ho).2 b (hp.mem_iff.2 hb)⟩
  leak := fun ho => by
    obtain ⟨l, h1, ll, Z, h2, h3, h4, h5⟩ := h.leak ho
    exact ⟨l, h1, ll, Z, h2, h3, (hp.filter _).symm.trans h4, h5⟩
  pool := fun b hb => h.pool b (hp.mem_iff.2 hb)
  sys := fun b hb => h.sys b (hp.mem_iff.2 hb)
  apart := h.apart
  ptr := fun b hb => h.ptr b (hp.mem_iff.2 hb)
  busy := h.busy
  pend := h.pend

/-- A block of another allocator is dropped. -/
theorem Inv.tail {b : Blk} {rest : List Blk} (h : Inv cfg s (b :: rest) busy regs) (hb : b.org ≠ .leak) :
    Inv cfg s rest busy regs where
  none := fun ho => ⟨(h.none ho).1, fun b hb => (h.none ho).2 b (by simp [hb])⟩
  leak := fun ho => by
    obtain ⟨l, h1, ll, Z, h2, h3, h4, h5⟩ := h.leak ho
    refine ⟨l, h1, ll, Z, h2, h3, ?_, h5⟩
    rwa [List.filter_cons_of_neg (by simpa using hb)] at h4
  pool := fun b hb => h.pool b (by simp [hb])
  sys := fun b hb => h.sys b (by simp [hb])
  apart := h.apart
  ptr := fun b hb => h.ptr b (by simp [hb])
  busy := h.busy
  pend := h.pend

/-- A block of another allocator is added. -/
theorem Inv.cons {b : Blk} (h : Inv cfg s live busy regs) (hb : b.org ≠ .leak) (h0 : b.ptr ≠ 0)
    (hp : b.org = .pool → s.pool = true ∧ InAny regs b.ptr)
    (hs : b.org = .system → s.threshold ≠ 0 ∧ ¬ InAny regs b.ptr ∧ ¬ InAny (leakMem s) b.ptr) :
    Inv cfg s (b :: live) busy regs where
  none := fun ho => ⟨(h.none ho).1, fun b' hb' => by
    rcases List.mem_cons.1 hb' with rfl | hb'
    · exact hb
    · exact (h.none ho).2 b' hb'⟩
  leak := fun ho => by
    obtain ⟨l, h1, ll, Z, h2, h3, h4, h5⟩ := h.leak ho
    refine ⟨l, h1, ll, Z, h2, h3, ?_, h5⟩
    rwa [List.filter_cons_of_neg (by simpa using hb)]
  pool := fun b' hb' => by
    rcases List.mem_cons.1 hb' with rfl | hb'
    · exact hp
    · exact h.pool b' hb'
  sys := fun b' hb' => by
    rcases List.mem_cons.1 hb' with rfl | hb'
    · exact hs
    · exact h.sys b' hb'
  apart := h.apart
  ptr := fun b' hb' => by
    rcases List.mem_cons.1 hb' with rfl | hb'
    · exact h0
    · exact h.ptr b' hb'
  busy := h.busy
  pend := h.pend

theorem leakMem_some {l : Linear.Pool} (h : s.leak = some l) : leakMem s = (pools l).map region := by
  unfold leakMem; rw [h]

theorem leakInit_once (h : s.once = true) : leakInit cfg s a = s := by unfold leakInit; rw [if_pos h]

theorem leakInit_fields : (leakInit cfg s a).threshold = s.threshold ∧ (leakInit cfg s a).pool = s.pool ∧
    (leakInit cfg s a).flag = s.flag ∧ (leakInit cfg s a).pending = s.pending ∧ (leakInit cfg s a).once = true := by
  unfold leakInit
  split
  · rename_i h; exact ⟨rfl, rfl, rfl, rfl, h⟩
  · exact ⟨rfl, rfl, rfl, rfl, rfl⟩

theorem create_pools {size : Nat} {os : Option Nat} {p : Linear.Pool} (h : Linear.create cfg size os true = some p) :
    ∃ b, os = some b ∧ pools p = [p.main] ∧ p.main.base = b := by
  unfold Linear.create at h
  simp only at h
  split at h
  · cases h
  · split at h
    · cases h
    · rw [if_pos trivial] at h
      cases h
      exact ⟨_, rfl, rfl, rfl⟩

/-- The first use of the linear allocator. -/
theorem leakInit_inv (h : Inv cfg s live busy regs) (ha : AnsOk cfg s live regs a) :
    Inv cfg (leakInit cfg s a) live busy regs ∧ AnsOk cfg (leakInit cfg s a) live regs a ∧
      ∃ l, (leakInit cfg s a).leak = some l := by
  cases ho : s.once with
  | true =>
    rw [leakInit_once ho]
    obtain ⟨l, h1, _⟩ := h.leak ho
    exact ⟨h, ha, l, h1⟩
  | false =>
    obtain ⟨base, p, h1, h2, h3, h4, h5⟩ := ha.create ho
    obtain ⟨h6, h7⟩ := h.none ho
    have e : leakInit cfg s a = { s with once := true, leak := some p } := by
      unfold leakInit; rw [if_neg (by simp [ho]), h1, h2]
    obtain ⟨b, hb1, hb2, hb3⟩ := create_pools h2
    cases hb1
    have hm : leakMem { s with once := true, leak := some p } = [(base, p.main.size)] := by
      rw [leakMem_some rfl, hb2]
      show [(p.main.base, p.main.size)] = _
      rw [hb3]
    have hm0 : leakMem s = [] := by unfold leakMem; rw [h6]
    rw [e]
    refine ⟨?_, ?_, p, rfl⟩
    · exact {
        none := fun h => by cases h
        leak := fun _ => by
          refine ⟨p, rfl, [], [], Linear.Reach.create h2 ?_, List.Perm.refl _, ?_, fun z hz => by cases hz⟩
          · have := h3.ok
            rw [hm0] at this
            exact this
          · rw [List.filter_eq_nil_iff.2]
            · exact List.Perm.refl _
            · intro b hb; simpa using h7 b hb
        pool := h.pool
        sys := fun b hb hbs => by
          obtain ⟨h8, h9, _⟩ := h.sys b hb hbs
          refine ⟨h8, h9, ?_⟩
          rw [hm]
          rintro ⟨r, hr, h10⟩
          rw [List.mem_singleton] at hr
          subst hr
          exact h3.sys b hb hbs h10
        apart := by
          rw [hm]
          intro g hg r hr
          rw [List.mem_singleton] at hg
          subst hg
          exact h3.regs r hr
        ptr := h.ptr
        busy := h.busy
        pend := h.pend }
    · exact {
        create := fun h => by cases h
        os := fun n b hn => by
          have hf := ha.os n b hn
          refine ⟨⟨hf.ok.ptr, hf.ok.aligned, hf.ok.bound, ?_⟩, hf.regs, hf.sys⟩
          rw [hm]
          intro g hg
          rw [List.mem_singleton] at hg
          subst hg
          exact h4 n b hn
        system := fun h0 => by
          refine ⟨(ha.system h0).1, ?_⟩
          rw [hm]
          rintro ⟨r, hr, h10⟩
          rw [List.mem_singleton] at hr
          subst hr
          exact h5 h0 h10
        byPtr := ha.byPtr }

/-! ### What the allocators say about the blocks -/

theorem data_in {sub : Linear.Sub} {x : Nat} (h : Has (sub.base + sub.hdr, sub.size - sub.hdr) x) : Has (region sub) x := by
  have := h.1; have := h.2
  simp only at *
  exact ⟨by show sub.base ≤ x; omega, by show x < sub.base + sub.size; omega⟩

/-- A block of the linear allocator is recognised by it. -/
theorem leak_block (hcfg : CfgOk cfg) {l : Linear.Pool} (hl : LeakOk cfg l live) {b : Blk} (hb : b ∈ live) (ho : b.org = .leak) :
    (∃ r ll, Linear.Reach cfg l ll ∧ r ∈ ll ∧ Has r b.ptr ∧ Inside (b.ptr, b.size) r) ∧
    (Linear.free cfg l b.ptr).2.2 = true ∧ Linear.containsPointer l b.ptr ≠ 0 ∧
    ∃ sub ∈ pools l, Has (sub.base + sub.hdr, sub.size - sub.hdr) b.ptr := by
  obtain ⟨ll, Z, h2, h3, h4, h5⟩ := hl
  have hz : b ∈ Z.map Prod.fst := h4.mem_iff.1 (by simp [hb, ho])
  obtain ⟨z, hz1, rfl⟩ := List.mem_map.1 hz
  obtain ⟨h6, h7⟩ := h5 z hz1
  have h8 : z.2 ∈ ll := h3.mem_iff.2 (List.mem_map.2 ⟨z, hz1, rfl⟩)
  obtain ⟨sub, h9, h10⟩ := ((Linear.C20_allocations_partial hcfg h2).2 z.2 h8).2
  have h11 := (Linear.C20_contains hcfg h2 z.1.ptr).1 sub h9 (h10 _ h6)
  refine ⟨⟨z.2, ll, h2, h8, h6, h7⟩, ?_, by omega, sub, h9, h10 _ h6⟩
  rw [Linear.C20_interior hcfg h2 z.2 h8 z.1.ptr h6]
  exact (Linear.C20_free hcfg h2 z.2 h8).1

/-- Other pointers are not. -/
theorem foreign (hcfg : CfgOk cfg) {l : Linear.Pool} (hs : s.leak = some l) (hl : LeakOk cfg l live) {x : Nat}
    (hx : ¬ InAny (leakMem s) x) : Linear.free cfg l x = (l, [], false) ∧ Linear.containsPointer l x = 0 := by
  rw [leakMem_some hs] at hx
  obtain ⟨ll, Z, h2, _⟩ := hl
  have hno : ∀ sub ∈ pools l, ¬ Has (region sub) x := fun sub h1 h3 => hx ⟨region sub, List.mem_map.2 ⟨sub, h1, rfl⟩, h3⟩
  exact ⟨Linear.free_foreign hno, (Linear.C20_contains hcfg h2 x).2 (fun sub h1 h3 => hno sub h1 (data_in h3))⟩

/-- Blocks of the pool and of the system are outside of the memory of the linear allocator. -/
theorem other_block (h : Inv cfg s live busy regs) {b : Blk} (hb : b ∈ live) (ho : b.org ≠ .leak) :
    ¬ InAny (leakMem s) b.ptr := by
  cases hc : b.org with
  | leak => exact absurd hc ho
  | pool =>
    rintro ⟨g, hg, h1⟩
    obtain ⟨r, hr, h2⟩ := (h.pool b hb hc).2
    exact h.apart g hg r hr b.ptr ⟨h1, h2⟩
  | system => exact (h.sys b hb hc).2.2

theorem drop_perm {p : Nat} (h : ∃ b ∈ live, b.ptr = p) : ∃ b ∈ live, b.ptr = p ∧ live.Perm (b :: drop live p) ∧
    live.find? (·.ptr = p) = some b := by
  obtain ⟨b, hb, hp⟩ := h
  obtain ⟨b', l1, l2, h1, h2, h3, h4⟩ := List.exists_of_eraseP (p := fun b : Blk => decide (b.ptr = p)) hb (by simpa using hp)
  refine ⟨b', by rw [h3]; simp, by simpa using h2, ?_, ?_⟩
  · unfold drop
    rw [h4, h3]
    exact List.perm_middle
  · rw [h3, List.find?_append, List.find?_eq_none.2 (by intro x hx; exact h1 x hx)]
    simp [h2]

/-! ### C43 -/

/-- C43. `free`: a block that the program holds reaches the allocator it came from, exactly once, and no other. -/
theorem free_route (hcfg : CfgOk cfg) (h : Inv cfg s live busy regs) (ha : AnsOk cfg s live regs a) {b : Blk} (hb : b ∈ live) (t : Nat) :
    ∃ s' v, call cfg s t (.free b.ptr) a = some (s', v, [.sent t b.org (.free b.ptr)]) ∧ (v = none ↔ b.org = .pool) := by
  obtain ⟨hi, hai, l, hl⟩ := leakInit_inv h ha
  obtain ⟨e1, e2, e3, e4, e5⟩ := leakInit_fields (cfg := cfg) (s := s) (a := a)
  obtain ⟨l', hl', hlo⟩ := hi.leak e5
  rw [hl] at hl'; cases hl'
  unfold call free
  dsimp only
  rw [if_neg (h.ptr b hb), hl]
  dsimp only
  cases hc : b.org with
  | leak =>
    rw [if_pos (leak_block hcfg hlo hb hc).2.1]
    exact ⟨_, _, rfl, by simp⟩
  | pool =>
    have hf := foreign hcfg hl hlo (other_block hi hb (by simp [hc]))
    obtain ⟨h1, h2⟩ := h.pool b hb hc
    rw [hf.1, if_neg (by simp), e2, h1, (ha.byPtr b.ptr).2 h2]
    exact ⟨_, _, rfl, by simp⟩
  | system =>
    have hf := foreign hcfg hl hlo (other_block hi hb (by simp [hc]))
    obtain ⟨h1, h2, _⟩ := h.sys b hb hc
    have hby : a.byPtr b.ptr = false := by
      cases hx : a.byPtr b.ptr with
      | false => rfl
      | true => exact absurd ((ha.byPtr _).1 hx) h2
    rw [hf.1, if_neg (by simp), hby, Bool.and_false, if_neg (by simp), e1, if_pos h1]
    exact ⟨_, _, rfl, by simp⟩

theorem realloc_route (hcfg : CfgOk cfg) (h : Inv cfg s live busy regs) (ha : AnsOk cfg s live regs a) {b : Blk} (hb : b ∈ live)
    (t : Nat) {n : Nat} (hn : n ≠ 0) :
    ∃ s' v evs, call cfg s t (.realloc b.ptr n) a = some (s', v, .sent t b.org (.realloc b.ptr n) :: evs) ∧
      (∀ e ∈ evs, ∃ x y z, e = .copied x y z) ∧ (v = none ↔ b.org = .pool) := by
  obtain ⟨hi, hai, l, hl⟩ := leakInit_inv h ha
  obtain ⟨e1, e2, e3, e4, e5⟩ := leakInit_fields (cfg := cfg) (s := s) (a := a)
  obtain ⟨l', hl', hlo⟩ := hi.leak e5
  rw [hl] at hl'; cases hl'
  unfold call realloc
  dsimp only
  rw [if_neg (h.ptr b hb), if_neg hn, hl]
  dsimp only
  cases hc : b.org with
  | leak =>
    rw [if_pos (leak_block hcfg hlo hb hc).2.2.1]
    split
    · exact ⟨_, _, [], rfl, by simp, by simp⟩
    · exact ⟨_, _, _, rfl, by simp, by simp⟩
  | pool =>
    have hf := foreign hcfg hl hlo (other_block hi hb (by simp [hc]))
    obtain ⟨h1, h2⟩ := h.pool b hb hc
    rw [hf.2, if_neg (by simp), e2, h1, (ha.byPtr b.ptr).2 h2]
    exact ⟨_, _, [], rfl, by simp, by simp⟩
  | system =>
    have hf := foreign hcfg hl hlo (other_block hi hb (by simp [hc]))
    obtain ⟨h1, h2, _⟩ := h.sys b hb hc
    have hby : a.byPtr b.ptr = false := by
      cases hx : a.byPtr b.ptr with
      | false => rfl
      | true => exact absurd ((ha.byPtr _).1 hx) h2
    rw [hf.2, if_neg (by simp), hby, Bool.and_false, if_neg (by simp), e1, if_pos h1]
    exact ⟨_, _, [], rfl, by simp, by simp⟩

theorem usable_route (hcfg : CfgOk cfg) (h : Inv cfg s live busy regs) (ha : AnsOk cfg s live regs a) {b : Blk} (hb : b ∈ live)
    (hb1 : b.ptr ≠ 1) (t : Nat) :
    ∃ s' v, call cfg s t (.usable b.ptr) a = some (s', v, [.sent t b.org (.usable b.ptr)]) ∧ (v = none ↔ b.org = .pool) := by
  obtain ⟨hi, hai, l, hl⟩ := leakInit_inv h ha
  obtain ⟨e1, e2, e3, e4, e5⟩ := leakInit_fields (cfg := cfg) (s := s) (a := a)
  obtain ⟨l', hl', hlo⟩ := hi.leak e5
  rw [hl] at hl'; cases hl'
  unfold call usable
  dsimp only
  rw [if_neg hb1, hl]
  dsimp only
  cases hc : b.org with
  | leak =>
    rw [if_pos (leak_block hcfg hlo hb hc).2.2.1]
    exact ⟨_, _, rfl, by simp⟩
  | pool =>
    have hf := foreign hcfg hl hlo (other_block hi hb (by simp [hc]))
    obtain ⟨h1, h2⟩ := h.pool b hb hc
    rw [hf.2, if_neg (by simp), e2, h1, (ha.byPtr b.ptr).2 h2]
    exact ⟨_, _, rfl, by simp⟩
  | system =>
    have hf := foreign hcfg hl hlo (other_block hi hb (by simp [hc]))
    obtain ⟨h1, h2, _⟩ := h.sys b hb hc
    have hby : a.byPtr b.ptr = false := by
      cases hx : a.byPtr b.ptr with
      | false => rfl
      | true => exact absurd ((ha.byPtr _).1 hx) h2
    rw [hf.2, if_neg (by simp), hby, Bool.and_false, if_neg (by simp), e1, if_pos h1]
    exact ⟨_, _, rfl, by simp⟩

/-! ### The invariant holds -/

/-- Only the linear allocator and its blocks change. -/
theorem Inv.leakStep {l l' : Linear.Pool} {live' : List Blk} (h : Inv cfg s live busy regs) (ho : s.once = true)
    (hl : s.leak = some l) (hlo : LeakOk cfg l' live')
    (hmem : ∀ sub ∈ pools l', (∃ sub' ∈ pools l, Inside (region sub) (region sub')) ∨ Fresh s live regs (region sub))
    (hother : ∀ b ∈ live', b.org ≠ .leak → b ∈ live) (hptr : ∀ b ∈ live', b.ptr ≠ 0) :
    Inv cfg { s with leak := some l' } live' busy regs where
  none := fun h => by rw [ho] at h; cases h
  leak := fun _ => ⟨l', rfl, hlo⟩
  pool := fun b hb hc => h.pool b (hother b hb (by simp [hc])) hc
  sys := fun b hb hc => by
    have hm := hother b hb (by simp [hc])
    obtain ⟨h1, h2, h3⟩ := h.sys b hm hc
    refine ⟨h1, h2, ?_⟩
    rw [leakMem_some hl] at h3
    rw [leakMem_some rfl]
    rintro ⟨g, hg, hx⟩
    obtain ⟨sub, hsub, rfl⟩ := List.mem_map.1 hg
    rcases hmem sub hsub with ⟨sub', h4, h5⟩ | h4
    · exact h3 ⟨_, List.mem_map.2 ⟨sub', h4, rfl⟩, h5 _ hx⟩
    · exact h4.sys b hm hc hx
  apart := by
    rw [leakMem_some rfl]
    intro g hg r hr
    obtain ⟨sub, hsub, rfl⟩ := List.mem_map.1 hg
    have h3 := h.apart
    rw [leakMem_some hl] at h3
    rcases hmem sub hsub with ⟨sub', h4, h5⟩ | h4
    · exact disjoint_of_inside (h3 _ (List.mem_map.2 ⟨sub', h4, rfl⟩) r hr) h5 (fun _ h => h)
    · exact h4.regs r hr
  ptr := hptr
  busy := h.busy
  pend := h.pend

/-- An allocation of the linear allocator. -/
theorem alloc_inv {l l' : Linear.Pool} {size q : Nat} (h : Inv cfg s live busy regs) (ha : AnsOk cfg s live regs a)
    (ho : s.once = true) (hl : s.leak = some l) (hsz : size ≤ 2 ^ 64 - 24) (e : Linear.alloc cfg l size a.os = (l', some q))
    {b : Blk} (hb : b.org = .leak) (h0 : b.ptr ≠ 0) (hin : Has (q, size) b.ptr) (hins : Inside (b.ptr, b.size) (q, size)) :
    Inv cfg { s with leak := some l' } (b :: live) busy regs := by
  obtain ⟨l2, hl2, ll, Z, h2, h3, h4, h5⟩ := h.leak ho
  rw [hl] at hl2; cases hl2
  have hos : ∀ n b, a.os n = some b → OsOk ((pools l).map region) (b, n) := by
    intro n b hn
    have := (ha.os n b hn).ok
    rwa [leakMem_some hl] at this
  refine h.leakStep ho hl ⟨(q, size) :: ll, (b, (q, size)) :: Z, Linear.Reach.alloc h2 hsz hos e, ?_, ?_, ?_⟩ ?_ ?_ ?_
  · simpa using h3
  · rw [List.filter_cons_of_pos (by simpa using hb)]
    simpa using h4
  · intro z hz
    rcases List.mem_cons.1 hz with rfl | hz
    · exact ⟨hin, hins⟩
    · exact h5 z hz
  · intro sub hsub
    rcases Linear.alloc_pools e sub hsub with ⟨s', h6, h7⟩ | h6
    · exact .inl ⟨s', h6, by rw [h7]; exact fun _ h => h⟩
    · exact .inr (ha.os _ _ h6)
  · intro b' hb' hne
    rcases List.mem_cons.1 hb' with rfl | hb'
    · exact absurd hb hne
    · exact hb'
  · intro b' hb'
    rcases List.mem_cons.1 hb' with rfl | hb'
    · exact h0
    · exact h.ptr b' hb'

/-- An allocation that fails. -/
theorem allocFail_inv {l l' : Linear.Pool} {size : Nat} (hcfg : CfgOk cfg) (hl : s.leak = some l) (e : Linear.alloc cfg l size a.os = (l', none)) : { s with leak := some l' } = s := by
  have := (Linear.C20_failsOnlyIfRefused hcfg l size a.os l' e).1
  rw [this, ← hl]

/-- A block is freed. -/
theorem free_inv {l : Linear.Pool} {b : Blk} {rest : List Blk} (hcfg : CfgOk cfg) (h : Inv cfg s (b :: rest) busy regs)
    (ho : s.once = true) (hl : s.leak = some l) (hb : b.org = .leak) :
    Inv cfg { s with leak := some (Linear.free cfg l b.ptr).1 } rest busy regs := by
  obtain ⟨l2, hl2, ll, Z, h2, h3, h4, h5⟩ := h.leak ho
  rw [hl] at hl2; cases hl2
  rw [List.filter_cons_of_pos (by simpa using hb)] at h4
  have hz : b ∈ Z.map Prod.fst := h4.mem_iff.1 (by simp)
  obtain ⟨z, hz1, hz2⟩ := List.mem_map.1 hz
  obtain ⟨Z1, Z2, hZ⟩ := List.append_of_mem hz1
  have hzll : z.2 ∈ ll := h3.mem_iff.2 (List.mem_map.2 ⟨z, hz1, rfl⟩)
  have e : Linear.free cfg l b.ptr = Linear.free cfg l z.2.1 := by
    rw [← hz2]
    exact Linear.C20_interior hcfg h2 z.2 hzll z.1.ptr (h5 z hz1).1
  refine h.leakStep ho hl ⟨ll.erase z.2, Z1 ++ Z2, by rw [e]; exact Linear.Reach.free h2 hzll, ?_, ?_, ?_⟩ ?_ ?_ ?_
  · have h6 : ll.Perm (z.2 :: (Z1 ++ Z2).map Prod.snd) := by
      refine h3.trans ?_
      rw [hZ, List.map_append, List.map_cons, List.map_append]
      exact List.perm_middle
    have := h6.erase z.2
    rwa [List.erase_cons_head] at this
  · have h6 : (b :: rest.filter (fun b => b.org = .leak)).Perm (b :: (Z1 ++ Z2).map Prod.fst) := by
      refine h4.trans ?_
      rw [hZ, List.map_append, List.map_cons, List.map_append, hz2]
      exact List.perm_middle
    exact h6.cons_inv
  · intro z' hz'
    refine h5 z' ?_
    rw [hZ]
    rcases List.mem_append.1 hz' with h6 | h6 <;> simp [h6]
  · intro sub hsub
    exact .inl (Linear.free_pools b.ptr sub hsub)
  · intro b' hb' _; simp [hb']
  · intro b' hb'; exact h.ptr b' (by simp [hb'])

theorem pow_pos' {e : Nat} : 0 < 2 ^ e := Nat.two_pow_pos e

/-- Aligning a pointer up inside an allocation that is larger by the alignment. -/
theorem alignUp_in {q n al : Nat} (hal : al = 0 ∨ ∃ e, al = 2 ^ e) (h : q + (n + al) ≤ 2 ^ 64) (hn : 0 < n + al) :
    Has (q, n + al) (alignUp q al) ∧ Inside (alignUp q al, n) (q, n + al) ∧ (al ≠ 0 → alignUp q al % al = 0) ∧
      q ≤ alignUp q al := by
  have key : q ≤ alignUp q al ∧ alignUp q al + n ≤ q + (n + al) ∧ alignUp q al < q + (n + al) ∧ (al ≠ 0 → alignUp q al % al = 0) := by
    unfold alignUp
    split
    · rename_i h0
      subst h0
      exact ⟨Nat.le_refl _, by omega, by omega, fun h => absurd rfl h⟩
    · rename_i h0
      unfold Fixed.alignUpSafe
      rw [if_neg (by omega)]
      have h1 := Nat.div_add_mod (q + (al - 1)) al
      have h2 := Nat.mod_lt (q + (al - 1)) (by omega : 0 < al)
      have h3 : (q + (al - 1)) / al * al = al * ((q + (al - 1)) / al) := Nat.mul_comm _ _
      refine ⟨by omega, by omega, by omega, fun _ => Nat.mul_mod_left _ _⟩
  obtain ⟨k1, k2, k3, k4⟩ := key
  exact ⟨⟨k1, k3⟩, inside_of k1 (by show _ + n ≤ q + (n + al); omega), k4, k1⟩

/-- Allocations are inside the address space and not NULL. -/
theorem alloc_bound (hcfg : CfgOk cfg) {l l' : Linear.Pool} {size q : Nat} (h : Inv cfg s live busy regs)
    (ha : AnsOk cfg s live regs a) (ho : s.once = true) (hl : s.leak = some l) (hsz : size ≤ 2 ^ 64 - 24)
    (e : Linear.alloc cfg l size a.os = (l', some q)) : 0 < size ∧ 0 < q ∧ q + size ≤ 2 ^ 64 := by
  obtain ⟨l2, hl2, ll, Z, h2, h3, h4, h5⟩ := h.leak ho
  rw [hl] at hl2; cases hl2
  have hos : ∀ n b, a.os n = some b → OsOk ((pools l).map region) (b, n) := by
    intro n b hn
    have := (ha.os n b hn).ok
    rwa [leakMem_some hl] at this
  have hr := Linear.Reach.alloc h2 hsz hos e
  have hpos := Linear.live_pos hcfg hr (q, size) (by simp)
  refine ⟨hpos, ?_⟩
  exact Linear.live_bound hcfg hr (q, size) (by simp)

theorem Inv.enter (h : Inv cfg s live busy regs) (hp : s.pool = true) {t : Nat} {r : Req} {f : Bool} {ob : Option Blk}
    (hob : ∀ b, ob = some b → b.org = .pool ∧ b.ptr ≠ 0) :
    Inv cfg (s.enter t r f) live (fun u => if u = t then ob :: busy t else busy u) regs where
  none := h.none
  leak := h.leak
  pool := h.pool
  sys := h.sys
  apart := h.apart
  ptr := h.ptr
  busy := by
    intro u b hb
    split at hb
    · rcases List.mem_cons.1 hb with h1 | h1
      · exact hob b h1.symm
      · exact h.busy t b h1
    · exact h.busy u b hb
  pend := fun _ _ => hp

/-- A request that allocates: how it is recorded. -/
def Allocates (r : Req) (n : Nat) : Prop :=
  (∀ live t o rest v, done live (.sent t o r :: rest) v = if v = 0 then live else ⟨o, v, n⟩ :: live) ∧
  (∀ live t o rest, entered live (.sent t o r :: rest) = (live, none))

theorem word_lt {n : Nat} (h : n < 2 ^ 64) : Fixed.word n = n := Nat.mod_eq_of_lt h

theorem leakAligned_inv (hcfg : CfgOk cfg) (h : Inv cfg s live busy regs) (ha : AnsOk cfg s live regs a) {al n : Nat}
    (hal : al = 0 ∨ ∃ e, al = 2 ^ e) (hn : n + al ≤ 2 ^ 64 - 24) {s' : State} {v : Nat}
    (e : leakAligned cfg s al n a = some (s', v)) :
    Inv cfg s' (if v = 0 then live else ⟨.leak, v, n⟩ :: live) busy regs := by
  obtain ⟨hi, hai, l, hl⟩ := leakInit_inv h ha
  obtain ⟨e1, e2, e3, e4, e5⟩ := leakInit_fields (cfg := cfg) (s := s) (a := a)
  have hw : Fixed.word (n + al) = n + al := word_lt (by omega)
  have h00 : alignUp 0 al = 0 := by
    unfold alignUp
    split
    · rfl
    · unfold Fixed.alignUpSafe
      rw [if_neg (by omega), Nat.div_eq_of_lt (by omega), Nat.zero_mul]
  unfold leakAligned at e
  simp only [hw] at e
  split at e
  · cases e
    rw [h00, if_pos rfl]
    exact hi
  · rw [hl] at e
    simp only at e
    rcases hx : Linear.alloc cfg l (n + al) a.os with ⟨l', q⟩
    rw [hx] at e
    cases q with
    | none =>
      have hv : alignUp 0 al = v := (Prod.mk.inj (Option.some.inj e)).2
      have hs : { leakInit cfg s a with leak := some l' } = s' := (Prod.mk.inj (Option.some.inj e)).1
      rw [← hv, h00, if_pos rfl, ← hs, allocFail_inv hcfg hl hx]
      exact hi
    | some q =>
      have hv : alignUp q al = v := (Prod.mk.inj (Option.some.inj e)).2
      have hs : { leakInit cfg s a with leak := some l' } = s' := (Prod.mk.inj (Option.some.inj e)).1
      obtain ⟨b1, b2, b3⟩ := alloc_bound hcfg hi hai e5 hl hn hx
      obtain ⟨c1, c2, c3, c4⟩ := alignUp_in hal b3 b1
      rw [hv] at c1 c2 c3 c4
      have hv0 : v ≠ 0 := by omega
      rw [if_neg hv0, ← hs]
      exact alloc_inv hi hai e5 hl hn hx rfl hv0 c1 c2

theorem allocate_inv (hcfg : CfgOk cfg) (h : Inv cfg s live busy regs) (ha : AnsOk cfg s live regs a) {al n small t : Nat} {r : Req}
    (hr : Allocates r n) (hal : al = 0 ∨ ∃ e, al = 2 ^ e) (hn : n + al ≤ 2 ^ 64 - 24) {s' : State} {evs : List Ev} :
    (∀ v, allocate cfg s t small r al n a = some (s', some v, evs) → Inv cfg s' (done live evs v) busy regs) ∧
    (allocate cfg s t small r al n a = some (s', none, evs) →
      Inv cfg s' (entered live evs).1 (fun u => if u = t then (entered live evs).2 :: busy t else busy u) regs) := by
  unfold allocate
  split
  · rename_i hlt
    refine ⟨?_, (fun e => by cases e)⟩
    intro v e
    cases e
    rw [hr.1]
    split
    · exact h
    · rename_i hv
      exact h.cons (by simp) hv (fun hc => by cases hc) (fun _ => ⟨by omega, ha.system hv⟩)
  · split
    · rename_i hp
      refine ⟨(fun v e => by cases e), ?_⟩
      intro e
      cases e
      rw [hr.2]
      exact h.enter (by simp at hp; exact hp.2) (fun b hb => by cases hb)
    · split
      · exact ⟨(fun v e => by cases e), (fun e => by cases e)⟩
      · rename_i s2 p hlk
        refine ⟨?_, (fun e => by cases e)⟩
        intro v e
        cases e
        rw [hr.1]
        exact leakAligned_inv hcfg h ha hal hn hlk

theorem free_call_inv (hcfg : CfgOk cfg) (h : Inv cfg s live busy regs) (ha : AnsOk cfg s live regs a) {t p : Nat}
    (hp : p = 0 ∨ ∃ b ∈ live, b.ptr = p) {s' : State} {evs : List Ev} :
    (∀ v, free cfg s t p a = some (s', some v, evs) → Inv cfg s' (done live evs v) busy regs) ∧
    (free cfg s t p a = some (s', none, evs) →
      Inv cfg s' (entered live evs).1 (fun u => if u = t then (entered live evs).2 :: busy t else busy u) regs) := by
  obtain ⟨hi, hai, l, hl⟩ := leakInit_inv h ha
  obtain ⟨e1, e2, e3, e4, e5⟩ := leakInit_fields (cfg := cfg) (s := s) (a := a)
  obtain ⟨l', hl', hlo⟩ := hi.leak e5
  rw [hl] at hl'; cases hl'
  unfold free
  split
  · refine ⟨?_, (fun e => by cases e)⟩
    intro v e
    cases e
    exact h
  · rename_i h0
    obtain ⟨b, hb, hbp, hperm, hfind⟩ := drop_perm (hp.resolve_left h0)
    dsimp only
    rw [hl]
    dsimp only
    split
    · rename_i hf
      refine ⟨?_, (fun e => by cases e)⟩
      intro v e
      cases e
      show Inv cfg _ (drop live p) busy regs
      have hbl : b.org = .leak := by
        by_contra hne
        have := (foreign hcfg hl hlo (other_block hi hb hne)).1
        rw [hbp] at this
        rw [this] at hf
        cases hf
      have := free_inv hcfg (hi.perm hperm) e5 hl hbl
      rwa [hbp] at this
    · rename_i hf
      have hbl : b.org ≠ .leak := by
        intro he
        have := (leak_block hcfg hlo hb he).2.1
        rw [hbp] at this
        exact hf this
      split
      · rename_i hpool
        refine ⟨(fun v e => by cases e), ?_⟩
        intro e
        cases e
        show Inv cfg _ (drop live p) _ regs
        simp at hpool
        exact ((hi.perm hperm).tail hbl).enter hpool.1 (fun b hb => by cases hb)
      · split
        · refine ⟨?_, (fun e => by cases e)⟩
          intro v e
          cases e
          exact (hi.perm hperm).tail hbl
        · refine ⟨?_, (fun e => by cases e)⟩
          intro v e
          cases e
          exact hi

theorem usable_call_inv (h : Inv cfg s live busy regs) (ha : AnsOk cfg s live regs a) {t p : Nat} {s' : State} {evs : List Ev} :
    (∀ v, usable cfg s t p a = some (s', some v, evs) → Inv cfg s' (done live evs v) busy regs) ∧
    (usable cfg s t p a = some (s', none, evs) →
      Inv cfg s' (entered live evs).1 (fun u => if u = t then (entered live evs).2 :: busy t else busy u) regs) := by
  obtain ⟨hi, hai, l, hl⟩ := leakInit_inv h ha
  unfold usable
  split
  · refine ⟨?_, (fun e => by cases e)⟩
    intro v e
    cases e
    exact h
  · dsimp only
    rw [hl]
    dsimp only
    split
    · refine ⟨?_, (fun e => by cases e)⟩
      intro v e
      cases e
      exact hi
    · split
      · rename_i hpool
        refine ⟨(fun v e => by cases e), ?_⟩
        intro e
        cases e
        simp at hpool
        exact hi.enter hpool.1 (fun b hb => by cases hb)
      · split
        · refine ⟨?_, (fun e => by cases e)⟩
          intro v e
          cases e
          exact hi
        · refine ⟨?_, (fun e => by cases e)⟩
          intro v e
          cases e
          exact hi

theorem realloc_call_inv (hcfg : CfgOk cfg) (h : Inv cfg s live busy regs) (ha : AnsOk cfg s live regs a) {t p n : Nat}
    (hp : p = 0 ∨ ∃ b ∈ live, b.ptr = p) (hn : n ≤ 2 ^ 64 - 24) {s' : State} {evs : List Ev} :
    (∀ v, realloc cfg s t p n a = some (s', some v, evs) → Inv cfg s' (done live evs v) busy regs) ∧
    (realloc cfg s t p n a = some (s', none, evs) →
      Inv cfg s' (entered live evs).1 (fun u => if u = t then (entered live evs).2 :: busy t else busy u) regs) := by
  obtain ⟨hi, hai, l, hl⟩ := leakInit_inv h ha
  obtain ⟨e1, e2, e3, e4, e5⟩ := leakInit_fields (cfg := cfg) (s := s) (a := a)
  obtain ⟨l', hl', hlo⟩ := hi.leak e5
  rw [hl] at hl'; cases hl'
  unfold realloc
  split
  · exact allocate_inv hcfg h ha ⟨fun _ _ _ _ _ => rfl, fun _ _ _ _ => rfl⟩ (.inl rfl) hn
  split
  · exact free_call_inv hcfg h ha hp
  rename_i h0 hn0
  obtain ⟨b, hb, hbp, hperm, hfind⟩ := drop_perm (hp.resolve_left h0)
  dsimp only
  rw [hl]
  dsimp only
  split
  · rename_i hf
    have hbl : b.org = .leak := by
      by_contra hne
      have := (foreign hcfg hl hlo (other_block hi hb hne)).2
      rw [hbp] at this
      exact hf this
    split
    · rename_i l2 hx
      refine ⟨?_, (fun e => by cases e)⟩
      intro v e
      cases e
      rw [allocFail_inv hcfg hl hx]
      exact hi
    · rename_i l2 q hx
      refine ⟨?_, (fun e => by cases e)⟩
      intro v e
      cases e
      obtain ⟨b1, b2, b3⟩ := alloc_bound hcfg hi hai e5 hl hn hx
      show Inv cfg _ (if q = 0 then live else _) busy regs
      rw [if_neg (by omega)]
      have i1 := alloc_inv (b := ⟨.leak, q, n⟩) hi hai e5 hl hn hx rfl (by show q ≠ 0; omega) ⟨Nat.le_refl _, by show q < q + n; omega⟩
        (fun _ h => h)
      have i2 := i1.perm ((hperm.cons _).trans (List.Perm.swap _ _ _))
      have i3 := free_inv hcfg i2 e5 rfl hbl
      rwa [hbp] at i3
  · rename_i hf
    have hbl : b.org ≠ .leak := by
      intro he
      have := (leak_block hcfg hlo hb he).2.2.1
      rw [hbp] at this
      exact hf this
    split
    · rename_i hpool
      refine ⟨(fun v e => by cases e), ?_⟩
      intro e
      cases e
      show Inv cfg _ (drop live p) (fun u => if u = t then live.find? (·.ptr = p) :: busy t else busy u) regs
      simp at hpool
      refine ((hi.perm hperm).tail hbl).enter hpool.1 ?_
      intro b' hb'
      rw [hfind] at hb'
      cases hb'
      refine ⟨?_, h.ptr b hb⟩
      cases hc : b.org with
      | pool => rfl
      | leak => exact absurd hc hbl
      | system => exact absurd ((ha.byPtr p).1 hpool.2) (by rw [← hbp]; exact (h.sys b hb hc).2.1)
    · rename_i hpool
      split
      · rename_i hth
        refine ⟨?_, (fun e => by cases e)⟩
        intro v e
        cases e
        show Inv cfg _ (if a.system = 0 then live else _) busy regs
        split
        · exact hi
        · rename_i hv
          exact ((hi.perm hperm).tail hbl).cons (by simp) hv (fun hc => by cases hc) (fun _ => ⟨hth, hai.system hv⟩)
      · refine ⟨?_, (fun e => by cases e)⟩
        intro v e
        cases e
        exact hi

theorem call_inv (hcfg : CfgOk cfg) (h : Inv cfg s live busy regs) (ha : AnsOk cfg s live regs a) {t : Nat} {r : Req}
    (hr : Allowed live r) {s' : State} {evs : List Ev} :
    (∀ v, call cfg s t r a = some (s', some v, evs) → Inv cfg s' (done live evs v) busy regs) ∧
    (call cfg s t r a = some (s', none, evs) →
      Inv cfg s' (entered live evs).1 (fun u => if u = t then (entered live evs).2 :: busy t else busy u) regs) := by
  unfold call
  cases r with
  | alloc n => exact allocate_inv hcfg h ha ⟨fun _ _ _ _ _ => rfl, fun _ _ _ _ => rfl⟩ (.inl rfl) hr
  | calloc k n =>
    have hr' : k * n ≤ 2 ^ 64 - 24 := hr
    dsimp only
    rw [word_lt (by omega : k * n < 2 ^ 64)]
    exact allocate_inv hcfg h ha ⟨fun _ _ _ _ _ => rfl, fun _ _ _ _ => rfl⟩ (.inl rfl) hr
  | aligned al n => exact allocate_inv hcfg h ha ⟨fun _ _ _ _ _ => rfl, fun _ _ _ _ => rfl⟩ (.inr hr.1) hr.2
  | free p => exact free_call_inv hcfg h ha hr
  | realloc p n => exact realloc_call_inv hcfg h ha hr.2 hr.1
  | usable p => exact usable_call_inv h ha

theorem ret_inv (h : Inv cfg s live busy regs) {t : Nat} {s' : State} {r : Req} {b : Option Blk} {bs : List (Option Blk)} {v : Nat}
    (e : ret s t = some (s', r)) (hb : busy t = b :: bs) (hr : RetOk regs b v r) :
    Inv cfg s' (returned live b v r) (fun u => if u = t then bs else busy u) regs := by
  unfold ret at e
  split at e
  · cases e
  rename_i r' rest hpd
  cases e
  have hpool : s.pool = true := h.pend t (by rw [hpd]; simp)
  have h1 : ∀ f : Nat → Bool, Inv cfg { s with flag := f, pending := fun u => if u = t then rest else s.pending u } live
      (fun u => if u = t then bs else busy u) regs := fun f => {
    none := h.none
    leak := h.leak
    pool := h.pool
    sys := h.sys
    apart := h.apart
    ptr := h.ptr
    busy := by
      intro u b' hb'
      split at hb'
      · exact h.busy t b' (by rw [hb]; simp [hb'])
      · exact h.busy u b' hb'
    pend := fun _ _ => hpool }
  have add : ∀ (f : Nat → Bool) n, (v ≠ 0 → InAny regs v) →
      Inv cfg { s with flag := f, pending := fun u => if u = t then rest else s.pending u }
        (if v = 0 then live else ⟨.pool, v, n⟩ :: live) (fun u => if u = t then bs else busy u) regs := by
    intro f n hv
    split
    · exact h1 f
    · rename_i hv0
      exact (h1 f).cons (by simp) hv0 (fun _ => ⟨hpool, hv hv0⟩) (fun hc => by cases hc)
  cases r with
  | alloc n => exact add _ n hr
  | calloc k n => exact add _ (k * n) hr
  | aligned al n => exact add _ n hr
  | free p => exact h1 _
  | usable p => exact h1 _
  | realloc p n =>
    unfold returned
    dsimp only
    by_cases hv0 : v = 0
    · rw [if_pos hv0]
      cases b with
      | none => exact h1 _
      | some b =>
        obtain ⟨h2, h3⟩ := h.busy t b (by rw [hb]; simp)
        exact (h1 _).cons (by simp [h2]) h3 (fun _ => ⟨hpool, hr.2 hv0 b rfl⟩) (fun hc => by rw [h2] at hc; cases hc)
    · rw [if_neg hv0]
      exact (h1 _).cons (by simp) hv0 (fun _ => ⟨hpool, hr.1 hv0⟩) (fun hc => by cases hc)

theorem reach_inv (hcfg : CfgOk cfg) (h : Reach cfg s live busy regs) : Inv cfg s live busy regs := by
  induction h with
  | init =>
    exact ⟨fun _ => ⟨rfl, by simp⟩, fun h => (by cases h), by simp, by simp, by simp [leakMem, State.init], by simp, by simp,
      fun t ht => absurd rfl ht⟩
  | memory _ hm ih =>
    exact ⟨ih.none, ih.leak, fun b hb hc => ⟨(ih.pool b hb hc).1, hm.mine b hb hc⟩,
      fun b hb hc => ⟨(ih.sys b hb hc).1, hm.sys b hb hc, (ih.sys b hb hc).2.2⟩, hm.apart, ih.ptr, ih.busy, ih.pend⟩
  | @threshold s live busy regs n _ ih =>
    unfold setThreshold
    split
    · exact ⟨ih.none, ih.leak, ih.pool, fun b hb hc => ⟨by show n ≠ 0; omega, (ih.sys b hb hc).2⟩, ih.apart, ih.ptr, ih.busy, ih.pend⟩
    · exact ih
  | poolMade _ ih =>
    exact ⟨ih.none, ih.leak, fun b hb hc => ⟨rfl, (ih.pool b hb hc).2⟩, ih.sys, ih.apart, ih.ptr, ih.busy, fun _ _ => rfl⟩
  | call _ ha hr e ih => exact (call_inv hcfg ih ha hr).1 _ e
  | enter _ ha hr e ih => exact (call_inv hcfg ih ha hr).2 e
  | ret _ e hb hr ih => exact ret_inv ih e hb hr

end Verif.Proxy
