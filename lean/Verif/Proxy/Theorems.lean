import Verif.Proxy.Props
/-! # The theorems about the malloc replacement (C43, C53), and what is false -/
namespace Verif.Proxy
open BaseAlloc Mem
open Linear (CfgOk OsOk pools region)

variable {cfg : Linear.Cfg} {s : State} {live : List Blk} {busy : Nat → List (Option Blk)} {regs : List Region} {a : Ans}

/-! ### C43 -/

/-- C43. `free` of a block the program holds reaches the allocator that gave it, and no other, whichever thread calls it, during or
after the start-up, inside or outside of functions of the pool, for every threshold. -/
theorem C43_free (hcfg : CfgOk cfg) (h : Reach cfg s live busy regs) (ha : AnsOk cfg s live regs a) {b : Blk} (hb : b ∈ live) (t : Nat) :
    ∃ s' v, call cfg s t (.free b.ptr) a = some (s', v, [.sent t b.org (.free b.ptr)]) := by
  obtain ⟨s', v, h1, _⟩ := free_route hcfg (reach_inv hcfg h) ha hb t
  exact ⟨s', v, h1⟩

/-- C43. The same for `realloc`, whatever the new size. -/
theorem C43_realloc (hcfg : CfgOk cfg) (h : Reach cfg s live busy regs) (ha : AnsOk cfg s live regs a) {b : Blk} (hb : b ∈ live)
    (t : Nat) {n : Nat} (hn : n ≠ 0) :
    ∃ s' v evs, call cfg s t (.realloc b.ptr n) a = some (s', v, .sent t b.org (.realloc b.ptr n) :: evs) ∧
      ∀ e ∈ evs, ∃ x y z, e = .copied x y z := by
  obtain ⟨s', v, evs, h1, h2, _⟩ := realloc_route hcfg (reach_inv hcfg h) ha hb t hn
  exact ⟨s', v, evs, h1, h2⟩

/-- C43. The same for `realloc` with size 0, which frees. -/
theorem C43_realloc0 (hcfg : CfgOk cfg) (h : Reach cfg s live busy regs) (ha : AnsOk cfg s live regs a) {b : Blk} (hb : b ∈ live)
    (t : Nat) : ∃ s' v, call cfg s t (.realloc b.ptr 0) a = some (s', v, [.sent t b.org (.free b.ptr)]) := by
  have hi := reach_inv hcfg h
  obtain ⟨s', v, h1, _⟩ := free_route hcfg hi ha hb t
  refine ⟨s', v, ?_⟩
  rw [← h1]
  unfold call realloc
  dsimp only
  rw [if_neg (hi.ptr b hb), if_pos rfl]

/-- C43. The same for `malloc_usable_size`; the pointer 1 is reserved. -/
theorem C43_usable (hcfg : CfgOk cfg) (h : Reach cfg s live busy regs) (ha : AnsOk cfg s live regs a) {b : Blk} (hb : b ∈ live)
    (hb1 : b.ptr ≠ 1) (t : Nat) : ∃ s' v, call cfg s t (.usable b.ptr) a = some (s', v, [.sent t b.org (.usable b.ptr)]) := by
  obtain ⟨s', v, h1, _⟩ := usable_route hcfg (reach_inv hcfg h) ha hb hb1 t
  exact ⟨s', v, h1⟩

/-- C43. New memory: a request below the threshold goes to the system; another one to the pool, if it exists and the thread is not
marked as being in the pool; otherwise to the linear allocator. -/
theorem C43_alloc (hcfg : CfgOk cfg) (h : Reach cfg s live busy regs) (ha : AnsOk cfg s live regs a) (t n : Nat) :
    ∃ s' v, call cfg s t (.alloc n) a = some (s', v, [.sent t
      (if n < s.threshold then .system else if s.flag t = false ∧ s.pool = true then .pool else .leak) (.alloc n)]) := by
  obtain ⟨hi, hai, l, hl⟩ := leakInit_inv (reach_inv hcfg h) ha
  unfold call malloc allocate
  dsimp only
  split
  · exact ⟨_, _, rfl⟩
  · by_cases hp : s.flag t = false ∧ s.pool = true
    · rw [if_pos (by simp [hp]), if_pos hp]
      exact ⟨_, _, rfl⟩
    · rw [if_neg (by simpa using hp), if_neg hp]
      unfold leakAligned
      dsimp only
      by_cases hz : Fixed.word (n + 0) = 0
      · rw [if_pos hz]
        exact ⟨_, _, rfl⟩
      · rw [if_neg hz, hl]
        exact ⟨_, _, rfl⟩

/-- The flag of a thread stays set until a function of the pool returns to it. -/
theorem flag_call {t u : Nat} {r : Req} {s' : State} {v : Option Nat} {evs : List Ev} (hf : s.flag t = true)
    (e : call cfg s u r a = some (s', v, evs)) :
    s'.flag t = true ∧ ∀ r', Ev.sent t .pool r' ∈ evs → ¬ r'.isAlloc := by
  obtain ⟨e1, e2, e3, e4, e5⟩ := leakInit_fields (cfg := cfg) (s := s) (a := a)
  have henter : ∀ (s : State) (r : Req) (f : Bool), s.flag t = true → (u = t → f = true) → (s.enter u r f).flag t = true := by
    intro s r f h1 h2
    show (if t = u then f else s.flag t) = true
    split
    · rename_i h3; exact h2 h3.symm
    · exact h1
  have hlk : ∀ {al n : Nat} {s2 : State} {p : Nat}, leakAligned cfg s al n a = some (s2, p) → s2.flag t = true := by
    intro al n s2 p h1
    unfold leakAligned at h1
    simp only at h1
    split at h1
    · cases h1; rw [e3]; exact hf
    · split at h1
      · cases h1
      · cases h1; show (leakInit cfg s a).flag t = true; rw [e3]; exact hf
  have halloc : ∀ {small : Nat} {r : Req} {al n : Nat}, allocate cfg s u small r al n a = some (s', v, evs) →
      s'.flag t = true ∧ ∀ r', Ev.sent t .pool r' ∈ evs → ¬ r'.isAlloc := by
    intro small r al n h1
    unfold allocate at h1
    split at h1
    · cases h1; exact ⟨hf, by simp⟩
    · split at h1
      · rename_i hp
        have hut : u ≠ t := by
          intro he
          rw [he, hf] at hp
          simp at hp
        cases h1
        refine ⟨henter _ _ _ hf (fun he => absurd he hut), ?_⟩
        intro r' hr'
        simp at hr'
        exact absurd hr'.1.symm hut
      · split at h1
        · cases h1
        · rename_i h2
          cases h1
          exact ⟨hlk h2, by simp⟩
  have hfree : ∀ {p : Nat}, free cfg s u p a = some (s', v, evs) →
      s'.flag t = true ∧ ∀ r', Ev.sent t .pool r' ∈ evs → ¬ r'.isAlloc := by
    intro p h1
    unfold free at h1
    split at h1
    · cases h1; exact ⟨hf, by simp⟩
    · simp only at h1
      split at h1
      · cases h1
      · split at h1
        · cases h1; exact ⟨by show (leakInit cfg s a).flag t = true; rw [e3]; exact hf, by simp⟩
        · split at h1
          · cases h1
            refine ⟨henter _ _ _ (by rw [e3]; exact hf) (fun he => by rw [he, e3]; exact hf), ?_⟩
            intro r' hr'
            simp at hr'
            rw [hr'.2]; exact fun h => h
          · split at h1
            · cases h1; exact ⟨by rw [e3]; exact hf, by simp⟩
            · cases h1; exact ⟨by rw [e3]; exact hf, by simp⟩
  unfold call at e
  cases r with
  | alloc n => exact halloc e
  | calloc k n => exact halloc e
  | aligned al n => exact halloc e
  | free p => exact hfree e
  | realloc p n =>
    unfold realloc at e
    dsimp only at e
    split at e
    · exact halloc e
    split at e
    · exact hfree e
    split at e
    · cases e
    split at e
    · split at e
      · cases e; exact ⟨by show (leakInit cfg s a).flag t = true; rw [e3]; exact hf, by simp⟩
      · cases e; exact ⟨by show (leakInit cfg s a).flag t = true; rw [e3]; exact hf, by simp⟩
    · split at e
      · cases e
        refine ⟨henter _ _ _ (by rw [e3]; exact hf) (fun _ => rfl), ?_⟩
        intro r' hr'
        simp at hr'
        rw [hr'.2]; exact fun h => h
      · split at e
        · cases e; exact ⟨by rw [e3]; exact hf, by simp⟩
        · cases e; exact ⟨by rw [e3]; exact hf, by simp⟩
  | usable p =>
    unfold usable at e
    dsimp only at e
    split at e
    · cases e; exact ⟨hf, by simp⟩
    split at e
    · cases e
    split at e
    · cases e; exact ⟨by rw [e3]; exact hf, by simp⟩
    · split at e
      · cases e
        refine ⟨henter _ _ _ (by rw [e3]; exact hf) (fun _ => rfl), ?_⟩
        intro r' hr'
        simp at hr'
        rw [hr'.2]; exact fun h => h
      · split at e
        · cases e; exact ⟨by rw [e3]; exact hf, by simp⟩
        · cases e; exact ⟨by rw [e3]; exact hf, by simp⟩

/-- C43, no recursion: while a thread is in a function of the pool that it entered for an allocation, and until a function of the
pool other than `free` returns to it, none of its requests for memory goes to the pool. Missing: memory that is requested while the pool frees
(`C43_recursion_violated`), or after another nested call of the pool returned (`C43_flagLost_violated`). -/
theorem C43_nested_partial {t : Nat} {r : Req} (hr : r.isAlloc) {s1 s2 : State} {evs1 evs : List Ev}
    (e : call cfg s t r a = some (s1, none, evs1)) (hd : During cfg t s1 evs s2) :
    ∀ r', Ev.sent t .pool r' ∈ evs → ¬ r'.isAlloc := by
  have h0 : s1.flag t = true := by
    have : ∀ {small : Nat} {r : Req} {al n : Nat}, allocate cfg s t small r al n a = some (s1, none, evs1) → s1.flag t = true := by
      intro small r al n h1
      unfold allocate at h1
      split at h1
      · cases h1
      · split at h1
        · cases h1
          show (if t = t then true else _) = true
          rw [if_pos rfl]
        · split at h1
          · cases h1
          · cases h1
    unfold call at e
    cases r with
    | alloc n => exact this e
    | calloc k n => exact this e
    | aligned al n => exact this e
    | free p => exact hr.elim
    | realloc p n => exact hr.elim
    | usable p => exact hr.elim
  have key : s2.flag t = true ∧ ∀ r', Ev.sent t .pool r' ∈ evs → ¬ r'.isAlloc := by
    clear e
    induction hd with
    | refl => exact ⟨h0, by simp⟩
    | call _ h1 ih =>
      obtain ⟨h2, h3⟩ := ih
      obtain ⟨h4, h5⟩ := flag_call h2 h1
      refine ⟨h4, ?_⟩
      intro r' hr'
      rcases List.mem_append.1 hr' with h6 | h6
      · exact h3 r' h6
      · exact h5 r' h6
    | ret _ hne h1 ih =>
      obtain ⟨h2, h3⟩ := ih
      refine ⟨?_, h3⟩
      unfold ret at h1
      split at h1
      · cases h1
      · cases h1
        show (if t = _ then _ else _) = true
        split
        · rename_i he
          rcases hne with hne | ⟨p, rfl⟩
          · exact absurd he.symm hne
          · rw [← he]; exact h2
        · exact h2
  exact key.2

/-! ### C53 -/

/-- C53. The blocks of the start-up phase that the program holds have no byte in common, and are inside memory that the OS gave and
that was not given back: each has at least the requested size. -/
theorem C53_blocks (hcfg : CfgOk cfg) (h : Reach cfg s live busy regs) :
    (live.filter (·.org = .leak)).Pairwise (fun b c => Disjoint (b.ptr, b.size) (c.ptr, c.size)) ∧
    ∀ b ∈ live, b.org = .leak → ∃ g ∈ leakMem s, Inside (b.ptr, b.size) g := by
  have hi := reach_inv hcfg h
  cases ho : s.once with
  | false =>
    have h1 := (hi.none ho).2
    refine ⟨?_, fun b hb hc => absurd hc (h1 b hb)⟩
    rw [List.filter_eq_nil_iff.2 (by intro b hb; simpa using h1 b hb)]
    exact List.Pairwise.nil
  | true =>
    obtain ⟨l, hl, ll, Z, h2, h3, h4, h5⟩ := hi.leak ho
    obtain ⟨h6, h7⟩ := Linear.C20_allocations_partial hcfg h2
    constructor
    · have h8 : (Z.map Prod.snd).Pairwise Disjoint := (h3.pairwise_iff (fun h => h.symm)).1 h6
      have h9 : (Z.map Prod.fst).Pairwise (fun b c => Disjoint (b.ptr, b.size) (c.ptr, c.size)) := by
        rw [List.pairwise_map] at h8 ⊢
        have h10 : Z.Pairwise (fun z w => z ∈ Z ∧ w ∈ Z ∧ Disjoint z.2 w.2) := h8.imp_of_mem (fun hx hy h => ⟨hx, hy, h⟩)
        exact h10.imp (fun ⟨hx, hy, h⟩ => disjoint_of_inside h (h5 _ hx).2 (h5 _ hy).2)
      exact (h4.pairwise_iff (fun h => h.symm)).2 h9
    · intro b hb hc
      obtain ⟨⟨r, ll', g1, g2, g3, g4⟩, _⟩ := leak_block hcfg ⟨ll, Z, h2, h3, h4, h5⟩ hb hc
      obtain ⟨sub, g5, g6⟩ := ((Linear.C20_allocations_partial hcfg g1).2 r g2).2
      refine ⟨region sub, by rw [leakMem_some hl]; exact List.mem_map.2 ⟨sub, g5, rfl⟩, ?_⟩
      exact fun x hx => data_in (g6 x (g4 x hx))

/-- C53. `aligned_alloc` in the start-up phase gives a pointer with the requested alignment. -/
theorem C53_aligned (hcfg : CfgOk cfg) (h : Reach cfg s live busy regs) (ha : AnsOk cfg s live regs a) {e n t : Nat}
    (hn : n + 2 ^ e ≤ 2 ^ 64 - 24) {s' : State} {v : Nat}
    (he : call cfg s t (.aligned (2 ^ e) n) a = some (s', some v, [.sent t .leak (.aligned (2 ^ e) n)])) : v % 2 ^ e = 0 := by
  obtain ⟨hi, hai, l, hl⟩ := leakInit_inv (reach_inv hcfg h) ha
  obtain ⟨e1, e2, e3, e4, e5⟩ := leakInit_fields (cfg := cfg) (s := s) (a := a)
  have hpos : 0 < 2 ^ e := Nat.two_pow_pos e
  have h00 : alignUp 0 (2 ^ e) % 2 ^ e = 0 := by
    unfold alignUp
    rw [if_neg (by omega)]
    unfold Fixed.alignUpSafe
    rw [if_neg (by omega)]
    exact Nat.mul_mod_left _ _
  unfold call allocate at he
  dsimp only at he
  split at he
  · simp at he
  split at he
  · simp at he
  split at he
  · cases he
  rename_i hlk
  cases he
  unfold leakAligned at hlk
  simp only [word_lt (by omega : n + 2 ^ e < 2 ^ 64)] at hlk
  split at hlk
  · cases hlk; exact h00
  · rw [hl] at hlk
    simp only at hlk
    rcases hx : Linear.alloc cfg l (n + 2 ^ e) a.os with ⟨l', q⟩
    rw [hx] at hlk
    cases q with
    | none =>
      have hv : alignUp 0 (2 ^ e) = v := (Prod.mk.inj (Option.some.inj hlk)).2
      rw [← hv]; exact h00
    | some q =>
      have hv : alignUp q (2 ^ e) = v := (Prod.mk.inj (Option.some.inj hlk)).2
      obtain ⟨b1, b2, b3⟩ := alloc_bound hcfg hi hai e5 hl hn hx
      rw [← hv]
      exact (alignUp_in (.inr ⟨e, rfl⟩) b3 b1).2.2.1 (by omega)

/-- C53. `realloc` of a block of the start-up phase: if it succeeds, at least the bytes of the old block that fit into the new one are
copied, at most as many as the new one has, and all bytes that are read belong to the allocator. Missing: source and target of
the copy may overlap (`C53_overlap_violated`). -/
theorem C53_realloc_partial (hcfg : CfgOk cfg) (h : Reach cfg s live busy regs) (ha : AnsOk cfg s live regs a) {b : Blk} (hb : b ∈ live)
    (hc : b.org = .leak) {t n : Nat} (hn : n ≠ 0) {s' : State} {v : Nat} {evs : List Ev}
    (he : call cfg s t (.realloc b.ptr n) a = some (s', some v, evs)) (hv : v ≠ 0) :
    ∃ m, evs = [.sent t .leak (.realloc b.ptr n), .copied b.ptr v m] ∧ min b.size n ≤ m ∧ m ≤ n ∧
      ∃ g ∈ leakMem s, Inside (b.ptr, m) g := by
  have h0 := reach_inv hcfg h
  obtain ⟨hi, hai, l, hl⟩ := leakInit_inv h0 ha
  obtain ⟨e1, e2, e3, e4, e5⟩ := leakInit_fields (cfg := cfg) (s := s) (a := a)
  obtain ⟨l', hl', hlo⟩ := hi.leak e5
  rw [hl] at hl'; cases hl'
  have hs : leakInit cfg s a = s := by
    apply leakInit_once
    cases hso : s.once with
    | true => rfl
    | false => exact absurd hc ((h0.none hso).2 b hb)
  obtain ⟨⟨r, ll, g1, g2, g3, g4⟩, k1, k2, sub, k3, k4⟩ := leak_block hcfg hlo hb hc
  unfold call realloc at he
  dsimp only at he
  rw [if_neg (h0.ptr b hb), if_neg hn, hl] at he
  dsimp only at he
  rw [if_pos k2] at he
  have hmax := ((Linear.C20_contains hcfg g1 b.ptr).1 sub k3 k4).1
  obtain ⟨sub2, q1, q2⟩ := ((Linear.C20_allocations_partial hcfg g1).2 r g2).2
  have hmax2 := ((Linear.C20_contains hcfg g1 b.ptr).1 sub2 q1 (q2 _ g3)).1
  split at he
  · cases he; exact absurd rfl hv
  · cases he
    refine ⟨_, rfl, ?_, ?_, region sub2, by rw [← hs, leakMem_some hl]; exact List.mem_map.2 ⟨sub2, q1, rfl⟩, ?_⟩
    · by_cases hz : b.size = 0
      · omega
      · have h9 := data_in (q2 _ (g4 (b.ptr + (b.size - 1)) ⟨by show b.ptr ≤ _; omega, by show _ < b.ptr + b.size; omega⟩))
        have : b.ptr + (b.size - 1) < sub2.base + sub2.size := h9.2
        split <;> omega
    · split <;> omega
    · have h8 := data_in (q2 _ g3)
      have h9 : sub2.base ≤ b.ptr := h8.1
      have h10 : b.ptr < sub2.base + sub2.size := h8.2
      refine inside_of h9 ?_
      show b.ptr + _ ≤ sub2.base + sub2.size
      split <;> omega

end Verif.Proxy
