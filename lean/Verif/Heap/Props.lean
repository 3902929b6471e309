import Verif.Heap.Last
import Verif.Heap.Books
import Verif.Heap.Witness
import Verif.Heap.Load

/-!
# Pools on top of other allocators: the properties (C60–C65)
-/
namespace Verif.Heap
open Function (update)

variable {cfg : Cfg} {s : St}

/-- What is right about a thread in a call: it never follows a null pointer, it uses structures only while they exist, it
calls the libraries and the provider as they require; its own calls of providers, and those of all hooks that a library may
call in the meantime, go to the provider of its pool, and these hooks do not crash. -/
structure FrameSafe (s : St) (t : Tid) (f : Frame) : Prop where
  notCrashed : f.prog ≠ .crash
  recs : ∀ p, (∃ k, f.prog = .getRec p k) ∨ (∃ k, f.prog = .freeRec p k) ∨ (∃ r k, f.prog = .setRec p r k) →
    s.recs p ≠ none
  valid : ∀ c k, f.prog = .call c k → c.Valid s.tbb s.arena f.own
  provider : ∀ c k q, f.prog = .call c k → c.prov = some q → f.provider = some q
  hooks : ∀ c k h tls l o tls', f.prog = .call c k → Allowed s.tbb s.arena f.own c h →
    Runs s.recs s.table h.prog tls l o tls' →
    o ≠ none ∧ ∀ x ∈ l, ∀ q, x.1.prov = some q → f.provider = some q

/-- The libraries and a thread agree on what belongs to the thread's pool. -/
theorem allowed_known {pv : Prov} {op : Op} {G : Gh} {t : Tid} {own : List Reg} {c : Call} {h : Hook} (hg : GOk s G)
    (hv : c.Valid (known G t op).tbb (known G t op).arena own) (hc : CallOk pv op (known G t op) own c)
    (ha : Allowed s.tbb s.arena own c h) : Allowed (known G t op).tbb (known G t op).arena own c h := by
  obtain ⟨_, k2, k3, _⟩ := known_sound hg t op
  rcases ha with ⟨id, hid, ⟨hp, x, h1, h2, h3⟩ | h1⟩ | ⟨a, h1, h2, h3⟩
  · refine .inl ⟨id, hid, .inl ⟨hp, x, h1, ?_, h3⟩⟩
    have : ∃ y, (known G t op).tbb hp = some y := by
      cases c <;> simp only [Call.tbbHeap, Option.some.injEq, reduceCtorEq] at h1 <;> subst h1 <;>
        first | exact hv | exact hv.1
    obtain ⟨y, hy⟩ := this
    have := k2 hp y hy
    rw [h2] at this
    cases this
    exact hy
  · exact .inl ⟨id, hid, .inr h1⟩
  · refine .inr ⟨a, h1, h2, ?_⟩
    obtain ⟨b, hb⟩ := hc.2.2.2.1 a h2
    have := k3 a b hb
    rw [h3] at this
    cases this
    exact hb

/-- C60 (partial): in every interleaving of calls of any number of threads on any number of pools, every call in progress is
safe. Missing: jemalloc pools that are created while another one is destroyed (`C60_calls_violated`), and alignment 0 for
jemalloc pools (`C65_zero_violated`). -/
theorem C60_calls_partial (hcalm : cfg.calm = true) (hsa : cfg.someAlign = true) (h : Reach cfg s) {t : Tid} {f : Frame}
    (ht : s.th t = some f) : FrameSafe s t f := by
  obtain ⟨G, hi⟩ := reach_inv hcalm hsa h
  obtain ⟨pv, src, own0, zero, f0, h1, h2, h3, h4, h5, h6, h7⟩ := (hi.th t f ht).prog
  obtain ⟨k1, k2, k3, k4⟩ := known_sound hi.g t f.op
  constructor
  · intro hp; rw [hp] at h7; exact h7
  · rintro p (⟨k, hp⟩ | ⟨k, hp⟩ | ⟨r, k, hp⟩) hn <;> rw [hp] at h7
    · obtain ⟨r, h8, _⟩ := h7
      rw [k1 p r h8] at hn; cases hn
    · obtain ⟨_, ⟨r, h8⟩, _⟩ := h7
      rw [k1 p r h8] at hn; cases hn
    · obtain ⟨_, ⟨r, h8⟩, _⟩ := h7
      rw [k1 p r h8] at hn; cases hn
  · intro c k hp
    rw [hp] at h7
    exact h7.1.mono k2 k3
  · intro c k q hp hq
    rw [hp] at h7
    rw [h1, h7.2.1.1 q hq]
  · intro c k hk tls l o tls' hp hal hr
    rw [hp] at h7
    have := h7.2.1.2.2.2.2 hk (allowed_known hi.g h7.1 h7.2.1 hal)
    have := hook_runs hr (fun id hid => (this.1 id hid).imp fun r h => ⟨k1 id r h.1, h.2⟩)
      (fun a ha => by
        obtain ⟨p, r, h8, h9, h10⟩ := this.2 a ha
        exact ⟨p, r, k4 a _ h8, k1 p r h9, h10⟩)
    exact ⟨this.1, fun x hx q hq => by rw [h1, this.2 x hx q hq]⟩

/-- A thread in a call of a jemalloc pool, before a hook, while other threads use other pools. -/
example : Reach calmCfg st1 ∧ ∃ f c k h, st1.th 1 = some f ∧ f.prog = .call c k ∧ f.provider = some 8 ∧
    Allowed st1.tbb st1.arena f.own c h ∧ h.arena = some 3 := by
  refine ⟨st1_reach, _, _, _, .alloc 3 0 8192 4096 true, rfl, rfl, rfl, allowedB_sound (by decide +kernel), rfl⟩

/-- C60 (violated): if a jemalloc pool is created while another one is destroyed, a hook of the new pool may follow a null
pointer: the arena's index is free before its entry is cleared (pool_jemalloc.c:434-444). -/
theorem C60_calls_violated : ∃ s t f c k h l tls', Reach ⟨false, true, true⟩ s ∧ s.th t = some f ∧ f.prog = .call c k ∧
    f.op = .malloc .je 200 64 ∧ Allowed s.tbb s.arena f.own c h ∧ Runs s.recs s.table h.prog (s.tls t) l none tls' := by
  refine ⟨st4, 1, _, _, _, .alloc 0 0 4096 4096 false, _, _, st4_reach, rfl, rfl, rfl, allowedB_sound (by decide +kernel),
    runH_sound (rs := []) (y := ([], none, fun _ => 0)) _ rfl⟩

/-- Memory that a client has: it is where the pool of the client gets its memory. -/
def FromPool (s : St) (b : Blk) (m : Made) : Prop :=
  match m.file with
  | .tbb => ∃ h, b.reg.src = .tbb h ∧ s.tbb h = some ⟨b.pool, m.granularity, m.keepAll⟩
  | .je => ∃ a, b.reg.src = .arena a ∧ s.arena a = some true ∧ s.table a = some b.pool
  | .proxy => b.reg.src = .prov m.pv

/-- C60 (partial): the memory that clients have is not NULL, as large as asked, has no byte in common with other memory that clients have, and
comes from the right pool or provider, which was made with the client's parameters. -/
theorem C60_blocks_partial (hcalm : cfg.calm = true) (hsa : cfg.someAlign = true) (h : Reach cfg s) :
    (∀ x b, s.blk x = some b → x ≠ 0 ∧ b.reg.ptr = x ∧ (cfg.noWrap = true → b.reg.size = b.asked) ∧ ∃ m, s.made b.pool = some m ∧ FromPool s b m) ∧
    (∀ x y b c, x ≠ y → s.blk x = some b → s.blk y = some c → Apart b.reg c.reg) := by
  obtain ⟨G, hi⟩ := reach_inv hcalm hsa h
  refine ⟨fun x b hb => ?_, hi.blkApart⟩
  obtain ⟨h1, h2, h3⟩ := hi.blk x b hb
  refine ⟨h1 ▸ h3.ptr, h1, fun hn => by rw [h3.size, hn]; rfl, ?_⟩
  obtain ⟨m, hm⟩ := Option.ne_none_iff_exists'.1 h2
  refine ⟨m, hm, ?_⟩
  obtain ⟨r, hk, h4, h5, h6⟩ := hi.pools _ m hm
  have hs := h3.src
  rw [hk, pool_src] at hs
  unfold FromPool
  unfold Rec.src at hs
  cases hf : m.file <;> rw [hf] at h4 <;> rw [h4] at hs <;> dsimp only at hs ⊢
  · refine ⟨_, hs, hi.g.tbb (.inr b.pool) _ _ ?_⟩
    rw [hk]
    simp [K.pool, h4]
  · refine ⟨_, hs, hi.g.arena (.inr b.pool) _ _ ?_, hi.g.tab (.inr b.pool) _ _ ?_⟩ <;> rw [hk] <;> simp [K.pool, h4]
  · rw [hs, h5]

/-- Two pieces of memory of different pools. -/
example : Reach calmCfg st1 ∧ st1.blk 0x1000 = some ⟨100, 24, 1, ⟨0x1000, 24, .tbb 50⟩⟩ ∧
    st1.blk 0x2000 = some ⟨300, 100, 64, ⟨0x2000, 100, .prov 9⟩⟩ :=
  ⟨st1_reach, by decide +kernel, by decide +kernel⟩

/-- C61 (partial): an array that is returned is as large as asked, and zero. Missing: arrays larger than the address space
(`C61_violated`). -/
theorem C61_partial (hcalm : cfg.calm = true) (hsa : cfg.someAlign = true) (hnw : cfg.noWrap = true) (h : Reach cfg s)
    {t : Tid} {f : Frame} {o : Out} {g : File} {p : Pool} {num n : Nat} (ht : s.th t = some f) (hp : f.prog = .ret o)
    (hop : f.op = .calloc g p num n) (ho : o.val ≠ 0) :
    (∃ y ∈ f.own, y.ptr = o.val ∧ y.size = num * n) ∧ ∀ i, i < num * n → s.mem (o.val + i) = 0 := by
  obtain ⟨G, hi⟩ := reach_inv hcalm hsa h
  obtain ⟨pv, src, own0, zero, f0, h1, h2, h3, h4, h5, h6, h7⟩ := (hi.th t f ht).prog
  rw [hp] at h7
  obtain ⟨_, _, q3, _, _, q6, _⟩ := h7
  have ha : f0.op.asks = some (p, num * n, 1) := by rw [h2, hop]; rfl
  have hown := (q3 p _ 1 ha ho).1
  have hz := q6 g p num n (by rw [h2]; exact hop) ho
  rw [hnw] at hown hz
  dsimp only at hown hz
  refine ⟨⟨_, by rw [hown]; exact List.mem_singleton.2 rfl, rfl, rfl⟩, fun i hi' => ?_⟩
  exact (h6 _ hz).2 _ (Nat.le_add_right _ _) (Nat.add_lt_add_left hi' _)

/-- An array of 5 elements of 8 bytes, about to be returned. -/
example : Reach calmCfg st2 ∧ ∃ f, st2.th 3 = some f ∧ f.prog = .ret { val := 0x5000 } ∧ f.op = .calloc .je 200 5 8 :=
  ⟨st2_reach, _, rfl, rfl, rfl⟩

/-- C61 (violated): an array whose size wraps is returned, but is smaller than asked and not zero (pool_scalable.c:337-348,
pool_jemalloc.c:317-330). -/
theorem C61_violated : ∃ s t f o, Reach ⟨true, false, true⟩ s ∧ s.th t = some f ∧ f.prog = .ret o ∧ o.val ≠ 0 ∧
    f.op = .calloc .tbb 100 (2 ^ 32) (2 ^ 32 + 1) ∧ (∀ y ∈ f.own, y.size < 2 ^ 32 * (2 ^ 32 + 1)) ∧
    ∃ i, i < 2 ^ 32 * (2 ^ 32 + 1) ∧ s.mem (o.val + i) ≠ 0 := by
  refine ⟨st5, 0, _, { val := 0x1000 }, st5_reach, rfl, rfl, by decide, rfl, ?_, 2 ^ 32, by decide, by decide +kernel⟩
  intro y hy
  have : y ∈ [(⟨0x1000, 2 ^ 32, .tbb 50⟩ : Reg)] := hy
  rw [List.mem_singleton] at this
  subst this
  decide

/-- C62: if the last call of a thread failed, then `umfPoolGetLastAllocationError` in that thread reports it as `ErrOk`
says, whatever other threads did. -/
theorem C62_error_partial (hcalm : cfg.calm = true) (hsa : cfg.someAlign = true) (h : Reach cfg s) {t : Tid} {f fr : Frame}
    {p : Pool} {r : Out} (hlast : s.last t = some f) (ht : s.th t = some fr) (hop : fr.op = .lastError f.op.file p)
    (hr : fr.prog = .ret r) : ∃ o, f.prog = .ret o ∧ ErrOk f o (fun _ => r.res) := by
  have hl := reach_last hcalm hsa h
  obtain ⟨o, h1, h2⟩ := hl.last t f hlast fun fr' hfr' => by
    rw [ht] at hfr'; cases hfr'; rw [hop]; rfl
  refine ⟨o, h1, ?_⟩
  have hres : r.res = s.tls t (.alloc f.op.file) := by
    rcases hl.asking t fr _ p ht hop with h3 | h3
    · rw [hr, hop] at h3; cases h3
    · rw [hr] at h3; cases h3; rfl
  intro hf
  obtain ⟨h3, h4, h5⟩ := h2 hf
  refine ⟨by rw [hres]; exact h3, fun e => ?_, fun e hn => ?_⟩
  · rw [hres, e]; exact h4 e
  · rw [hres, e]; exact h5 e hn

/-- The provider refused memory, the call failed, and the thread asks. -/
example : Reach calmCfg st1 ∧ ∃ f fr, st1.last 5 = some f ∧ f.op = .malloc .tbb 100 1000000 ∧ f.prog = .ret {} ∧
    f.refused = true ∧ st1.th 5 = some fr ∧ fr.op = .lastError .tbb 100 ∧ fr.prog = .ret { res := resOutOfHostMemory } :=
  ⟨st1_reach, _, _, rfl, rfl, rfl, rfl, rfl, rfl, rfl⟩

/-- C62: if freeing fails, it reports what the provider answered. -/
theorem C62_free_partial (hcalm : cfg.calm = true) (hsa : cfg.someAlign = true) (h : Reach cfg s) {t : Tid} {f : Frame}
    {o : Out} (ht : s.th t = some f) (hp : f.prog = .ret o) : FreeOk f o := by
  obtain ⟨G, hi⟩ := reach_inv hcalm hsa h
  exact (ret_err hi ht hp).2

/-- C63: what the provider has given out is what the library has, plus pieces that the provider itself refused to take
back; there are at most as many of these as refusals. So the pool loses nothing, and it never tells the library that it has
memory which the provider took back. -/
theorem C63_books {recs : Pool → Option Rec} {table : Nat → Option Pool} {p : Pool} {r : Rec} {l : List (Call × Resp)}
    {lib : Book} (hr : recs p = some r) (h : Hist recs table p l lib) :
    ∃ lost : Book, (l.foldl provBook []).Perm (lib ++ lost) ∧ lost.length ≤ refusals l ∧
      ∀ x ∈ lost, ∃ y : Resp, (Call.provFree r.pv x.1 x.2, y) ∈ l ∧ y.err ≠ 0 :=
  hist_agree hr h

/-- C63: if the provider always takes memory back, the books agree exactly. -/
theorem C63_books_exact {recs : Pool → Option Rec} {table : Nat → Option Pool} {p : Pool} {r : Rec}
    {l : List (Call × Resp)} {lib : Book} (hr : recs p = some r) (h : Hist recs table p l lib) (h0 : refusals l = 0) :
    (l.foldl provBook []).Perm lib := by
  obtain ⟨lost, h1, h2, _⟩ := C63_books hr h
  rw [h0, Nat.le_zero, List.length_eq_zero_iff] at h2
  subst h2
  simpa using h1

/-- What jemalloc requires of the hook that gives memory: at the wanted place if there is one, zero if wanted. -/
theorem C63_alloc {recs : Pool → Option Rec} {table : Nat → Option Pool} {p : Pool} {r : Rec} {a new n al : Nat} {zero : Bool}
    {tls tls' : Var → Res} {l : List (Call × Resp)} {o : Out} (hr : recs p = some r) (ht : table a = some p)
    (h : Runs recs table (Hook.alloc a new n al zero).prog tls l (some o) tls') (ho : o.val ≠ 0) :
    (new ≠ 0 → o.val = new) ∧
    (∃ x l', l = (.provAlloc r.pv n al, x) :: l' ∧ x.err = 0 ∧ x.val = o.val) ∧
    (zero = true → ∃ y, (Call.memset o.val n, y) ∈ l) := by
  obtain ⟨x, l2, rfl, h2⟩ := runs_call (byArena_runs h ht hr)
  split at h2
  · obtain ⟨-, h3⟩ := runs_ret h2
    cases h3
    exact absurd rfl ho
  · next he =>
    have he : x.err = 0 := by simpa using he
    split at h2
    · obtain ⟨y, l3, rfl, h3⟩ := runs_call h2
      obtain ⟨-, h4⟩ := runs_ret h3
      cases h4
      exact absurd rfl ho
    · next hn =>
      have hnew : new ≠ 0 → x.val = new := fun h => by
        by_contra h'
        exact hn ⟨h, h'⟩
      split at h2
      · obtain ⟨y, l3, rfl, h3⟩ := runs_call h2
        obtain ⟨-, h4⟩ := runs_ret h3
        cases h4
        exact ⟨hnew, ⟨x, _, rfl, he, rfl⟩, fun _ => ⟨y, by simp⟩⟩
      · next hz =>
        obtain ⟨-, h4⟩ := runs_ret h2
        cases h4
        exact ⟨hnew, ⟨x, _, rfl, he, rfl⟩, fun h => absurd h hz⟩

/-- A pool that got two pieces, one of them not at the wanted place and refused by the provider, split the first one, and
gave a part of it back. -/
example : ∃ l lib, Hist (fun _ => some ⟨.je, 8, 3⟩) (fun _ => some 200) 200 l lib ∧ lib = [(0x10000, 0x1000)] ∧
    refusals l = 1 := by
  have h0 : Hist (fun _ => some ⟨.je, 8, 3⟩) (fun _ => some 200) 200 [] [] := .nil
  have h1 := h0.hook (h := .alloc 3 0 0x3000 4096 true) (tls := fun _ => 0) (.inr ⟨3, rfl, rfl⟩) trivial
    (runH_sound (rs := [{ val := 0x10000 }, {}])
      (y := ([(.provAlloc 8 0x3000 4096, { val := 0x10000 }), (.memset 0x10000 0x3000, {})], some { val := 0x10000 }, fun _ => 0))
      _ rfl) (by intro x hx; simp at hx; rcases hx with rfl | rfl <;> simp [provGood])
  have h2 := h1.hook (h := .alloc 3 0x5000 0x1000 4096 false) (tls := fun _ => 0) (.inr ⟨3, rfl, rfl⟩) trivial
    (runH_sound (rs := [{ val := 0x90000 }, { err := 1 }])
      (y := ([(.provAlloc 8 0x1000 4096, { val := 0x90000 }), (.provFree 8 0x90000 0x1000, { err := 1 })], some {}, fun _ => 0))
      _ rfl) (by intro x hx; simp at hx; rcases hx with rfl | rfl <;> simp [provGood])
  have h3 := h2.hook (h := .split 3 0x10000 0x3000 0x1000 0x2000) (tls := fun _ => 0) (.inr ⟨3, rfl, rfl⟩) ⟨by decide, rfl⟩
    (runH_sound (rs := [{}]) (y := ([(.split 8 0x10000 0x3000 0x1000, {})], some {}, fun _ => 0)) _ rfl)
    (by intro x hx; simp at hx; subst hx; simp [provGood])
  have h4 := h3.hook (h := .dalloc 3 0x11000 0x2000) (tls := fun _ => 0) (.inr ⟨3, rfl, rfl⟩)
    (show (0x11000, 0x2000) ∈ _ by decide)
    (runH_sound (rs := [{}]) (y := ([(.provFree 8 0x11000 0x2000, {})], some {}, fun _ => 0)) _ rfl)
    (by intro x hx; simp at hx; subst hx; simp [provGood])
  exact ⟨_, _, h4, by decide, by decide⟩

/-- Everything that exists belongs to a pool of a client. -/
structure NoLeak (s : St) : Prop where
  recs : ∀ p, s.recs p ≠ none ↔ s.made p ≠ none
  /-- the pools of oneTBB -/
  tbb : ∀ h x, s.tbb h = some x → ∃ m, s.made x.id = some m ∧ m.file = .tbb ∧ x.granularity = m.granularity ∧
    x.keepAll = m.keepAll
  tbbOne : ∀ h h' x y, s.tbb h = some x → s.tbb h' = some y → x.id = y.id → h = h'
  tbbAll : ∀ p m, s.made p = some m → m.file = .tbb → ∃ h x, s.tbb h = some x ∧ x.id = p
  /-- the arenas of jemalloc; `stuck` are those that jemalloc refused to destroy -/
  arena : ∀ a, s.arena a ≠ none → s.stuck a = true ∨
    ∃ p m, s.made p = some m ∧ m.file = .je ∧ s.table a = some p ∧ s.arena a = some true
  arenaAll : ∀ p m, s.made p = some m → m.file = .je → ∃ a, s.arena a = some true ∧ s.table a = some p

/-- C64 (partial): whenever no call is in progress, exactly the structures, oneTBB pools and arenas of the clients' pools
exist, whatever failed before; each has the client's parameters, with 2 MiB as the default granularity. Missing: jemalloc
pools that are created while another one is destroyed. -/
theorem C64_noLeak_partial (hcalm : cfg.calm = true) (hsa : cfg.someAlign = true) (h : Reach cfg s)
    (hidle : ∀ t, s.th t = none) : NoLeak s := by
  obtain ⟨G, hi⟩ := reach_inv hcalm hsa h
  have hG : ∀ i : Sum Tid Pool, G i = K.empty ∨ ∃ p m r, i = .inr p ∧ s.made p = some m ∧ G i = K.pool p m r ∧
      r.file = m.file := by
    rintro (t | p)
    · exact .inl (hi.noThread t (hidle t))
    · cases hm : s.made p with
      | none => exact .inl (hi.noPool p hm)
      | some m =>
        obtain ⟨r, h1, h2, _⟩ := hi.pools p m hm
        exact .inr ⟨p, m, r, rfl, hm, h1, h2⟩
  refine ⟨fun p => ⟨fun hp => ?_, fun hp => ?_⟩, fun h x hx => ?_, fun h h' x y hx hy hid => ?_, fun p m hm hf => ?_,
    fun a ha => ?_, fun p m hm hf => ?_⟩
  · obtain ⟨i, hn⟩ := hi.g.cRecs p hp
    rcases hG i with h1 | ⟨q, m, r, rfl, h1, h2, h3⟩
    · rw [h1] at hn; exact absurd rfl hn
    · rw [h2] at hn
      have : p = q := by
        by_contra hne
        simp [K.pool, hne] at hn
      subst this
      rw [h1]; simp
  · obtain ⟨m, hm⟩ := Option.ne_none_iff_exists'.1 hp
    obtain ⟨r, h1, h2, _⟩ := hi.pools p m hm
    rw [hi.g.recs (.inr p) p r (by rw [h1]; simp [K.pool])]
    simp
  · obtain ⟨i, hn⟩ := hi.g.cTbb h (by rw [hx]; simp)
    obtain ⟨y, hy⟩ := Option.ne_none_iff_exists'.1 hn
    have := hi.g.tbb i h y hy
    rw [hx] at this
    cases this
    rcases hG i with h1 | ⟨q, m, r, rfl, h1, h2, h3⟩
    · rw [h1] at hn; exact absurd rfl hn
    · rw [h2] at hy
      simp only [K.pool] at hy
      split at hy
      · next hc =>
        cases hy
        exact ⟨m, h1, h3 ▸ hc.1, rfl, rfl⟩
      · cases hy
  · have key : ∀ {h x}, s.tbb h = some x → ∃ m r, G (.inr x.id) = K.pool x.id m r ∧ r.heap = h ∧ s.made x.id = some m := by
      intro h x hx
      obtain ⟨i, hn⟩ := hi.g.cTbb h (by rw [hx]; simp)
      obtain ⟨y, hy⟩ := Option.ne_none_iff_exists'.1 hn
      have := hi.g.tbb i h y hy
      rw [hx] at this
      cases this
      rcases hG i with h1 | ⟨q, m, r, rfl, h1, h2, h3⟩
      · rw [h1] at hn; exact absurd rfl hn
      · have hy' := hy
        rw [h2] at hy'
        simp only [K.pool] at hy'
        split at hy'
        · next hc =>
          cases hy'
          exact ⟨m, r, h2, hc.2.symm, h1⟩
        · cases hy'
    obtain ⟨m, r, h1, h2, _⟩ := key hx
    obtain ⟨m', r', h3, h4, _⟩ := key hy
    rw [hid, h3] at h1
    have e : r' = r := by
      have := congrArg (fun k => k.recs y.id) h1
      simpa [K.pool] using this
    rw [← h2, ← h4, e]
  · obtain ⟨r, h1, h2, _⟩ := hi.pools p m hm
    exact ⟨r.heap, ⟨p, m.granularity, m.keepAll⟩,
      hi.g.tbb (.inr p) _ _ (by rw [h1]; simp [K.pool, h2, hf]), rfl⟩
  · rcases hi.g.cArena a ha with ⟨i, hn⟩ | hst
    · right
      rcases hG i with h1 | ⟨q, m, r, rfl, h1, h2, h3⟩
      · rw [h1] at hn; exact absurd rfl hn
      · rw [h2] at hn
        have hc : r.file = .je ∧ a = r.heap := by
          by_contra hc
          simp only [K.pool, if_neg hc] at hn
          exact hn rfl
        refine ⟨q, m, h1, h3 ▸ hc.1, hi.g.tab (.inr q) _ _ ?_, hi.g.arena (.inr q) _ _ ?_⟩ <;> rw [h2] <;>
          simp [K.pool, hc]
    · exact .inl hst
  · obtain ⟨r, h1, h2, _⟩ := hi.pools p m hm
    exact ⟨r.heap, hi.g.arena (.inr p) _ _ (by rw [h1]; simp [K.pool, h2, hf]),
      hi.g.tab (.inr p) _ _ (by rw [h1]; simp [K.pool, h2, hf])⟩

/-- Pools were destroyed, jemalloc refused to destroy an arena, a number of oneTBB was used again. -/
example : Reach calmCfg st3 ∧ st3.tbb 50 = some ⟨101, 8192, true⟩ ∧ st3.made 101 = some ⟨.tbb, 7, some ⟨8192, true⟩⟩ ∧
    st3.made 100 = none ∧ st3.stuck 3 = true ∧ st3.arena 4 = some true ∧ (∀ t, st3.th t = none) := by
  exact ⟨st3_reach, by decide +kernel, by decide +kernel, by decide +kernel, by decide +kernel, by decide +kernel, st3_idle⟩

/-- C64 (partial): if oneTBB was loaded successfully, the functions to make, use and release memory are there, and it is
opened and closed once. Missing: the size of an allocation may not be available (`C64_load_violated`), and a library without
the functions is closed twice (`C64_close_violated`). -/
theorem C64_load_partial (e : Load.Env) (h : (Load.load e Load.zero).1.failed = false) :
    (∀ y ∈ Load.calls, y ≠ .msize → (Load.load e Load.zero).1.addr y = true) ∧
    (Load.load e Load.zero).2 ++ (Load.fini e (Load.load e Load.zero).1).2 = [.opened, .closed] := by
  unfold Load.load at h ⊢
  split
  · next hf => rw [if_pos hf] at h; cases h
  · next hf =>
    rw [if_neg hf] at h
    dsimp only at h ⊢
    split
    · next hs => rw [if_pos hs] at h; cases h
    · next hs =>
      simp only [not_or, Bool.not_eq_false] at hs
      refine ⟨fun y hy hne => ?_, rfl⟩
      cases y <;> simp_all

example : (Load.load ⟨true, fun _ => true, true⟩ Load.zero).1.failed = false := rfl

/-- C64 (violated): loading succeeds although a function that the pool calls is missing; `umfPoolMallocUsableSize` then
calls a null pointer (pool_scalable.c:147-152). -/
theorem C64_load_violated : ∃ e : Load.Env, (Load.load e Load.zero).1.failed = false ∧
    ∃ y ∈ Load.calls, (Load.load e Load.zero).1.addr y = false :=
  ⟨⟨true, fun y => decide (y ≠ .msize), true⟩, rfl, .msize, by decide, rfl⟩

/-- C64 (violated): a library without all functions is closed at once, and again at shut-down (pool_scalable.c:153-158). -/
theorem C64_close_violated : ∃ e : Load.Env,
    (Load.load e Load.zero).2 ++ (Load.fini e (Load.load e Load.zero).1).2 = [.opened, .closed, .closed] :=
  ⟨⟨true, fun y => decide (y ≠ .identify), true⟩, rfl⟩

/-- C65 (partial): memory that a client asked for with an alignment that is a power of two is aligned like that, for all
three pools. Missing: other alignments of jemalloc pools (`C65_violated`, `C65_zero_violated`). -/
theorem C65_partial (hcalm : cfg.calm = true) (hsa : cfg.someAlign = true) (h : Reach cfg s) {x : Nat} {b : Blk}
    (hb : s.blk x = some b) (hp : ∃ j, b.align = 2 ^ j ∧ j < 64) : b.align ∣ x := by
  obtain ⟨G, hi⟩ := reach_inv hcalm hsa h
  obtain ⟨h1, _, h3⟩ := hi.blk x b hb
  exact h1 ▸ h3.align hp

example : ∃ b, st1.blk 0x2000 = some b ∧ b.align = 2 ^ 6 := ⟨⟨300, 100, 64, ⟨0x2000, 100, .prov 9⟩⟩, by decide +kernel, rfl⟩

/-- C65 (violated): alignment 48 is neither refused nor granted by a jemalloc pool. -/
theorem C65_violated : ∃ s x b, Reach calmCfg s ∧ s.blk x = some b ∧ b.align = 48 ∧ ¬ b.align ∣ x := by
  refine ⟨st6, 0x1010, ⟨100, 64, 48, ⟨0x1010, 64, .arena 0⟩⟩, st6_reach, by decide +kernel, rfl, by decide⟩

/-- C65 (violated): with alignment 0, a jemalloc pool calls the library with flags that mean something else. -/
theorem C65_zero_violated : ∃ s t f c k, Reach ⟨true, true, false⟩ s ∧ s.th t = some f ∧ f.op = .aligned .je 100 64 0 ∧
    f.prog = .call c k ∧ ¬ c.Valid s.tbb s.arena f.own := by
  refine ⟨st7, 0, _, _, _, st7_reach, rfl, rfl, rfl, ?_⟩
  intro h
  exact absurd h.1 (by decide +kernel)

end Verif.Heap
