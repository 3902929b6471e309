import Batteries.Data.List.Perm
import Verif.Coarse.Runs
/-!
# Properties C01-C07: the coarse allocator

`Spec.Reach cfg P st live grants`: `st` is the provider state after some history, `live` and
`grants` the client's books (`Verif.Coarse.Spec`). The page size is any power of two.
-/
set_option linter.unusedSimpArgs false
namespace Verif.Coarse
open Spec
variable {cfg : Cfg} {P : Env → Prop} {st : St} {live grants : List Region} {k : Nat}

/-! ### A concrete history, used to show that the hypotheses below can be met -/

/-- Everything succeeds; there is no upstream to take memory from. -/
def calmEnv : Env where
  splitCb _ _ _ := .success
  mergeCb _ _ _ := .success
  upAlloc _ _ := .error .notSupported
  host _ := true
  garbage := false

def demoCfg : Cfg := ⟨4096, .checkAllSize, false, false⟩

theorem calm_ok {op : Op} {grants : List Region}
    (hf : ∀ addr size, op = .addFixed addr size → addr ≠ 0 → size ≠ 0 →
      Spec.Fresh grants (addr, size)) : EnvOk calmEnv op grants where
  free1 := rfl
  free2 := rfl
  reAdd := rfl
  flag _ _ _ := Or.inl rfl
  up _ _ _ _ _ h := by cases h
  upErr _ _ r h := by cases h; simp
  fixed := hf

/-- Client's view of a run in the calm environment. -/
def demoRun : List Op → St × List Region × List Region → St × List Region × List Region
  | [], s => s
  | op :: ops, s => demoRun ops ((step demoCfg calmEnv s.1 op).1,
      liveAfter s.2.1 op (step demoCfg calmEnv s.1 op).2,
      grantsAfter s.2.2 (step demoCfg calmEnv s.1 op).2)

theorem demo_reach (ops : List Op) (hops : ∀ op ∈ ops, ∀ a s, op ≠ .addFixed a s)
    (s : St × List Region × List Region) (h : Reach demoCfg Mergeable s.1 s.2.1 s.2.2) :
    Reach demoCfg Mergeable (demoRun ops s).1 (demoRun ops s).2.1 (demoRun ops s).2.2 := by
  induction ops generalizing s with
  | nil => exact h
  | cons op ops ih =>
    refine ih (fun o ho => hops o (by simp [ho])) _ ?_
    exact Reach.step calmEnv op h
      (calm_ok fun a s' he => absurd he (hops op (by simp) a s')) (fun _ _ _ => rfl)

/-- One region of 80 KiB at 64 KiB. -/
def demo0 : St × List Region × List Region := demoRun [.addFixed 65536 81920] (init, [], [])

theorem demo0_reach : Reach demoCfg Mergeable demo0.1 demo0.2.1 demo0.2.2 := by
  refine Reach.step calmEnv (.addFixed 65536 81920) Reach.init (calm_ok ?_) (fun _ _ _ => rfl)
  intro a s h _ _
  cases h
  exact ⟨by decide, by decide, by decide, by simp⟩

/-- Three allocations, one of them split, one freed. -/
def demoOps : List Op :=
  [.alloc 8192 0, .alloc 4096 16384, .alloc 8192 64, .split 65536 8192 4096, .free 81920 4096]

def demo1 : St × List Region × List Region := demoRun demoOps demo0

theorem demo1_reach : Reach demoCfg Mergeable demo1.1 demo1.2.1 demo1.2.2 :=
  demo_reach demoOps (by simp [demoOps]) _ demo0_reach

/-- What the history leads to: three live allocations in one granted region. -/
theorem demo1_books : demo1.2.1 = [(65536, 4096), (69632, 4096), (73728, 8192)] ∧
    demo1.2.2 = [(65536, 81920)] ∧ demo1.1.blocks.length = 4 := by decide

/-- A history with upstream memory: any environment predicate is fine. -/
theorem Spec.Reach.any (h : Reach cfg P st live grants) : Reach cfg Any st live grants := by
  induction h with
  | init => exact .init
  | step env op _ he _ ih => exact .step env op ih he trivial

/-! ### C01 -/

/-- C01: live allocations share no byte and consist of granted memory. -/
theorem C01_liveDisjoint (hp : cfg.page = 2 ^ k) (h : Reach cfg Any st live grants) :
    live.Pairwise Disjoint ∧
    ∀ r ∈ live, 0 < r.1 ∧ 0 < r.2 ∧ r.1 + r.2 ≤ 2 ^ 64 ∧ ∀ x, Has r x → HasAny grants x := by
  have hr := reach_rel hp h
  constructor
  · have hsym : ∀ {x y : Region}, Disjoint x y → Disjoint y x :=
      fun h x hx => h x ⟨hx.2, hx.1⟩
    rw [hr.live.pairwise_iff hsym]
    unfold usedOf
    rw [List.pairwise_map]
    refine (List.Pairwise.filter _ hr.inv.core.chain).imp ?_
    intro a b hab x ⟨h1, h2⟩
    simp only [Has] at h1 h2
    omega
  · intro r hrm
    obtain ⟨b, hb, _, hd, hs⟩ := mem_usedOf (hr.live.mem_iff.1 hrm)
    have := hr.inv.core.pos b hb
    refine ⟨by omega, by omega, by omega, fun x hx => ?_⟩
    rw [← hr.grants]
    unfold Has at hx
    exact ⟨b, hb, by omega, by omega⟩

/-- `C01_liveDisjoint` applies to `demo1`, which has three live allocations. -/
example : demo1.2.1.Pairwise Disjoint :=
  (C01_liveDisjoint (k := 12) rfl demo1_reach.any).1

/-- `calmEnv` in which one host allocation, of a free-list element, fails. -/
def oomEnv (s : Site) : Env := { calmEnv with host := fun t => decide (t ≠ s) }

/-- A history with its books, each call in its own environment. -/
def runEnv (cfg : Cfg) : List (Env × Op) → St × List Region × List Region →
    St × List Region × List Region
  | [], s => s
  | (env, op) :: ops, s => runEnv cfg ops ((step cfg env s.1 op).1,
      liveAfter s.2.1 op (step cfg env s.1 op).2,
      grantsAfter s.2.2 (step cfg env s.1 op).2)

/-- A client that adds two neighbouring regions and meets one host allocation failure. -/
def oomOps : List (Env × Op) :=
  [(calmEnv, .addFixed 65536 36864), (oomEnv .freeAdd2, .alloc 4096 0),
   (calmEnv, .addFixed 102400 20480), (calmEnv, .alloc 8192 0), (calmEnv, .alloc 40960 0)]

/-- C01 does not survive a failing host allocation: after the second call failed cleanly
(OUT_OF_HOST_MEMORY), the last two calls succeed with overlapping ranges
(`split_current_block`, `coarse.c:731-738`, leaves the new block in the tree). -/
theorem C01_hostOom_violated :
    (runEnv ⟨4096, .fastest, false, false⟩ oomOps (init, [], [])).2.1 =
      [(69632, 40960), (65536, 8192)] ∧
    ¬ Disjoint (69632, 40960) (65536, 8192) := by
  refine ⟨by decide, fun h => h 69632 ⟨?_, ?_⟩⟩ <;> simp [Has]

/-! ### C02 -/

/-- The alignment that is guaranteed. -/
theorem effAlign_eq {page align : Nat} (hp : page = 2 ^ k)
    (h : align = 0 ∨ ∃ j, align = 2 ^ j) : effAlign page align = some (max page align) := by
  subst hp
  have h2 : 0 < 2 ^ k := Nat.two_pow_pos k
  unfold effAlign
  by_cases h0 : align = 0
  · rw [if_pos h0, h0]; simp
  · rw [if_neg h0]
    obtain ⟨j, rfl⟩ := h.resolve_left h0
    have hj : 0 < 2 ^ j := Nat.two_pow_pos j
    rcases Nat.le_total (2 ^ k) (2 ^ j) with hle | hle
    · have hd : 2 ^ j % 2 ^ k = 0 := Nat.mod_eq_zero_of_dvd (Utils.pow2_dvd_of_le hle)
      rw [if_neg (by simp [Utils.nat_and_pow2, hd]), if_neg (by simp [hd]), Nat.max_eq_right hle]
    · have hd : 2 ^ k % 2 ^ j = 0 := Nat.mod_eq_zero_of_dvd (Utils.pow2_dvd_of_le hle)
      rw [if_neg (by simp [Utils.nat_and_pow2, hd]), Nat.max_eq_left hle]
      by_cases hm : 2 ^ j % 2 ^ k ≠ 0
      · rw [if_pos hm]
        congr 1
        have h1 := alignUp_pow2 (2 ^ j) k
        obtain ⟨h11, h12, h13⟩ := h1
        have hne : 2 ^ j ≠ 2 ^ k := fun he => hm (by rw [he, Nat.mod_self])
        have hdv := Nat.dvd_of_mod_eq_zero h13
        obtain ⟨c, hc⟩ := hdv
        rw [hc] at h11 h12 ⊢
        have hc1 : c = 1 := by
          have : 0 < c := Nat.pos_of_ne_zero fun h => by subst h; omega
          have : c < 2 := by
            refine Nat.lt_of_not_le fun h => ?_
            have := Nat.mul_le_mul_left (2 ^ k) h
            omega
          omega
        rw [hc1, Nat.mul_one]
      · rw [if_neg hm]
        have : 2 ^ j % 2 ^ k = 0 := Classical.not_not.1 hm
        congr 1
        exact Nat.le_antisymm hle (Nat.le_of_dvd hj (Nat.dvd_of_mod_eq_zero this))

/-- C02: a successful allocation is a new live allocation of exactly the requested size,
its address is a multiple of the page size and of the requested alignment. -/
theorem C02_alignedAndSized (hp : cfg.page = 2 ^ k) (h : Reach cfg Any st live grants)
    {env : Env} {size align : Nat} (he : EnvOk env (.alloc size align) grants)
    (hs : (step cfg env st (.alloc size align)).2.res = .success) :
    let o := (step cfg env st (.alloc size align)).2
    o.ptr % cfg.page = 0 ∧ (align ≠ 0 → o.ptr % align = 0) ∧
    liveAfter live (.alloc size align) o = (o.ptr, size) :: live ∧
    (∀ r ∈ live, Disjoint r (o.ptr, size)) ∧
    (∀ x, Has (o.ptr, size) x → HasAny (grantsAfter grants o) x) := by
  intro o
  have hr := reach_rel hp h
  have hgood : Good env size := ⟨he.free1, he.free2, he.reAdd, he.flag size align rfl⟩
  have hup : UpOk env st size := fun a p h => by
    obtain ⟨h1, h2⟩ := he.up size align a p rfl h
    exact ⟨fresh_blocks hr h1, h2⟩
  obtain ⟨_, h2, _⟩ := alloc_spec (align := align) hr.inv hp hgood hup (fun a r => he.upErr size a r)
  obtain ⟨e1, e2⟩ := h2 hs
  have hlv : liveAfter live (.alloc size align) o = (o.ptr, size) :: live := by
    unfold liveAfter; rw [if_pos hs]
  obtain ⟨c1, c2⟩ := C01_liveDisjoint hp (Reach.step env (.alloc size align) h he trivial)
  have hlv' : liveAfter live (.alloc size align) (step cfg env st (.alloc size align)).2 =
    (o.ptr, size) :: live := hlv
  rw [hlv', List.pairwise_cons] at c1
  refine ⟨e1, e2, hlv, fun r hr x hx => c1.1 r hr x ⟨hx.2, hx.1⟩, ?_⟩
  exact (c2 (o.ptr, size) (by rw [hlv']; simp)).2.2.2

/-- C02: an alignment that is not zero and not a power of two is refused with
INVALID_ALIGNMENT and nothing changes. (A power of two is always a multiple or a divisor of
the page size.) -/
theorem C02_badAlignmentRefused (env : Env) {size align : Nat} (h0 : align ≠ 0)
    (hn : ¬ ∃ j, align = 2 ^ j) :
    step cfg env st (.alloc size align) = (st, { res := .invalidAlignment }) := by
  have : align &&& (align - 1) ≠ 0 := fun h => hn ((Utils.nat_pow2_iff h0).1 h)
  simp only [step, alloc]
  have he : effAlign cfg.page align = none := by
    unfold effAlign
    rw [if_neg h0, if_pos (Or.inl this)]
  rw [he]

example : (step demoCfg calmEnv demo1.1 (.alloc 4096 16384)).2.res = .success ∧
    (step demoCfg calmEnv demo1.1 (.alloc 4096 16384)).2.ptr = 81920 := by decide
example : ¬ ∃ j, 12288 = 2 ^ j := fun h => by
  have := (Utils.nat_pow2_iff (by decide)).2 h
  revert this; decide

/-! ### C03 -/

/-- C03: the statistics are those of the client's books. -/
theorem C03_statsExact (hp : cfg.page = 2 ^ k) (h : Reach cfg Any st live grants) :
    ∃ allocated used blocks freeBlocks, stats st = (allocated, used, blocks, freeBlocks) ∧
      allocated = bytes grants ∧ used = bytes live ∧ used ≤ allocated ∧
      blocks = live.length + freeBlocks ∧
      (freeBlocks = 0 ↔ ∀ x, HasAny grants x → HasAny live x) := by
  have hr := reach_rel hp h
  have hu : st.usedSize = bytes live := by
    rw [hr.inv.used, usedTotal, bytes]
    exact ((hr.live.map _).sum_nat).symm
  have hal : st.allocSize = bytes grants := by rw [hr.inv.alloc, hr.total]
  refine ⟨_, _, _, _, rfl, hal, hu, ?_, ?_, ?_⟩
  · rw [hr.inv.used, hr.inv.alloc]; exact usedTotal_le_total _
  · rw [hr.live.length_eq, hr.inv.core.perm.length_eq]
    unfold usedOf keys
    rw [List.length_map, List.length_map]
    have hok := hr.inv.ok
    generalize st.blocks = l at hok
    induction l with
    | nil => rfl
    | cons b l ih =>
      have h1 := hok b (by simp)
      have h2 := ih (fun b hb => hok b (by simp [hb]))
      unfold OK at h1
      cases hb : b.used <;> rw [hb] at h1 <;> simp [hb, h1] <;> omega
  · rw [List.length_eq_zero_iff]
    constructor
    · intro hf x hg
      refine Classical.byContradiction fun hn => ?_
      obtain ⟨b, hb, hbu, _⟩ := (freeByte_iff hr x).2 ⟨hg, hn⟩
      have := mem_free hr.inv hb hbu
      rw [hf] at this; cases this
    · intro hall
      rw [List.eq_nil_iff_forall_not_mem]
      intro e he
      obtain ⟨pre, b, post, hb, hd, hs, hbu, _⟩ := free_entry hr.inv he
      have hbm : b ∈ st.blocks := by rw [hb]; simp
      have := (hr.inv.core.pos b hbm).1
      have hfb := (freeByte_iff hr b.data).1 ⟨b, hbm, hbu, Nat.le_refl _, by omega⟩
      exact hfb.2 (hall _ hfb.1)

example : stats demo1.1 = (81920, 16384, 4, 1) ∧ bytes demo1.2.1 = 16384 := by decide

/-! ### C04 -/

/-- The free ranges the provider keeps. -/
def freeRanges (st : St) : List Region := st.free.map fun e => (e.2, e.1)

/-- C04: live and free ranges together partition the granted memory. -/
theorem C04_partition (hp : cfg.page = 2 ^ k) (h : Reach cfg Any st live grants) :
    (live ++ freeRanges st).Pairwise Disjoint ∧
    (∀ x, HasAny grants x ↔ HasAny (live ++ freeRanges st) x) ∧
    bytes live + bytes (freeRanges st) = bytes grants := by
  have hr := reach_rel hp h
  have hsym : ∀ {x y : Region}, Disjoint x y → Disjoint y x :=
    fun h x hx => h x ⟨hx.2, hx.1⟩
  have hentry : ∀ r ∈ freeRanges st, ∃ b ∈ st.blocks, b.used = false ∧ b.data = r.1 ∧ b.size = r.2 := by
    intro r hrm
    unfold freeRanges at hrm
    rw [List.mem_map] at hrm
    obtain ⟨e, he, rfl⟩ := hrm
    obtain ⟨pre, b, post, hb, hd, hs, hbu, _⟩ := free_entry hr.inv he
    exact ⟨b, by rw [hb]; simp, hbu, hd, hs⟩
  refine ⟨?_, ?_, ?_⟩
  · rw [List.pairwise_append]
    refine ⟨(C01_liveDisjoint hp h).1, ?_, ?_⟩
    · unfold freeRanges
      have hperm := hr.inv.core.perm.map (fun e => ((e.2, e.1) : Region))
      rw [hperm.pairwise_iff hsym]
      unfold keys
      rw [List.map_map, List.pairwise_map]
      refine (List.Pairwise.filter _ hr.inv.core.chain).imp ?_
      intro a b hab x ⟨h1, h2⟩
      simp only [Has, Function.comp] at h1 h2
      omega
    · intro r hrm f hf x ⟨h1, h2⟩
      obtain ⟨b, hb, hbu, hd, hs⟩ := hentry f hf
      have := (freeByte_iff hr x).1 ⟨b, hb, hbu, by unfold Has at h2; omega, by unfold Has at h2; omega⟩
      exact this.2 ⟨r, hrm, h1⟩
  · intro x
    constructor
    · intro hg
      by_cases hl : HasAny live x
      · obtain ⟨r, h1, h2⟩ := hl
        exact ⟨r, by simp [h1], h2⟩
      · obtain ⟨b, hb, hbu, h1, h2⟩ := (freeByte_iff hr x).2 ⟨hg, hl⟩
        have := mem_free hr.inv hb hbu
        exact ⟨(b.data, b.size), by
          rw [List.mem_append]; right
          exact List.mem_map.2 ⟨_, this, rfl⟩, h1, h2⟩
    · rintro ⟨r, hrm, hx⟩
      rw [List.mem_append] at hrm
      rcases hrm with hrm | hrm
      · exact ((C01_liveDisjoint hp h).2 r hrm).2.2.2 x hx
      · obtain ⟨b, hb, hbu, hd, hs⟩ := hentry r hrm
        unfold Has at hx
        exact ((freeByte_iff hr x).1 ⟨b, hb, hbu, by omega, by omega⟩).1
  · rw [← hr.total]
    have h1 : bytes live = usedTotal st.blocks := by
      rw [usedTotal, bytes]; exact (hr.live.map _).sum_nat
    have h2 : bytes (freeRanges st) = ((keys st.blocks).map (·.1)).sum := by
      unfold bytes freeRanges
      rw [List.map_map]
      exact (hr.inv.core.perm.map _).sum_nat
    rw [h1, h2]
    have hok := hr.inv.ok
    generalize st.blocks = l at hok
    induction l with
    | nil => rfl
    | cons b l ih =>
      have h1 := hok b (by simp)
      have h2 := ih (fun b hb => hok b (by simp [hb]))
      unfold OK at h1
      rw [usedTotal_cons, total_cons, keys_cons]
      cases hb : b.used <;> rw [hb] at h1 <;> simp [hb, h1] <;> omega

/-- C04: with mergeable memory no two free ranges are adjacent. -/
theorem C04_coalesced (hp : cfg.page = 2 ^ k) (h : Reach cfg Mergeable st live grants) :
    ∀ f ∈ freeRanges st, ∀ g ∈ freeRanges st, f.1 + f.2 ≠ g.1 := by
  have hr := reach_rel hp h
  have hno := reach_noAdj hp h
  intro f hf g hg
  unfold freeRanges at hf hg
  rw [List.mem_map] at hf hg
  obtain ⟨e, he, rfl⟩ := hf
  obtain ⟨e', he', rfl⟩ := hg
  obtain ⟨_, b, _, hb, hd, hs, hbu, _⟩ := free_entry hr.inv he
  obtain ⟨_, b', _, hb', hd', hs', hbu', _⟩ := free_entry hr.inv he'
  have := hno b (by rw [hb]; simp) b' (by rw [hb']; simp) hbu hbu'
  simp only
  omega

/-- C04: once everything is freed, mergeable contiguous memory is one free block again. -/
theorem C04_allFreed (hp : cfg.page = 2 ^ k) (h : Reach cfg Mergeable st [] grants)
    {start size : Nat} (hs : 0 < size) (hg : ∀ x, HasAny grants x ↔ Has (start, size) x) :
    freeRanges st = [(start, size)] ∧ stats st = (size, 0, 1, 1) := by
  have hr := reach_rel hp h
  have hno := reach_noAdj hp h
  have hfree : ∀ x, FreeByte st.blocks x ↔ Has (start, size) x := fun x => by
    rw [freeByte_iff hr, hg]; simp [HasAny]
  have hused : ∀ b ∈ st.blocks, b.used = false := by
    intro b hb
    cases hu : b.used with
    | false => rfl
    | true => have := hr.live.mem_iff.2 (usedOf_mem hb hu); cases this
  obtain ⟨b, hb, hbu, h1, h2⟩ := run_in_block hr.inv.core.chain hno start (size - 1)
    (fun x hx hx' => (hfree x).2 ⟨hx, by simp only; omega⟩)
  have hbp := (hr.inv.core.pos b hb).1
  have e1 := (hfree b.data).1 ⟨b, hb, hbu, Nat.le_refl _, by omega⟩
  have e2 := (hfree (b.data + b.size - 1)).1 ⟨b, hb, hbu, by omega, by omega⟩
  unfold Has at e1 e2
  simp only at e1 e2
  have hbd : b.data = start := by omega
  have hbs : b.size = size := by omega
  have honly : ∀ c ∈ st.blocks, c = b := by
    intro c hc
    have hcp := (hr.inv.core.pos c hc).1
    have e3 := (hfree c.data).1 ⟨c, hc, hused c hc, Nat.le_refl _, by omega⟩
    unfold Has at e3
    simp only at e3
    rcases chain_cases hr.inv.core.chain hb hc with h | h | h
    · exact h.symm
    · omega
    · omega
  have hblocks : st.blocks = [b] := by
    have hs := hr.inv.core.sorted
    cases hl : st.blocks with
    | nil => rw [hl] at hb; cases hb
    | cons c l =>
      have hc := honly c (by rw [hl]; simp)
      cases l with
      | nil => rw [hc]
      | cons d l =>
        have hd := honly d (by rw [hl]; simp)
        rw [hl, hc, hd] at hs
        unfold SortedD at hs
        rw [List.pairwise_cons] at hs
        have := hs.1 b (by simp)
        omega
  have hok := hr.inv.ok b hb
  unfold OK at hok
  rw [hbu] at hok
  have hperm := hr.inv.core.perm
  rw [hblocks] at hperm
  simp only [keys_cons, hok, keys_nil, Bool.not_false, if_true, List.append_nil] at hperm
  have hfr := List.perm_singleton.1 hperm
  have hal := hr.inv.alloc
  have hus := hr.inv.used
  rw [hblocks] at hal hus
  refine ⟨by unfold freeRanges; rw [hfr, hbs, hbd]; rfl, ?_⟩
  unfold stats
  rw [hal, hus, hfr, hblocks, usedTotal_cons, hbu]
  simp [hbs, usedTotal]

/-- The whole of `demo1` freed again: the hypotheses of `C04_allFreed` are met. -/
example : ∃ s : St × List Region × List Region, Reach demoCfg Mergeable s.1 s.2.1 s.2.2 ∧
    s.2.1 = [] ∧ s.2.2 = [(65536, 81920)] ∧ stats s.1 = (81920, 0, 1, 1) :=
  ⟨demoRun (demoOps ++ [.free 69632 0, .free 73728 8192, .free 65536 4096]) demo0,
    demo_reach _ (by simp [demoOps]) _ demo0_reach, by decide⟩

/-! ### C05 -/

/-- C05, with the host allocator assumptions of `EnvOk`: a failed call leaves the live
allocations, the granted memory, the sizes reported and the set of free bytes as they were;
free, split, merge and add leave the whole state as it was. The full property also covers
failing host allocations for free-list elements and non-zero uninitialised descriptors, for
which it is false (`C05_hostOom_violated`, `C05_uninit_violated`). -/
theorem C05_failureChangesNothing_partial (hp : cfg.page = 2 ^ k)
    (h : Reach cfg Any st live grants) {env : Env} {op : Op} (he : EnvOk env op grants)
    (hf : (step cfg env st op).2.res ≠ .success) :
    let st' := (step cfg env st op).1
    Reach cfg Any st' live grants ∧
    (stats st').1 = (stats st).1 ∧ (stats st').2.1 = (stats st).2.1 ∧
    (∀ x, HasAny (freeRanges st') x ↔ HasAny (freeRanges st) x) ∧
    ((∀ size align, op ≠ .alloc size align) → st' = st) := by
  intro st'
  have hr := reach_rel hp h
  have hgot : (step cfg env st op).2.got = none := by
    cases op with
    | alloc size align => exact ((alloc_rel hp hr he).2.2 hf).1
    | free ptr b =>
      rcases free_spec (ptr := ptr) (bytes := b) hr.inv he.reAdd with ⟨_, h⟩ | ⟨_, h, _⟩ |
        ⟨_, _, _, _, h, _⟩ <;> simp [step, h]
    | split ptr tot first =>
      rcases split_spec (env := env) (ptr := ptr) (tot := tot) (first := first) hr.inv with
        ⟨r, _, h, _⟩ | ⟨_, _, _, h, _⟩ <;> simp [step, h]
    | merge low high tot =>
      rcases merge_spec (env := env) (low := low) (high := high) (tot := tot) hr.inv with
        ⟨r, _, h, _⟩ | ⟨_, _, _, _, h, _⟩ <;> simp [step, h]
    | addFixed addr size => exact ((addFixed_rel (cfg := cfg) hr he).2.2 hf).2
  have hreach : Reach cfg Any st' live grants := by
    have := Reach.step env op h he trivial
    have hl : liveAfter live op (step cfg env st op).2 = live := by
      unfold liveAfter; rw [if_neg hf]
    have hg : grantsAfter grants (step cfg env st op).2 = grants := by
      unfold grantsAfter; rw [hgot]
    rw [hl, hg] at this
    exact this
  have hr' := reach_rel hp hreach
  have hfree : ∀ {s : St}, Rel s live grants → Reach cfg Any s live grants →
      ∀ x, HasAny (freeRanges s) x ↔ HasAny grants x ∧ ¬ HasAny live x := by
    intro s hrs hs x
    rw [← freeByte_iff hrs]
    constructor
    · rintro ⟨r, hrm, hx⟩
      unfold freeRanges at hrm
      rw [List.mem_map] at hrm
      obtain ⟨e, he, rfl⟩ := hrm
      obtain ⟨pre, b, post, hb, hd, hs, hbu, _⟩ := free_entry hrs.inv he
      unfold Has at hx
      simp only at hx
      exact ⟨b, by rw [hb]; simp, hbu, by omega, by omega⟩
    · rintro ⟨b, hb, hbu, h1, h2⟩
      exact ⟨(b.data, b.size), List.mem_map.2 ⟨_, mem_free hrs.inv hb hbu, rfl⟩, h1, h2⟩
  refine ⟨hreach, ?_, ?_, ?_, ?_⟩
  · show st'.allocSize = st.allocSize
    rw [hr'.inv.alloc, hr.inv.alloc, hr'.total, hr.total]
  · show st'.usedSize = st.usedSize
    rw [hr'.inv.used, hr.inv.used]
    unfold usedTotal
    exact ((hr'.live.symm.trans hr.live).map _).sum_nat
  · intro x; rw [hfree hr' hreach, hfree hr h]
  · intro hna
    cases op with
    | alloc size align => exact absurd rfl (hna size align)
    | free ptr b =>
      rcases free_spec (ptr := ptr) (bytes := b) hr.inv he.reAdd with ⟨_, h⟩ | ⟨_, h, _⟩ |
        ⟨_, _, _, _, h, _⟩
      · simp [st', step, h]
      · simp [st', step, h]
      · simp [step, h] at hf
    | split ptr tot first =>
      rcases split_spec (env := env) (ptr := ptr) (tot := tot) (first := first) hr.inv with
        ⟨r, _, h, _⟩ | ⟨_, _, _, h, _⟩
      · simp [st', step, h]
      · simp [step, h] at hf
    | merge low high tot =>
      rcases merge_spec (env := env) (low := low) (high := high) (tot := tot) hr.inv with
        ⟨r, _, h, _⟩ | ⟨_, _, _, _, h, _⟩
      · simp [st', step, h]
      · simp [step, h] at hf
    | addFixed addr size => exact ((addFixed_rel (cfg := cfg) hr he).2.2 hf).1

/-- C05 with mergeable memory: a failed call, including a failed allocation, leaves the very
same blocks and all statistics; only the order of the free list may differ. -/
theorem C05_failureKeepsBlocks_partial (hp : cfg.page = 2 ^ k)
    (h : Reach cfg Mergeable st live grants) {env : Env} {op : Op} (he : EnvOk env op grants)
    (hm : Mergeable env) (hf : (step cfg env st op).2.res ≠ .success) :
    (step cfg env st op).1.blocks = st.blocks ∧
    (step cfg env st op).1.free.Perm st.free ∧
    stats (step cfg env st op).1 = stats st := by
  have hr := reach_rel hp h
  obtain ⟨h1, h2, h3, _⟩ := C05_failureChangesNothing_partial hp h.any he hf
  have hr' := reach_rel hp h1
  have hno := reach_noAdj hp h
  have hno' := (step_rel hp hr he).2 hm hno
  have hb := blocks_unique hr' hr (List.Perm.refl _) (fun _ => Iff.rfl) hno' hno
  have hperm : (step cfg env st op).1.free.Perm st.free := by
    have h1 := hr'.inv.core.perm
    rw [hb] at h1
    exact h1.trans hr.inv.core.perm.symm
  refine ⟨hb, hperm, ?_⟩
  simp only [stats] at h2 h3 ⊢
  rw [h2, h3, hb, hperm.length_eq]

/-- The split callback refuses: an allocation fails in a reachable state. -/
def refuseSplit : Env := { calmEnv with splitCb := fun _ _ _ => .upstream 7 }
example : (step demoCfg refuseSplit demo1.1 (.alloc 8192 0)).2.res = .upstream 7 ∧
    stats (step demoCfg refuseSplit demo1.1 (.alloc 8192 0)).1 = (81920, 16384, 4, 1) := by decide
example : EnvOk refuseSplit (.alloc 8192 0) demo1.2.2 where
  free1 := rfl
  free2 := rfl
  reAdd := rfl
  flag _ _ _ := Or.inl rfl
  up _ _ _ _ _ h := by cases h
  upErr _ _ r h := by cases h; simp
  fixed _ _ h := by cases h

/-- C05 is false when the host allocator fails for a free-list element: the failed call adds a
block, and later requests of that size fail although the memory is free. -/
theorem C05_hostOom_violated :
    let r := step demoCfg (oomEnv .freeAdd2) demo0.1 (.alloc 4096 0)
    r.2.res = .outOfHostMemory ∧ stats demo0.1 = (81920, 0, 1, 1) ∧
    stats r.1 = (81920, 0, 2, 1) ∧
    (step demoCfg calmEnv demo0.1 (.alloc 4096 0)).2.res = .success ∧
    (step demoCfg calmEnv r.1 (.alloc 4096 0)).2.res = .outOfHostMemory := by decide

/-- The host allocator fails for the second block descriptor and the first one contained a
non-zero byte where `used` is. -/
def dirtyEnv : Env := { oomEnv .addNew2 with garbage := true }

/-- C05 (and the refusal part of C07) is false when the uninitialised `used` field of a new
block (`coarse.c:158-190`, `672-712`) is not zero: after a failed allocation, an address the
client never received can be freed successfully. -/
theorem C05_uninit_violated :
    let r := step demoCfg dirtyEnv demo0.1 (.alloc 4096 131072)
    let s := step demoCfg dirtyEnv (step demoCfg calmEnv demo0.1 (.alloc 4096 0)).1 (.alloc 4096 8192)
    r.2.res = .outOfHostMemory ∧ s.2.res = .outOfHostMemory ∧
    (step demoCfg calmEnv s.1 (.free 73728 0)).2.res = .success ∧
    (step demoCfg calmEnv (step demoCfg calmEnv demo0.1 (.alloc 4096 0)).1 (.free 73728 0)).2.res
      = .invalidArgument := by decide

/-! ### C06 -/

/-- C06: a run of `size + max page align` free bytes is enough, with every strategy. -/
theorem C06_fastest (hp : cfg.page = 2 ^ k) (h : Reach cfg Mergeable st live grants)
    {env : Env} {size align : Nat} (he : EnvOk env (.alloc size align) grants)
    (hsplit : ∀ a b c, env.splitCb a b c = .success) (hhost : ∀ s, env.host s = true)
    (hsz : 0 < size) (hal : align = 0 ∨ ∃ j, align = 2 ^ j) (start : Nat)
    (hrun : ∀ x, Has (start, size + max cfg.page align) x → HasAny grants x ∧ ¬ HasAny live x) :
    (step cfg env st (.alloc size align)).2.res = .success ∧
    (step cfg env st (.alloc size align)).2.got = none := by
  have hr := reach_rel hp h
  have hno := reach_noAdj hp h
  have hgood : Good env size := ⟨he.free1, he.free2, he.reAdd, he.flag size align rfl⟩
  have hup : UpOk env st size := fun a p h => by
    obtain ⟨h1, h2⟩ := he.up size align a p rfl h
    exact ⟨fresh_blocks hr h1, h2⟩
  obtain ⟨_, _, h3⟩ := alloc_spec (align := align) hr.inv hp hgood hup (fun a r => he.upErr size a r)
  obtain ⟨b, hb, hbu, h1, h2⟩ := run_in_block hr.inv.core.chain hno start
    (size + max cfg.page align - 1)
    (fun x hx hx' => (freeByte_iff hr x).2 (hrun x ⟨hx, by simp only; omega⟩))
  have hbp := hr.inv.core.pos b hb
  obtain ⟨e, hfe⟩ := findFree_fastest (cfg := cfg) (size := size) (a := max cfg.page align)
    (mem_free hr.inv hb hbu) (by simp only; omega) (by omega)
  exact h3 _ e (effAlign_eq hp hal) hfe hsz hsplit hhost

/-- C06: with the check-all strategy, a maximal free range of exactly the requested size that
starts at an aligned address is enough. -/
theorem C06_checkAll (hp : cfg.page = 2 ^ k) (hcfg : cfg.strategy = .checkAllSize)
    (h : Reach cfg Any st live grants)
    {env : Env} {size align : Nat} (he : EnvOk env (.alloc size align) grants)
    (hsplit : ∀ a b c, env.splitCb a b c = .success) (hhost : ∀ s, env.host s = true)
    (hsz : 0 < size) (hal : align = 0 ∨ ∃ j, align = 2 ^ j) (start : Nat)
    (hstart : start % max cfg.page align = 0) (hrun : (start, size) ∈ freeRanges st) :
    (step cfg env st (.alloc size align)).2.res = .success ∧
    (step cfg env st (.alloc size align)).2.got = none := by
  have hr := reach_rel hp h
  have hgood : Good env size := ⟨he.free1, he.free2, he.reAdd, he.flag size align rfl⟩
  have hup : UpOk env st size := fun a p h => by
    obtain ⟨h1, h2⟩ := he.up size align a p rfl h
    exact ⟨fresh_blocks hr h1, h2⟩
  obtain ⟨_, _, h3⟩ := alloc_spec (align := align) hr.inv hp hgood hup (fun a r => he.upErr size a r)
  unfold freeRanges at hrun
  rw [List.mem_map] at hrun
  obtain ⟨e, he', hee⟩ := hrun
  simp only [Prod.mk.injEq] at hee
  obtain ⟨e', hfe⟩ := findFree_checkAll hcfg he' hee.2 (by rw [hee.1]; exact hstart)
  exact h3 _ e' (effAlign_eq hp hal) hfe hsz hsplit hhost

/-- In `demo1` the bytes from 81920 are free to the end, enough for 16384 + 32768. -/
example : ∀ x, Has (81920, 16384 + max demoCfg.page 32768) x →
    HasAny demo1.2.2 x ∧ ¬ HasAny demo1.2.1 x := by
  intro x hx
  rw [demo1_books.1, demo1_books.2.1]
  simp [Has, HasAny, demoCfg] at *
  omega

/-! ### C07 -/

/-- C07: exactly when a split succeeds, and what it leaves. -/
theorem C07_split (hp : cfg.page = 2 ^ k) (h : Reach cfg Any st live grants) {env : Env}
    {ptr total first : Nat} :
    let r := step cfg env st (.split ptr total first)
    ((ptr, total) ∈ live → 0 < first → first < total → (∀ a b c, env.splitCb a b c = .success) →
      env.host .addNew1 = true → r.2.res = .success) ∧
    (r.2.res = .success → (ptr, total) ∈ live ∧ 0 < first ∧ first < total ∧
      Rel r.1 ((ptr, first) :: (ptr + first, total - first) :: live.filter (fun e => e.1 != ptr)) grants) ∧
    (r.2.res ≠ .success → r.1 = st) := by
  intro r
  have hr := reach_rel hp h
  have hrel := (split_rel (env := env) (ptr := ptr) (tot := total) (first := first) hr).1
  rcases split_spec (env := env) (ptr := ptr) (tot := total) (first := first) hr.inv with
    ⟨e, he, hs, hn⟩ | ⟨pre, post, b, hs, hb, hbd, hbs, hbu, h1, h2, _⟩
  · have hrr : r = (st, { res := e }) := hs
    rw [hrr]
    refine ⟨fun m1 m2 m3 m4 m5 => absurd ⟨hr.live.mem_iff.1 m1, m2, m3, m4, m5⟩ hn,
      fun h => absurd h he, fun _ => rfl⟩
  · have hsucc : r.2 = { res := .success } := by
      show (split env st ptr total first).2 = _
      rw [hs]
    have hmem : (ptr, total) ∈ live := by
      rw [hr.live.mem_iff]
      have := usedOf_mem (l := st.blocks) (b := b) (by rw [hb]; simp) hbu
      rw [hbd, hbs] at this; exact this
    refine ⟨fun _ _ _ _ _ => by rw [hsucc], fun _ => ⟨hmem, h1, h2, ?_⟩,
      fun h => by rw [hsucc] at h; exact absurd rfl h⟩
    have : (split env st ptr total first).2 = { res := .success } := hsucc
    rw [this] at hrel
    exact hrel

/-- C07: exactly when a merge succeeds, and what it leaves. -/
theorem C07_merge (hp : cfg.page = 2 ^ k) (h : Reach cfg Any st live grants) {env : Env}
    {low high total : Nat} :
    let r := step cfg env st (.merge low high total)
    (∀ s1 s2, (low, s1) ∈ live → (high, s2) ∈ live → high = low + s1 → total = s1 + s2 →
      Mergeable env → r.2.res = .success) ∧
    (r.2.res = .success → ∃ s1 s2, (low, s1) ∈ live ∧ (high, s2) ∈ live ∧ high = low + s1 ∧
      total = s1 + s2 ∧
      Rel r.1 ((low, total) :: live.filter (fun e => e.1 != low && e.1 != high)) grants) ∧
    (r.2.res ≠ .success → r.1 = st) := by
  intro r
  have hr := reach_rel hp h
  have hrel := (merge_rel (env := env) (low := low) (high := high) (tot := total) hr).1
  rcases merge_spec (env := env) (low := low) (high := high) (tot := total) hr.inv with
    ⟨e, he, hs, hn⟩ | ⟨pre, post, l, hh, hs, hb, hld, hhd, hlu, hhu, hadj, htot, _⟩
  · have hrr : r = (st, { res := e }) := hs
    rw [hrr]
    refine ⟨fun s1 s2 m1 m2 m3 m4 m5 => absurd
      ⟨s1, s2, hr.live.mem_iff.1 m1, hr.live.mem_iff.1 m2, m3, m4, m5⟩ hn,
      fun h => absurd h he, fun _ => rfl⟩
  · have hsucc : r.2 = { res := .success } := by
      show (merge env st low high total).2 = _
      rw [hs]
    have hm1 : (low, l.size) ∈ live := by
      rw [hr.live.mem_iff]
      have := usedOf_mem (l := st.blocks) (b := l) (by rw [hb]; simp) hlu
      rw [hld] at this; exact this
    have hm2 : (high, hh.size) ∈ live := by
      rw [hr.live.mem_iff]
      have := usedOf_mem (l := st.blocks) (b := hh) (by rw [hb]; simp) hhu
      rw [hhd] at this; exact this
    refine ⟨fun _ _ _ _ _ _ _ => by rw [hsucc], fun _ => ⟨l.size, hh.size, hm1, hm2, hadj, htot, ?_⟩,
      fun h => by rw [hsucc] at h; exact absurd rfl h⟩
    have : (merge env st low high total).2 = { res := .success } := hsucc
    rw [this] at hrel
    exact hrel

/-- C07: splitting and merging the halves back restores the provider state exactly. -/
theorem C07_splitMerge (hp : cfg.page = 2 ^ k) (h : Reach cfg Any st live grants) {env env' : Env}
    {ptr total first : Nat} (hs : (step cfg env st (.split ptr total first)).2.res = .success)
    (hm : Mergeable env') :
    step cfg env' (step cfg env st (.split ptr total first)).1 (.merge ptr (ptr + first) total) =
      (st, { res := .success }) := by
  have hr := reach_rel hp h
  simp only [step] at hs ⊢
  rcases split_spec (env := env) (ptr := ptr) (tot := total) (first := first) hr.inv with
    ⟨e, he, h', hn⟩ | ⟨pre, post, b, h', hb, hbd, hbs, hbu, h1, h2, hi⟩
  · rw [h'] at hs; exact absurd hs he
  · subst hbd
    rw [h']
    rcases merge_spec (env := env') (low := b.data) (high := b.data + first) (tot := total) hi with
      ⟨e, he, _, hn⟩ | ⟨pre', post', l, hh, h3, hb', hld, hhd, hlu, hhu, hadj, htot, _⟩
    · refine absurd ⟨first, total - first, ?_, ?_, rfl, by omega, hm⟩ hn
      · simp [hbu]
      · simp
    · rw [h3]
      have hsd := hi.core.sorted
      -- the two decompositions around `ptr` agree
      have e1 := lookup_mid (pre := pre) (post := ⟨b.data + first, total - first, true, false⟩ :: post)
        (b := { b with size := first }) hsd
      have hsd' := hsd
      simp only at hb'
      simp only at hsd'
      rw [hb'] at hsd'
      have e2 := lookup_mid hsd'
      rw [← hb'] at e2
      simp only at e1
      rw [hld, e1] at e2
      cases e2
      have m1 := removeBlock_mid hsd
      simp only [hb'] at m1
      rw [removeBlock_mid hsd'] at m1
      have hpre : pre = pre' := by
        have f1 : (pre ++ { b with size := first } :: ⟨b.data + first, total - first, true, false⟩ :: post).filter
            (fun c => c.data < b.data) = pre := by
          obtain ⟨q1, q2, _⟩ := sortedD_mid hsd
          rw [List.filter_append, List.filter_cons, List.filter_eq_self.2, List.filter_eq_nil_iff.2]
          · simp
          · intro c hc; have := q2 c hc; simp at this ⊢; omega
          · intro c hc; have := q1 c hc; simpa using this
        have f2 : (pre' ++ { b with size := first } :: hh :: post').filter
            (fun c => c.data < b.data) = pre' := by
          obtain ⟨q1, q2, _⟩ := sortedD_mid hsd'
          rw [List.filter_append, List.filter_cons, List.filter_eq_self.2, List.filter_eq_nil_iff.2]
          · simp
          · intro c hc; have := q2 c hc; simp at this ⊢; omega
          · intro c hc; have := q1 c hc; simpa using this
        rw [← f1, ← f2, hb']
      subst hpre
      have hpost := List.append_cancel_left m1
      cases hpost
      have hbb : { b with size := total } = b := by rw [← hbs]
      simp only
      rw [hbb, ← hb]

/-- C07: a free succeeds exactly for NULL, or a live allocation with its size (or size 0,
"unknown"); a refused free changes nothing. -/
theorem C07_free (hp : cfg.page = 2 ^ k) (h : Reach cfg Any st live grants) {env : Env}
    (hh : env.host .reAdd = true) {ptr size : Nat} :
    let r := step cfg env st (.free ptr size)
    (r.2.res = .success ↔ ptr = 0 ∨ ∃ s, (ptr, s) ∈ live ∧ (size = 0 ∨ size = s)) ∧
    (r.2.res ≠ .success → r.2.res = .invalidArgument ∧ r.1 = st) := by
  intro r
  have hr := reach_rel hp h
  rcases free_spec (env := env) (ptr := ptr) (bytes := size) hr.inv hh with
    ⟨h0, hs⟩ | ⟨h0, hs, hn⟩ | ⟨st', A, B, s, hs, h0, hsz, hu, _⟩
  · have hrr : r = (st, { res := .success }) := hs
    rw [hrr]
    exact ⟨⟨fun _ => Or.inl h0, fun _ => rfl⟩, fun h => absurd rfl h⟩
  · have hrr : r = (st, { res := .invalidArgument }) := hs
    rw [hrr]
    refine ⟨⟨(fun h => by cases h), ?_⟩, fun _ => ⟨rfl, rfl⟩⟩
    rintro (h | ⟨s, hm, hs'⟩)
    · exact absurd h h0
    · have := hn s (hr.live.mem_iff.1 hm); omega
  · have hrr : r = (st', { res := .success }) := hs
    rw [hrr]
    refine ⟨⟨fun _ => Or.inr ⟨s, ?_, hsz⟩, fun _ => rfl⟩, fun h => absurd rfl h⟩
    rw [hr.live.mem_iff, hu]; simp

/-- Non-trivial instances in the reachable state `demo1`. -/
example : (step demoCfg calmEnv demo1.1 (.split 73728 8192 4096)).2.res = .success ∧
    (step demoCfg calmEnv demo1.1 (.merge 65536 69632 8192)).2.res = .success ∧
    (step demoCfg calmEnv demo1.1 (.merge 65536 73728 12288)).2.res = .invalidArgument ∧
    (step demoCfg calmEnv demo1.1 (.free 73728 8192)).2.res = .success ∧
    (step demoCfg calmEnv demo1.1 (.free 73728 4096)).2.res = .invalidArgument ∧
    (step demoCfg calmEnv demo1.1 (.free 81920 0)).2.res = .invalidArgument := by decide

end Verif.Coarse
