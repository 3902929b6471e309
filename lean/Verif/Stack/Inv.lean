import Verif.Stack.Sim
/-! The invariant of the histories of the system. -/
namespace Verif.Stack
open Mem

/-- The allocations of pool `k`. -/
def liveOf (live : List Alloc) (k : Nat) : List Region :=
  (live.filter fun a => a.1 == k).map (·.2)

def ownOf (s : Sys) : Nat → Option Nat := fun k => (s.pool k).map (·.prov)

structure SInv (s : Sys) (live : List Alloc) (mem : Nat → List Region) : Prop where
  w : WInv s.w (ownOf s) mem
  pools : ∀ k p, s.pool k = some p → ∃ f, s.w.prov p.prov = some f ∧ p.cfg.page = f.page ∧
    Disjoint.CfgOk p.cfg ∧ Disjoint.Reach p.cfg (p.st (mem k)) (liveOf live k) 0
  alive : ∀ a ∈ live, ∃ p, s.pool a.1 = some p

variable {s : Sys} {live : List Alloc} {mem : Nat → List Region} {k : Nat} {p : Pool} {o : Orc}

theorem SInv.here (h : SInv s live mem) (hp : s.pool k = some p) :
    ∃ f, Here s.w (ownOf s) mem k p f ∧ Disjoint.Reach p.cfg (p.st (mem k)) (liveOf live k) 0 := by
  obtain ⟨f, h1, h2, h3, h4⟩ := h.pools k p hp
  exact ⟨f, ⟨h.w, by unfold ownOf; rw [hp]; rfl, h1, h2, h3⟩, h4⟩

theorem liveOf_cons_self (a : Region) : liveOf ((k, a) :: live) k = a :: liveOf live k := by
  simp [liveOf]

theorem liveOf_cons_ne {j : Nat} (hj : j ≠ k) (a : Region) : liveOf ((k, a) :: live) j = liveOf live j := by
  unfold liveOf
  rw [List.filter_cons_of_neg]
  simp only [beq_iff_eq]
  exact fun e => hj e.symm

theorem liveOf_append (l1 l2 : List Alloc) (k : Nat) : liveOf (l1 ++ l2) k = liveOf l1 k ++ liveOf l2 k := by
  simp [liveOf]

theorem mem_liveOf {a : Region} : a ∈ liveOf live k ↔ (k, a) ∈ live := by
  unfold liveOf
  simp only [List.mem_map, List.mem_filter, beq_iff_eq]
  constructor
  · rintro ⟨⟨j, b⟩, ⟨h1, rfl⟩, rfl⟩
    exact h1
  · intro h
    exact ⟨(k, a), ⟨h, rfl⟩, rfl⟩

theorem ownOf_set {w' : World} {p' : Pool} (hp : s.pool k = some p) (h : p'.prov = p.prov) :
    ownOf (s.set w' k (some p')) = ownOf s := by
  funext j
  unfold ownOf Sys.set
  dsimp only
  by_cases hj : j = k
  · rw [if_pos hj, hj, hp]
    simp [h]
  · rw [if_neg hj]

/-- An operation of pool `k` keeps the invariant. -/
theorem SInv.step (h : SInv s live mem) (hp : s.pool k = some p) {f : Fixed}
    (hf : s.w.prov p.prov = some f)
    {w' : World} {p' : Pool} {mem' : Nat → List Region} {live' : List Alloc}
    (ha : After s.w (ownOf s) mem k p f w' p' mem')
    (hr : Disjoint.Reach p.cfg (p'.st (mem' k)) (liveOf live' k) 0)
    (hl : ∀ j, j ≠ k → liveOf live' j = liveOf live j)
    (hal : ∀ a ∈ live', a.1 = k ∨ a ∈ live) : SInv (s.set w' k (some p')) live' mem' where
  w := by
    rw [ownOf_set hp ha.up]
    exact ha.inv
  pools := by
    obtain ⟨co, hco⟩ := ha.prov
    have hprov : ∀ u g, s.w.prov u = some g → ∃ g', w'.prov u = some g' ∧ g'.page = g.page := by
      intro u g hg
      rw [hco, setCo_prov]
      by_cases hu : u = p.prov
      · rw [if_pos hu]
        rw [hu, hf] at hg
        cases hg
        exact ⟨_, rfl, rfl⟩
      · rw [if_neg hu]
        exact ⟨g, hg, rfl⟩
    intro j q hq
    unfold Sys.set at hq
    dsimp only at hq
    by_cases hj : j = k
    · rw [if_pos hj] at hq
      cases hq
      subst hj
      obtain ⟨g, h1, h2, h3, h4⟩ := h.pools j p hp
      obtain ⟨g', h5, h6⟩ := hprov _ _ h1
      refine ⟨g', ?_, ?_, ?_, ?_⟩
      · rw [ha.up]; exact h5
      · rw [ha.cfg, h2, h6]
      · rw [ha.cfg]; exact h3
      · rw [ha.cfg]; exact hr
    · rw [if_neg hj] at hq
      obtain ⟨g, h1, h2, h3, h4⟩ := h.pools j q hq
      obtain ⟨g', h5, h6⟩ := hprov _ _ h1
      refine ⟨g', h5, by rw [h2, h6], h3, ?_⟩
      rw [ha.oth j hj, hl j hj]
      exact h4
  alive := by
    intro a haa
    unfold Sys.set
    dsimp only
    by_cases hj : a.1 = k
    · exact ⟨p', by rw [if_pos hj]⟩
    · rw [if_neg hj]
      rcases hal a haa with h1 | h1
      · exact absurd h1 hj
      · exact h.alive a h1

theorem malloc_step (h : SInv s live mem) (ho : OrcOk o) (hp : s.pool k = some p) {size : Nat}
    {s' : Sys} {r : Disjoint.Res} (hm : malloc s k size o = (s', r)) :
    r ≠ .ub ∧ (r = .null → ∃ mem', SInv s' live mem') ∧
      ∀ q, r = .ok q → ∃ mem', SInv s' ((k, q, size) :: live) mem' := by
  obtain ⟨f, hh, hr⟩ := h.here hp
  unfold malloc at hm
  rw [hp] at hm
  dsimp only at hm
  rcases hpm : poolMalloc s.w k p size o with ⟨w', p', r'⟩
  rw [hpm] at hm
  cases hm
  obtain ⟨mem', ha, hd⟩ := malloc_sim hh ho hpm
  have hdef := (Disjoint.C23_defined_partial hh.cfg hr (asEnv_ok hh ho) size 0).1
  rw [hd] at hdef
  refine ⟨hdef, ?_, ?_⟩
  · rintro rfl
    exact ⟨mem', h.step hp hh.prov ha (Disjoint.Reach.mallocNull hr (asEnv_ok hh ho) hd) (fun _ _ => rfl)
      (fun a ha => Or.inr ha)⟩
  · rintro q rfl
    refine ⟨mem', h.step hp hh.prov ha ?_ (fun j hj => liveOf_cons_ne hj _) ?_⟩
    · rw [liveOf_cons_self]
      exact Disjoint.Reach.malloc hr (asEnv_ok hh ho) hd
    · intro a ha
      rcases List.mem_cons.1 ha with rfl | ha
      · exact Or.inl rfl
      · exact Or.inr ha

theorem aligned_step (h : SInv s live mem) (ho : OrcOk o) (hp : s.pool k = some p) {size j : Nat}
    (hal : Disjoint.AlignOk p.cfg size (2 ^ j))
    {s' : Sys} {r : Disjoint.Res} (hm : alignedMalloc s k size (2 ^ j) o = (s', r)) :
    r ≠ .ub ∧ (r = .null → ∃ mem', SInv s' live mem') ∧
      ∀ q, r = .ok q → 2 ^ j ∣ q ∧ ∃ mem', SInv s' ((k, q, size) :: live) mem' := by
  obtain ⟨f, hh, hr⟩ := h.here hp
  unfold alignedMalloc at hm
  rw [hp] at hm
  dsimp only at hm
  rcases hpm : poolAligned s.w k p size (2 ^ j) o with ⟨w', p', r'⟩
  rw [hpm] at hm
  cases hm
  obtain ⟨mem', ha, hd⟩ := aligned_sim hh ho hpm
  have hdef := (Disjoint.C23_defined_partial hh.cfg hr (asEnv_ok hh ho) size j).2 hal
  rw [hd] at hdef
  refine ⟨hdef, ?_, ?_⟩
  · rintro rfl
    exact ⟨mem', h.step hp hh.prov ha (Disjoint.Reach.alignedNull hr (asEnv_ok hh ho) hal hd)
      (fun _ _ => rfl) (fun a ha => Or.inr ha)⟩
  · rintro q rfl
    refine ⟨(Disjoint.C24_aligned_partial hh.cfg hr (asEnv_ok hh ho) hal hd).1, mem',
      h.step hp hh.prov ha ?_ (fun j hj => liveOf_cons_ne hj _) ?_⟩
    · rw [liveOf_cons_self]
      exact Disjoint.Reach.aligned hr (asEnv_ok hh ho) hal hd
    · intro a ha
      rcases List.mem_cons.1 ha with rfl | ha
      · exact Or.inl rfl
      · exact Or.inr ha

theorem free_step {l1 l2 : List Alloc} {a : Region} (h : SInv s (l1 ++ (k, a) :: l2) mem)
    (ho : OrcOk o) :
    (free s k a.1 o).2 = .success ∧ ∃ mem', SInv (free s k a.1 o).1 (l1 ++ l2) mem' := by
  obtain ⟨p, hp⟩ := h.alive (k, a) (by simp)
  dsimp only at hp
  obtain ⟨f, hh, hr⟩ := h.here hp
  rw [liveOf_append, liveOf_cons_self] at hr
  rcases hd : Disjoint.free p.cfg (p.st (mem k)) a.1 with ⟨st', r⟩
  obtain ⟨hsu, hb, _⟩ := Disjoint.C25_free_partial hh.cfg hr hd
  subst hsu
  obtain ⟨w', p', mem', h1, h2, h3⟩ := free_sim hh ho hd hb
  have he : free s k a.1 o = (s.set w' k (some p'), .success) := by
    unfold free
    rw [hp]
    dsimp only
    rw [h1]
  rw [he]
  refine ⟨rfl, mem', h.step hp hh.prov h2 ?_ ?_ ?_⟩
  · rw [← h3, liveOf_append]
    exact Disjoint.Reach.free hr hd
  · intro j hj
    rw [liveOf_append, liveOf_append, liveOf_cons_ne hj]
  · intro b hb
    refine Or.inr ?_
    simp only [List.mem_append, List.mem_cons] at hb ⊢
    rcases hb with hb | hb
    · exact Or.inl hb
    · exact Or.inr (Or.inr hb)

/-- Every byte of an allocation of pool `k` is the pool's, as far as the tracker can tell. -/
theorem owner_of (h : SInv s live mem) {a : Region} (ha : (k, a) ∈ live) {x : Nat} (hx : Has a x) :
    poolByPtr s x = some k := by
  obtain ⟨p, hp⟩ := h.alive (k, a) ha
  dsimp only at hp
  obtain ⟨f, hh, hr⟩ := h.here hp
  obtain ⟨m, hm, hin⟩ := (Disjoint.C23_disjoint_partial hh.cfg hr).2 a (mem_liveOf.2 ha)
  exact (info_of h.w (k := k) hm (hin x hx)).2.1

theorem live_pos (h : SInv s live mem) {a : Region} (ha : (k, a) ∈ live) : 0 < a.2 := by
  obtain ⟨p, hp⟩ := h.alive (k, a) ha
  dsimp only at hp
  obtain ⟨f, hh, hr⟩ := h.here hp
  obtain ⟨G, hG, hI⟩ := Disjoint.reach_inv hh.cfg hr
  have := mem_liveOf.2 ha
  rw [← hG] at this
  obtain ⟨g, hg, rfl⟩ := List.mem_map.1 this
  exact (hI.core.owns g hg).1

theorem umfFree_eq (h : SInv s live mem) {a : Region} (ha : (k, a) ∈ live) :
    umfFree s a.1 o = free s k a.1 o := by
  unfold umfFree
  rw [owner_of h ha (x := a.1) ⟨Nat.le_refl _, by have := live_pos h ha; omega⟩]

theorem dropPool_step (h : SInv s live mem) (ho : OrcOk o) (hl : ∀ a ∈ live, a.1 ≠ k)
    (hp : s.pool k = some p) :
    ∃ mem', SInv (dropPool s k o) live mem' ∧ mem' k = [] ∧ (∀ j, j ≠ k → mem' j = mem j) ∧
      ∃ f co, s.w.prov p.prov = some f ∧ (dropPool s k o).w.prov = (s.w.setCo p.prov f co).prov := by
  obtain ⟨f, hh, hr⟩ := h.here hp
  have hnil : liveOf live k = [] := by
    cases hlk : liveOf live k with
    | nil => rfl
    | cons a l =>
      have : (k, a) ∈ live := mem_liveOf.1 (by rw [hlk]; exact List.mem_cons_self)
      exact absurd rfl (hl _ this)
  rw [hnil] at hr
  obtain ⟨h1, _, h2⟩ := Disjoint.C25_destroy_partial hh.cfg hr
  obtain ⟨h3, co, h4⟩ := finalize_sim hh ho h1
  rw [h2 rfl] at h3
  have he : dropPool s k o = s.set (poolFinalize s.w k p o) k none := by
    unfold dropPool; rw [hp]
  rw [he]
  refine ⟨upd mem k [], ⟨?_, ?_, ?_⟩, upd_self _ _ _, fun j hj => upd_ne hj, f, co, hh.prov, h4⟩
  · -- the provider's books no longer mention the pool
    have hown : ∀ j, j ≠ k → ownOf (s.set (poolFinalize s.w k p o) k none) j = ownOf s j := by
      intro j hj
      unfold ownOf Sys.set
      dsimp only
      rw [if_neg hj]
    have hmem : ∀ j r, r ∈ upd mem k [] j → j ≠ k := by
      rintro j r hr' rfl
      rw [upd_self] at hr'
      cases hr'
    refine ⟨h3.ok, ?_, h3.apart, ?_, h3.tr, h3.nodup⟩
    · intro v g hg
      obtain ⟨cl, h5, h6⟩ := h3.co v g hg
      refine ⟨cl, h5, fun r => (h6 r).trans ?_⟩
      constructor
      · rintro ⟨j, h7, h8⟩
        exact ⟨j, by rw [hown j (hmem j r h8)]; exact h7, h8⟩
      · rintro ⟨j, h7, h8⟩
        exact ⟨j, by rw [hown j (hmem j r h8)] at h7; exact h7, h8⟩
    · intro j r hr'
      obtain ⟨v, g, h5, h6⟩ := h3.owned j r hr'
      exact ⟨v, g, by rw [hown j (hmem j r hr')]; exact h5, h6⟩
  · intro j q hq
    unfold Sys.set at hq
    dsimp only at hq
    by_cases hj : j = k
    · rw [if_pos hj] at hq; cases hq
    · rw [if_neg hj] at hq
      obtain ⟨g, h5, h6, h7, h8⟩ := h.pools j q hq
      rw [upd_ne hj]
      by_cases hu : q.prov = p.prov
      · refine ⟨{ f with co := co }, ?_, ?_, h7, h8⟩
        · show (poolFinalize s.w k p o).prov q.prov = _
          rw [h4, setCo_prov, if_pos hu]
        · rw [h6]
          rw [hu, hh.prov] at h5
          cases h5
          rfl
      · refine ⟨g, ?_, h6, h7, h8⟩
        show (poolFinalize s.w k p o).prov q.prov = _
        rw [h4, setCo_prov, if_neg hu]
        exact h5
  · intro a ha
    obtain ⟨q, hq⟩ := h.alive a ha
    refine ⟨q, ?_⟩
    unfold Sys.set
    dsimp only
    rw [if_neg (hl a ha)]
    exact hq

theorem newPool_step (h : SInv s live mem) {v : Nat} {c : Disjoint.Cfg} {s' : Sys}
    (hk : s.pool k = none) (hc : ParamsOk c) (hn : newPool s k v c = some s') : SInv s' live mem := by
  unfold newPool at hn
  cases hv : s.w.prov v with
  | none => rw [hv] at hn; cases hn
  | some f =>
    rw [hv] at hn
    dsimp only at hn
    by_cases hi : Disjoint.initOk c = true
    · rw [if_pos hi] at hn
      cases hn
      have hmk : mem k = [] := by
        cases hm : mem k with
        | nil => rfl
        | cons r l =>
          obtain ⟨v', g, h1, _⟩ := h.w.owned k r (by rw [hm]; exact List.mem_cons_self)
          unfold ownOf at h1
          rw [hk] at h1
          cases h1
      have hlk : liveOf live k = [] := by
        cases hl : liveOf live k with
        | nil => rfl
        | cons r l =>
          obtain ⟨q, hq⟩ := h.alive (k, r) (mem_liveOf.1 (by rw [hl]; exact List.mem_cons_self))
          rw [show s.pool (k, r).1 = none from hk] at hq
          cases hq
      refine ⟨?_, ?_, ?_⟩
      · have hmem : ∀ j r, r ∈ mem j → j ≠ k := by
          rintro j r hr rfl
          rw [hmk] at hr
          cases hr
        have hown : ∀ j, j ≠ k → ownOf (s.set s.w k (some ⟨{ c with page := f.page }, v,
            fun _ => ⟨[], [], 0⟩, [], 0⟩)) j = ownOf s j := by
          intro j hj
          unfold ownOf Sys.set
          dsimp only
          rw [if_neg hj]
        refine ⟨h.w.ok, ?_, h.w.apart, ?_, h.w.tr, h.w.nodup⟩
        · intro u g hg
          obtain ⟨cl, h5, h6⟩ := h.w.co u g hg
          refine ⟨cl, h5, fun r => (h6 r).trans ?_⟩
          constructor
          · rintro ⟨j, h7, h8⟩
            exact ⟨j, by rw [hown j (hmem j r h8)]; exact h7, h8⟩
          · rintro ⟨j, h7, h8⟩
            exact ⟨j, by rw [hown j (hmem j r h8)] at h7; exact h7, h8⟩
        · intro j r hr'
          obtain ⟨u, g, h5, h6⟩ := h.w.owned j r hr'
          exact ⟨u, g, by rw [hown j (hmem j r hr')]; exact h5, h6⟩
      · intro j q hq
        unfold Sys.set at hq
        dsimp only at hq
        by_cases hj : j = k
        · rw [if_pos hj] at hq
          cases hq
          subst hj
          refine ⟨f, hv, rfl, ⟨?_, hc.slabMin, hc.maxPoolable, ?_⟩, ?_⟩
          · exact Disjoint.isPow2_iff.1 hi
          · obtain ⟨m, hm⟩ := (h.w.ok v f hv).page
            exact Or.inr ⟨m, hm⟩
          · rw [hmk, hlk]
            exact Disjoint.Reach.init
        · rw [if_neg hj] at hq
          exact h.pools j q hq
      · intro a ha
        obtain ⟨q, hq⟩ := h.alive a ha
        unfold Sys.set
        dsimp only
        by_cases hj : a.1 = k
        · rw [if_pos hj]; exact ⟨_, rfl⟩
        · rw [if_neg hj]; exact ⟨q, hq⟩
    · rw [if_neg hi] at hn
      cases hn

theorem fixedNew_spec (ho : OrcOk o) {page : Nat} {buf : Region} {f : Fixed}
    (hb : buf.1 + buf.2 < 2 ^ 64) (hm : ∃ m, page = 2 ^ m)
    (hf : fixedNew page buf o.onAlloc o.garbage = some f) :
    f.page = page ∧ f.buf = buf ∧ FixOk f ∧
      Coarse.Spec.Reach f.cfg Coarse.Spec.Mergeable f.co [] [f.buf] := by
  unfold fixedNew at hf
  rcases hr : Coarse.addFixed ⟨page, .fastestButOne, false, false⟩ (fixedEnv o.onAlloc o.garbage)
    Coarse.init buf.1 buf.2 with ⟨co, out⟩
  rw [hr] at hf
  dsimp only at hf
  by_cases hs : out.res = .success
  · rw [if_pos hs] at hf
    cases hf
    have hst := Coarse.Spec.Reach.step (cfg := ⟨page, .fastestButOne, false, false⟩)
      (P := Coarse.Spec.Mergeable) _ (.addFixed buf.1 buf.2) Coarse.Spec.Reach.init (envOk_add ho hb)
      (fun _ _ _ => rfl)
    have hstep : Coarse.step ⟨page, .fastestButOne, false, false⟩ (fixedEnv o.onAlloc o.garbage)
      Coarse.init (.addFixed buf.1 buf.2) = (co, out) := hr
    rw [hstep] at hst
    have hnz : ¬ (buf.1 = 0 ∨ buf.2 = 0) := by
      intro hz
      unfold Coarse.addFixed at hr
      rw [if_pos hz] at hr
      cases hr
      cases hs
    have hgot : out.got = some (buf.1, buf.2) := by
      have hr' := hr
      unfold Coarse.addFixed at hr'
      rw [if_neg hnz, if_neg (by simp)] at hr'
      split at hr'
      · cases hr'; cases hs
      · dsimp only at hr'
        have := congrArg (fun z => z.2.got) hr'
        exact this.symm
    have hl : Coarse.Spec.liveAfter [] (.addFixed buf.1 buf.2) out = [] := by
      unfold Coarse.Spec.liveAfter; rw [if_pos hs]
    have hg : Coarse.Spec.grantsAfter [] out = [buf] := by
      unfold Coarse.Spec.grantsAfter; rw [hgot]
    rw [hl, hg] at hst
    exact ⟨rfl, rfl, ⟨hm, by show 0 < buf.1; omega, by show 0 < buf.2; omega, hb⟩, hst⟩
  · rw [if_neg hs] at hf
    cases hf

theorem newProv_step (h : SInv s live mem) (ho : OrcOk o) {v m : Nat} {buf : Region} {s' : Sys}
    (hv : s.w.prov v = none) (hb : buf.1 + buf.2 < 2 ^ 64)
    (hap : ∀ u f, s.w.prov u = some f → Mem.Disjoint f.buf buf)
    (hn : newProv s v (2 ^ m) buf o = some s') : SInv s' live mem := by
  unfold newProv at hn
  cases hf : fixedNew (2 ^ m) buf o.onAlloc o.garbage with
  | none => rw [hf] at hn; cases hn
  | some f =>
    rw [hf] at hn
    dsimp only at hn
    cases hn
    obtain ⟨h1, h2, h3, h4⟩ := fixedNew_spec ho hb ⟨m, rfl⟩ hf
    have hno : ∀ k r, r ∈ mem k → ownOf s k ≠ some v := by
      intro k r hr e
      obtain ⟨u, g, h5, h6⟩ := h.w.owned k r hr
      rw [e] at h5
      cases h5
      rw [hv] at h6
      cases h6
    refine ⟨⟨?_, ?_, ?_, ?_, h.w.tr, h.w.nodup⟩, ?_, h.alive⟩
    · intro u g hg
      dsimp only at hg
      by_cases hu : u = v
      · rw [if_pos hu] at hg; cases hg; exact h3
      · rw [if_neg hu] at hg; exact h.w.ok u g hg
    · intro u g hg
      dsimp only at hg
      by_cases hu : u = v
      · rw [if_pos hu] at hg
        cases hg
        refine ⟨[], h4, fun r => ⟨(fun hr => by cases hr), ?_⟩⟩
        rintro ⟨k, h5, h6⟩
        exact absurd (hu ▸ h5) (hno k r h6)
      · rw [if_neg hu] at hg
        exact h.w.co u g hg
    · intro u g u' g' hg hg' hne
      dsimp only at hg hg'
      by_cases hu : u = v
      · rw [if_pos hu] at hg
        cases hg
        rw [if_neg (by rw [← hu]; exact fun e => hne e.symm)] at hg'
        rw [h2]
        exact (hap u' g' hg').symm
      · rw [if_neg hu] at hg
        by_cases hu' : u' = v
        · rw [if_pos hu'] at hg'
          cases hg'
          rw [h2]
          exact hap u g hg
        · rw [if_neg hu'] at hg'
          exact h.w.apart u g u' g' hg hg' hne
    · intro k r hr
      obtain ⟨u, g, h5, h6⟩ := h.w.owned k r hr
      refine ⟨u, g, h5, ?_⟩
      dsimp only
      rw [if_neg (by rintro rfl; exact hno k r hr h5)]
      exact h6
    · intro k q hq
      obtain ⟨g, h5, h6⟩ := h.pools k q hq
      refine ⟨g, ?_, h6⟩
      dsimp only
      rw [if_neg (by rintro e; rw [e, hv] at h5; cases h5)]
      exact h5

theorem dropProv_step (h : SInv s live mem) {v : Nat} (hp : ∀ k p, s.pool k = some p → p.prov ≠ v) :
    SInv (dropProv s v) live mem := by
  have hno : ∀ k, ownOf s k ≠ some v := by
    intro k e
    unfold ownOf at e
    cases hk : s.pool k with
    | none => rw [hk] at e; cases e
    | some q => rw [hk] at e; exact hp k q hk (by simpa using e)
  have hpr : ∀ u g, (dropProv s v).w.prov u = some g → s.w.prov u = some g := by
    intro u g hg
    unfold dropProv at hg
    dsimp only at hg
    by_cases hu : u = v
    · rw [if_pos hu] at hg; cases hg
    · rw [if_neg hu] at hg; exact hg
  have hpr' : ∀ u g, u ≠ v → s.w.prov u = some g → (dropProv s v).w.prov u = some g := by
    intro u g hu hg
    unfold dropProv
    dsimp only
    rw [if_neg hu]
    exact hg
  refine ⟨⟨fun u g hg => h.w.ok u g (hpr u g hg), fun u g hg => h.w.co u g (hpr u g hg),
    fun u g u' g' hg hg' => h.w.apart u g u' g' (hpr u g hg) (hpr u' g' hg'), ?_, h.w.tr, h.w.nodup⟩, ?_,
    h.alive⟩
  · intro k r hr
    obtain ⟨u, g, h1, h2⟩ := h.w.owned k r hr
    exact ⟨u, g, h1, hpr' u g (by rintro rfl; exact hno k h1) h2⟩
  · intro k q hq
    obtain ⟨g, h1, h2⟩ := h.pools k q hq
    exact ⟨g, hpr' _ g (hp k q hq) h1, h2⟩

theorem init_inv : SInv init [] (fun _ => []) := by
  refine ⟨⟨?_, ?_, ?_, ?_, ?_, ?_⟩, ?_, ?_⟩
  · intro v f hf; cases hf
  · intro v f hf; cases hf
  · intro v f u g hf; cases hf
  · intro k r hr; cases hr
  · refine ⟨[], Tracker.Reach.init, List.Pairwise.nil, fun a => ⟨fun ha => (by cases ha), fun ha => (by cases ha)⟩⟩
  · intro k; exact List.nodup_nil
  · intro k p hp; cases hp
  · intro a ha; cases ha

theorem hist_inv (h : Hist s live) : ∃ mem, SInv s live mem := by
  induction h with
  | init => exact ⟨_, init_inv⟩
  | newProv _ ho hv hb hap hn ih =>
    obtain ⟨mem, h⟩ := ih
    exact ⟨mem, newProv_step h ho hv hb hap hn⟩
  | dropProv _ hp ih =>
    obtain ⟨mem, h⟩ := ih
    exact ⟨mem, dropProv_step h hp⟩
  | newPool _ hk hc hn ih =>
    obtain ⟨mem, h⟩ := ih
    exact ⟨mem, newPool_step h hk hc hn⟩
  | @dropPool s live k o _ ho hl ih =>
    obtain ⟨mem, h⟩ := ih
    cases hp : s.pool k with
    | none =>
      have : dropPool s k o = s := by unfold dropPool; rw [hp]
      rw [this]
      exact ⟨mem, h⟩
    | some p =>
      obtain ⟨mem', h1, _⟩ := dropPool_step h ho hl hp
      exact ⟨mem', h1⟩
  | malloc _ ho hp hm ih =>
    obtain ⟨mem, h⟩ := ih
    exact (malloc_step h ho hp hm).2.2 _ rfl
  | mallocNull _ ho hp hm ih =>
    obtain ⟨mem, h⟩ := ih
    exact (malloc_step h ho hp hm).2.1 rfl
  | aligned _ ho hp hal hm ih =>
    obtain ⟨mem, h⟩ := ih
    exact ((aligned_step h ho hp hal hm).2.2 _ rfl).2
  | alignedNull _ ho hp hal hm ih =>
    obtain ⟨mem, h⟩ := ih
    exact (aligned_step h ho hp hal hm).2.1 rfl
  | free _ ho ih =>
    obtain ⟨mem, h⟩ := ih
    exact (free_step h ho).2
  | @umfFree s l1 k a l2 o _ ho ih =>
    obtain ⟨mem, h⟩ := ih
    rw [umfFree_eq (k := k) h (by simp)]
    exact (free_step h ho).2

end Verif.Stack
