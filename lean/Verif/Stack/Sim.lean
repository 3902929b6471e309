import Verif.Stack.Lemmas
/-! The functions of the pool with the real provider do what those with the oracle do. -/
namespace Verif.Stack
open Mem

variable {w : World} {own : Nat → Option Nat} {mem : Nat → List Region} {o : Orc}
  {k size align i : Nat} {f : Fixed} {p : Pool}

/-- The pool and the world around it. -/
structure Here (w : World) (own : Nat → Option Nat) (mem : Nat → List Region) (k : Nat) (p : Pool)
    (f : Fixed) : Prop where
  inv : WInv w own mem
  own : own k = some p.prov
  prov : w.prov p.prov = some f
  page : p.cfg.page = f.page
  cfg : Disjoint.CfgOk p.cfg

/-- The oracle that answers as the provider does. -/
def asEnv (w : World) (k : Nat) (p : Pool) (o : Orc) : Disjoint.Env :=
  ⟨o.slab, fun size align => (provAlloc w k p.prov size align o).2, o.reg⟩

theorem asEnv_ok (h : Here w own mem k p f) (ho : OrcOk o) :
    Disjoint.EnvOk p.cfg (mem k) (asEnv w k p o) := by
  intro size align q hq hs
  obtain ⟨_, h1, h2, h3, h4, h5⟩ := (provAlloc_spec (align := align) h.inv ho h.own h.prov hs).2.2 q hq
  exact ⟨h1, h2, h3 k, fun _ => by rw [h.page]; exact h4, h5⟩

/-- What an operation of pool `k` leaves as it was. -/
structure After (w : World) (own : Nat → Option Nat) (mem : Nat → List Region) (k : Nat) (p : Pool)
    (f : Fixed) (w' : World) (p' : Pool) (mem' : Nat → List Region) : Prop where
  inv : WInv w' own mem'
  prov : ∃ co, w'.prov = (w.setCo p.prov f co).prov
  oth : ∀ j, j ≠ k → mem' j = mem j
  cfg : p'.cfg = p.cfg
  up : p'.prov = p.prov

theorem prov_self (h : w.prov p.prov = some f) : w.prov = (w.setCo p.prov f f.co).prov := by
  funext u
  rw [setCo_prov]
  by_cases hu : u = p.prov
  · rw [if_pos hu, hu, h]
  · rw [if_neg hu]

theorem After.same (h : Here w own mem k p f) {p' : Pool} (h1 : p'.cfg = p.cfg)
    (h2 : p'.prov = p.prov) : After w own mem k p f w p' mem :=
  ⟨h.inv, ⟨f.co, prov_self h.prov⟩, fun _ _ => rfl, h1, h2⟩

theorem upd_idem {l : List Region} (h : l = mem k) : upd mem k l = mem := by
  funext j
  unfold upd
  split
  · rename_i e; rw [h, e]
  · rfl

theorem upd_upd (k : Nat) (l l' : List Region) : upd (upd mem k l) k l' = upd mem k l' := by
  funext j
  unfold upd
  split <;> rfl

theorem setCo_setCo {v : Nat} {w' : World} {co co' : Coarse.St}
    (h : w'.prov = (w.setCo v f co).prov) :
    (w'.setCo v { f with co := co } co').prov = (w.setCo v f co').prov := by
  funext u
  rw [setCo_prov, setCo_prov]
  by_cases hu : u = v
  · rw [if_pos hu, if_pos hu]
  · rw [if_neg hu, if_neg hu, h, setCo_prov, if_neg hu]

theorem createSlab_sim (h : Here w own mem k p f) (ho : OrcOk o) {w' : World} {p' : Pool} {b : Bool}
    (hr : createSlab w k p i o = (w', p', b)) :
    ∃ mem', After w own mem k p f w' p' mem' ∧
      (b = false → Disjoint.createSlab p.cfg i (p.st (mem k)) (asEnv w k p o) = none ∧ p' = p ∧
        mem' k = mem k) ∧
      (b = true → Disjoint.createSlab p.cfg i (p.st (mem k)) (asEnv w k p o) =
        some (p'.st (mem' k))) := by
  have hs : 0 < Disjoint.slabSize p.cfg i := by
    have := h.cfg.slabMin
    unfold Disjoint.slabSize
    omega
  unfold createSlab at hr
  unfold Disjoint.createSlab
  by_cases hsl : o.slab = false
  · rw [if_pos hsl] at hr
    cases hr
    refine ⟨mem, After.same h rfl rfl, fun _ => ⟨?_, rfl, rfl⟩, (fun e => by cases e)⟩
    rw [if_pos (show (asEnv w k p o).host = false from hsl)]
  · rw [if_neg hsl] at hr
    rw [if_neg (show ¬ (asEnv w k p o).host = false from hsl)]
    obtain ⟨⟨co, h1⟩, h2, h3⟩ := provAlloc_spec (align := 0) h.inv ho h.own h.prov hs
    have hup : (asEnv w k p o).up (Disjoint.slabSize p.cfg i) 0 =
      (provAlloc w k p.prov (Disjoint.slabSize p.cfg i) 0 o).2 := rfl
    rw [hup]
    rcases hpa : provAlloc w k p.prov (Disjoint.slabSize p.cfg i) 0 o with ⟨w1, q⟩
    rw [hpa] at hr h1 h2 h3
    cases q with
    | none =>
      cases hr
      exact ⟨mem, ⟨h2 rfl, ⟨co, h1⟩, fun _ _ => rfl, rfl, rfl⟩, fun _ => ⟨rfl, rfl, rfl⟩,
        (fun e => by cases e)⟩
    | some q =>
      dsimp only at hr h1 h2 h3 ⊢
      obtain ⟨h4, h5, h6, h7, h8, _⟩ := h3 q rfl
      by_cases hreg : o.reg = false ∨ p.known.any (fun e => e.1 == q) = true
      · rw [if_pos hreg] at hr
        rw [if_pos (show (asEnv w k p o).reg = false ∨
          (p.st (mem k)).known.any (fun e => e.1 == q) = true from hreg)]
        cases hr
        have hv1 : w1.prov p.prov = some { f with co := co } := by
          rw [h1, setCo_prov, if_pos rfl]
        obtain ⟨⟨co', h9⟩, _, h10⟩ := provFree_spec (size := Disjoint.slabSize p.cfg i) (ptr := q) h4 ho
          h.own hv1 (by rw [upd_self]; exact List.mem_cons_self)
        rw [upd_self, upd_upd, List.erase_cons_head, upd_idem rfl] at h10
        refine ⟨mem, ⟨h10, ⟨co', ?_⟩, fun _ _ => rfl, rfl, rfl⟩, fun _ => ⟨rfl, rfl, rfl⟩,
          (fun e => by cases e)⟩
        rw [h9, setCo_setCo h1]
      · rw [if_neg hreg] at hr
        rw [if_neg (show ¬ ((asEnv w k p o).reg = false ∨
          (p.st (mem k)).known.any (fun e => e.1 == q) = true) from hreg)]
        cases hr
        refine ⟨_, ⟨h4, ⟨co, h1⟩, fun _ hj => upd_ne hj, rfl, rfl⟩, (fun e => by cases e), fun _ => ?_⟩
        rw [upd_self]
        rfl

theorem takeHead_sim (p : Pool) (i : Nat) (m : List Region) :
    Disjoint.takeHead p.cfg i (p.st m) = ((takeHead p i).1.st m, (takeHead p i).2) ∧
    (takeHead p i).1.cfg = p.cfg ∧ (takeHead p i).1.prov = p.prov := by
  unfold takeHead Disjoint.takeHead
  dsimp only [Pool.st]
  cases hb : (p.bk i).avail with
  | nil => exact ⟨rfl, rfl, rfl⟩
  | cons s rest =>
    dsimp only
    cases hf : Disjoint.firstFree s.free with
    | none => exact ⟨rfl, rfl, rfl⟩
    | some n => exact ⟨rfl, rfl, rfl⟩

theorem getFreeChunk_sim (h : Here w own mem k p f) (ho : OrcOk o) {w' : World} {p' : Pool}
    {r : Disjoint.Res} (hr : getFreeChunk w k p i o = (w', p', r)) :
    ∃ mem', After w own mem k p f w' p' mem' ∧
      Disjoint.getFreeChunk p.cfg i (p.st (mem k)) (asEnv w k p o) = (p'.st (mem' k), r) := by
  unfold getFreeChunk at hr
  unfold Disjoint.getFreeChunk
  have hbk : (p.st (mem k)).bk i = p.bk i := rfl
  rw [hbk]
  cases hb : (p.bk i).avail with
  | nil =>
    rw [hb] at hr
    dsimp only at hr ⊢
    rcases hcs : createSlab w k p i o with ⟨w1, p1, b⟩
    rw [hcs] at hr
    obtain ⟨mem', h1, h2, h3⟩ := createSlab_sim h ho hcs
    cases b with
    | false =>
      obtain ⟨h4, rfl, h5⟩ := h2 rfl
      cases hr
      rw [h4]
      exact ⟨mem', h1, by dsimp only; rw [h5]⟩
    | true =>
      dsimp only at hr
      have hw' : w1 = w' := congrArg Prod.fst hr
      have hpr : takeHead p1 i = (p', r) := congrArg Prod.snd hr
      subst hw'
      rw [h3 rfl]
      dsimp only
      obtain ⟨h4, h5, h6⟩ := takeHead_sim p1 i (mem' k)
      rw [hpr] at h4 h5 h6
      rw [h1.cfg] at h4 h5
      rw [h1.up] at h6
      exact ⟨mem', ⟨h1.inv, h1.prov, h1.oth, h5, h6⟩, h4⟩
  | cons s rest =>
    rw [hb] at hr
    dsimp only at hr ⊢
    by_cases hu : s.used = 0
    · rw [if_pos hu] at hr ⊢
      obtain ⟨h4, h5, h6⟩ := takeHead_sim { p with
        bk := fun j => if j = i then { p.bk i with pooled := (p.bk i).pooled - 1 } else p.bk j
        total := p.total - Disjoint.slabSize p.cfg i } i (mem k)
      have hw' : w = w' := congrArg Prod.fst hr
      have hpr := congrArg Prod.snd hr
      dsimp only at hpr
      subst hw'
      rw [hpr] at h4 h5 h6
      exact ⟨mem, After.same h h5 h6, h4⟩
    · rw [if_neg hu] at hr ⊢
      obtain ⟨h4, h5, h6⟩ := takeHead_sim p i (mem k)
      have hw' : w = w' := congrArg Prod.fst hr
      have hpr := congrArg Prod.snd hr
      dsimp only at hpr
      subst hw'
      rw [hpr] at h4 h5 h6
      exact ⟨mem, After.same h h5 h6, h4⟩

theorem direct_sim (h : Here w own mem k p f) (ho : OrcOk o) (hs : 0 < size) {w' : World} {p' : Pool}
    {r : Disjoint.Res} (hr : direct w k p size align o = (w', p', r)) :
    ∃ mem', After w own mem k p f w' p' mem' ∧
      Disjoint.direct (p.st (mem k)) size align (asEnv w k p o) = (p'.st (mem' k), r) := by
  unfold direct at hr
  unfold Disjoint.direct
  have hup : (asEnv w k p o).up size align = (provAlloc w k p.prov size align o).2 := rfl
  rw [hup]
  obtain ⟨⟨co, h1⟩, h2, h3⟩ := provAlloc_spec (align := align) h.inv ho h.own h.prov hs
  rcases hpa : provAlloc w k p.prov size align o with ⟨w1, q⟩
  rw [hpa] at hr h1 h2 h3
  cases q with
  | none =>
    cases hr
    exact ⟨mem, ⟨h2 rfl, ⟨co, h1⟩, fun _ _ => rfl, rfl, rfl⟩, rfl⟩
  | some q =>
    cases hr
    refine ⟨_, ⟨(h3 q rfl).1, ⟨co, h1⟩, fun _ hj => upd_ne hj, rfl, rfl⟩, ?_⟩
    rw [upd_self]
    rfl

theorem fromBucket_sim (h : Here w own mem k p f) (ho : OrcOk o) {w' : World} {p' : Pool}
    {r : Disjoint.Res} (hr : fromBucket w k p size o = (w', p', r)) :
    ∃ mem', After w own mem k p f w' p' mem' ∧
      Disjoint.fromBucket p.cfg (p.st (mem k)) size (asEnv w k p o) = (p'.st (mem' k), r) := by
  unfold fromBucket at hr
  unfold Disjoint.fromBucket
  dsimp only at hr ⊢
  by_cases hi : Disjoint.sizeToIdx (Disjoint.minExp p.cfg.minBucket) size <
      (Disjoint.classes p.cfg.minBucket).length
  · rw [if_pos hi] at hr ⊢
    exact getFreeChunk_sim h ho hr
  · rw [if_neg hi] at hr ⊢
    cases hr
    exact ⟨mem, After.same h rfl rfl, rfl⟩

theorem malloc_sim (h : Here w own mem k p f) (ho : OrcOk o) {w' : World} {p' : Pool}
    {r : Disjoint.Res} (hr : poolMalloc w k p size o = (w', p', r)) :
    ∃ mem', After w own mem k p f w' p' mem' ∧
      Disjoint.malloc p.cfg (p.st (mem k)) size (asEnv w k p o) = (p'.st (mem' k), r) := by
  unfold poolMalloc at hr
  unfold Disjoint.malloc
  by_cases h0 : size = 0
  · rw [if_pos h0] at hr ⊢
    cases hr
    exact ⟨mem, After.same h rfl rfl, rfl⟩
  rw [if_neg h0] at hr ⊢
  by_cases h1 : p.cfg.maxPoolable < size
  · rw [if_pos h1] at hr ⊢
    exact direct_sim h ho (Nat.pos_of_ne_zero h0) hr
  · rw [if_neg h1] at hr ⊢
    exact fromBucket_sim h ho hr

theorem aligned_sim (h : Here w own mem k p f) (ho : OrcOk o) {w' : World} {p' : Pool}
    {r : Disjoint.Res} (hr : poolAligned w k p size align o = (w', p', r)) :
    ∃ mem', After w own mem k p f w' p' mem' ∧
      Disjoint.alignedMalloc p.cfg (p.st (mem k)) size align (asEnv w k p o) =
        (p'.st (mem' k), r) := by
  unfold poolAligned at hr
  unfold Disjoint.alignedMalloc
  by_cases h0 : size = 0
  · rw [if_pos h0] at hr ⊢
    cases hr
    exact ⟨mem, After.same h rfl rfl, rfl⟩
  rw [if_neg h0] at hr ⊢
  by_cases h1 : align ≤ 1
  · rw [if_pos h1] at hr ⊢
    exact malloc_sim h ho hr
  rw [if_neg h1] at hr ⊢
  by_cases h2 : p.cfg.maxPoolable < Disjoint.alignedSize p.cfg size align
  · rw [if_pos h2] at hr ⊢
    exact direct_sim h ho (Nat.pos_of_ne_zero h0) hr
  rw [if_neg h2] at hr ⊢
  rcases hfb : fromBucket w k p (Disjoint.alignedSize p.cfg size align) o with ⟨w1, p1, r1⟩
  obtain ⟨mem', h3, h4⟩ := fromBucket_sim h ho hfb
  rw [hfb] at hr
  rw [h4]
  cases r1 <;> cases hr <;> exact ⟨mem', h3, rfl⟩

theorem canPool_sim (p : Pool) (i : Nat) (m : List Region) :
    Disjoint.canPool p.cfg i (p.st m) =
      ((p.back (Disjoint.canPool p.cfg i (p.st [])).1).st m, (Disjoint.canPool p.cfg i (p.st [])).2) := by
  unfold Disjoint.canPool
  dsimp only
  by_cases h1 : ((p.st m).bk i).pooled + 1 ≤ Disjoint.maxPooled p.cfg i
  · rw [if_pos h1, if_pos (show ((p.st []).bk i).pooled + 1 ≤ Disjoint.maxPooled p.cfg i from h1)]
    by_cases h2 : (p.st m).total + Disjoint.slabSize p.cfg i ≤ p.cfg.limMax
    · rw [if_pos h2, if_pos (show (p.st []).total + Disjoint.slabSize p.cfg i ≤ p.cfg.limMax from h2)]
      rfl
    · rw [if_neg h2, if_neg (show ¬ (p.st []).total + Disjoint.slabSize p.cfg i ≤ p.cfg.limMax from h2)]
      rfl
  · rw [if_neg h1, if_neg (show ¬ ((p.st []).bk i).pooled + 1 ≤ Disjoint.maxPooled p.cfg i from h1)]
    rfl

theorem provFree_mem {st : Disjoint.St} {r : Region} (h : (Disjoint.provFree st r).bad = false) :
    r ∈ st.mem ∧ Disjoint.provFree st r = { st with mem := st.mem.erase r } := by
  unfold Disjoint.provFree at h ⊢
  by_cases hr : r ∈ st.mem
  · rw [if_pos hr]
    exact ⟨hr, rfl⟩
  · rw [if_neg hr] at h
    cases h

theorem freeChunk_sim (h : Here w own mem k p f) (ho : OrcOk o) {base idx : Nat} {st' : Disjoint.St}
    (hd : Disjoint.freeChunk p.cfg i (p.st (mem k)) base idx = some st') (hb : st'.bad = false) :
    ∃ w' p' mem', freeChunk w k p i base idx o = some (w', p') ∧
      After w own mem k p f w' p' mem' ∧ st' = p'.st (mem' k) := by
  unfold Disjoint.freeChunk at hd
  unfold freeChunk
  dsimp only at hd ⊢
  have hbk : (p.st (mem k)).bk i = p.bk i := rfl
  rw [hbk] at hd
  cases hs : ((p.bk i).avail ++ (p.bk i).unavail).find? (fun s => s.base == base) with
  | none => rw [hs] at hd; cases hd
  | some s =>
    rw [hs] at hd
    dsimp only at hd ⊢
    generalize hb1 : (if (s.free.set idx true).length - (s.used - 1) = 1 then _ else _ : Disjoint.Bucket) = b1
      at hd ⊢
    have hset : Disjoint.setBk (p.st (mem k)) i b1 =
        ({ p with bk := fun j => if j = i then b1 else p.bk j } : Pool).st (mem k) := rfl
    rw [hset] at hd
    generalize hp1 : ({ p with bk := fun j => if j = i then b1 else p.bk j } : Pool) = p1 at hd ⊢
    have hc1 : p1.cfg = p.cfg := by rw [← hp1]
    have hu1 : p1.prov = p.prov := by rw [← hp1]
    by_cases hu : s.used - 1 = 0
    · rw [if_pos hu] at hd ⊢
      have hcp := canPool_sim p1 i (mem k)
      rw [hc1] at hcp
      rw [hcp] at hd
      rcases hq : Disjoint.canPool p.cfg i (p1.st []) with ⟨st2, b⟩
      rw [hq] at hd
      cases b with
      | true =>
        dsimp only at hd ⊢
        cases hd
        exact ⟨w, _, mem, rfl, After.same h hc1 hu1, rfl⟩
      | false =>
        dsimp only at hd ⊢
        have hd := Option.some.inj hd
        rw [← hd] at hb
        obtain ⟨h1, h2⟩ := provFree_mem hb
        rw [h2] at hd
        obtain ⟨h3, _, h4⟩ := provFree_spec (size := Disjoint.slabSize p.cfg i) (ptr := base) h.inv ho
          h.own h.prov h1
        refine ⟨_, _, _, rfl, ⟨h4, h3, fun _ hj => upd_ne hj, hc1, hu1⟩, ?_⟩
        rw [upd_self, ← hd]
        rfl
    · rw [if_neg hu] at hd ⊢
      cases hd
      exact ⟨w, p1, mem, rfl, After.same h hc1 hu1, rfl⟩

/-- The tracker's answer for an address in the books. -/
theorem info_of (h : WInv w own mem) {r : Region} (hr : r ∈ mem k) {x : Nat} (hx : Has r x) :
    Tracker.getAllocInfo w.tr x = some (r.1, r.2, k) ∧ Tracker.poolByPtr w.tr x = some k ∧
    Disjoint.allocInfo (mem k) x = some r := by
  obtain ⟨tl, h1, h2, h3⟩ := h.tr
  have hin : Tracker.Innermost tl x ⟨r.1, r.2, k⟩ := by
    have ha : (⟨r.1, r.2, k⟩ : Tracker.Alloc) ∈ tl := (h3 _).2 hr
    obtain ⟨l1, l2, rfl⟩ := List.append_of_mem ha
    rw [List.pairwise_append, List.pairwise_cons] at h2
    obtain ⟨_, ⟨h4, _⟩, h5⟩ := h2
    refine ⟨l1, l2, rfl, hx, fun b hb hb' => ?_, fun b hb hb' => ?_⟩
    · exact h5 b hb _ List.mem_cons_self x ⟨hb', hx⟩
    · exact (h4 b hb x ⟨hx, hb'⟩).elim
  obtain ⟨h4, h5⟩ := (Tracker.C14_poolByPtr h1 x).1 _ hin
  refine ⟨h5, h4, ?_⟩
  cases hf : Disjoint.allocInfo (mem k) x with
  | none =>
    have := List.find?_eq_none.1 hf r hr
    simp only [decide_eq_true_eq] at this
    exact absurd hx this
  | some q =>
    have hq := List.mem_of_find?_eq_some hf
    have hq' := List.find?_some hf
    simp only [decide_eq_true_eq] at hq'
    refine congrArg some ?_
    refine Classical.byContradiction fun hne => ?_
    exact h.disj hq hr (fun e => hne (by injection e)) x ⟨hq', hx⟩

/-- No pool has the address. -/
theorem info_none (h : WInv w own mem) {x : Nat} (hx : ∀ k, ∀ r ∈ mem k, ¬ Has r x) :
    Tracker.poolByPtr w.tr x = none := by
  obtain ⟨tl, h1, h2, h3⟩ := h.tr
  exact (Tracker.C14_poolByPtr h1 x).2.1 fun a ha => hx a.pool _ ((h3 a).1 ha)

theorem regularFree_sim (h : Here w own mem k p f) (ho : OrcOk o) {ptr : Nat} {st' : Disjoint.St}
    (hd : Disjoint.regularFree (p.st (mem k)) ptr = (st', .success)) (hb : st'.bad = false) :
    ∃ w' p' mem', regularFree w k p ptr o = (w', p', .success) ∧
      After w own mem k p f w' p' mem' ∧ st' = p'.st (mem' k) := by
  unfold Disjoint.regularFree at hd
  unfold regularFree
  have hm : (p.st (mem k)).mem = mem k := rfl
  rw [hm] at hd
  cases hai : Disjoint.allocInfo (mem k) ptr with
  | none => rw [hai] at hd; cases hd
  | some r =>
    rw [hai] at hd
    have hr := List.mem_of_find?_eq_some hai
    have hx := List.find?_some hai
    simp only [decide_eq_true_eq] at hx
    obtain ⟨h1, _, _⟩ := info_of h.inv hr hx
    rw [h1]
    dsimp only at hd ⊢
    have hst := congrArg Prod.fst hd
    dsimp only at hst
    rw [← hst] at hb
    obtain ⟨h2, h3⟩ := provFree_mem hb
    obtain ⟨h4, h5, h6⟩ := provFree_spec (size := r.2) (ptr := ptr) h.inv ho h.own h.prov h2
    rcases hpf : provFree w k p.prov ptr r.2 o with ⟨w1, ok⟩
    rw [hpf] at h4 h5 h6
    dsimp only at h4 h5 h6 ⊢
    subst h5
    refine ⟨w1, p, _, rfl, ⟨h6, h4, fun _ hj => upd_ne hj, rfl, rfl⟩, ?_⟩
    rw [upd_self, ← hst, h3]
    rfl

theorem free_sim (h : Here w own mem k p f) (ho : OrcOk o) {ptr : Nat} {st' : Disjoint.St}
    (hd : Disjoint.free p.cfg (p.st (mem k)) ptr = (st', .success)) (hb : st'.bad = false) :
    ∃ w' p' mem', poolFree w k p ptr o = (w', p', .success) ∧
      After w own mem k p f w' p' mem' ∧ st' = p'.st (mem' k) := by
  unfold Disjoint.free at hd
  unfold poolFree
  by_cases h0 : ptr = 0
  · rw [if_pos h0] at hd ⊢
    cases hd
    exact ⟨w, p, mem, rfl, After.same h rfl rfl, rfl⟩
  rw [if_neg h0] at hd ⊢
  have hkn : (p.st (mem k)).known = p.known := rfl
  rw [hkn] at hd
  cases hf : Disjoint.findLe p.known ptr with
  | none =>
    rw [hf] at hd
    exact regularFree_sim h ho hd hb
  | some e =>
    obtain ⟨base, i⟩ := e
    rw [hf] at hd
    dsimp only at hd ⊢
    by_cases he : Disjoint.slabEnd p.cfg base ≤ ptr
    · rw [if_pos he] at hd ⊢
      exact regularFree_sim h ho hd hb
    · rw [if_neg he] at hd ⊢
      cases hfc : Disjoint.freeChunk p.cfg i (p.st (mem k)) base ((ptr - base) / Disjoint.csize p.cfg i) with
      | none => rw [hfc] at hd; cases hd
      | some st1 =>
        rw [hfc] at hd
        cases hd
        obtain ⟨w', p', mem', h1, h2, h3⟩ := freeChunk_sim h ho hfc hb
        rw [h1]
        exact ⟨w', p', mem', rfl, h2, h3⟩

/-- Releasing a list of ranges. -/
theorem fold_bad (g : Disjoint.Slab → Region) (L : List Disjoint.Slab) (st : Disjoint.St)
    (h : st.bad = true) : (L.foldl (fun s sl => Disjoint.provFree s (g sl)) st).bad = true := by
  induction L generalizing st with
  | nil => exact h
  | cons x L ih =>
    rw [List.foldl_cons]
    refine ih _ ?_
    unfold Disjoint.provFree
    split
    · exact h
    · rfl

theorem fold_sim {v z : Nat} (ho : OrcOk o) (hk : own k = some v) (L : List Disjoint.Slab)
    {w : World} {f : Fixed} {mem : Nat → List Region} {st : Disjoint.St} (h : WInv w own mem)
    (hv : w.prov v = some f) (hst : st.mem = mem k)
    (hb : (L.foldl (fun s sl => Disjoint.provFree s (sl.base, z)) st).bad = false) :
    WInv (L.foldl (fun w sl => (provFree w k v sl.base z o).1) w) own
      (upd mem k (L.foldl (fun s sl => Disjoint.provFree s (sl.base, z)) st).mem) ∧
    (∃ co, (L.foldl (fun w sl => (provFree w k v sl.base z o).1) w).prov = (w.setCo v f co).prov) ∧
    (L.foldl (fun s sl => Disjoint.provFree s (sl.base, z)) st).bk = st.bk := by
  induction L generalizing w f mem st with
  | nil =>
    refine ⟨?_, ⟨f.co, ?_⟩, rfl⟩
    · rw [List.foldl_nil, List.foldl_nil, upd_idem hst]; exact h
    · funext u
      rw [List.foldl_nil, setCo_prov]
      by_cases hu : u = v
      · rw [if_pos hu, hu, hv]
      · rw [if_neg hu]
  | cons x L ih =>
    rw [List.foldl_cons] at hb ⊢
    have hb1 : (Disjoint.provFree st (x.base, z)).bad = false := by
      cases hbb : (Disjoint.provFree st (x.base, z)).bad with
      | false => rfl
      | true => rw [fold_bad (fun sl => (sl.base, z)) L _ hbb] at hb; cases hb
    obtain ⟨h1, h2⟩ := provFree_mem hb1
    rw [hst] at h1
    obtain ⟨⟨co, h3⟩, _, h4⟩ := provFree_spec h ho hk hv h1
    have hv1 : (provFree w k v x.base z o).1.prov v = some { f with co := co } := by
      rw [h3, setCo_prov, if_pos rfl]
    have hst1 : (Disjoint.provFree st (x.base, z)).mem =
        upd mem k ((mem k).erase (x.base, z)) k := by
      rw [upd_self, h2, hst]
    obtain ⟨h5, ⟨co', h6⟩, h7⟩ := ih h4 hv1 hst1 hb
    rw [upd_upd] at h5
    refine ⟨h5, ⟨co', ?_⟩, ?_⟩
    · rw [h6, setCo_setCo h3]
    · rw [List.foldl_cons, h7, h2]

theorem finalize_bad (c : Disjoint.Cfg) (L : List Nat) (st : Disjoint.St) (h : st.bad = true) :
    (L.foldl (fun s i => Disjoint.destroyBucket c i s) st).bad = true := by
  induction L generalizing st with
  | nil => exact h
  | cons i L ih =>
    rw [List.foldl_cons]
    exact ih _ (fold_bad (fun sl => (sl.base, Disjoint.slabSize c i)) _ _ h)

theorem finalize_sim_aux (ho : OrcOk o) (hk : own k = some p.prov) (L : List Nat)
    {w : World} {f : Fixed} {mem : Nat → List Region} {st : Disjoint.St} (h : WInv w own mem)
    (hv : w.prov p.prov = some f) (hst : st.mem = mem k) (hbk : st.bk = p.bk)
    (hb : (L.foldl (fun s i => Disjoint.destroyBucket p.cfg i s) st).bad = false) :
    WInv (L.foldl (destroyBucket k p o) w) own
      (upd mem k (L.foldl (fun s i => Disjoint.destroyBucket p.cfg i s) st).mem) ∧
    (∃ co, (L.foldl (destroyBucket k p o) w).prov = (w.setCo p.prov f co).prov) := by
  induction L generalizing w f mem st with
  | nil =>
    refine ⟨?_, ⟨f.co, ?_⟩⟩
    · rw [List.foldl_nil, List.foldl_nil, upd_idem hst]; exact h
    · rw [List.foldl_nil]; exact prov_self hv
  | cons i L ih =>
    rw [List.foldl_cons] at hb ⊢
    have hb1 : (Disjoint.destroyBucket p.cfg i st).bad = false := by
      cases hbb : (Disjoint.destroyBucket p.cfg i st).bad with
      | false => rfl
      | true => rw [finalize_bad p.cfg L _ hbb] at hb; cases hb
    obtain ⟨h1, ⟨co, h2⟩, h3⟩ := fold_sim ho hk _ h hv hst hb1
    rw [hbk] at h1 h2
    have hv1 : (destroyBucket k p o w i).prov p.prov = some { f with co := co } := by
      unfold destroyBucket
      rw [h2, setCo_prov, if_pos rfl]
    have hdb : (Disjoint.destroyBucket p.cfg i st).mem =
        (((p.bk i).avail ++ (p.bk i).unavail).foldl
          (fun s sl => Disjoint.provFree s (sl.base, Disjoint.slabSize p.cfg i)) st).mem := by
      unfold Disjoint.destroyBucket
      rw [hbk]
    obtain ⟨h4, co', h5⟩ := ih h1 hv1 (by rw [upd_self, hdb]) (by
      show (Disjoint.destroyBucket p.cfg i st).bk = p.bk
      unfold Disjoint.destroyBucket
      rw [h3, hbk]) hb
    rw [upd_upd] at h4
    refine ⟨h4, co', ?_⟩
    exact h5.trans (setCo_setCo h2)

theorem finalize_sim (h : Here w own mem k p f) (ho : OrcOk o)
    (hb : (Disjoint.finalize p.cfg (p.st (mem k))).bad = false) :
    WInv (poolFinalize w k p o) own (upd mem k (Disjoint.finalize p.cfg (p.st (mem k))).mem) ∧
    ∃ co, (poolFinalize w k p o).prov = (w.setCo p.prov f co).prov :=
  finalize_sim_aux ho h.own _ h.inv h.prov rfl rfl hb

end Verif.Stack
