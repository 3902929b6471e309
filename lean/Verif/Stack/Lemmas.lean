import Verif.Stack.Spec
import Verif.Coarse.Props
import Verif.Tracker.Props
import Verif.Disjoint.Props
/-! The providers under the pools: what allocating and releasing do to the books. -/
namespace Verif.Stack
open Mem

def upd (mem : Nat → List Region) (k : Nat) (l : List Region) : Nat → List Region :=
  fun j => if j = k then l else mem j

theorem upd_self (mem : Nat → List Region) (k : Nat) (l : List Region) : upd mem k l k = l := by
  simp [upd]

theorem upd_ne {mem : Nat → List Region} {k j : Nat} {l : List Region} (h : j ≠ k) :
    upd mem k l j = mem j := by simp [upd, h]

structure FixOk (f : Fixed) : Prop where
  page : ∃ m, f.page = 2 ^ m
  ptr : 0 < f.buf.1
  size : 0 < f.buf.2
  bound : f.buf.1 + f.buf.2 < 2 ^ 64

/-- `own`: the provider of each pool; `mem`: what each pool got from it and has not returned. -/
structure WInv (w : World) (own : Nat → Option Nat) (mem : Nat → List Region) : Prop where
  ok : ∀ v f, w.prov v = some f → FixOk f
  co : ∀ v f, w.prov v = some f → ∃ cl, Coarse.Spec.Reach f.cfg Coarse.Spec.Mergeable f.co cl [f.buf] ∧
    ∀ r, r ∈ cl ↔ ∃ k, own k = some v ∧ r ∈ mem k
  apart : ∀ v f u g, w.prov v = some f → w.prov u = some g → v ≠ u → Mem.Disjoint f.buf g.buf
  owned : ∀ k r, r ∈ mem k → ∃ v f, own k = some v ∧ w.prov v = some f
  tr : ∃ tl, Tracker.Reach false w.tr tl ∧ (tl.Pairwise fun a b => Mem.Disjoint a.range b.range) ∧
    ∀ a, a ∈ tl ↔ a.range ∈ mem a.pool
  nodup : ∀ k, (mem k).Nodup

variable {w : World} {own : Nat → Option Nat} {mem : Nat → List Region} {o : Orc}
  {k v size align : Nat} {f : Fixed}

/-- A range in the books: positive size, inside its provider's memory. -/
theorem WInv.mem_pos (h : WInv w own mem) {r : Region} (hr : r ∈ mem k) :
    0 < r.1 ∧ 0 < r.2 ∧ ∃ v f, own k = some v ∧ w.prov v = some f ∧ Inside r f.buf := by
  obtain ⟨v, f, h1, h2⟩ := h.owned k r hr
  obtain ⟨cl, h3, h4⟩ := h.co v f h2
  obtain ⟨m, hm⟩ := (h.ok v f h2).page
  have h5 := (Coarse.C01_liveDisjoint (k := m) hm h3.any).2 r ((h4 r).2 ⟨k, h1, hr⟩)
  refine ⟨h5.1, h5.2.1, v, f, h1, h2, fun x hx => ?_⟩
  obtain ⟨g, hg, hx'⟩ := h5.2.2.2 x hx
  rw [List.mem_singleton] at hg
  subst hg
  exact hx'

theorem pw_of {α : Type} {R : α → α → Prop} {l : List α} (h : l.Pairwise R)
    (hs : ∀ a b, R a b → R b a) {a b : α} (ha : a ∈ l) (hb : b ∈ l) (hne : a ≠ b) : R a b := by
  rcases Tracker.pw_cases h a ha b hb with h1 | h1 | h1
  · exact absurd h1 hne
  · exact h1
  · exact hs _ _ h1

theorem WInv.disj (h : WInv w own mem) {r q : Region} {j : Nat} (hr : r ∈ mem k) (hq : q ∈ mem j)
    (hne : (k, r) ≠ (j, q)) : Mem.Disjoint r q := by
  obtain ⟨tl, _, h2, h3⟩ := h.tr
  refine pw_of h2 (fun a b hab => hab.symm) (a := ⟨r.1, r.2, k⟩) (b := ⟨q.1, q.2, j⟩)
    ((h3 _).2 hr) ((h3 _).2 hq) ?_
  intro e
  injection e with e1 e2 e3
  exact hne (by rw [e3, Prod.ext e1 e2])

/-- A range of positive size that has nothing in common with another one is another one. -/
theorem ne_of_disj {r q : Region} (h : Mem.Disjoint r q) (hr : 0 < r.2) (hq : 0 < q.2) : r.1 ≠ q.1 := by
  intro e
  refine h r.1 ⟨⟨Nat.le_refl _, by omega⟩, ?_⟩
  exact ⟨by omega, by omega⟩

theorem alloc_got {cfg : Coarse.Cfg} {env : Coarse.Env} {st : Coarse.St} (h : cfg.hasAlloc = false) :
    (Coarse.alloc cfg env st size align).2.got = none := by
  have hup : ∀ st a, (Coarse.allocUpstream cfg env st size a).2.got = none := by
    intro st a; unfold Coarse.allocUpstream; rw [h]; rfl
  have hfrom : ∀ st b a, (Coarse.allocFrom env st b size a).2.got = none := by
    intro st b a; unfold Coarse.allocFrom
    split
    · split
      · split <;> rfl
      · rfl
    · rfl
  unfold Coarse.alloc
  split
  · rfl
  · split
    · split
      · split
        · exact hfrom _ _ _
        · exact hup _ _
      · exact hup _ _
    · exact hup _ _

theorem envOk_alloc (ho : OrcOk o) (hs : 0 < size) {g : List Region} :
    Coarse.Spec.EnvOk (fixedEnv o.onAlloc o.garbage) (.alloc size align) g where
  free1 := ho.alloc _ (by simp)
  free2 := ho.alloc _ (by simp)
  reAdd := ho.alloc _ (by simp)
  flag := by
    intro s a e
    cases e
    rcases ho.flag with h | h
    · exact Or.inl h
    · exact Or.inr ⟨hs, fun _ _ _ => rfl, h⟩
  up := by intro _ _ _ _ _ h; cases h
  upErr := by intro _ _ r h; cases h; simp
  fixed := by intro _ _ h; cases h

theorem envOk_free (ho : OrcOk o) {p q n : Nat} {g : List Region} :
    Coarse.Spec.EnvOk (fixedEnv (o.onFree p) o.garbage) (.free q n) g where
  free1 := ho.free _ _ (by simp)
  free2 := ho.free _ _ (by simp)
  reAdd := ho.free _ _ (by simp)
  flag := by intro s a e; cases e
  up := by intro _ _ _ _ e; cases e
  upErr := by intro _ _ r h; cases h; simp
  fixed := by intro _ _ h; cases h

theorem envOk_add (ho : OrcOk o) {buf : Region} (h1 : buf.1 + buf.2 < 2 ^ 64) :
    Coarse.Spec.EnvOk (fixedEnv o.onAlloc o.garbage) (.addFixed buf.1 buf.2) [] where
  free1 := ho.alloc _ (by simp)
  free2 := ho.alloc _ (by simp)
  reAdd := ho.alloc _ (by simp)
  flag := by intro s a e; cases e
  up := by intro _ _ _ _ e; cases e
  upErr := by intro _ _ r h; cases h; simp
  fixed := by
    intro a s e ha hs
    cases e
    exact ⟨Nat.pos_of_ne_zero ha, Nat.pos_of_ne_zero hs, Nat.le_of_lt h1, by intro g hg; cases hg⟩

/-- The coarse allocator of a fixed provider allocates. -/
theorem co_alloc (hf : FixOk f) (ho : OrcOk o) (hs : 0 < size) {cl : List Region}
    (hc : Coarse.Spec.Reach f.cfg Coarse.Spec.Mergeable f.co cl [f.buf])
    {r : Coarse.St × Coarse.Out}
    (hr : Coarse.alloc f.cfg (fixedEnv o.onAlloc o.garbage) f.co size align = r) :
    (r.2.res ≠ .success → Coarse.Spec.Reach f.cfg Coarse.Spec.Mergeable r.1 cl [f.buf]) ∧
    (r.2.res = .success →
      Coarse.Spec.Reach f.cfg Coarse.Spec.Mergeable r.1 ((r.2.ptr, size) :: cl) [f.buf] ∧
      0 < r.2.ptr ∧ r.2.ptr + size < 2 ^ 64 ∧ Inside (r.2.ptr, size) f.buf ∧
      (∀ q ∈ cl, Mem.Disjoint (r.2.ptr, size) q) ∧ f.page ∣ r.2.ptr ∧
      (align ≠ 0 → align ∣ r.2.ptr)) := by
  have hg : r.2.got = none := by rw [← hr]; exact alloc_got rfl
  obtain ⟨m, hm⟩ := hf.page
  have he : Coarse.Spec.EnvOk (fixedEnv o.onAlloc o.garbage) (.alloc size align) [f.buf] :=
    envOk_alloc ho hs
  have hst := Coarse.Spec.Reach.step _ (.alloc size align) hc he (fun _ _ _ => rfl)
  have hstep : Coarse.step f.cfg (fixedEnv o.onAlloc o.garbage) f.co (.alloc size align) = r := hr
  rw [hstep] at hst
  have hgr : Coarse.Spec.grantsAfter [f.buf] r.2 = [f.buf] := by
    unfold Coarse.Spec.grantsAfter; rw [hg]
  rw [hgr] at hst
  constructor
  · intro hne
    have : Coarse.Spec.liveAfter cl (.alloc size align) r.2 = cl := by
      unfold Coarse.Spec.liveAfter; rw [if_neg hne]
    rw [this] at hst
    exact hst
  · intro hsu
    have hl : Coarse.Spec.liveAfter cl (.alloc size align) r.2 = (r.2.ptr, size) :: cl := by
      unfold Coarse.Spec.liveAfter; rw [if_pos hsu]
    rw [hl] at hst
    have h2 := Coarse.C02_alignedAndSized (k := m) hm hc.any he (by rw [hstep]; exact hsu)
    rw [hstep] at h2
    obtain ⟨h3, h4, _, h5, h6⟩ := h2
    have h7 := (Coarse.C01_liveDisjoint (k := m) hm hst.any).2 _ List.mem_cons_self
    have hin : Inside (r.2.ptr, size) f.buf := by
      intro x hx
      obtain ⟨g, hg', hx'⟩ := h7.2.2.2 x hx
      rw [List.mem_singleton] at hg'
      subst hg'
      exact hx'
    have hb : r.2.ptr + size < 2 ^ 64 := by
      have h8 := (hin (r.2.ptr + size - 1) ⟨by show r.2.ptr ≤ _; omega, by show _ < r.2.ptr + size; omega⟩).2
      have := hf.bound
      omega
    exact ⟨hst, h7.1, hb, hin, fun q hq x hx => h5 q hq x ⟨hx.2, hx.1⟩, Nat.dvd_of_mod_eq_zero h3,
      fun ha => Nat.dvd_of_mod_eq_zero (h4 ha)⟩

/-- The coarse allocator of a fixed provider releases a live allocation. -/
theorem co_free (hf : FixOk f) (ho : OrcOk o) {p q n : Nat} {co : Coarse.St} {cl : List Region}
    (hc : Coarse.Spec.Reach f.cfg Coarse.Spec.Mergeable co cl [f.buf]) (hm : (q, n) ∈ cl) :
    (Coarse.free (fixedEnv (o.onFree p) o.garbage) co q n).2.res = .success ∧
    ∃ cl', Coarse.Spec.Reach f.cfg Coarse.Spec.Mergeable
        (Coarse.free (fixedEnv (o.onFree p) o.garbage) co q n).1 cl' [f.buf] ∧
      ∀ r, r ∈ cl' ↔ r ∈ cl ∧ r ≠ (q, n) := by
  obtain ⟨m, hpg⟩ := hf.page
  have hdis := Coarse.C01_liveDisjoint (k := m) hpg hc.any
  have he : Coarse.Spec.EnvOk (fixedEnv (o.onFree p) o.garbage) (.free q n) [f.buf] := envOk_free ho
  have hst := Coarse.Spec.Reach.step _ (.free q n) hc he (fun _ _ _ => rfl)
  have hsu := (Coarse.C07_free (k := m) (env := fixedEnv (o.onFree p) o.garbage) (ptr := q) (size := n)
    hpg hc.any he.reAdd).1.2 (Or.inr ⟨n, hm, Or.inr rfl⟩)
  have hgot : (Coarse.free (fixedEnv (o.onFree p) o.garbage) co q n).2.got = none := by
    unfold Coarse.free
    split
    · rfl
    · split
      · rfl
      · split
        · rfl
        · split
          · rfl
          · dsimp only
            split <;> rfl
  have hstep : Coarse.step f.cfg (fixedEnv (o.onFree p) o.garbage) co (.free q n) =
    Coarse.free (fixedEnv (o.onFree p) o.garbage) co q n := rfl
  rw [hstep] at hst hsu
  refine ⟨hsu, Coarse.Spec.liveAfter cl (.free q n)
    (Coarse.free (fixedEnv (o.onFree p) o.garbage) co q n).2, ?_, ?_⟩
  · have hgr : Coarse.Spec.grantsAfter [f.buf]
        (Coarse.free (fixedEnv (o.onFree p) o.garbage) co q n).2 = [f.buf] := by
      unfold Coarse.Spec.grantsAfter; rw [hgot]
    rw [hgr] at hst
    exact hst
  · intro r
    unfold Coarse.Spec.liveAfter
    rw [if_pos hsu]
    simp only [List.mem_filter, bne_iff_ne]
    constructor
    · rintro ⟨h1, h2⟩
      exact ⟨h1, fun e => h2 (by rw [e])⟩
    · rintro ⟨h1, h2⟩
      refine ⟨h1, ?_⟩
      have hd : Mem.Disjoint r (q, n) :=
        pw_of hdis.1 (fun a b hab x hx => hab x ⟨hx.2, hx.1⟩) h1 hm h2
      exact ne_of_disj hd (hdis.2 r h1).2.1 (hdis.2 _ hm).2.1

theorem setCo_prov (u : Nat) (co : Coarse.St) :
    (w.setCo v f co).prov u = if u = v then some { f with co := co } else w.prov u := rfl

/-- Putting the parts of the books together again. -/
theorem winv_mk (h : WInv w own mem) (hv : w.prov v = some f) {co : Coarse.St} {cl : List Region}
    {tr : Tracker.St} {tl : List Tracker.Alloc} {mem' : Nat → List Region}
    (hc : Coarse.Spec.Reach f.cfg Coarse.Spec.Mergeable co cl [f.buf])
    (hcl : ∀ r, r ∈ cl ↔ ∃ k, own k = some v ∧ r ∈ mem' k)
    (hoth : ∀ k, own k ≠ some v → mem' k = mem k)
    (ht : Tracker.Reach false tr tl) (hp : tl.Pairwise fun a b => Mem.Disjoint a.range b.range)
    (htl : ∀ a, a ∈ tl ↔ a.range ∈ mem' a.pool) (hn : ∀ k, (mem' k).Nodup) :
    WInv ⟨tr, (w.setCo v f co).prov⟩ own mem' where
  ok := by
    intro u g hg
    simp only [setCo_prov] at hg
    by_cases hu : u = v
    · rw [if_pos hu] at hg
      cases hg
      exact ⟨(h.ok v f hv).page, (h.ok v f hv).ptr, (h.ok v f hv).size, (h.ok v f hv).bound⟩
    · rw [if_neg hu] at hg
      exact h.ok u g hg
  co := by
    intro u g hg
    simp only [setCo_prov] at hg
    by_cases hu : u = v
    · rw [if_pos hu] at hg
      cases hg
      subst hu
      exact ⟨cl, hc, hcl⟩
    · rw [if_neg hu] at hg
      obtain ⟨cl', h1, h2⟩ := h.co u g hg
      refine ⟨cl', h1, fun r => (h2 r).trans ?_⟩
      constructor
      · rintro ⟨k, h3, h4⟩
        exact ⟨k, h3, by rw [hoth k (by rw [h3]; intro e; cases e; exact hu rfl)]; exact h4⟩
      · rintro ⟨k, h3, h4⟩
        exact ⟨k, h3, by rw [hoth k (by rw [h3]; intro e; cases e; exact hu rfl)] at h4; exact h4⟩
  apart := by
    have key : ∀ u g, (w.setCo v f co).prov u = some g → ∃ g', w.prov u = some g' ∧ g'.buf = g.buf := by
      intro u g hg
      simp only [setCo_prov] at hg
      by_cases hu : u = v
      · rw [if_pos hu] at hg
        cases hg
        exact ⟨f, by rw [hu]; exact hv, rfl⟩
      · rw [if_neg hu] at hg
        exact ⟨g, hg, rfl⟩
    intro u g u' g' hg hg' hne
    obtain ⟨g1, h1, h2⟩ := key u g hg
    obtain ⟨g2, h3, h4⟩ := key u' g' hg'
    rw [← h2, ← h4]
    exact h.apart u g1 u' g2 h1 h3 hne
  owned := by
    intro k r hr
    by_cases hk : own k = some v
    · exact ⟨v, { f with co := co }, hk, by rw [setCo_prov, if_pos rfl]⟩
    · rw [hoth k hk] at hr
      obtain ⟨u, g, h1, h2⟩ := h.owned k r hr
      refine ⟨u, g, h1, ?_⟩
      simp only [setCo_prov]
      rw [if_neg (by rintro rfl; exact hk h1)]
      exact h2
  tr := ⟨tl, ht, hp, htl⟩
  nodup := hn

/-- What an allocation from the tracking provider does. -/
theorem provAlloc_spec (h : WInv w own mem) (ho : OrcOk o) (hk : own k = some v)
    (hv : w.prov v = some f) (hs : 0 < size) :
    (∃ co, (provAlloc w k v size align o).1.prov = (w.setCo v f co).prov) ∧
    ((provAlloc w k v size align o).2 = none → WInv (provAlloc w k v size align o).1 own mem) ∧
    ∀ p, (provAlloc w k v size align o).2 = some p →
      WInv (provAlloc w k v size align o).1 own (upd mem k ((p, size) :: mem k)) ∧
      0 < p ∧ p + size < 2 ^ 64 ∧ (∀ j, ∀ q ∈ mem j, Mem.Disjoint (p, size) q) ∧ f.page ∣ p ∧
      (align ≠ 0 → align ∣ p) := by
  obtain ⟨cl, hc, hcl⟩ := h.co v f hv
  obtain ⟨tl, ht, hp, htl⟩ := h.tr
  rcases hr : Coarse.alloc f.cfg (fixedEnv o.onAlloc o.garbage) f.co size align with ⟨co, out⟩
  obtain ⟨h1, h2⟩ := co_alloc (h.ok v f hv) ho hs hc hr
  simp only at h1 h2
  unfold provAlloc
  rw [hv]
  dsimp only
  rw [hr]
  dsimp only
  by_cases hsu : out.res = .success
  · rw [if_pos hsu]
    obtain ⟨h3, h4, h5, hin, h6, h7, h8⟩ := h2 hsu
    have hall : ∀ j, ∀ q ∈ mem j, Mem.Disjoint (out.ptr, size) q := by
      intro j q hq
      obtain ⟨u, g, hu, hg⟩ := h.owned j q hq
      by_cases huv : u = v
      · subst huv
        exact h6 q ((hcl q).2 ⟨j, hu, hq⟩)
      · obtain ⟨_, _, u', g', hu', hg', hin'⟩ := h.mem_pos hq
        rw [hu] at hu'; cases hu'
        rw [hg] at hg'; cases hg'
        exact disjoint_of_inside (h.apart v f u g hv hg (fun e => huv e.symm)) hin hin'
    have hnot : ∀ j, (out.ptr, size) ∉ mem j := fun j hj =>
      hall j _ hj out.ptr ⟨⟨Nat.le_refl _, by show out.ptr < out.ptr + size; omega⟩,
        Nat.le_refl _, by show out.ptr < out.ptr + size; omega⟩
    rcases hta : Tracker.trackingAlloc (w.setCo v f co).tr k size (.ok out.ptr) o.trk with
      ⟨tr', res, given, back⟩
    have htr : (w.setCo v f co).tr = w.tr := rfl
    rw [htr] at hta
    by_cases hres : res = .success
    · subst hres
      have hgb : given = out.ptr ∧ back = none := by
        have h9 := hta
        unfold Tracker.trackingAlloc at h9
        dsimp only at h9
        rw [if_neg (by omega)] at h9
        split at h9
        · injection h9 with e1 e2
          injection e2 with e2 e3
          injection e3 with e3 e4
          exact ⟨e3.symm, e4.symm⟩
        · rename_i hne _
          injection h9 with e1 e2
          injection e2 with e2 e3
          exact absurd e2 (by simpa using hne)
      obtain ⟨rfl, rfl⟩ := hgb
      dsimp only
      rw [if_neg (by omega)]
      refine ⟨⟨co, rfl⟩, by simp, ?_⟩
      intro p hp'
      cases hp'
      have hmem : ∀ j r, r ∈ upd mem k ((out.ptr, size) :: mem k) j ↔
          (j = k ∧ r = (out.ptr, size)) ∨ r ∈ mem j := by
        intro j r
        by_cases hjk : j = k
        · subst hjk; rw [upd_self, List.mem_cons]; simp
        · rw [upd_ne hjk]; simp [hjk]
      refine ⟨winv_mk (w := w) h hv h3 (tl := ⟨out.ptr, size, k⟩ :: tl) ?_ ?_ ?_ ?_ ?_ ?_, h4, h5, hall, h7, h8⟩
      · intro r
        rw [List.mem_cons, hcl]
        constructor
        · rintro (rfl | ⟨j, h9, h10⟩)
          · exact ⟨k, hk, (hmem _ _).2 (Or.inl ⟨rfl, rfl⟩)⟩
          · exact ⟨j, h9, (hmem _ _).2 (Or.inr h10)⟩
        · rintro ⟨j, h9, h10⟩
          rcases (hmem _ _).1 h10 with h11 | h11
          · exact Or.inl h11.2
          · exact Or.inr ⟨j, h9, h11⟩
      · intro j hj
        exact upd_ne (by rintro rfl; exact hj hk)
      · refine Tracker.Reach.alloc ht ⟨h4, hs, h5, ?_⟩ hta
        intro a ha
        exact Or.inl (hall _ _ ((htl a).1 ha))
      · rw [List.pairwise_cons]
        exact ⟨fun a ha => hall _ _ ((htl a).1 ha), hp⟩
      · intro a
        rw [List.mem_cons, htl, hmem]
        constructor
        · rintro (rfl | h9)
          · exact Or.inl ⟨rfl, rfl⟩
          · exact Or.inr h9
        · rintro (⟨h9, h10⟩ | h9)
          · refine Or.inl ?_
            obtain ⟨a1, a2, a3⟩ := a
            simp only at h9
            unfold Tracker.Alloc.range at h10
            injection h10 with h10 h11
            simp only at h10 h11
            rw [h9, h10, h11]
          · exact Or.inr h9
      · intro j
        by_cases hjk : j = k
        · subst hjk; rw [upd_self, List.nodup_cons]; exact ⟨hnot _, h.nodup _⟩
        · rw [upd_ne hjk]; exact h.nodup j
    · obtain ⟨rfl, rfl, rfl⟩ := Tracker.C15_refusedAlloc (by omega) hta hres
      obtain ⟨h9, cl', h10, h11⟩ := co_free (p := out.ptr) (h.ok v f hv) ho h3 List.mem_cons_self
      have hkeep : WInv ⟨w.tr, (w.setCo v f
          (Coarse.free (fixedEnv (o.onFree out.ptr) o.garbage) co out.ptr size).1).prov⟩ own mem := by
        refine winv_mk (w := w) h hv h10 (tl := tl) ?_ (fun _ _ => rfl) ht hp htl h.nodup
        intro r
        rw [h11, List.mem_cons, ← hcl]
        constructor
        · rintro ⟨h12 | h12, h13⟩
          · exact absurd h12 h13
          · exact h12
        · intro h12
          refine ⟨Or.inr h12, ?_⟩
          rintro rfl
          obtain ⟨j, _, hj⟩ := (hcl _).1 h12
          exact hnot j hj
      have hshape : (((w.setCo v f co).setCo v f
          (Coarse.free (fixedEnv (o.onFree out.ptr) o.garbage) co out.ptr size).1).prov) =
          (w.setCo v f (Coarse.free (fixedEnv (o.onFree out.ptr) o.garbage) co out.ptr size).1).prov := by
        funext u
        simp only [setCo_prov]
        split <;> rfl
      cases res with
      | success => exact absurd rfl hres
      | _ =>
        dsimp only
        rw [hshape]
        exact ⟨⟨_, rfl⟩, fun _ => hkeep, by intro p hp'; cases hp'⟩
  · rw [if_neg hsu]
    have hta : Tracker.trackingAlloc (w.setCo v f co).tr k size (.fail 1) o.trk =
      (w.tr, .upstream 1, 0, none) := rfl
    rw [hta]
    dsimp only
    refine ⟨⟨co, rfl⟩, fun _ => ?_, by intro p hp'; cases hp'⟩
    exact winv_mk (w := w) h hv (h1 hsu) (tl := tl) hcl (fun _ _ => rfl) ht hp htl h.nodup

/-- What releasing a range in the books does. -/
theorem provFree_spec (h : WInv w own mem) (ho : OrcOk o) (hk : own k = some v)
    (hv : w.prov v = some f) {ptr : Nat} (hm : (ptr, size) ∈ mem k) :
    (∃ co, (provFree w k v ptr size o).1.prov = (w.setCo v f co).prov) ∧
    (provFree w k v ptr size o).2 = true ∧
    WInv (provFree w k v ptr size o).1 own (upd mem k ((mem k).erase (ptr, size))) := by
  obtain ⟨cl, hc, hcl⟩ := h.co v f hv
  obtain ⟨tl, ht, hp, htl⟩ := h.tr
  obtain ⟨h1, cl', h2, h3⟩ := co_free (p := ptr) (h.ok v f hv) ho hc ((hcl _).2 ⟨k, hk, hm⟩)
  unfold provFree
  rw [hv]
  dsimp only
  rw [if_pos h1]
  have ha : (⟨ptr, size, k⟩ : Tracker.Alloc) ∈ tl := (htl _).2 hm
  obtain ⟨l1, l2, rfl⟩ := List.append_of_mem ha
  have hpos := h.mem_pos hm
  have hp' := hp
  rw [List.pairwise_append, List.pairwise_cons] at hp'
  obtain ⟨hp1, ⟨hp2, hp3⟩, hp4⟩ := hp'
  refine ⟨⟨_, rfl⟩, rfl, ?_⟩
  have hmem : ∀ j r, r ∈ upd mem k ((mem k).erase (ptr, size)) j ↔
      r ∈ mem j ∧ ¬ (j = k ∧ r = (ptr, size)) := by
    intro j r
    by_cases hjk : j = k
    · subst hjk
      rw [upd_self, (h.nodup j).mem_erase_iff]
      constructor
      · rintro ⟨h4, h5⟩; exact ⟨h5, fun h6 => h4 h6.2⟩
      · rintro ⟨h4, h5⟩; exact ⟨fun h6 => h5 ⟨rfl, h6⟩, h4⟩
    · rw [upd_ne hjk]; simp [hjk]
  have hself : ¬ Mem.Disjoint (ptr, size) (ptr, size) := by
    intro hd
    exact ne_of_disj hd hpos.2.1 hpos.2.1 rfl
  refine winv_mk (w := w) h hv h2 (tl := l1 ++ l2) ?_ ?_ ?_ ?_ ?_ ?_
  · intro r
    rw [h3, hcl]
    constructor
    · rintro ⟨⟨j, h4, h5⟩, h6⟩
      exact ⟨j, h4, (hmem _ _).2 ⟨h5, fun h7 => h6 h7.2⟩⟩
    · rintro ⟨j, h4, h5⟩
      obtain ⟨h6, h7⟩ := (hmem _ _).1 h5
      refine ⟨⟨j, h4, h6⟩, ?_⟩
      rintro rfl
      by_cases hjk : j = k
      · exact h7 ⟨hjk, rfl⟩
      · exact hself (h.disj h6 hm (fun e => hjk (by injection e)))
  · intro j hj
    exact upd_ne (by rintro rfl; exact hj hk)
  · exact Tracker.Reach.free ht fun b hb => hp4 b hb _ List.mem_cons_self
  · rw [List.pairwise_append]
    exact ⟨hp1, hp3, fun a ha b hb => hp4 a ha b (List.mem_cons_of_mem _ hb)⟩
  · intro a
    rw [hmem, ← htl]
    simp only [List.mem_append, List.mem_cons]
    constructor
    · intro h4
      have h5 : a ≠ ⟨ptr, size, k⟩ := by
        rintro rfl
        rcases h4 with h4 | h4
        · exact hself (hp4 _ h4 _ List.mem_cons_self)
        · exact hself (hp2 _ h4)
      refine ⟨by rcases h4 with h4 | h4 <;> simp [h4], ?_⟩
      rintro ⟨h6, h7⟩
      apply h5
      obtain ⟨a1, a2, a3⟩ := a
      unfold Tracker.Alloc.range at h7
      injection h7 with h7 h8
      simp only at h6 h7 h8
      rw [h6, h7, h8]
    · rintro ⟨h4 | h4 | h4, h5⟩
      · exact Or.inl h4
      · subst h4
        exact absurd ⟨rfl, rfl⟩ h5
      · exact Or.inr h4
  · intro j
    by_cases hjk : j = k
    · subst hjk; rw [upd_self]; exact (h.nodup _).erase _
    · rw [upd_ne hjk]; exact h.nodup j

end Verif.Stack
