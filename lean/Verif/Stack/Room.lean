import Verif.Stack.Inv
/-! A request is refused only when there is no room. -/
namespace Verif.Stack
open Mem

/-- The tracker takes a range that has nothing in common with the others. -/
theorem track_ok {st : Tracker.St} {live : List Tracker.Alloc} (h : Tracker.Reach false st live)
    {k p size : Nat} (hp : 0 < p) (hs : 0 < size) (hb : p + size < 2 ^ 64)
    (hd : ∀ a ∈ live, Mem.Disjoint (p, size) a.range) :
    ∃ st', Tracker.trackingAlloc st k size (.ok p) true = (st', .success, p, none) := by
  obtain ⟨G, hi, rfl⟩ := Tracker.reach_inv h
  have hd' : ∀ n ∈ G, Mem.Disjoint (p, size) n.rg := fun n hn => hd n.alloc (List.mem_map_of_mem hn)
  have hno : ∀ n ∈ G, ¬ Has n.rg p := fun n hn hx =>
    hd' n hn p ⟨⟨Nat.le_refl _, by show p < p + size; omega⟩, hx⟩
  have hpl : Tracker.Place G p 0 none := Or.inl ⟨hno, rfl, rfl⟩
  have h1 := Tracker.inv_insert (l1 := []) (l2 := G) (pool := k) hi hp hs hb
    (by intro b hb; cases hb) (fun a ha => Or.inl (hd' a ha)) hpl
  have h2 := Tracker.add_place (size := size) (pool := k) (host := true) hi hb
    (fun m hm hx => absurd hx (hno m hm)) hpl
  unfold Tracker.trackingAlloc
  dsimp only
  rw [if_neg (by omega), h2]
  rcases hr : Tracker.addAtLevel st 0 k p size none true with ⟨st', r⟩
  rw [hr] at h1
  obtain ⟨h3, _⟩ := h1
  dsimp only at h3
  subst h3
  exact ⟨st', rfl⟩

variable {w : World} {own : Nat → Option Nat} {mem : Nat → List Region} {o : Orc}
  {k size align v : Nat} {f : Fixed} {p : Pool}

/-- The provider has room for `size` bytes. -/
theorem provAlloc_room (h : WInv w own mem) (ho : OrcOk o) (hc : Calm o)
    (hv : w.prov v = some f) (hs : 0 < size) {start n : Nat} (hn : size ≤ n)
    (hrun : ∀ x, Has (start, n + f.page) x → Has f.buf x ∧ Tracker.poolByPtr w.tr x = none) :
    (provAlloc w k v size 0 o).2 ≠ none := by
  obtain ⟨cl, hco, hcl⟩ := h.co v f hv
  obtain ⟨tl, ht, hp, htl⟩ := h.tr
  obtain ⟨m, hm⟩ := (h.ok v f hv).page
  have h6 := Coarse.C06_fastest (k := m) hm hco (env := fixedEnv o.onAlloc o.garbage) (size := size)
    (align := 0) (envOk_alloc ho hs) (fun _ _ _ => rfl) hc.alloc hs (Or.inl rfl) start (by
      intro x hx
      have hx' : Has (start, n + f.page) x := by
        have h1 : start ≤ x := hx.1
        have h2 : x < start + (size + max f.page 0) := hx.2
        exact ⟨h1, by show x < start + (n + f.page); omega⟩
      obtain ⟨h1, h2⟩ := hrun x hx'
      refine ⟨⟨f.buf, by simp, h1⟩, ?_⟩
      rintro ⟨r, hr, hrx⟩
      obtain ⟨j, _, hj⟩ := (hcl r).1 hr
      rw [(info_of h hj hrx).2.1] at h2
      cases h2)
  rcases hr : Coarse.alloc f.cfg (fixedEnv o.onAlloc o.garbage) f.co size 0 with ⟨co, out⟩
  have hstep : Coarse.step f.cfg (fixedEnv o.onAlloc o.garbage) f.co (.alloc size 0) = (co, out) := hr
  rw [hstep] at h6
  have hsu : out.res = .success := h6.1
  obtain ⟨h3, h4, h5, hin, h7, _, _⟩ := (co_alloc (h.ok v f hv) ho hs hco hr).2 hsu
  dsimp only at h3 h4 h5 hin h7
  have hall : ∀ a ∈ tl, Mem.Disjoint (out.ptr, size) a.range := by
    intro a ha
    have hq := (htl a).1 ha
    obtain ⟨u, g, hu, hg⟩ := h.owned _ _ hq
    by_cases huv : u = v
    · subst huv
      exact h7 _ ((hcl _).2 ⟨_, hu, hq⟩)
    · obtain ⟨_, _, u', g', hu', hg', hin'⟩ := h.mem_pos hq
      rw [hu] at hu'; cases hu'
      rw [hg] at hg'; cases hg'
      exact disjoint_of_inside (h.apart v f u g hv hg (fun e => huv e.symm)) hin hin'
  obtain ⟨tr', h8⟩ := track_ok (k := k) ht h4 hs h5 hall
  unfold provAlloc
  rw [hv]
  dsimp only
  rw [hr]
  dsimp only
  rw [if_pos hsu, hc.trk]
  have htr : (w.setCo v f co).tr = w.tr := rfl
  rw [htr, h8]
  dsimp only
  rw [if_neg (by omega)]
  intro e
  cases e

theorem takeHead_null {c : Disjoint.Cfg} {i : Nat} {st st' : Disjoint.St}
    (h : Disjoint.takeHead c i st = (st', .null)) : (st.bk i).avail = [] := by
  unfold Disjoint.takeHead at h
  dsimp only at h
  cases hb : (st.bk i).avail with
  | nil => rfl
  | cons s rest =>
    rw [hb] at h
    dsimp only at h
    split at h
    · cases h
    · cases h

/-- A pool refuses a request only when the provider, or the host allocator, does. -/
theorem malloc_null {c : Disjoint.Cfg} (hc : Disjoint.CfgOk c) {st : Disjoint.St}
    {live : List Region} {ext : Nat} (hr : Disjoint.Reach c st live ext) {env : Disjoint.Env}
    (he : Disjoint.EnvOk c st.mem env) {st' : Disjoint.St} (hs : 0 < size)
    (hm : Disjoint.malloc c st size env = (st', .null)) :
    env.host = false ∨ env.reg = false ∨ (c.maxPoolable < size ∧ env.up size 0 = none) ∨
      (size ≤ c.maxPoolable ∧ ∃ cl, Disjoint.Tightest (Disjoint.classes c.minBucket) size cl ∧
        env.up (max cl c.slabMin) 0 = none) := by
  obtain ⟨G, _, hI⟩ := Disjoint.reach_inv hc hr
  unfold Disjoint.malloc at hm
  rw [if_neg (by omega)] at hm
  by_cases h1 : c.maxPoolable < size
  · rw [if_pos h1] at hm
    unfold Disjoint.direct at hm
    cases hu : env.up size 0 with
    | none => exact Or.inr (Or.inr (Or.inl ⟨h1, rfl⟩))
    | some q => rw [hu] at hm; cases hm
  · rw [if_neg h1] at hm
    have hle : size ≤ c.maxPoolable := by omega
    obtain ⟨cl, h2, h3⟩ := Disjoint.C22_tightestClass c.minBucket size
      (Disjoint.isPow2_iff.2 hc.minBucket) (Nat.le_trans hle hc.maxPoolable)
    unfold Disjoint.fromBucket at hm
    dsimp only at hm
    generalize hi : Disjoint.sizeToIdx (Disjoint.minExp c.minBucket) size = i at hm h2
    have hcs : Disjoint.csize c i = cl := by unfold Disjoint.csize; rw [h2]; rfl
    split at hm
    · unfold Disjoint.getFreeChunk at hm
      cases hav : (st.bk i).avail with
      | nil =>
        rw [hav] at hm
        dsimp only at hm
        unfold Disjoint.createSlab at hm
        by_cases hh : env.host = false
        · exact Or.inl hh
        rw [if_neg hh] at hm
        have hss : Disjoint.slabSize c i = max cl c.slabMin := by unfold Disjoint.slabSize; rw [hcs]
        cases hu : env.up (Disjoint.slabSize c i) 0 with
        | none =>
          rw [hss] at hu
          exact Or.inr (Or.inr (Or.inr ⟨hle, cl, h3, hu⟩))
        | some q =>
          rw [hu] at hm
          dsimp only at hm
          by_cases hreg : env.reg = false
          · exact Or.inr (Or.inl hreg)
          exfalso
          have hkn : ¬ st.known.any (fun e => e.1 == q) = true := by
            intro hk
            rw [List.any_eq_true] at hk
            obtain ⟨e, he1, he2⟩ := hk
            rw [beq_iff_eq] at he2
            obtain ⟨h4, s, hs1, hs2⟩ := hI.core.knownSlab e he1
            have hin := ((hI.bk e.2 h4).slab s hs1).inMem
            have hpos : 0 < Disjoint.slabSize c e.2 := by
              have := hc.slabMin; unfold Disjoint.slabSize; omega
            have hpos' : 0 < Disjoint.slabSize c i := by
              have := hc.slabMin; unfold Disjoint.slabSize; omega
            obtain ⟨_, _, h5, _⟩ := he _ _ _ hu hpos'
            exact ne_of_disj (h5 _ hin) hpos' hpos (by show q = s.base; rw [hs2, he2])
          rw [if_neg (by rintro (h | h); exacts [hreg h, hkn h])] at hm
          have := takeHead_null hm
          unfold Disjoint.setBk at this
          simp at this
      | cons s rest =>
        rw [hav] at hm
        dsimp only at hm
        exfalso
        split at hm
        · have := takeHead_null hm
          unfold Disjoint.setBk at this
          simp [hav] at this
        · have := takeHead_null hm
          rw [hav] at this
          cases this
    · cases hm

end Verif.Stack
