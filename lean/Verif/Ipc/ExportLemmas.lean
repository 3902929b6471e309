import Verif.Ipc.ExportSpec
import Verif.Tracker.Props
/-! # Invariant of exporting -/
set_option linter.unusedSimpArgs false
set_option linter.unusedVariables false
namespace Verif.Ipc
open Mem Tracker

structure PInv (ps : PSt) (live : List Alloc) (made : List Handle) : Prop where
  tr : Tracker.Reach false ps.tr live
  apart : live.Pairwise fun a b => a.pool = b.pool → Disjoint a.range b.range
  pos : ∀ a ∈ live, 0 < a.size
  cache : ∀ c ∈ ps.cache, ∃ a ∈ live, c.1 = (a.pool, a.ptr) ∧ c.2.dataBase = a.ptr ∧
    c.2.dataSize = a.size
  hidsC : ∀ c ∈ ps.cache, c.2.hid ≤ ps.nextId
  hidsM : ∀ h ∈ made, h.hid ≤ ps.nextId
  madeOk : ∀ h ∈ made, h.dataBase = h.base ∧ h.dataSize = h.size ∧ h.offset < h.size
  same : ∀ h ∈ made, ∀ c ∈ ps.cache, h.hid = c.2.hid → h.base = c.2.dataBase ∧ h.size = c.2.dataSize
  ids : ∀ h ∈ made, ∀ k ∈ made, h.hid = k.hid → h.base = k.base ∧ h.size = k.size
  cids : ∀ c ∈ ps.cache, ∀ d ∈ ps.cache, c.2.hid = d.2.hid → c = d

theorem alloc_eq {live : List Alloc}
    (h : live.Pairwise fun a b => a.pool = b.pool → Disjoint a.range b.range)
    (hpos : ∀ a ∈ live, 0 < a.size) {a b : Alloc} (ha : a ∈ live) (hb : b ∈ live)
    (h1 : a.pool = b.pool) (h2 : a.ptr = b.ptr) : a = b := by
  have key : ∀ c d : Alloc, 0 < c.size → 0 < d.size → c.ptr = d.ptr → ¬ Disjoint c.range d.range := by
    intro c d hc hd hcd hdis
    refine hdis c.ptr ⟨⟨Nat.le_refl _, ?_⟩, ?_, ?_⟩
    · show c.ptr < c.ptr + c.size; omega
    · show d.ptr ≤ c.ptr; omega
    · show c.ptr < d.ptr + d.size; omega
  induction h with
  | nil => cases ha
  | @cons c l h3 _ ih =>
    have hpos' : ∀ a ∈ l, 0 < a.size := fun a ha => hpos a (by simp [ha])
    rcases List.mem_cons.1 ha with rfl | ha' <;> rcases List.mem_cons.1 hb with rfl | hb'
    · rfl
    · exact absurd (h3 b hb' h1) (key _ _ (hpos a ha) (hpos b hb) h2)
    · exact absurd (h3 a ha' h1.symm) (key _ _ (hpos b hb) (hpos a ha) h2.symm)
    · exact ih hpos' ha' hb'

theorem innermost_mem {live : List Alloc} {x : Nat} {a : Alloc} (h : Innermost live x a) :
    a ∈ live ∧ Has a.range x := by
  obtain ⟨l1, l2, rfl, h1, _⟩ := h
  exact ⟨by simp, h1⟩

/-- What the tracker says about an address. -/
theorem info_cases {ps live made} (h : PInv ps live made) (x : Nat) :
    (∃ a, Innermost live x a ∧ Tracker.getAllocInfo ps.tr x = some (a.ptr, a.size, a.pool)) ∨
    Tracker.getAllocInfo ps.tr x = none := by
  obtain ⟨h1, h2, h3⟩ := C14_poolByPtr h.tr x
  rcases h3 with ⟨a, ha⟩ | hn
  · exact Or.inl ⟨a, ha, (h1 a ha).2⟩
  · right
    have := h2 hn
    unfold poolByPtr at this
    simpa using this

theorem cached_some {ps : PSt} {pool base : Nat} {v : HVal} (h : ps.cached pool base = some v) :
    ((pool, base), v) ∈ ps.cache := by
  unfold PSt.cached at h
  obtain ⟨c, h1, h2⟩ := Option.map_eq_some_iff.1 h
  have h3 := List.mem_of_find?_eq_some h1
  have h4 : c.1 = (pool, base) := by simpa using List.find?_some h1
  obtain ⟨c1, c2⟩ := c
  simp only at h2 h4
  subst h2 h4
  exact h3

/-- The handle made for an address. -/
theorem getHandle_cases {ps live made} (h : PInv ps live made) {x : Nat} {up : Option Nat}
    {host : Bool} {ps' : PSt} {r : ExpRes} {o : Option Handle}
    (hg : getHandle ps x up host = (ps', r, o)) :
    (ps' = ps ∧ r ≠ .success ∧ o = none) ∨
    (r = .success ∧ ∃ a v, Innermost live x a ∧ o = some (mkHandle v a.ptr a.size x) ∧
      v.dataBase = a.ptr ∧ v.dataSize = a.size ∧
      ((ps' = ps ∧ ((a.pool, a.ptr), v) ∈ ps.cache) ∨
       (v.hid = ps.nextId + 1 ∧ ps' = { ps with
          cache := ((a.pool, a.ptr), v) :: ps.cache, nextId := ps.nextId + 1 }))) := by
  unfold getHandle at hg
  rcases info_cases h x with ⟨a, ha, hi⟩ | hi
  · rw [hi] at hg
    simp only at hg
    cases hc : ps.cached a.pool a.ptr with
    | some v =>
      rw [hc] at hg
      simp only at hg
      cases host with
      | false => cases hg; exact Or.inl ⟨rfl, by simp, rfl⟩
      | true =>
        cases hg
        have hm := cached_some hc
        obtain ⟨b, hb, k1, k2, k3⟩ := h.cache _ hm
        have hab : a = b := alloc_eq h.apart h.pos (innermost_mem ha).1 hb
          (congrArg Prod.fst k1) (congrArg Prod.snd k1)
        subst hab
        exact Or.inr ⟨rfl, a, v, ha, rfl, k2, k3, Or.inl ⟨rfl, hm⟩⟩
    | none =>
      rw [hc] at hg
      simp only at hg
      cases host with
      | false => cases hg; exact Or.inl ⟨rfl, by simp, rfl⟩
      | true =>
        cases up with
        | some c => cases hg; exact Or.inl ⟨rfl, by simp, rfl⟩
        | none => cases hg; exact Or.inr ⟨rfl, a, _, ha, rfl, rfl, rfl, Or.inr ⟨rfl, rfl⟩⟩
  · rw [hi] at hg
    cases hg
    exact Or.inl ⟨rfl, by simp, rfl⟩

theorem pinv_free {ps : PSt} {l1 l2 : List Alloc} {a : Alloc} {made : List Handle}
    (h : PInv ps (l1 ++ a :: l2) made) (tr' : Tracker.St) (live' : List Alloc)
    (hr : Tracker.Reach false tr' live') (hsub : live'.Sublist (l1 ++ a :: l2))
    (hkeep : ∀ b ∈ l1 ++ a :: l2, b ≠ a → b ∈ live') :
    PInv { ps with tr := tr', cache := ps.cache.filter fun c => c.1 ≠ (a.pool, a.ptr) } live' made := by
  have hmem : ∀ c ∈ ps.cache.filter (fun c => c.1 ≠ (a.pool, a.ptr)),
      c ∈ ps.cache ∧ c.1 ≠ (a.pool, a.ptr) := by
    intro c hc; rw [List.mem_filter] at hc; exact ⟨hc.1, by simpa using hc.2⟩
  refine ⟨hr, h.apart.sublist hsub, fun b hb => h.pos b (hsub.subset hb), ?_, ?_, h.hidsM, h.madeOk, ?_,
    h.ids, ?_⟩
  · intro c hc
    obtain ⟨h1, h2⟩ := hmem c hc
    obtain ⟨b, hb, k1, k2⟩ := h.cache c h1
    exact ⟨b, hkeep b hb (fun h0 => h2 (by rw [k1, h0])), k1, k2⟩
  · exact fun c hc => h.hidsC c (hmem c hc).1
  · exact fun k hk c hc => h.same k hk c (hmem c hc).1
  · exact fun c hc d hd => h.cids c (hmem c hc).1 d (hmem d hd).1

theorem preach_inv {ps live made} (h : PReach ps live made) : PInv ps live made := by
  induction h with
  | init => exact ⟨.init, by simp, by simp, by simp [PSt.empty], by simp [PSt.empty], by simp,
      by simp, by simp, by simp, by simp [PSt.empty]⟩
  | @alloc ps live made pool size ptr host st' _ h1 h2 h3 ih =>
    refine ⟨.alloc ih.tr h1 h3, List.pairwise_cons.2 ⟨?_, ih.apart⟩, ?_, ?_, ih.hidsC, ih.hidsM,
      ih.madeOk, ih.same, ih.ids, ih.cids⟩
    · exact fun b hb hp => (h2 b hb hp.symm).symm
    · intro b hb
      rcases List.mem_cons.1 hb with rfl | hb
      · exact h1.size
      · exact ih.pos b hb
    · intro c hc
      obtain ⟨b, hb, k⟩ := ih.cache c hc
      exact ⟨b, by simp [hb], k⟩
  | @free ps l1 a l2 made size host _ h1 ih =>
    refine pinv_free ih _ _ (.free ih.tr h1) (by simp) ?_
    intro b hb hne
    simp only [List.mem_append, List.mem_cons] at hb ⊢
    rcases hb with hb | rfl | hb
    · exact Or.inl hb
    · exact absurd rfl hne
    · exact Or.inr hb
  | @freeFail ps l1 a l2 made code _ h1 ih =>
    exact pinv_free ih _ _ (.freeFail ih.tr h1) (List.Sublist.refl _) (fun b hb _ => hb)
  | @«export» ps live made x up host ps' h _ hg ih =>
    rcases getHandle_cases ih hg with ⟨-, h1, -⟩ | ⟨-, a, v, ha, ho, hb, hs, hcase⟩
    · exact absurd rfl h1
    · obtain ⟨hal, hx⟩ := innermost_mem ha
      cases ho
      have hx1 : a.ptr ≤ x := hx.1
      have hx2 : x < a.ptr + a.size := hx.2
      have hmk : (mkHandle v a.ptr a.size x).dataBase = (mkHandle v a.ptr a.size x).base ∧
          (mkHandle v a.ptr a.size x).dataSize = (mkHandle v a.ptr a.size x).size ∧
          (mkHandle v a.ptr a.size x).offset < (mkHandle v a.ptr a.size x).size := by
        refine ⟨hb, hs, ?_⟩
        show x - a.ptr < a.size
        omega
      rcases hcase with ⟨rfl, hm⟩ | ⟨hv, rfl⟩
      · -- the cached handle
        have hkm : ∀ k ∈ made, k.hid = v.hid → k.base = a.ptr ∧ k.size = a.size := by
          intro k hk he
          have := ih.same k hk _ hm he
          rw [hb, hs] at this
          exact this
        refine ⟨ih.tr, ih.apart, ih.pos, ih.cache, ih.hidsC, ?_, ?_, ?_, ?_, ih.cids⟩
        · intro k hk
          rcases List.mem_cons.1 hk with rfl | hk
          · exact ih.hidsC _ hm
          · exact ih.hidsM k hk
        · intro k hk
          rcases List.mem_cons.1 hk with rfl | hk
          · exact hmk
          · exact ih.madeOk k hk
        · intro k hk c hc he
          rcases List.mem_cons.1 hk with rfl | hk
          · have := ih.cids _ hm c hc he
            subst this
            exact ⟨hb.symm, hs.symm⟩
          · exact ih.same k hk c hc he
        · intro k hk j hj he
          rcases List.mem_cons.1 hk with rfl | hk <;> rcases List.mem_cons.1 hj with rfl | hj
          · exact ⟨rfl, rfl⟩
          · exact (hkm j hj he.symm).imp Eq.symm Eq.symm
          · exact hkm k hk he
          · exact ih.ids k hk j hj he
      · -- a new handle
        have hlt : ∀ k ∈ made, k.hid ≠ v.hid := by
          intro k hk he; have := ih.hidsM k hk; omega
        have hltc : ∀ c ∈ ps.cache, c.2.hid ≠ v.hid := by
          intro c hc he; have := ih.hidsC c hc; omega
        refine ⟨ih.tr, ih.apart, ih.pos, ?_, ?_, ?_, ?_, ?_, ?_, ?_⟩
        · intro c hc
          rcases List.mem_cons.1 hc with rfl | hc
          · exact ⟨a, hal, rfl, hb, hs⟩
          · exact ih.cache c hc
        · intro c hc
          show c.2.hid ≤ ps.nextId + 1
          rcases List.mem_cons.1 hc with rfl | hc
          · exact Nat.le_of_eq hv
          · have := ih.hidsC c hc; omega
        · intro k hk
          show k.hid ≤ ps.nextId + 1
          rcases List.mem_cons.1 hk with rfl | hk
          · exact Nat.le_of_eq hv
          · have := ih.hidsM k hk; omega
        · intro k hk
          rcases List.mem_cons.1 hk with rfl | hk
          · exact hmk
          · exact ih.madeOk k hk
        · intro k hk c hc he
          rcases List.mem_cons.1 hk with rfl | hk <;> rcases List.mem_cons.1 hc with rfl | hc
          · exact ⟨hb.symm, hs.symm⟩
          · exact absurd he.symm (hltc c hc)
          · exact absurd he (hlt k hk)
          · exact ih.same k hk c hc he
        · intro k hk j hj he
          rcases List.mem_cons.1 hk with rfl | hk <;> rcases List.mem_cons.1 hj with rfl | hj
          · exact ⟨rfl, rfl⟩
          · exact absurd he.symm (hlt j hj)
          · exact absurd he (hlt k hk)
          · exact ih.ids k hk j hj he
        · intro c hc d hd he
          rcases List.mem_cons.1 hc with rfl | hc <;> rcases List.mem_cons.1 hd with rfl | hd
          · rfl
          · exact absurd he.symm (hltc d hd)
          · exact absurd he (hltc c hc)
          · exact ih.cids c hc d hd he
  | exportFail _ hg ih =>
    rcases getHandle_cases ih hg with ⟨rfl, -, -⟩ | ⟨-, a, v, -, ho, -⟩
    · exact ih
    · cases ho

end Verif.Ipc
