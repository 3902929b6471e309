import Verif.Ipc.Lemmas
/-! # The invariant is kept by mapping, eviction, closing and destroying -/
set_option linter.unusedSimpArgs false
set_option linter.unusedVariables false
namespace Verif.Ipc
open Mem

theorem find_id {sz max s pend op lost} (h : Inv sz max s pend op lost) {e : CEnt}
    (he : e ∈ s.lru) : s.lru.find? (fun f => f.id == e.id) = some e := by
  cases hf : s.lru.find? (fun f => f.id == e.id) with
  | none => have := List.find?_eq_none.1 hf e he; simp at this
  | some f =>
    have h1 := List.mem_of_find?_eq_some hf
    have h2 : f.id = e.id := by simpa using List.find?_some hf
    rw [pairwise_eq (f := CEnt.id) h.ids h1 he h2]

/-- A thread that got an entry that is mapped. -/
theorem inv_token {sz max s pend op lost} (h : Inv sz max s pend op lost) {e : CEnt}
    (he : e ∈ s.lru) (hp : e.id ∈ pend) (hb : e.base ≠ 0) :
    Inv sz max s (pend.erase e.id) (⟨e.key, e.hid, e.base⟩ :: op) lost := by
  refine { h with refs := ?_, toks := ?_, pends := ?_ }
  · intro f hf
    have := h.refs f hf
    rw [List.countP_cons]
    by_cases hc : f = e
    · subst hc
      have h1 := List.count_pos_iff.2 hp
      rw [List.count_erase_self, if_pos (by simp)]
      omega
    · have h1 : f.id ≠ e.id := fun h2 => hc (pairwise_eq (f := CEnt.id) h.ids hf he h2)
      have h2 : e.base ≠ f.base := fun h3 => hc (ent_eq_of_base h he hf h3 hb).symm
      rw [List.count_erase_of_ne h1, if_neg (by simpa using h2)]
      omega
  · intro t ht
    rcases List.mem_cons.1 ht with rfl | ht
    · exact ⟨hb, e, he, rfl, rfl, rfl⟩
    · exact h.toks t ht
  · exact fun i hi => h.pends i (List.mem_of_mem_erase hi)

/-- A failed open. -/
theorem inv_lost {sz max s pend op lost} (h : Inv sz max s pend op lost) {e : CEnt}
    (he : e ∈ s.lru) (hp : e.id ∈ pend) : Inv sz max s (pend.erase e.id) op (e.id :: lost) := by
  refine { h with refs := ?_, losts := ?_, pends := ?_ }
  · intro f hf
    have := h.refs f hf
    by_cases hc : f.id = e.id
    · have h1 := List.count_pos_iff.2 hp
      rw [hc] at this ⊢
      rw [List.count_erase_self, List.count_cons_self]
      omega
    · rw [List.count_erase_of_ne hc, List.count_cons_of_ne (Ne.symm hc)]
      exact this
  · exact fun i hi => h.pends i (List.mem_of_mem_erase hi)
  · intro i hi
    rcases List.mem_cons.1 hi with rfl | hi
    · exact ⟨e, he, rfl⟩
    · exact h.losts i hi

theorem base_in_maps {sz max s pend op lost} (h : Inv sz max s pend op lost) {b size : Nat}
    (hf : FreshMap s.maps b size) : ∀ k ∈ s.maps, k.base ≠ b := by
  intro k hk hc
  have := h.mapsPos k hk
  exact hf.apart k hk b ⟨⟨Nat.le_refl _, by have := hf.nonempty; simp; omega⟩,
    by simp [Mapping.range, hc], by simp [Mapping.range, hc]; omega⟩

/-- The state after a mapping has been made for entry `e`. -/
def mappedSt (s : St) (e : CEnt) (b size : Nat) : St :=
  { s with
    lru := s.lru.map fun f => if f.id = e.id then { f with base := b, size := size } else f
    segs := ⟨b, size, e.key.prov, e.id⟩ :: s.segs
    maps := ⟨e.key.prov, b, size⟩ :: s.maps }

theorem inv_mapped {sz max s pend op lost} (h : Inv sz max s pend op lost) {e : CEnt}
    (he : e ∈ s.lru) (hb : e.base = 0) {b : Nat} (hf : FreshMap s.maps b (sz e.key e.hid)) :
    Inv sz max (mappedSt s e b (sz e.key e.hid)) pend op lost := by
  have hnew := base_in_maps h hf
  have hb0 := hf.pos
  have hm : ∀ f ∈ (mappedSt s e b (sz e.key e.hid)).lru,
      f = { e with base := b, size := sz e.key e.hid } ∨ f ∈ s.lru ∧ f.id ≠ e.id := by
    intro f hf
    obtain ⟨g, hg, rfl⟩ := List.mem_map.1 hf
    by_cases hc : g.id = e.id
    · rw [if_pos hc, pairwise_eq (f := CEnt.id) h.ids hg he hc]; exact Or.inl rfl
    · rw [if_neg hc]; exact Or.inr ⟨hg, hc⟩
  have hin1 : ({ e with base := b, size := sz e.key e.hid } : CEnt) ∈
      (mappedSt s e b (sz e.key e.hid)).lru := List.mem_map.2 ⟨e, he, by rw [if_pos rfl]⟩
  have hin2 : ∀ f ∈ s.lru, f.id ≠ e.id → f ∈ (mappedSt s e b (sz e.key e.hid)).lru :=
    fun f hf hc => List.mem_map.2 ⟨f, hf, by rw [if_neg hc]⟩
  have hpid : ∀ f ∈ s.lru, ∃ f' ∈ (mappedSt s e b (sz e.key e.hid)).lru, f'.id = f.id := by
    intro f hf
    by_cases hc : f.id = e.id
    · exact ⟨_, hin1, hc.symm⟩
    · exact ⟨f, hin2 f hf hc, rfl⟩
  have hopb : ∀ t ∈ op, t.base ≠ b := by
    intro t ht hc
    obtain ⟨h1, f, h2, h3, h4, h5⟩ := h.toks t ht
    have := (h.mapped f h2 (h5 ▸ h1)).2.1
    exact hnew _ this (h5.trans hc)
  constructor
  · refine pairwise_upd _ ?_ h.ids
    intro x y hxy
    show (ite _ _ _ : CEnt).id ≠ (ite _ _ _ : CEnt).id
    repeat' split
    all_goals exact hxy
  · refine pairwise_upd _ ?_ h.keys
    intro x y hxy
    show (ite _ _ _ : CEnt).key ≠ (ite _ _ _ : CEnt).key
    repeat' split
    all_goals exact hxy
  · show s.cur = (List.map _ _).length
    rw [List.length_map, h.cur]
  · exact h.mx
  · intro f hff
    rcases hm f hff with rfl | ⟨h1, h2⟩
    · have h3 := h.refs e he
      have h4 : op.countP (fun t => t.base == e.base) = 0 :=
        countP_zero_base h fun t ht => by rw [hb]; exact (h.toks t ht).1
      have h5 : op.countP (fun t => t.base == b) = 0 := countP_zero_base h hopb
      show e.ref = pend.count e.id + op.countP (fun t => t.base == b) + lost.count e.id
      omega
    · exact h.refs f h1
  · intro f hff hfb
    rcases hm f hff with rfl | ⟨h1, h2⟩
    · exact ⟨List.mem_cons_self, List.mem_cons_self, rfl⟩
    · obtain ⟨g1, g2, g3⟩ := h.mapped f h1 hfb
      exact ⟨List.mem_cons_of_mem _ g1, List.mem_cons_of_mem _ g2, g3⟩
  · intro t ht
    obtain ⟨h1, f, h2, h3, h4, h5⟩ := h.toks t ht
    refine ⟨h1, f, hin2 f h2 ?_, h3, h4, h5⟩
    intro hc
    have := pairwise_eq (f := CEnt.id) h.ids h2 he hc
    subst this
    exact h1 (h5.symm.trans hb)
  · intro i hi
    obtain ⟨f, h1, h2⟩ := h.pends i hi
    obtain ⟨f', g1, g2⟩ := hpid f h1
    exact ⟨f', g1, g2.trans h2⟩
  · intro i hi
    obtain ⟨f, h1, h2⟩ := h.losts i hi
    obtain ⟨f', g1, g2⟩ := hpid f h1
    exact ⟨f', g1, g2.trans h2⟩
  · intro g hg
    rcases List.mem_cons.1 hg with rfl | hg
    · exact ⟨hf.pos, hf.nonempty, hf.bound, _, List.mem_cons_self, rfl, rfl⟩
    · obtain ⟨g1, g2, g3, m, g4, g5⟩ := h.segsOk g hg
      exact ⟨g1, g2, g3, m, List.mem_cons_of_mem _ g4, g5⟩
  · refine List.pairwise_cons.2 ⟨?_, h.segsDisj⟩
    intro g hg
    obtain ⟨g1, g2, g3, m, g4, g5, g6⟩ := h.segsOk g hg
    have := hf.apart m g4
    rw [Mapping.range, g5, g6] at this
    exact this
  · intro m hm0 hmb f hff
    rcases hm f hff with rfl | ⟨h1, h2⟩
    · obtain ⟨k, h3, h4⟩ := h.evMap m hm0 hmb
      exact fun hc => hnew k h3 (h4.trans hc.symm)
    · exact h.evOut m hm0 hmb f h1
  · intro m hm0 hmb
    obtain ⟨k, h3, h4⟩ := h.evMap m hm0 hmb
    exact ⟨k, List.mem_cons_of_mem _ h3, h4⟩
  · exact h.evPair
  · intro k hk
    rcases List.mem_cons.1 hk with rfl | hk
    · exact ⟨hf.pos, hf.nonempty⟩
    · exact h.mapsPos k hk

/-- The outcomes of the second part of an open. -/
theorem mapStep_cases {sz max s pend op lost} (h : Inv sz max s pend op lost) {e : CEnt}
    (he : e ∈ s.lru) {size : Nat} {up : UpOpen} {host : Bool} {s' : St} {r : Res} {b : Nat}
    (hm : mapStep s e.key.prov e.id size up host = (s', r, b)) :
    (e.base ≠ 0 ∧ s' = s ∧ r = .success ∧ b = e.base) ∨
    (e.base = 0 ∧ s' = s ∧ r ≠ .success) ∨
    (e.base = 0 ∧ up = .ok b ∧ r = .success ∧ s' = mappedSt s e b size) := by
  unfold mapStep at hm
  rw [find_id h he] at hm
  simp only at hm
  by_cases hb : e.base ≠ 0
  · rw [if_pos hb] at hm; cases hm; exact Or.inl ⟨hb, rfl, rfl, rfl⟩
  · rw [if_neg hb] at hm
    have hb' : e.base = 0 := by omega
    cases up with
    | fail c => cases hm; exact Or.inr (Or.inl ⟨hb', rfl, by simp⟩)
    | ok c =>
      simp only at hm
      by_cases hh : host = false
      · rw [if_pos hh] at hm; cases hm; exact Or.inr (Or.inl ⟨hb', rfl, by simp⟩)
      · rw [if_neg hh] at hm
        by_cases ha : (s.segs.any fun g => g.base == c) = true
        · rw [if_pos ha] at hm; cases hm; exact Or.inr (Or.inl ⟨hb', rfl, by simp⟩)
        · rw [if_neg ha] at hm; cases hm; exact Or.inr (Or.inr ⟨hb', rfl, rfl, rfl⟩)

theorem inv_map {sz max s pend op lost} (h : Inv sz max s pend op lost) {e : CEnt}
    (he : e ∈ s.lru) (hp : e.id ∈ pend) {up : UpOpen} {host : Bool} {s' : St} {b : Nat}
    (hf : ∀ b, up = .ok b → FreshMap s.maps b (sz e.key e.hid))
    (hm : mapStep s e.key.prov e.id (sz e.key e.hid) up host = (s', .success, b)) :
    Inv sz max s' (pend.erase e.id) (⟨e.key, e.hid, b⟩ :: op) lost := by
  rcases mapStep_cases h he hm with ⟨h1, rfl, -, rfl⟩ | ⟨-, -, h3⟩ | ⟨h1, h2, -, rfl⟩
  · exact inv_token h he hp h1
  · exact absurd rfl h3
  · have hfb := hf b h2
    have hi := inv_mapped h he h1 hfb
    have hin : ({ e with base := b, size := sz e.key e.hid } : CEnt) ∈
      (mappedSt s e b (sz e.key e.hid)).lru := List.mem_map.2 ⟨e, he, by rw [if_pos rfl]⟩
    have hb : b ≠ 0 := Nat.pos_iff_ne_zero.1 hfb.pos
    exact inv_token hi hin hp hb

theorem inv_mapFail {sz max s pend op lost} (h : Inv sz max s pend op lost) {e : CEnt}
    (he : e ∈ s.lru) (hp : e.id ∈ pend) {size : Nat} {up : UpOpen} {host : Bool} {s' : St} {r : Res}
    {b : Nat} (hm : mapStep s e.key.prov e.id size up host = (s', r, b)) (hr : r ≠ .success) :
    Inv sz max s' (pend.erase e.id) op (e.id :: lost) := by
  rcases mapStep_cases h he hm with ⟨h1, rfl, h2, -⟩ | ⟨-, rfl, -⟩ | ⟨h1, h2, h3, -⟩
  · exact absurd h2 hr
  · exact inv_lost h he hp
  · exact absurd h3 hr

/-- Closing a mapping no entry has, and forgetting its segment. -/
theorem inv_drop {sz max s pend op lost} (h : Inv sz max s pend op lost) (m : Mapping)
    (ev : List Mapping) (hsub : ev.Sublist s.evict)
    (hout : m.base ≠ 0 → ∀ e ∈ s.lru, e.base ≠ m.base)
    (hev : ∀ k ∈ ev, k.base ≠ 0 → k.base ≠ m.base) :
    Inv sz max { s with
      evict := ev
      segs := if m.base ≠ 0 then removeSeg s.segs m.base else s.segs
      maps := s.maps.erase m } pend op lost := by
  have hkeep : ∀ k ∈ s.maps, k.base ≠ m.base → k ∈ s.maps.erase m := by
    intro k hk hne
    exact (List.mem_erase_of_ne (fun hc => hne (by rw [hc]))).2 hk
  have hseg : ∀ g, g ∈ (if m.base ≠ 0 then removeSeg s.segs m.base else s.segs) ↔
      g ∈ s.segs ∧ g.base ≠ m.base := by
    intro g
    by_cases hc : m.base ≠ 0
    · rw [if_pos hc, removeSeg, List.mem_filter]; simp
    · rw [if_neg hc]
      refine ⟨fun hg => ⟨hg, ?_⟩, fun hg => hg.1⟩
      have := (h.segsOk g hg).1
      omega
  refine { h with
    mapped := ?_, segsOk := ?_, segsDisj := ?_, evOut := ?_, evMap := ?_, evPair := ?_, mapsPos := ?_ }
  · intro e he hb
    obtain ⟨g1, g2, g3⟩ := h.mapped e he hb
    have hne : e.base ≠ m.base := by
      by_cases hc : m.base ≠ 0
      · exact hout hc e he
      · omega
    exact ⟨(hseg _).2 ⟨g1, hne⟩, hkeep _ g2 hne, g3⟩
  · intro g hg
    obtain ⟨g0, hne⟩ := (hseg g).1 hg
    obtain ⟨g1, g2, g3, k, g4, g5, g6⟩ := h.segsOk g g0
    exact ⟨g1, g2, g3, k, hkeep k g4 (by rw [g5]; exact hne), g5, g6⟩
  · show (if m.base ≠ 0 then removeSeg s.segs m.base else s.segs).Pairwise _
    split
    · exact h.segsDisj.filter _
    · exact h.segsDisj
  · exact fun k hk => h.evOut k (hsub.subset hk)
  · intro k hk hb
    obtain ⟨k', h1, h2⟩ := h.evMap k (hsub.subset hk) hb
    exact ⟨k', hkeep k' h1 (by rw [h2]; exact hev k hk hb), h2⟩
  · exact h.evPair.sublist hsub
  · exact fun k hk => h.mapsPos k (List.mem_of_mem_erase hk)

theorem evict_distinct {l : List Mapping} (h : l.Pairwise fun m k => m.base ≠ 0 → m.base ≠ k.base)
    {m : Mapping} (hm : m ∈ l) : ∀ k ∈ l.erase m, k.base ≠ 0 → k.base ≠ m.base := by
  induction h with
  | nil => cases hm
  | @cons a l h1 h2 ih =>
    intro k hk hb
    by_cases hc : a = m
    · subst hc
      rw [List.erase_cons_head] at hk
      intro he
      exact h1 k hk (fun h0 => hb (he.trans h0)) he.symm
    · rw [List.erase_cons_tail (by simpa using hc)] at hk
      have hm' : m ∈ l := by
        rcases List.mem_cons.1 hm with h3 | h3
        · exact absurd h3.symm hc
        · exact h3
      rcases List.mem_cons.1 hk with rfl | hk
      · exact h1 m hm' hb
      · exact ih hm' k hk hb

theorem inv_evict {sz max s pend op lost} (h : Inv sz max s pend op lost) {m : Mapping}
    (hm : m ∈ s.evict) : Inv sz max (evictCb s m) pend op lost :=
  inv_drop h m _ List.erase_sublist (h.evOut m hm) (evict_distinct h.evPair hm)

/-- The state after entry `e` has been released. -/
def releasedSt (s : St) (e : CEnt) : St :=
  { s with lru := s.lru.map fun f =>
      if f.id = e.id then { f with ref := if f.ref = 0 then 2 ^ 64 - 1 else f.ref - 1 } else f }

/-- Closing an opened mapping at any address in it. -/
theorem close_eq {sz max s pend op lost} (h : Inv sz max s pend op lost) {t : Opened} (ht : t ∈ op)
    {x : Nat} (hx : Has (t.base, sz t.key t.hid) x) :
    ∃ e ∈ s.lru, e.key = t.key ∧ e.hid = t.hid ∧ e.base = t.base ∧
      close s x = (releasedSt s e, .success) := by
  obtain ⟨h1, e, h2, h3, h4, h5⟩ := h.toks t ht
  obtain ⟨g1, g2, g3⟩ := h.mapped e h2 (h5 ▸ h1)
  refine ⟨e, h2, h3, h4, h5, ?_⟩
  have hx' : Has (e.base, e.size) x := by rw [h5, g3, h3, h4]; exact hx
  unfold close
  rw [ipcInfo_eq h g1 hx']
  show release s e.id = _
  unfold release
  rw [if_pos (List.any_eq_true.2 ⟨e, h2, by simp⟩)]
  rfl

theorem inv_close {sz max s pend op lost} (h : Inv sz max s pend op lost) {t : Opened} (ht : t ∈ op)
    {x : Nat} (hx : Has (t.base, sz t.key t.hid) x) {s' : St} {r : Res}
    (hc : close s x = (s', r)) : Inv sz max s' pend (op.erase t) lost := by
  obtain ⟨e, he, k1, k2, k3, k4⟩ := close_eq h ht hx
  rw [k4] at hc
  cases hc
  have hb : e.base ≠ 0 := k3 ▸ (h.toks t ht).1
  have hcnt : ∀ b, op.countP (fun t => t.base == b) =
      (op.erase t).countP (fun t => t.base == b) + if t.base == b then 1 else 0 := by
    intro b
    rw [(List.perm_cons_erase ht).countP_eq, List.countP_cons]
  have hm : ∀ f ∈ (releasedSt s e).lru, ∃ g ∈ s.lru, f.id = g.id ∧ f.key = g.key ∧ f.hid = g.hid ∧
      f.base = g.base ∧ f.size = g.size ∧
      ((g ≠ e ∧ f.ref = g.ref) ∨ (g = e ∧ f.ref = if e.ref = 0 then 2 ^ 64 - 1 else e.ref - 1)) := by
    intro f hf
    obtain ⟨g, hg, rfl⟩ := List.mem_map.1 hf
    by_cases hc : g.id = e.id
    · have := pairwise_eq (f := CEnt.id) h.ids hg he hc
      subst this
      exact ⟨g, hg, by simp, by simp, by simp, by simp, by simp, Or.inr ⟨rfl, by simp⟩⟩
    · exact ⟨g, hg, by simp [hc], by simp [hc], by simp [hc], by simp [hc], by simp [hc],
        Or.inl ⟨fun h0 => hc (by rw [h0]), by simp [hc]⟩⟩
  have hin : ∀ g ∈ s.lru, ∃ f ∈ (releasedSt s e).lru, f.id = g.id ∧ f.key = g.key ∧ f.hid = g.hid ∧
      f.base = g.base := by
    intro g hg
    refine ⟨_, List.mem_map.2 ⟨g, hg, rfl⟩, ?_⟩
    split <;> exact ⟨rfl, rfl, rfl, rfl⟩
  constructor
  · refine pairwise_upd _ ?_ h.ids
    intro x y hxy
    show (ite _ _ _ : CEnt).id ≠ (ite _ _ _ : CEnt).id
    repeat' split
    all_goals exact hxy
  · refine pairwise_upd _ ?_ h.keys
    intro x y hxy
    show (ite _ _ _ : CEnt).key ≠ (ite _ _ _ : CEnt).key
    repeat' split
    all_goals exact hxy
  · show s.cur = (List.map _ _).length
    rw [List.length_map, h.cur]
  · exact h.mx
  · intro f hf
    obtain ⟨g, hg, i1, i2, i3, i4, i5, i6⟩ := hm f hf
    have h1 := h.refs g hg
    have h2 := hcnt g.base
    rw [i1, i4]
    rcases i6 with ⟨hne, i6⟩ | ⟨rfl, i6⟩
    · have : t.base ≠ g.base := by
        rw [← k3]; exact fun h0 => hne (ent_eq_of_base h he hg h0 hb).symm
      rw [if_neg (by simpa using this)] at h2
      omega
    · rw [if_pos (by simp [k3])] at h2
      rw [i6, if_neg (by omega)]
      omega
  · intro f hf hfb
    obtain ⟨g, hg, i1, i2, i3, i4, i5, -⟩ := hm f hf
    rw [i1, i2, i3, i4, i5]
    exact h.mapped g hg (i4 ▸ hfb)
  · intro t' ht'
    obtain ⟨h1, f, h2, h3, h4, h5⟩ := h.toks t' (List.mem_of_mem_erase ht')
    obtain ⟨f', g1, g2, g3, g4, g5⟩ := hin f h2
    exact ⟨h1, f', g1, g3.trans h3, g4.trans h4, g5.trans h5⟩
  · intro i hi
    obtain ⟨f, h1, h2⟩ := h.pends i hi
    obtain ⟨f', g1, g2, _⟩ := hin f h1
    exact ⟨f', g1, g2.trans h2⟩
  · intro i hi
    obtain ⟨f, h1, h2⟩ := h.losts i hi
    obtain ⟨f', g1, g2, _⟩ := hin f h1
    exact ⟨f', g1, g2.trans h2⟩
  · exact h.segsOk
  · exact h.segsDisj
  · intro m hm0 hmb f hf
    obtain ⟨g, hg, i1, i2, i3, i4, -⟩ := hm f hf
    rw [i4]
    exact h.evOut m hm0 hmb g hg
  · exact h.evMap
  · exact h.evPair
  · exact h.mapsPos

theorem inv_destroyOne {sz max s pend op lost} (h : Inv sz max s pend op lost) {e : CEnt}
    (he : e ∈ s.lru) (hp : e.id ∉ pend) (ht : ∀ t ∈ op, t.base ≠ e.base) :
    Inv sz max (destroyOne s e) pend op (lost.filter fun i => e.id ≠ i) := by
  have hmem : ∀ f, f ∈ (s.lru.filter fun f => f.id ≠ e.id) ↔ f ∈ s.lru ∧ f.id ≠ e.id := by
    intro f; rw [List.mem_filter]; simp
  have h' : Inv sz max { s with lru := s.lru.filter fun f => f.id ≠ e.id, cur := s.cur - 1 } pend op
      (lost.filter fun i => e.id ≠ i) := by
    refine { h with
      ids := h.ids.filter _, keys := h.keys.filter _, cur := ?_, refs := ?_, mapped := ?_, toks := ?_,
      pends := ?_, losts := ?_, evOut := ?_ }
    · show s.cur - 1 = _
      have := length_filter_id h.ids he
      rw [h.cur]
      show s.lru.length - 1 = (s.lru.filter fun f => f.id ≠ e.id).length
      omega
    · intro f hf
      obtain ⟨h1, h2⟩ := (hmem f).1 hf
      rw [List.count_filter (by simpa using Ne.symm h2)]
      exact h.refs f h1
    · exact fun f hf => h.mapped f ((hmem f).1 hf).1
    · intro t ht'
      obtain ⟨h1, f, h2, h3, h4, h5⟩ := h.toks t ht'
      refine ⟨h1, f, (hmem f).2 ⟨h2, fun hc => ?_⟩, h3, h4, h5⟩
      rw [pairwise_eq (f := CEnt.id) h.ids h2 he hc] at h5
      exact ht t ht' h5.symm
    · intro i hi
      obtain ⟨f, h1, h2⟩ := h.pends i hi
      exact ⟨f, (hmem f).2 ⟨h1, fun hc => hp (by rw [← hc, h2]; exact hi)⟩, h2⟩
    · intro i hi
      rw [List.mem_filter] at hi
      obtain ⟨f, h1, h2⟩ := h.losts i hi.1
      refine ⟨f, (hmem f).2 ⟨h1, fun hc => ?_⟩, h2⟩
      have h3 : e.id ≠ i := by simpa using hi.2
      exact h3 (hc.symm.trans h2)
    · exact fun m hm hb f hf => h.evOut m hm hb f ((hmem f).1 hf).1
  refine inv_drop h' ⟨e.key.prov, e.base, e.size⟩ s.evict (List.Sublist.refl _) ?_ ?_
  · intro hb f hf hc
    obtain ⟨h1, h2⟩ := (hmem f).1 hf
    exact h2 (congrArg CEnt.id (ent_eq_of_base h h1 he hc (by rw [hc]; exact hb)))
  · intro k hk hb hc
    exact h.evOut k hk hb e he hc.symm

theorem inv_destroyAll {sz max} (es : List CEnt) : ∀ {s pend op lost},
    Inv sz max s pend op lost → (∀ e ∈ es, e ∈ s.lru) → (es.Pairwise fun e f => e.id ≠ f.id) →
    (∀ e ∈ es, e.id ∉ pend) → (∀ e ∈ es, ∀ t ∈ op, t.base ≠ e.base) →
    Inv sz max (es.foldl destroyOne s) pend op (lost.filter fun i => es.all fun e => e.id ≠ i) := by
  induction es with
  | nil =>
    intro s pend op lost h _ _ _ _
    have : (lost.filter fun i => ([] : List CEnt).all fun e => e.id ≠ i) = lost := by
      rw [List.filter_eq_self]; simp
    rw [this]; exact h
  | cons e es ih =>
    intro s pend op lost h h1 h2 h3 h4
    rw [List.pairwise_cons] at h2
    have := ih (inv_destroyOne h (h1 e (by simp)) (h3 e (by simp)) (h4 e (by simp)))
      (fun f hf => List.mem_filter.2 ⟨h1 f (by simp [hf]), by simpa using (h2.1 f hf).symm⟩) h2.2
      (fun f hf => h3 f (by simp [hf])) (fun f hf => h4 f (by simp [hf]))
    rw [List.filter_filter] at this
    rw [List.foldl_cons]
    have hcong : (lost.filter fun i => (e :: es).all fun e => e.id ≠ i) =
        lost.filter fun i => (es.all fun e => e.id ≠ i) && decide (e.id ≠ i) := by
      refine List.filter_congr fun i _ => ?_
      rw [List.all_cons, Bool.and_comm]
    rw [hcong]; exact this

theorem inv_destroy {sz max s pend op lost} (h : Inv sz max s pend op lost) {prov : Nat}
    (h1 : ∀ t ∈ op, t.key.prov ≠ prov) (h2 : ∀ e ∈ s.lru, e.key.prov = prov → e.id ∉ pend) :
    Inv sz max (destroy s prov) pend op
      (lost.filter fun i => (s.lru.filter fun e => e.key.prov = prov).all fun e => e.id ≠ i) := by
  have hmem : ∀ f, f ∈ (s.lru.filter fun e => e.key.prov = prov) → f ∈ s.lru ∧ f.key.prov = prov := by
    intro f hf; rw [List.mem_filter] at hf; exact ⟨hf.1, by simpa using hf.2⟩
  refine inv_destroyAll _ h (fun e he => (hmem e he).1) (h.ids.filter _)
    (fun e he => h2 e (hmem e he).1 (hmem e he).2) ?_
  intro e he t ht hc
  obtain ⟨h3, f, h4, h5, h6, h7⟩ := h.toks t ht
  have := ent_eq_of_base h h4 (hmem e he).1 (h7.trans hc) (h7 ▸ h3)
  exact h1 t ht (by rw [← h5, this]; exact (hmem e he).2)

theorem reach_inv {sz max s pend op lost} (h : Reach sz max s pend op lost) :
    Inv sz max s pend op lost := by
  induction h with
  | init => exact inv_init sz max
  | get _ h1 h2 h3 ih => exact inv_get ih h1 h2 h3
  | getFail _ h1 h2 ih => rw [get_fail h1 h2]; exact ih
  | map _ h1 h2 h3 h4 ih => exact inv_map ih h1 h2 h3 h4
  | mapFail _ h1 h2 h3 h4 ih => exact inv_mapFail ih h1 h2 h3 h4
  | evict _ h1 ih => exact inv_evict ih h1
  | close _ h1 h2 h3 ih => exact inv_close ih h1 h2 h3
  | destroy _ h1 h2 ih => exact inv_destroy ih h1 h2

end Verif.Ipc
