import Verif.Ipc.Spec
/-! # Invariant of the opened-mapping cache -/
set_option linter.unusedSimpArgs false
set_option linter.unusedVariables false
namespace Verif.Ipc
open Mem

structure Inv (sz : Key → Nat → Nat) (max : Nat) (s : St) (pend : List Nat) (op : List Opened)
    (lost : List Nat) : Prop where
  ids : s.lru.Pairwise fun e f => e.id ≠ f.id
  keys : s.lru.Pairwise fun e f => e.key ≠ f.key
  cur : s.cur = s.lru.length
  mx : s.max = max
  refs : ∀ e ∈ s.lru, e.ref = pend.count e.id + op.countP (fun t => t.base == e.base)
    + lost.count e.id
  mapped : ∀ e ∈ s.lru, e.base ≠ 0 → (⟨e.base, e.size, e.key.prov, e.id⟩ : Seg) ∈ s.segs ∧
    (⟨e.key.prov, e.base, e.size⟩ : Mapping) ∈ s.maps ∧ e.size = sz e.key e.hid
  toks : ∀ t ∈ op, t.base ≠ 0 ∧ ∃ e ∈ s.lru, e.key = t.key ∧ e.hid = t.hid ∧ e.base = t.base
  pends : ∀ i ∈ pend, ∃ e ∈ s.lru, e.id = i
  losts : ∀ i ∈ lost, ∃ e ∈ s.lru, e.id = i
  segsOk : ∀ g ∈ s.segs, 0 < g.base ∧ 0 < g.size ∧ g.base + g.size < 2 ^ 64 ∧
    ∃ m ∈ s.maps, m.base = g.base ∧ m.size = g.size
  segsDisj : s.segs.Pairwise fun g f => Disjoint (g.base, g.size) (f.base, f.size)
  evOut : ∀ m ∈ s.evict, m.base ≠ 0 → ∀ e ∈ s.lru, e.base ≠ m.base
  evMap : ∀ m ∈ s.evict, m.base ≠ 0 → ∃ k ∈ s.maps, k.base = m.base
  evPair : s.evict.Pairwise fun m k => m.base ≠ 0 → m.base ≠ k.base
  mapsPos : ∀ k ∈ s.maps, 0 < k.base ∧ 0 < k.size

theorem pairwise_eq {α β : Type} {f : α → β} {l : List α} (h : l.Pairwise fun a b => f a ≠ f b)
    {a b : α} (ha : a ∈ l) (hb : b ∈ l) (hab : f a = f b) : a = b := by
  induction h with
  | nil => cases ha
  | cons h1 _ ih =>
    rcases List.mem_cons.1 ha with rfl | ha' <;> rcases List.mem_cons.1 hb with rfl | hb'
    · rfl
    · exact absurd hab (h1 _ hb')
    · exact absurd hab.symm (h1 _ ha')
    · exact ih ha' hb'

theorem seg_eq {segs : List Seg}
    (h : segs.Pairwise fun g f => Disjoint (g.base, g.size) (f.base, f.size)) {g f : Seg} {x : Nat}
    (hg : g ∈ segs) (hf : f ∈ segs) (h1 : Has (g.base, g.size) x) (h2 : Has (f.base, f.size) x) :
    g = f := by
  induction h with
  | nil => cases hg
  | cons h3 _ ih =>
    rcases List.mem_cons.1 hg with rfl | hg' <;> rcases List.mem_cons.1 hf with rfl | hf'
    · rfl
    · exact absurd ⟨h1, h2⟩ (h3 _ hf' x)
    · exact absurd ⟨h2, h1⟩ (h3 _ hg' x)
    · exact ih hg' hf'

theorem ent_eq_of_base {sz max s pend op lost} (h : Inv sz max s pend op lost) {e f : CEnt}
    (he : e ∈ s.lru) (hf : f ∈ s.lru) (hb : e.base = f.base) (h0 : e.base ≠ 0) : e = f := by
  have h1 := (h.mapped e he h0).1
  have h2 := (h.mapped f hf (hb ▸ h0)).1
  have p1 := h.segsOk _ h1
  have p2 := h.segsOk _ h2
  have h3 := seg_eq h.segsDisj (x := e.base) h1 h2 ⟨Nat.le_refl _, by have := p1.2.1; simp at this ⊢; omega⟩
    ⟨by simp [hb], by have := p2.2.1; simp at this ⊢; omega⟩
  exact pairwise_eq (f := CEnt.id) h.ids he hf (congrArg Seg.id h3)

theorem segLe_none {l : List Seg} {x : Nat} (h : segLe l x = none) : ∀ g ∈ l, x < g.base := by
  induction l with
  | nil => intro g hg; cases hg
  | cons a l ih =>
    rw [segLe] at h
    cases hs : segLe l x with
    | none =>
      rw [hs] at h
      by_cases hc : a.base ≤ x
      · simp [hc] at h
      · intro g hg
        rcases List.mem_cons.1 hg with rfl | hg
        · omega
        · exact ih hs g hg
    | some f =>
      rw [hs] at h
      by_cases hc : a.base ≤ x ∧ f.base < a.base <;> simp [hc] at h

theorem segLe_some {l : List Seg} {x : Nat} {f : Seg} (h : segLe l x = some f) :
    f ∈ l ∧ f.base ≤ x ∧ ∀ g ∈ l, g.base ≤ x → g.base ≤ f.base := by
  induction l generalizing f with
  | nil => simp [segLe] at h
  | cons a l ih =>
    rw [segLe] at h
    cases hs : segLe l x with
    | none =>
      rw [hs] at h
      by_cases hc : a.base ≤ x
      · simp [hc] at h
        subst h
        refine ⟨by simp, hc, fun g hg hgx => ?_⟩
        rcases List.mem_cons.1 hg with rfl | hg
        · omega
        · have := segLe_none hs g hg; omega
      · simp [hc] at h
    | some k =>
      rw [hs] at h
      obtain ⟨i1, i2, i3⟩ := ih hs
      by_cases hc : a.base ≤ x ∧ k.base < a.base
      · simp [hc] at h
        subst h
        refine ⟨by simp, hc.1, fun g hg hgx => ?_⟩
        rcases List.mem_cons.1 hg with rfl | hg
        · omega
        · have := i3 g hg hgx; omega
      · simp [hc] at h
        subst h
        refine ⟨by simp [i1], i2, fun g hg hgx => ?_⟩
        rcases List.mem_cons.1 hg with rfl | hg
        · omega
        · exact i3 g hg hgx

/-- The segment that contains `x` is the one found. -/
theorem ipcInfo_eq {sz max s pend op lost} (h : Inv sz max s pend op lost) {g : Seg} {x : Nat}
    (hg : g ∈ s.segs) (hx : Has (g.base, g.size) x) : ipcInfo s x = some g := by
  obtain ⟨p1, p2, p3, _⟩ := h.segsOk g hg
  have hx1 : g.base ≤ x := hx.1
  have hx2 : x < g.base + g.size := hx.2
  unfold ipcInfo
  rw [if_neg (by omega)]
  cases hs : segLe s.segs x with
  | none => have := segLe_none hs g hg; omega
  | some f =>
    obtain ⟨i1, i2, i3⟩ := segLe_some hs
    have i4 := i3 g hg hx1
    obtain ⟨q1, q2, q3, _⟩ := h.segsOk f i1
    have hfg : f = g := seg_eq h.segsDisj (x := f.base) i1 hg
      ⟨Nat.le_refl _, by simp; omega⟩ ⟨by simpa using i4, by simp; omega⟩
    subst hfg
    show (if x ≥ (f.base + f.size) % 2 ^ 64 then none else some f) = some f
    rw [Nat.mod_eq_of_lt q3, if_neg (by omega)]

/-- Changing fields of one entry in place, keeping identity, key and handle. -/
theorem pairwise_upd {R : CEnt → CEnt → Prop} {l : List CEnt} (u : CEnt → CEnt)
    (hR : ∀ a b, R a b → R (u a) (u b)) (h : l.Pairwise R) : (l.map u).Pairwise R :=
  List.pairwise_map.2 (h.imp (hR _ _))

theorem count_zero {l : List Nat} {i : Nat} (h : i ∉ l) : l.count i = 0 := List.count_eq_zero.2 h

theorem countP_zero_base {sz max s pend op lost} (h : Inv sz max s pend op lost) {b : Nat}
    (hb : ∀ t ∈ op, t.base ≠ b) : op.countP (fun t => t.base == b) = 0 := by
  rw [List.countP_eq_zero]
  intro t ht
  simpa using hb t ht

theorem inv_init (sz max) : Inv sz max (init max) [] [] [] where
  ids := by simp [init]
  keys := by simp [init]
  cur := rfl
  mx := rfl
  refs := by simp [init]
  mapped := by simp [init]
  toks := by simp
  pends := by simp
  losts := by simp
  segsOk := by simp [init]
  segsDisj := by simp [init]
  evOut := by simp [init]
  evMap := by simp [init]
  evPair := by simp [init]
  mapsPos := by simp [init]

theorem length_filter_id {l : List CEnt} (h : l.Pairwise fun e f => e.id ≠ f.id) {e : CEnt}
    (he : e ∈ l) : (l.filter fun f => f.id ≠ e.id).length + 1 = l.length := by
  induction h with
  | nil => cases he
  | @cons a l h1 h2 ih =>
    rcases List.mem_cons.1 he with rfl | he'
    · have : (l.filter fun f => f.id ≠ e.id) = l := by
        rw [List.filter_eq_self]; intro f hf; simpa using (h1 f hf).symm
      simp only [List.filter_cons, ne_eq, not_true_eq_false, decide_false, Bool.false_eq_true,
        if_false, List.length_cons]
      simp only [ne_eq] at this
      rw [this]
    · have := h1 e he'
      rw [List.filter_cons, if_pos (by simpa using this), List.length_cons, ih he', List.length_cons]

theorem lookup_some {l : List CEnt} {key : Key} {e : CEnt} (h : lookup l key = some e) :
    e ∈ l ∧ e.key = key :=
  ⟨List.mem_of_find?_eq_some h, by simpa using List.find?_some h⟩

theorem lookup_none {l : List CEnt} {key : Key} (h : lookup l key = none) :
    ∀ e ∈ l, e.key ≠ key := by
  intro e he; have := List.find?_eq_none.1 h e he; simpa using this

theorem candidate_some {l : List CEnt} {e : CEnt} (h : candidate l = some e) :
    e ∈ l ∧ e.ref = 0 :=
  ⟨by simpa using List.mem_of_find?_eq_some h, by simpa using List.find?_some h⟩

theorem candidate_none {l : List CEnt} (h : candidate l = none) : ∀ e ∈ l, e.ref ≠ 0 := by
  intro e he; have := List.find?_eq_none.1 h e (by simpa using he); simpa using this

/-- A cache hit. -/
theorem inv_hit {sz max s pend op lost} (h : Inv sz max s pend op lost) {e : CEnt}
    (he : e ∈ s.lru) : Inv sz max { s with lru := { e with ref := e.ref + 1 } ::
      (s.lru.filter fun f => f.id ≠ e.id) } (e.id :: pend) op lost := by
  have hm : ∀ f, f ∈ ({ e with ref := e.ref + 1 } :: (s.lru.filter fun f => f.id ≠ e.id)) →
      f = { e with ref := e.ref + 1 } ∨ f ∈ s.lru ∧ f.id ≠ e.id := by
    intro f hf
    rcases List.mem_cons.1 hf with h1 | h1
    · exact Or.inl h1
    · rw [List.mem_filter] at h1; exact Or.inr ⟨h1.1, by simpa using h1.2⟩
  have hin : ∀ f ∈ s.lru, ∃ f' ∈ ({ e with ref := e.ref + 1 } :: (s.lru.filter fun f => f.id ≠ e.id)),
      f'.id = f.id ∧ f'.key = f.key ∧ f'.hid = f.hid ∧ f'.base = f.base := by
    intro f hf
    by_cases hc : f.id = e.id
    · have := pairwise_eq (f := CEnt.id) h.ids hf he hc
      subst this
      exact ⟨_, List.mem_cons_self, rfl, rfl, rfl, rfl⟩
    · exact ⟨f, List.mem_cons_of_mem _ (List.mem_filter.2 ⟨hf, by simpa using hc⟩), rfl, rfl, rfl, rfl⟩
  have hkey : ∀ f ∈ s.lru, f.id ≠ e.id → e.key ≠ f.key := by
    intro f hf hne hk
    exact hne (congrArg CEnt.id (pairwise_eq (f := CEnt.key) h.keys hf he hk.symm))
  constructor
  · refine List.pairwise_cons.2 ⟨?_, h.ids.filter _⟩
    intro f hf; rw [List.mem_filter] at hf
    exact fun hc => (by simpa using hf.2 : f.id ≠ e.id) hc.symm
  · refine List.pairwise_cons.2 ⟨?_, h.keys.filter _⟩
    intro f hf; rw [List.mem_filter] at hf
    exact hkey f hf.1 (by simpa using hf.2)
  · show s.cur = _
    rw [List.length_cons, length_filter_id h.ids he, h.cur]
  · exact h.mx
  · intro f hf
    rcases hm f hf with rfl | ⟨h1, h2⟩
    · have := h.refs e he
      simp only [List.count_cons_self]
      show e.ref + 1 = _
      omega
    · rw [List.count_cons_of_ne (Ne.symm h2)]; exact h.refs f h1
  · intro f hf
    rcases hm f hf with rfl | ⟨h1, h2⟩
    · exact h.mapped e he
    · exact h.mapped f h1
  · intro t ht
    obtain ⟨h1, f, h2, h3, h4, h5⟩ := h.toks t ht
    obtain ⟨f', g1, g2, g3, g4, g5⟩ := hin f h2
    exact ⟨h1, f', g1, g3.trans h3, g4.trans h4, g5.trans h5⟩
  · intro i hi
    rcases List.mem_cons.1 hi with rfl | hi
    · exact ⟨_, List.mem_cons_self, rfl⟩
    · obtain ⟨f, h1, h2⟩ := h.pends i hi
      obtain ⟨f', g1, g2, _⟩ := hin f h1
      exact ⟨f', g1, g2.trans h2⟩
  · intro i hi
    obtain ⟨f, h1, h2⟩ := h.losts i hi
    obtain ⟨f', g1, g2, _⟩ := hin f h1
    exact ⟨f', g1, g2.trans h2⟩
  · exact h.segsOk
  · exact h.segsDisj
  · intro m hm0 hb f hf
    rcases hm f hf with rfl | ⟨h1, h2⟩
    · exact h.evOut m hm0 hb e he
    · exact h.evOut m hm0 hb f h1
  · exact h.evMap
  · exact h.evPair
  · exact h.mapsPos

/-- What a reference count of 0 means. -/
theorem unref {sz max s pend op lost} (h : Inv sz max s pend op lost) {e : CEnt} (he : e ∈ s.lru)
    (h0 : e.ref = 0) : e.id ∉ pend ∧ (∀ t ∈ op, t.base ≠ e.base) ∧ e.id ∉ lost := by
  have := h.refs e he
  refine ⟨List.count_eq_zero.1 (by omega), ?_, List.count_eq_zero.1 (by omega)⟩
  intro t ht hb
  have h1 : op.countP (fun t => t.base == e.base) = 0 := by omega
  exact (List.countP_eq_zero.1 h1 t ht) (by simpa using hb)

/-- Reusing an unreferenced entry for a key that is not cached. -/
theorem inv_replace {sz max s pend op lost} (h : Inv sz max s pend op lost) {e : CEnt}
    (he : e ∈ s.lru) (h0 : e.ref = 0) {key : Key} {hid : Nat} (hk : ∀ f ∈ s.lru, f.key ≠ key) :
    Inv sz max (replace s e key hid) (e.id :: pend) op lost := by
  obtain ⟨u1, u2, u3⟩ := unref h he h0
  have hm : ∀ f, f ∈ (replace s e key hid).lru →
      f = ⟨e.id, key, hid, 1, 0, 0⟩ ∨ f ∈ s.lru ∧ f.id ≠ e.id := by
    intro f hf
    rcases List.mem_cons.1 hf with h1 | h1
    · exact Or.inl h1
    · rw [List.mem_filter] at h1; exact Or.inr ⟨h1.1, by simpa using h1.2⟩
  have hin : ∀ f ∈ s.lru, f.id ≠ e.id → f ∈ (replace s e key hid).lru := by
    intro f hf hc
    exact List.mem_cons_of_mem _ (List.mem_filter.2 ⟨hf, by simpa using hc⟩)
  have hnb : ∀ f ∈ s.lru, f.id ≠ e.id → e.base ≠ 0 → f.base ≠ e.base := by
    intro f hf hc hb hbe
    exact hc (congrArg CEnt.id (ent_eq_of_base h hf he hbe (hbe ▸ hb)))
  constructor
  · refine List.pairwise_cons.2 ⟨?_, h.ids.filter _⟩
    intro f hf; rw [List.mem_filter] at hf
    exact fun hc => (by simpa using hf.2 : f.id ≠ e.id) hc.symm
  · refine List.pairwise_cons.2 ⟨?_, h.keys.filter _⟩
    intro f hf; rw [List.mem_filter] at hf
    exact (hk f hf.1).symm
  · show s.cur - 1 + 1 = (_ :: _ : List CEnt).length
    have := length_filter_id h.ids he
    rw [List.length_cons, this, h.cur]
    omega
  · exact h.mx
  · intro f hf
    rcases hm f hf with rfl | ⟨h1, h2⟩
    · have h3 : op.countP (fun t => t.base == 0) = 0 :=
        countP_zero_base h fun t ht => (h.toks t ht).1
      simp only [List.count_cons_self, count_zero u1, count_zero u3, h3]
    · rw [List.count_cons_of_ne (Ne.symm h2)]; exact h.refs f h1
  · intro f hf hb
    rcases hm f hf with rfl | ⟨h1, h2⟩
    · exact absurd rfl hb
    · exact h.mapped f h1 hb
  · intro t ht
    obtain ⟨h1, f, h2, h3, h4, h5⟩ := h.toks t ht
    refine ⟨h1, f, hin f h2 ?_, h3, h4, h5⟩
    intro hc
    have := pairwise_eq (f := CEnt.id) h.ids h2 he hc
    exact u2 t ht (by rw [← h5, this])
  · intro i hi
    rcases List.mem_cons.1 hi with rfl | hi
    · exact ⟨_, List.mem_cons_self, rfl⟩
    · obtain ⟨f, h1, h2⟩ := h.pends i hi
      exact ⟨f, hin f h1 (fun hc => u1 (by rw [← hc, h2]; exact hi)), h2⟩
  · intro i hi
    obtain ⟨f, h1, h2⟩ := h.losts i hi
    exact ⟨f, hin f h1 (fun hc => u3 (by rw [← hc, h2]; exact hi)), h2⟩
  · exact h.segsOk
  · exact h.segsDisj
  · intro m hm0 hb f hf
    rcases List.mem_cons.1 hm0 with rfl | hm1
    · rcases hm f hf with rfl | ⟨h1, h2⟩
      · exact fun hc => hb hc.symm
      · exact hnb f h1 h2 hb
    · rcases hm f hf with rfl | ⟨h1, h2⟩
      · exact fun hc => hb hc.symm
      · exact h.evOut m hm1 hb f h1
  · intro m hm0 hb
    rcases List.mem_cons.1 hm0 with rfl | hm1
    · exact ⟨_, (h.mapped e he hb).2.1, rfl⟩
    · exact h.evMap m hm1 hb
  · refine List.pairwise_cons.2 ⟨?_, h.evPair⟩
    intro m hm0 hb hc
    exact h.evOut m hm0 (fun h1 => hb (hc.trans h1)) e he hc
  · exact h.mapsPos

/-- A new entry. -/
theorem inv_fresh {sz max s pend op lost} (h : Inv sz max s pend op lost) {key : Key} {hid i : Nat}
    (hi : ∀ f ∈ s.lru, f.id ≠ i) (hk : ∀ f ∈ s.lru, f.key ≠ key) :
    Inv sz max { s with lru := ⟨i, key, hid, 1, 0, 0⟩ :: s.lru, cur := s.cur + 1 } (i :: pend) op
      lost := by
  have u1 : i ∉ pend := fun hc => by
    obtain ⟨f, h1, h2⟩ := h.pends i hc; exact hi f h1 h2
  have u3 : i ∉ lost := fun hc => by
    obtain ⟨f, h1, h2⟩ := h.losts i hc; exact hi f h1 h2
  constructor
  · exact List.pairwise_cons.2 ⟨fun f hf => (hi f hf).symm, h.ids⟩
  · exact List.pairwise_cons.2 ⟨fun f hf => (hk f hf).symm, h.keys⟩
  · show s.cur + 1 = (_ :: _ : List CEnt).length
    rw [List.length_cons, h.cur]
  · exact h.mx
  · intro f hf
    rcases List.mem_cons.1 hf with rfl | h1
    · have h3 : op.countP (fun t => t.base == 0) = 0 :=
        countP_zero_base h fun t ht => (h.toks t ht).1
      simp only [List.count_cons_self, count_zero u1, count_zero u3, h3]
    · rw [List.count_cons_of_ne (hi f h1).symm]; exact h.refs f h1
  · intro f hf hb
    rcases List.mem_cons.1 hf with rfl | h1
    · exact absurd rfl hb
    · exact h.mapped f h1 hb
  · intro t ht
    obtain ⟨h1, f, h2, h3⟩ := h.toks t ht
    exact ⟨h1, f, List.mem_cons_of_mem _ h2, h3⟩
  · intro j hj
    rcases List.mem_cons.1 hj with rfl | hj
    · exact ⟨_, List.mem_cons_self, rfl⟩
    · obtain ⟨f, h1, h2⟩ := h.pends j hj
      exact ⟨f, List.mem_cons_of_mem _ h1, h2⟩
  · intro j hj
    obtain ⟨f, h1, h2⟩ := h.losts j hj
    exact ⟨f, List.mem_cons_of_mem _ h1, h2⟩
  · exact h.segsOk
  · exact h.segsDisj
  · intro m hm0 hb f hf
    rcases List.mem_cons.1 hf with rfl | h1
    · exact fun hc => hb hc.symm
    · exact h.evOut m hm0 hb f h1
  · exact h.evMap
  · exact h.evPair
  · exact h.mapsPos

theorem inv_get {sz max s pend op lost} (h : Inv sz max s pend op lost) {key : Key}
    {hid newId : Nat} {host : Bool} {s' : St} {id : Nat}
    (hst : ∀ e ∈ s.lru, e.key = key → e.hid = hid) (hid' : ∀ e ∈ s.lru, e.id ≠ newId)
    (hg : get s key hid newId host = (s', .success, id)) : Inv sz max s' (id :: pend) op lost := by
  have hfresh : (∀ f ∈ s.lru, f.key ≠ key) → fresh s key hid newId host = (s', .success, id) →
      Inv sz max s' (id :: pend) op lost := by
    intro hk hf
    unfold fresh at hf
    by_cases hh : host = false
    · simp [hh] at hf
    · rw [if_neg hh] at hf
      cases hf
      exact inv_fresh h hid' hk
  unfold get at hg
  cases hl : lookup s.lru key with
  | some e =>
    obtain ⟨h1, h2⟩ := lookup_some hl
    simp only [hl] at hg
    rw [if_pos (hst e h1 h2)] at hg
    cases hg
    exact inv_hit h h1
  | none =>
    have hk := lookup_none hl
    simp only [hl] at hg
    by_cases hc : s.max ≠ 0 ∧ s.cur ≥ s.max
    · rw [if_pos hc] at hg
      cases hcand : candidate s.lru with
      | some e =>
        obtain ⟨h1, h2⟩ := candidate_some hcand
        simp only [hcand] at hg
        cases hg
        exact inv_replace h h1 h2 hk
      | none =>
        simp only [hcand] at hg
        exact hfresh hk hg
    · rw [if_neg hc] at hg
      exact hfresh hk hg

theorem get_fail {s : St} {key : Key} {hid newId : Nat} {host : Bool} {s' : St} {r : Res} {id : Nat}
    (hg : get s key hid newId host = (s', r, id)) (hr : r ≠ .success) : s' = s := by
  have hfresh : fresh s key hid newId host = (s', r, id) → s' = s := by
    intro hf
    unfold fresh at hf
    by_cases hh : host = false
    · rw [if_pos hh] at hf; exact (congrArg Prod.fst hf).symm
    · rw [if_neg hh] at hf
      exact absurd (congrArg (fun p => p.2.1) hf).symm hr
  unfold get at hg
  cases hl : lookup s.lru key with
  | some e =>
    simp only [hl] at hg
    by_cases hc : e.hid = hid
    · rw [if_pos hc] at hg; exact absurd (congrArg (fun p => p.2.1) hg).symm hr
    · rw [if_neg hc] at hg; exact absurd (congrArg (fun p => p.2.1) hg).symm hr
  | none =>
    simp only [hl] at hg
    by_cases hc : s.max ≠ 0 ∧ s.cur ≥ s.max
    · rw [if_pos hc] at hg
      cases hcand : candidate s.lru with
      | some e =>
        simp only [hcand] at hg
        exact absurd (congrArg (fun p => p.2.1) hg).symm hr
      | none =>
        simp only [hcand] at hg
        exact hfresh hg
    · rw [if_neg hc] at hg
      exact hfresh hg

end Verif.Ipc
