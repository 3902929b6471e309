import Verif.TrkMem.Spec
/-! # The entries in memory and the regions they stand for -/
namespace Verif.TrkMem
open Tracker (Res word upSplit upMerge UpAlloc Entry)

/-- The entry of the value model. -/
def ent (h : Addr → Info) (e : Nat × Addr) : Entry := ⟨e.1, (h e.2).pool, (h e.2).size, (h e.2).nch⟩

theorem view_lv (s : St) (l : Nat) : (view s).lv l = (s.lv l).map (ent s.heap) := rfl

/-- `E`: the blocks in hand, which are not in a map. -/
structure Inv (s : St) (E : List Addr) : Prop where
  alive : ∀ (l k : Nat) (a : Addr), (k, a) ∈ s.lv l → s.used a = true ∧ a ∉ E ∧ l < 8
  reached : ∀ a : Addr, s.used a = true → a ∈ E ∨ ∃ l k, l < 8 ∧ (k, a) ∈ s.lv l
  single : ∀ (l k l' k' : Nat) (a : Addr), (k, a) ∈ s.lv l → (k', a) ∈ s.lv l' → l = l' ∧ k = k'
  once : ∀ (l k : Nat) (a a' : Addr), (k, a) ∈ s.lv l → (k, a') ∈ s.lv l → a = a'
  hand : ∀ a ∈ E, s.used a = true
  nodup : E.Nodup

theorem Inv.exact {s : St} (h : Inv s []) : Exact s :=
  ⟨fun l k a h1 => (h.alive l k a h1).1, fun a h1 => (h.reached a h1).resolve_left (by simp), h.single, h.once⟩

theorem Inv.empty : Inv empty [] :=
  ⟨fun _ _ _ h => by simp [TrkMem.empty] at h, fun _ h => by simp [TrkMem.empty] at h,
    fun _ _ _ _ _ h => by simp [TrkMem.empty] at h, fun _ _ _ _ h => by simp [TrkMem.empty] at h, fun _ h => by simp at h,
    List.nodup_nil⟩

theorem upd_eq {α : Type} (f : Nat → α) (a : Nat) (x : α) : upd f a x a = x := by simp [upd]
theorem upd_ne {α : Type} (f : Nat → α) {a b : Nat} (x : α) (h : b ≠ a) : upd f a x b = f b := by simp [upd, h]

theorem Inv.load {s : St} {E : List Addr} (h : Inv s E) {l k : Nat} {a : Addr} (h1 : (k, a) ∈ s.lv l) :
    load s a = some (s.heap a) := by
  simp [TrkMem.load, (h.alive l k a h1).1]

theorem view_heap (s : St) (h' : Addr → Info) (u' : Addr → Bool) (hx : ∀ (l k : Nat) (a : Addr), (k, a) ∈ s.lv l → h' a = s.heap a) :
    view { s with heap := h', used := u' } = view s := by
  unfold view
  congr 1
  funext l
  apply List.map_congr_left
  intro e he
  dsimp only
  rw [hx l e.1 e.2 he]

/-- A block is handed out. -/
theorem Inv.take {s : St} {E : List Addr} (h : Inv s E) {x : Addr} (hx : s.used x = false) (i : Info) :
    Inv (newBlk s x i) (x :: E) ∧ view (newBlk s x i) = view s := by
  have hne : ∀ (l k : Nat) (a : Addr), (k, a) ∈ s.lv l → a ≠ x := by
    intro l k a h1 h2
    have := (h.alive l k a h1).1
    rw [h2, hx] at this
    cases this
  refine ⟨⟨?_, ?_, h.single, h.once, ?_, ?_⟩, ?_⟩
  · intro l k a h1
    have h2 := h.alive l k a h1
    refine ⟨?_, ?_, h2.2.2⟩
    · show upd s.used x true a = true
      rw [upd_ne _ _ (hne l k a h1)]
      exact h2.1
    · intro h3
      rcases List.mem_cons.1 h3 with h3 | h3
      · exact hne l k a h1 h3
      · exact h2.2.1 h3
  · intro a h1
    by_cases ha : a = x
    · exact .inl (by simp [ha])
    · have : s.used a = true := by
        have h2 : upd s.used x true a = true := h1
        rwa [upd_ne _ _ ha] at h2
      rcases h.reached a this with h3 | h3
      · exact .inl (List.mem_cons_of_mem _ h3)
      · exact .inr h3
  · intro a ha
    show upd s.used x true a = true
    by_cases hax : a = x
    · rw [hax, upd_eq]
    · rw [upd_ne _ _ hax]
      exact h.hand a ((List.mem_cons.1 ha).resolve_left hax)
  · refine List.nodup_cons.2 ⟨?_, h.nodup⟩
    intro h1
    have := h.hand x h1
    rw [hx] at this
    cases this
  · exact view_heap s _ _ fun l k a h1 => upd_ne _ _ (hne l k a h1)

/-- A block in hand is freed. -/
theorem Inv.release {s : St} {E : List Addr} {x : Addr} (h : Inv s (x :: E)) :
    ∃ s', release s x = some s' ∧ Inv s' E ∧ view s' = view s ∧ s'.lv = s.lv := by
  refine ⟨{ s with used := upd s.used x false }, ?_, ⟨?_, ?_, h.single, h.once, ?_, (List.nodup_cons.1 h.nodup).2⟩,
    view_heap s _ _ fun _ _ _ _ => rfl, rfl⟩
  · simp [TrkMem.release, h.hand x (by simp)]
  · intro l k a h1
    have h2 := h.alive l k a h1
    have h3 : a ≠ x := fun h4 => h2.2.1 (by simp [h4])
    exact ⟨by show upd s.used x false a = true; rw [upd_ne _ _ h3]; exact h2.1, fun h4 => h2.2.1 (List.mem_cons_of_mem _ h4), h2.2.2⟩
  · intro a h1
    have h2 : upd s.used x false a = true := h1
    by_cases ha : a = x
    · rw [ha, upd_eq] at h2
      cases h2
    · rw [upd_ne _ _ ha] at h2
      rcases h.reached a h2 with h3 | h3
      · exact .inl ((List.mem_cons.1 h3).resolve_left ha)
      · exact .inr h3
  · intro a ha
    show upd s.used x false a = true
    have : a ≠ x := fun h1 => (List.nodup_cons.1 h.nodup).1 (h1 ▸ ha)
    rw [upd_ne _ _ this]
    exact h.hand a (List.mem_cons_of_mem _ ha)

theorem hasKey_view (h : Addr → Info) (l : List (Nat × Addr)) (x : Nat) : Tracker.hasKey (l.map (ent h)) x = hasKey l x := by
  simp [Tracker.hasKey, hasKey, List.any_map, Function.comp_def, ent]

theorem hasKey_false {l : List (Nat × Addr)} {x : Nat} (h : hasKey l x = false) (a : Addr) : (x, a) ∉ l := by
  intro h1
  have : hasKey l x = true := by
    rw [hasKey, List.any_eq_true]
    exact ⟨(x, a), h1, by simp⟩
  rw [h] at this
  cases this

theorem hasKey_mem {l : List (Nat × Addr)} {x : Nat} {a : Addr} (h : (x, a) ∈ l) : hasKey l x = true := by
  rw [hasKey, List.any_eq_true]
  exact ⟨(x, a), h, by simp⟩

theorem setLevel_lv (s : St) (l : Nat) (es : List (Nat × Addr)) (i : Nat) :
    (setLevel s l es).lv i = if i = l then es else s.lv i := rfl

theorem mem_setLevel {s : St} {l i k : Nat} {es : List (Nat × Addr)} {a : Addr} (h : (k, a) ∈ (setLevel s l es).lv i) :
    (i = l ∧ (k, a) ∈ es) ∨ (i ≠ l ∧ (k, a) ∈ s.lv i) := by
  rw [setLevel_lv] at h
  split at h
  · exact .inl ⟨‹_›, h⟩
  · exact .inr ⟨‹_›, h⟩

theorem view_setLevel (s : St) (l : Nat) (es : List (Nat × Addr)) :
    view (setLevel s l es) = Tracker.setLevel (view s) l (es.map (ent s.heap)) := by
  unfold view Tracker.setLevel
  congr 1
  funext i
  rw [setLevel_lv]
  dsimp only
  by_cases hi : i = l <;> simp [hi, setLevel, ent]

/-- A block in hand becomes the entry of a new key. -/
theorem Inv.insert {s : St} {E : List Addr} {x : Addr} (h : Inv s (x :: E)) {l k : Nat} (hl : l < 8)
    (hk : hasKey (s.lv l) k = false) :
    Inv (setLevel s l ((k, x) :: s.lv l)) E ∧
    view (setLevel s l ((k, x) :: s.lv l)) = Tracker.setLevel (view s) l (ent s.heap (k, x) :: (view s).lv l) := by
  have hx : ∀ (l k : Nat), (k, x) ∉ s.lv l := fun l k h1 => (h.alive l k x h1).2.1 (by simp)
  have key : ∀ (i k' : Nat) (a : Addr), (k', a) ∈ (setLevel s l ((k, x) :: s.lv l)).lv i →
      (i = l ∧ k' = k ∧ a = x) ∨ (k', a) ∈ s.lv i := by
    intro i k' a h1
    rcases mem_setLevel h1 with ⟨h2, h3⟩ | ⟨_, h3⟩
    · rcases List.mem_cons.1 h3 with h4 | h4
      · cases h4
        exact .inl ⟨h2, rfl, rfl⟩
      · exact .inr (h2 ▸ h4)
    · exact .inr h3
  refine ⟨⟨?_, ?_, ?_, ?_, fun a ha => h.hand a (List.mem_cons_of_mem _ ha), (List.nodup_cons.1 h.nodup).2⟩, ?_⟩
  · intro i k' a h1
    rcases key i k' a h1 with ⟨h2, _, h4⟩ | h2
    · rw [h4]
      exact ⟨h.hand x (by simp), (List.nodup_cons.1 h.nodup).1, h2 ▸ hl⟩
    · have := h.alive i k' a h2
      exact ⟨this.1, fun h4 => this.2.1 (List.mem_cons_of_mem _ h4), this.2.2⟩
  · intro a h1
    have sub : ∀ (i k' : Nat), (k', a) ∈ s.lv i → (k', a) ∈ (setLevel s l ((k, x) :: s.lv l)).lv i := by
      intro i k' h2
      rw [setLevel_lv]
      split
      · rename_i h3
        exact List.mem_cons_of_mem _ (h3 ▸ h2)
      · exact h2
    rcases h.reached a h1 with h2 | ⟨i, k', h2, h3⟩
    · rcases List.mem_cons.1 h2 with h3 | h3
      · exact .inr ⟨l, k, hl, by rw [setLevel_lv]; simp [h3]⟩
      · exact .inl h3
    · exact .inr ⟨i, k', h2, sub i k' h3⟩
  · intro i k1 j k2 a h1 h2
    rcases key i k1 a h1 with ⟨h3, h4, h5⟩ | h3 <;> rcases key j k2 a h2 with ⟨h6, h7, h8⟩ | h6
    · exact ⟨by omega, by omega⟩
    · exact absurd (h5 ▸ h6) (hx j k2)
    · exact absurd (h8 ▸ h3) (hx i k1)
    · exact h.single i k1 j k2 a h3 h6
  · intro i k1 a a' h1 h2
    rcases key i k1 a h1 with ⟨h3, h4, h5⟩ | h3 <;> rcases key i k1 a' h2 with ⟨h6, h7, h8⟩ | h6
    · rw [h5, h8]
    · exact absurd (h3 ▸ h4 ▸ h6) (hasKey_false hk a')
    · exact absurd (h6 ▸ h7 ▸ h3) (hasKey_false hk a)
    · exact h.once i k1 a a' h3 h6
  · rw [view_setLevel, view_lv]
    rfl

/-- The entry of a key is replaced by a block in hand. -/
theorem Inv.replace {s : St} {E : List Addr} {x : Addr} (h : Inv s (x :: E)) {l k : Nat} {v : Addr} (hv : (k, v) ∈ s.lv l) :
    ∃ s', update s l k x true = some s' ∧ Inv s' (v :: E) ∧
      view s' = Tracker.setLevel (view s) l (Tracker.upsert ((view s).lv l) (ent s.heap (k, x))) ∧ s'.heap = s.heap ∧
      s'.used = s.used ∧ (∀ j, j ≠ l → s'.lv j = s.lv j) ∧ (k, x) ∈ s'.lv l := by
  have hl := (h.alive l k v hv).2.2
  have hx : ∀ (l k : Nat), (k, x) ∉ s.lv l := fun l k h1 => (h.alive l k x h1).2.1 (by simp)
  let es := (s.lv l).map fun e => if e.1 = k then (k, x) else e
  have hes : ∀ (k' : Nat) (a : Addr), (k', a) ∈ es ↔ (k' = k ∧ a = x) ∨ (k' ≠ k ∧ (k', a) ∈ s.lv l) := by
    intro k' a
    constructor
    · intro h1
      obtain ⟨e, h2, h3⟩ := List.mem_map.1 h1
      split at h3
      · cases h3
        exact .inl ⟨rfl, rfl⟩
      · rename_i h4
        rw [h3] at h2 h4
        exact .inr ⟨h4, h2⟩
    · rintro (⟨h1, h2⟩ | ⟨h1, h2⟩)
      · exact List.mem_map.2 ⟨(k, v), hv, by simp [h1, h2]⟩
      · exact List.mem_map.2 ⟨(k', a), h2, by simp [h1]⟩
  have key : ∀ (i k' : Nat) (a : Addr), (k', a) ∈ (setLevel s l es).lv i →
      (i = l ∧ k' = k ∧ a = x) ∨ ((k', a) ∈ s.lv i ∧ ¬(i = l ∧ k' = k)) := by
    intro i k' a h1
    rcases mem_setLevel h1 with ⟨h2, h3⟩ | ⟨h2, h3⟩
    · rcases (hes k' a).1 h3 with h4 | h4
      · exact .inl ⟨h2, h4⟩
      · exact .inr ⟨h2 ▸ h4.2, fun h5 => h4.1 h5.2⟩
    · exact .inr ⟨h3, fun h5 => h2 h5.1⟩
  refine ⟨setLevel s l es, ?_, ⟨?_, ?_, ?_, ?_, ?_, ?_⟩, ?_, rfl, rfl, ?_, ?_⟩
  · simp [update, hl, hasKey_mem hv, es]
  · intro i k' a h1
    rcases key i k' a h1 with ⟨h2, _, h4⟩ | ⟨h2, h2'⟩
    · rw [h4]
      refine ⟨h.hand x (by simp), ?_, h2 ▸ hl⟩
      intro h5
      rcases List.mem_cons.1 h5 with h6 | h6
      · exact hx l k (h6 ▸ hv)
      · exact (List.nodup_cons.1 h.nodup).1 h6
    · have := h.alive i k' a h2
      refine ⟨this.1, ?_, this.2.2⟩
      intro h5
      rcases List.mem_cons.1 h5 with h6 | h6
      · exact h2' (h.single i k' l k v (h6 ▸ h2) hv)
      · exact this.2.1 (List.mem_cons_of_mem _ h6)
  · intro a h1
    rcases h.reached a h1 with h2 | ⟨i, k', h2, h3⟩
    · rcases List.mem_cons.1 h2 with h3 | h3
      · exact .inr ⟨l, k, hl, by rw [setLevel_lv, if_pos rfl, h3]; exact (hes k x).2 (.inl ⟨rfl, rfl⟩)⟩
      · exact .inl (List.mem_cons_of_mem _ h3)
    · by_cases hi : i = l
      · by_cases hk : k' = k
        · subst hi hk
          have := h.once i k' a v h3 hv
          exact .inl (by simp [this])
        · exact .inr ⟨i, k', h2, by rw [setLevel_lv, if_pos hi]; exact (hes k' a).2 (.inr ⟨hk, hi ▸ h3⟩)⟩
      · exact .inr ⟨i, k', h2, by rw [setLevel_lv, if_neg hi]; exact h3⟩
  · intro i k1 j k2 a h1 h2
    rcases key i k1 a h1 with ⟨h3, h4, h5⟩ | h3 <;> rcases key j k2 a h2 with ⟨h6, h7, h8⟩ | h6
    · exact ⟨by omega, by omega⟩
    · exact absurd (h5 ▸ h6.1) (hx j k2)
    · exact absurd (h8 ▸ h3.1) (hx i k1)
    · exact h.single i k1 j k2 a h3.1 h6.1
  · intro i k1 a a' h1 h2
    rcases key i k1 a h1 with ⟨h3, h4, h5⟩ | h3 <;> rcases key i k1 a' h2 with ⟨h6, h7, h8⟩ | h6
    · rw [h5, h8]
    · exact absurd ⟨h3, h4⟩ h6.2
    · exact absurd ⟨h6, h7⟩ h3.2
    · exact h.once i k1 a a' h3.1 h6.1
  · intro a ha
    rcases List.mem_cons.1 ha with h1 | h1
    · rw [h1]
      exact (h.alive l k v hv).1
    · exact h.hand a (List.mem_cons_of_mem _ h1)
  · exact List.nodup_cons.2 ⟨fun h1 => (h.alive l k v hv).2.1 (List.mem_cons_of_mem _ h1), (List.nodup_cons.1 h.nodup).2⟩
  · rw [view_setLevel, view_lv]
    congr 1
    unfold Tracker.upsert
    rw [hasKey_view]
    have : hasKey (s.lv l) (ent s.heap (k, x)).key = true := hasKey_mem hv
    rw [if_pos this, List.map_map, List.map_map]
    apply List.map_congr_left
    intro e _
    dsimp only [Function.comp_def]
    have h1 : (ent s.heap e).key = e.1 := rfl
    have h2 : (ent s.heap (k, x)).key = k := rfl
    rw [h1, h2]
    split <;> rfl
  · intro j hj
    rw [setLevel_lv, if_neg hj]
  · rw [setLevel_lv, if_pos rfl]
    exact (hes k x).2 (.inl ⟨rfl, rfl⟩)

theorem get_mem {s : St} {E : List Addr} (h : Inv s E) {l k : Nat} {v : Addr} (hv : (k, v) ∈ s.lv l) : get (s.lv l) k = some v := by
  unfold get
  cases hf : (s.lv l).find? fun e => e.1 == k with
  | none =>
    rw [List.find?_eq_none] at hf
    have := hf (k, v) hv
    simp at this
  | some e =>
    have h1 := List.find?_some hf
    have h2 := List.mem_of_find?_eq_some hf
    have h3 : e.1 = k := by simpa using h1
    have : (k, e.2) ∈ s.lv l := by
      rw [← h3]
      exact h2
    simp [h.once l k e.2 v this hv]

/-- A key is removed. -/
theorem Inv.erase {s : St} {E : List Addr} (h : Inv s E) {l k : Nat} {v : Addr} (hv : (k, v) ∈ s.lv l) :
    ∃ s', erase s l k = some (s', some v) ∧ Inv s' (v :: E) ∧
      view s' = Tracker.setLevel (view s) l (((view s).lv l).filter fun e => e.key ≠ k) ∧ s'.heap = s.heap ∧
      ∀ j, j ≠ l → s'.lv j = s.lv j := by
  have hl := (h.alive l k v hv).2.2
  have key : ∀ (i k' : Nat) (a : Addr), (k', a) ∈ (setLevel s l ((s.lv l).filter fun e => e.1 ≠ k)).lv i →
      (k', a) ∈ s.lv i ∧ ¬(i = l ∧ k' = k) := by
    intro i k' a h1
    rcases mem_setLevel h1 with ⟨h2, h3⟩ | ⟨h2, h3⟩
    · rw [List.mem_filter] at h3
      have h5 : k' ≠ k := by simpa using h3.2
      exact ⟨h2 ▸ h3.1, fun h4 => h5 h4.2⟩
    · exact ⟨h3, fun h4 => h2 h4.1⟩
  refine ⟨setLevel s l ((s.lv l).filter fun e => e.1 ≠ k), ?_, ⟨?_, ?_, ?_, ?_, ?_, ?_⟩, ?_, rfl, ?_⟩
  · simp only [TrkMem.erase, if_pos hl, get_mem h hv]
  · intro i k' a h1
    obtain ⟨h2, h2'⟩ := key i k' a h1
    have := h.alive i k' a h2
    refine ⟨this.1, ?_, this.2.2⟩
    intro h5
    rcases List.mem_cons.1 h5 with h6 | h6
    · exact h2' (h.single i k' l k v (h6 ▸ h2) hv)
    · exact this.2.1 h6
  · intro a h1
    rcases h.reached a h1 with h2 | ⟨i, k', h2, h3⟩
    · exact .inl (List.mem_cons_of_mem _ h2)
    · by_cases hi : i = l
      · by_cases hk : k' = k
        · subst hi hk
          have := h.once i k' a v h3 hv
          exact .inl (by simp [this])
        · refine .inr ⟨i, k', h2, ?_⟩
          rw [setLevel_lv, if_pos hi, List.mem_filter]
          exact ⟨hi ▸ h3, by simpa using hk⟩
      · exact .inr ⟨i, k', h2, by rw [setLevel_lv, if_neg hi]; exact h3⟩
  · intro i k1 j k2 a h1 h2
    exact h.single i k1 j k2 a (key _ _ _ h1).1 (key _ _ _ h2).1
  · intro i k1 a a' h1 h2
    exact h.once i k1 a a' (key _ _ _ h1).1 (key _ _ _ h2).1
  · intro a ha
    rcases List.mem_cons.1 ha with h1 | h1
    · rw [h1]
      exact (h.alive l k v hv).1
    · exact h.hand a h1
  · exact List.nodup_cons.2 ⟨(h.alive l k v hv).2.1, h.nodup⟩
  · rw [view_setLevel, view_lv]
    congr 1
    rw [List.filter_map]
    rfl
  · intro j hj
    rw [setLevel_lv, if_neg hj]

/-- The number of children of an entry is changed. -/
theorem Inv.kids {s : St} {E : List Addr} (h : Inv s E) {l k : Nat} {p : Addr} (hp : (k, p) ∈ s.lv l) (f : Nat → Nat) :
    ∃ s', store s p { s.heap p with nch := f (s.heap p).nch } = some s' ∧ Inv s' E ∧
      view s' = Tracker.bumpParent (view s) (l + 1) (some k) f ∧ s'.lv = s.lv := by
  refine ⟨{ s with heap := upd s.heap p { s.heap p with nch := f (s.heap p).nch } }, ?_,
    ⟨h.alive, h.reached, h.single, h.once, h.hand, h.nodup⟩, ?_, rfl⟩
  · simp [store, (h.alive l k p hp).1]
  · unfold view Tracker.bumpParent Tracker.setLevel
    dsimp only
    congr 1
    funext i
    rw [Nat.add_sub_cancel]
    split
    · rename_i hi
      subst hi
      rw [List.map_map]
      apply List.map_congr_left
      intro e he
      dsimp only [Function.comp_def]
      by_cases hk : e.1 = k
      · have : e.2 = p := h.once i k e.2 p (hk ▸ he) hp
        rw [if_pos hk, this, upd_eq]
      · have : e.2 ≠ p := fun h1 => hk (h.single i e.1 i k p (h1 ▸ he) hp).2
        rw [if_neg hk, upd_ne _ _ this]
    · rename_i hi
      apply List.map_congr_left
      intro e he
      have : e.2 ≠ p := fun h1 => hi (h.single i e.1 l k p (h1 ▸ he) hp).1
      rw [upd_ne _ _ this]

/-- What is written to a block in hand. -/
theorem Inv.fill {s : St} {E : List Addr} {x : Addr} (h : Inv s E) (hx : x ∈ E) (i : Info) :
    ∃ s', store s x i = some s' ∧ Inv s' E ∧ view s' = view s ∧ s'.lv = s.lv ∧ s'.heap x = i := by
  refine ⟨{ s with heap := upd s.heap x i }, by simp [store, h.hand x hx], ⟨h.alive, h.reached, h.single, h.once, h.hand, h.nodup⟩,
    view_heap s _ _ fun l k a h1 => upd_ne _ _ fun h2 => (h.alive l k a h1).2.1 (h2 ▸ hx), rfl, upd_eq _ _ _⟩

end Verif.TrkMem
