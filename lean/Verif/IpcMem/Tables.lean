import Verif.IpcMem.Add
/-!
# Lemmas for the cache of opened IPC handles: the tables of all caches
-/
namespace Verif.IpcMem

/-- Every cache has its table; `own c` are the items of cache `c`. -/
structure Tables (s : St) (own : Addr → List Addr) : Prop where
  head : ∀ c h, s.caches c = some h → h = (own c).headD 0
  none : ∀ c, s.caches c = none → own c = []
  tab : ∀ c, own c ≠ [] → ∃ T t r B, TabOk s (own c) T t r B
  mine : ∀ c a, a ∈ own c → (s.data a).table = c
  sep : ∀ c c' a a', a ∈ own c → a' ∈ own c' → s.link .tbl a = s.link .tbl a' → c = c'
  sepA : ∀ T T' t t', s.tabs T = some t → s.tabs T' = some t' → t.buckets = t'.buckets → T = T'
  tabOnly : ∀ T t, s.tabs T = some t → ∃ c a, a ∈ own c ∧ s.link .tbl a = T
  arrOnly : ∀ A r, s.arrs A = some r → ∃ T t, s.tabs T = some t ∧ t.buckets = A

theorem Tables.congr {s s' : St} {own : Addr → List Addr} (h : Tables s own)
    (h1 : ∀ c, ∀ a ∈ own c, s'.live a = s.live a) (h2 : ∀ c, ∀ a ∈ own c, ∀ k, k ≠ .next → k ≠ .prev → s'.link k a = s.link k a)
    (h3 : ∀ c, ∀ a ∈ own c, (s'.data a).hashv = (s.data a).hashv ∧ (s'.data a).table = (s.data a).table)
    (h4 : s'.tabs = s.tabs) (h5 : s'.arrs = s.arrs) (h6 : s'.caches = s.caches) : Tables s' own where
  head := by rw [h6]; exact h.head
  none := by rw [h6]; exact h.none
  tab := fun c hc => by
    obtain ⟨T, t, r, B, e⟩ := h.tab c hc
    exact ⟨T, t, r, B, e.congr (h1 c) (h2 c) (fun a ha => (h3 c a ha).1) (by rw [h4]) (by rw [h5])⟩
  mine := fun c a ha => by rw [(h3 c a ha).2, h.mine c a ha]
  sep := fun c c' a a' ha ha' e => by
    rw [h2 c a ha _ (by decide) (by decide), h2 c' a' ha' _ (by decide) (by decide)] at e
    exact h.sep c c' a a' ha ha' e
  sepA := by rw [h4]; exact h.sepA
  tabOnly := fun T t e => by
    rw [h4] at e
    obtain ⟨c, a, ha, e'⟩ := h.tabOnly T t e
    exact ⟨c, a, ha, by rw [h2 c a ha _ (by decide) (by decide), e']⟩
  arrOnly := by rw [h4, h5]; exact h.arrOnly

/-- The table of a cache with the items `l`, if there is one. -/
def OneTab (s : St) (l : List Addr) (T A : Option Addr) : Prop :=
  (l = [] ∧ T = none ∧ A = none) ∨ (l ≠ [] ∧ ∃ T0 t r B, TabOk s l T0 t r B ∧ T = some T0 ∧ A = some t.buckets)

theorem OneTab.tbl {s : St} {l : List Addr} {T A : Option Addr} (h : OneTab s l T A) {a : Addr} (ha : a ∈ l) :
    T = some (s.link .tbl a) := by
  rcases h with ⟨rfl, -, -⟩ | ⟨-, T0, t, r, B, e1, rfl, -⟩
  · cases ha
  · rw [e1.tbl a ha]

theorem OneTab.bkt {s : St} {l : List Addr} {T A : Option Addr} (h : OneTab s l T A) {X : Addr} {t : Tab} (hX : some X = T)
    (ht : s.tabs X = some t) : l ≠ [] ∧ A = some t.buckets := by
  rcases h with ⟨-, rfl, -⟩ | ⟨h0, T0, t0, r, B, e1, rfl, rfl⟩
  · cases hX
  · cases hX
    rw [e1.tab] at ht
    cases ht
    exact ⟨h0, rfl⟩

theorem OneTab.ofA {s : St} {l : List Addr} {T A : Option Addr} (h : OneTab s l T A) {X : Addr} (hX : some X = A) :
    ∃ T0 t, T = some T0 ∧ s.tabs T0 = some t ∧ t.buckets = X := by
  rcases h with ⟨-, -, rfl⟩ | ⟨h0, T0, t0, r, B, e1, rfl, rfl⟩
  · cases hX
  · cases hX
    exact ⟨T0, t0, rfl, e1.tab, rfl⟩

theorem Tables.old {s : St} {own : Addr → List Addr} (h : Tables s own) (c : Addr) : ∃ T A, OneTab s (own c) T A := by
  by_cases hc : own c = []
  · exact ⟨.none, .none, .inl ⟨hc, rfl, rfl⟩⟩
  · obtain ⟨T, t, r, B, e⟩ := h.tab c hc
    exact ⟨some T, some t.buckets, .inr ⟨hc, T, t, r, B, e, rfl, rfl⟩⟩

theorem Tables.arr {s : St} {own : Addr → List Addr} (h : Tables s own) {T : Addr} {t : Tab} (ht : s.tabs T = some t) :
    ∃ r, s.arrs t.buckets = some r := by
  obtain ⟨c, a, ha, rfl⟩ := h.tabOnly T t ht
  obtain ⟨T, t', r, B, e⟩ := h.tab c (List.ne_nil_of_mem ha)
  rw [e.tbl a ha, e.tab] at ht
  cases ht
  exact ⟨r, e.arr⟩

/-- The items of one cache change. -/
theorem tables_step {s s' : St} {own : Addr → List Addr} {c : Addr} {S l' : List Addr} {To T' Ao A' : Option Addr}
    (h : Tables s own) (hto : Touch s s' S To T' Ao A') (hS : ∀ a ∈ S, ∀ c', c' ≠ c → a ∉ own c') (ho : OneTab s (own c) To Ao)
    (hn : OneTab s' l' T' A') (hc : s'.caches = upd s.caches c (some (l'.headD 0))) (htab : ∀ a ∈ l', (s'.data a).table = c) :
    Tables s' (upd own c l') := by
  have hout : ∀ c', c' ≠ c → ∀ a ∈ own c', a ∉ S := fun c' hc' a ha h' => hS a h' c' hc' ha
  have hTo : ∀ c', c' ≠ c → ∀ a ∈ own c', some (s.link .tbl a) ≠ To := by
    intro c' hc' a ha e
    rcases ho with ⟨-, rfl, -⟩ | ⟨h0, T0, t, r, B, e1, rfl, -⟩
    · cases e
    · cases e
      obtain ⟨x, hx⟩ := List.exists_mem_of_ne_nil _ h0
      exact hc' (h.sep c' c a x ha hx (by rw [e1.tbl x hx]))
  have hTo' : ∀ c', c' ≠ c → ∀ a ∈ own c', some (s.link .tbl a) ≠ T' := by
    intro c' hc' a ha e
    have := hto.newT _ e (hTo c' hc' a ha)
    obtain ⟨T, t, r, B, e1⟩ := h.tab c' (List.ne_nil_of_mem ha)
    rw [e1.tbl a ha, e1.tab] at this
    cases this
  have hAo : ∀ X t, s.tabs X = some t → some X ≠ To → some t.buckets ≠ Ao := by
    intro X t ht hX e
    obtain ⟨T0, t0, rfl, e1, e2⟩ := ho.ofA e
    exact hX (by rw [h.sepA X T0 t t0 ht e1 e2.symm])
  have hA' : ∀ X t, s.tabs X = some t → some X ≠ To → some t.buckets ≠ A' := by
    intro X t ht hX e
    have := hto.newA _ e (hAo X t ht hX)
    obtain ⟨r, hr⟩ := h.arr ht
    rw [hr] at this
    cases this
  have hback : ∀ X t, s'.tabs X = some t → some X ≠ T' → s.tabs X = some t ∧ some X ≠ To := by
    intro X t ht hX
    have h1 : some X ≠ To := fun e => by
      rw [hto.oldT X e hX] at ht
      cases ht
    rw [hto.tabs X h1 hX] at ht
    exact ⟨ht, h1⟩
  refine ⟨?_, ?_, ?_, ?_, ?_, ?_, ?_, ?_⟩
  · intro c' x e
    rw [hc] at e
    by_cases hcc : c' = c
    · rw [hcc, upd_same] at e ⊢
      exact (Option.some.inj e).symm
    · rw [upd_ne _ _ hcc] at e ⊢
      exact h.head c' x e
  · intro c' e
    rw [hc] at e
    by_cases hcc : c' = c
    · rw [hcc, upd_same] at e
      cases e
    · rw [upd_ne _ _ hcc] at e ⊢
      exact h.none c' e
  · intro c' e
    by_cases hcc : c' = c
    · rw [hcc, upd_same] at e ⊢
      rcases hn with ⟨h0, -, -⟩ | ⟨-, T0, t, r, B, e1, -, -⟩
      · exact absurd h0 e
      · exact ⟨T0, t, r, B, e1⟩
    · rw [upd_ne _ _ hcc] at e ⊢
      obtain ⟨T, t, r, B, e1⟩ := h.tab c' e
      obtain ⟨x, hx⟩ := List.exists_mem_of_ne_nil _ e
      have h1 := hTo c' hcc x hx
      have h2 := hTo' c' hcc x hx
      rw [e1.tbl x hx] at h1 h2
      exact ⟨T, t, r, B, e1.congr (fun a _ => by rw [hto.live]) (fun a ha k _ _ => hto.link a (hout c' hcc a ha) k)
        (fun a ha => by rw [hto.data a (hout c' hcc a ha)]) (hto.tabs T h1 h2)
        (hto.arrs _ (hAo T t e1.tab h1) (hA' T t e1.tab h1))⟩
  · intro c' a ha
    by_cases hcc : c' = c
    · rw [hcc, upd_same] at ha
      rw [hcc]
      exact htab a ha
    · rw [upd_ne _ _ hcc] at ha
      rw [hto.data a (hout c' hcc a ha)]
      exact h.mine c' a ha
  · have key : ∀ c', c' ≠ c → ∀ a ∈ l', ∀ a' ∈ own c', s'.link .tbl a ≠ s'.link .tbl a' := by
      intro c' hcc a ha a' ha' e
      have h1 := hn.tbl ha
      rw [hto.link a' (hout c' hcc a' ha')] at e
      rw [e] at h1
      exact hTo' c' hcc a' ha' h1.symm
    intro c1 c2 a a' ha ha' e
    by_cases h1 : c1 = c <;> by_cases h2 : c2 = c
    · rw [h1, h2]
    · rw [h1, upd_same] at ha
      rw [upd_ne _ _ h2] at ha'
      exact absurd e (key c2 h2 a ha a' ha')
    · rw [upd_ne _ _ h1] at ha
      rw [h2, upd_same] at ha'
      exact absurd e.symm (key c1 h1 a' ha' a ha)
    · rw [upd_ne _ _ h1] at ha
      rw [upd_ne _ _ h2] at ha'
      rw [hto.link a (hout c1 h1 a ha), hto.link a' (hout c2 h2 a' ha')] at e
      exact h.sep c1 c2 a a' ha ha' e
  · have key : ∀ X Y t u, s'.tabs X = some t → s'.tabs Y = some u → some X = T' → some Y ≠ T' → t.buckets ≠ u.buckets := by
      intro X Y t u hX hY h1 h2 e
      obtain ⟨h3, h4⟩ := hback Y u hY h2
      refine hA' Y u h3 h4 ?_
      rw [← e, (hn.bkt h1 hX).2]
    intro X Y t u hX hY e
    by_cases h1 : some X = T' <;> by_cases h2 : some Y = T'
    · exact Option.some.inj (h1.trans h2.symm)
    · exact absurd e (key X Y t u hX hY h1 h2)
    · exact absurd e.symm (key Y X u t hY hX h2 h1)
    · exact h.sepA X Y t u (hback X t hX h1).1 (hback Y u hY h2).1 e
  · intro X t hX
    by_cases h1 : some X = T'
    · obtain ⟨x, hx⟩ := List.exists_mem_of_ne_nil _ (hn.bkt h1 hX).1
      exact ⟨c, x, by rw [upd_same]; exact hx, Option.some.inj ((hn.tbl hx).symm.trans h1.symm)⟩
    · obtain ⟨h2, h3⟩ := hback X t hX h1
      obtain ⟨c', a, ha, e⟩ := h.tabOnly X t h2
      have hcc : c' ≠ c := by
        rintro rfl
        rw [ho.tbl ha, e] at h3
        exact h3 rfl
      exact ⟨c', a, by rw [upd_ne _ _ hcc]; exact ha, by rw [hto.link a (hout c' hcc a ha), e]⟩
  · intro X r hX
    by_cases h1 : some X = A'
    · obtain ⟨T0, t, -, h2, h3⟩ := hn.ofA h1
      exact ⟨T0, t, h2, h3⟩
    · have h2 : some X ≠ Ao := fun e => by
        rw [hto.oldA X e h1] at hX
        cases hX
      rw [hto.arrs X h2 h1] at hX
      obtain ⟨T, t, h3, h4⟩ := h.arrOnly X r hX
      have h5 : some T ≠ To := fun e => h2 (by rw [← h4, (ho.bkt e h3).2])
      have h6 : some T ≠ T' := fun e => by
        rw [hto.newT T e h5] at h3
        cases h3
      exact ⟨T, t, by rw [hto.tabs T h5 h6]; exact h3, h4⟩

/-- An item is taken out of the table of its cache. -/
theorem hashDel_ok {s : St} {own : Addr → List Addr} {c e h : Addr} (hT : Tables s own) (hc : s.caches c = some h) (he : e ∈ own c) :
    ∃ s', hashDel c e s = .ok () s' ∧ Tables s' (upd own c ((own c).erase e)) ∧ s'.live = s.live ∧ s'.glob = s.glob ∧
      (∀ k, k = .next ∨ k = .prev → s'.link k = s.link k) ∧ s'.data = s.data ∧ s'.host = s.host ∧
      (∀ x, s'.caches x = none ↔ s.caches x = none) ∧ (∀ a, fresh s a = true → fresh s' a = true) ∧
      ∀ a, a ∉ own c → ∀ k, s'.link k a = s.link k a := by
  have hne := List.ne_nil_of_mem he
  have hh := hT.head c h hc
  rw [hh] at hc
  obtain ⟨T, t, r, B, hok⟩ := hT.tab c hne
  have hS : ∀ a ∈ own c, ∀ c', c' ≠ c → a ∉ own c' := fun a ha c' hcc ha' => hcc ((hT.mine c' a ha').symm.trans (hT.mine c a ha))
  have hnn : ∀ x v, upd s.caches c (some v) x = none ↔ s.caches x = none := by
    intro x v
    by_cases hx : x = c
    · rw [hx, upd_same, hc]
      simp
    · rw [upd_ne _ _ hx]
  by_cases h1 : own c = [e]
  · rw [h1] at hok hc
    refine ⟨_, hashDel_last hok hc, ?_, rfl, rfl, fun _ _ => rfl, rfl, rfl, fun x => hnn x 0, ?_, fun _ _ _ => rfl⟩
    · have hto : Touch s { s with arrs := upd s.arrs t.buckets none, tabs := upd s.tabs T none, caches := upd s.caches c (some 0) }
          (own c) (some T) none (some t.buckets) none := by
        refine ⟨rfl, rfl, fun _ _ => rfl, fun _ _ _ => rfl, fun _ _ => rfl, fun X h2 _ => ?_, fun X h2 _ => ?_, nofun,
          fun X h2 _ => ?_, fun X h2 _ => ?_, nofun⟩
        · exact upd_ne _ _ fun e' => h2 (by rw [e'])
        · cases h2
          exact upd_same _ _ _
        · exact upd_ne _ _ fun e' => h2 (by rw [e'])
        · cases h2
          exact upd_same _ _ _
      have her : (own c).erase e = [] := by rw [h1]; simp
      rw [her]
      refine tables_step hT hto hS (.inr ⟨hne, T, t, r, B, by rw [h1]; exact hok, rfl, rfl⟩) (.inl ⟨rfl, rfl, rfl⟩) rfl nofun
    · intro a ha
      rw [fresh_iff] at ha ⊢
      refine ⟨ha.1, ?_, ?_, (hnn a 0).2 ha.2.2.2⟩
      · show upd s.tabs T none a = none
        unfold upd
        split
        · rfl
        · exact ha.2.1
      · show upd s.arrs t.buckets none a = none
        unfold upd
        split
        · rfl
        · exact ha.2.2.1
  · obtain ⟨s', t', r', B', e1, e2, e3, e4, e5, e6, e7⟩ := hashDel_mid hok hc he h1
    have hne' : (own c).erase e ≠ [] := by
      intro h'
      have := List.length_erase_of_mem he
      rw [h'] at this
      simp only [List.length_nil] at this
      have h3 : (own c).length = 1 := by
        have : 0 < (own c).length := List.length_pos_iff.2 hne
        omega
      obtain ⟨y, hy⟩ := List.length_eq_one_iff.1 h3
      rw [hy] at he
      simp only [List.mem_singleton] at he
      exact h1 (by rw [hy, he])
    refine ⟨s', e1, ?_, e3.live, e3.glob, e3.lru, e4, e5, fun x => by rw [e6]; exact hnn x _, ?_, e3.link⟩
    · refine tables_step hT e3 hS (.inr ⟨hne, T, t, r, B, hok, rfl, rfl⟩) (.inr ⟨hne', T, t', r', B', e2, rfl, rfl⟩) e6 fun a ha => ?_
      rw [e4]
      exact hT.mine c a (List.mem_of_mem_erase ha)
    · intro a ha
      rw [fresh_iff] at ha ⊢
      refine ⟨by rw [e3.live]; exact ha.1, ?_, ?_, by rw [e6]; exact (hnn a _).2 ha.2.2.2⟩
      · by_cases hX : some a = some T
        · cases hX
          rw [hok.tab] at ha
          cases ha.2.1
        · rw [e3.tabs a hX hX]
          exact ha.2.1
      · by_cases hX : some a = some t.buckets
        · cases hX
          rw [hok.arr] at ha
          cases ha.2.2.1
        · rw [e3.arrs a hX (by rw [e7]; exact hX)]
          exact ha.2.2.1

/-- An item is put into the table of its cache. -/
theorem hashAdd_ok {hash : Key → Nat} {s : St} {own : Addr → List Addr} {c e h : Addr} (hT : Tables s own)
    (hc : s.caches c = some h) (he : ∀ c', e ∉ own c') (he0 : e ≠ 0) (hle : s.live e = true) (htab : (s.data e).table = c)
    {fuel : Nat} (hf : (own c).length + 1 < fuel) :
    (hashAdd hash fuel c e s = .exit ∧ ¬ Rich 3 s) ∨
    ∃ s', hashAdd hash fuel c e s = .ok () s' ∧ Tables s' (upd own c (own c ++ [e])) ∧ s'.live = s.live ∧ s'.glob = s.glob ∧
      (∀ k, k = .next ∨ k = .prev → s'.link k = s.link k) ∧
      s'.data = upd s.data e { s.data e with hashv := hash (s.data e).key } ∧ ∀ x, s'.caches x = none ↔ s.caches x = none := by
  have hh := hT.head c h hc
  rw [hh] at hc
  have hS : ∀ a ∈ own c ++ [e], ∀ c', c' ≠ c → a ∉ own c' := by
    intro a ha c' hcc ha'
    simp only [List.mem_append, List.mem_singleton] at ha
    rcases ha with ha | rfl
    · exact hcc ((hT.mine c' a ha').symm.trans (hT.mine c a ha))
    · exact he c' ha'
  have hnn : ∀ x v, upd s.caches c (some v) x = none ↔ s.caches x = none := by
    intro x v
    by_cases hx : x = c
    · rw [hx, upd_same, hc]
      simp
    · rw [upd_ne _ _ hx]
  have hmine : ∀ a ∈ own c ++ [e], (upd s.data e { s.data e with hashv := hash (s.data e).key } a).table = c := by
    intro a ha
    by_cases hae : a = e
    · rw [hae, upd_same]
      exact htab
    · rw [upd_ne _ _ hae]
      simp only [List.mem_append, List.mem_singleton] at ha
      rcases ha with ha | ha
      · exact hT.mine c a ha
      · exact absurd ha hae
  by_cases h0 : own c = []
  · rw [h0] at hc
    rcases hashAdd_first (hash := hash) hc he0 hle (fuel := fuel) (by omega) with ⟨e1, e2⟩ | ⟨s', T, t', r', B', e1, e2, e3, e4, e5⟩
    · exact .inl ⟨e1, e2⟩
    · refine .inr ⟨s', e1, ?_, e3.live, e3.glob, e3.lru, e4, fun x => by rw [e5]; exact hnn x _⟩
      refine tables_step hT e3 (fun a ha => hS a (by simp [List.mem_singleton.1 ha])) (.inl ⟨h0, rfl, rfl⟩)
        (.inr ⟨by simp, T, t', r', B', by rw [h0]; exact e2, rfl, rfl⟩) (by rw [e5, h0]; rfl) fun a ha => ?_
      rw [e4]
      exact hmine a ha
  · obtain ⟨T, t, r, B, hok⟩ := hT.tab c h0
    rcases hashAdd_more (hash := hash) hok hc h0 (he c) he0 hle hf with ⟨e1, e2⟩ | ⟨s', t', r', B', e1, e2, e3, e4, e5⟩
    · exact .inl ⟨e1, fun hR => e2 (hR.less (by omega))⟩
    · refine .inr ⟨s', e1, ?_, e3.live, e3.glob, e3.lru, e4, fun x => by rw [e5]; exact hnn x _⟩
      refine tables_step hT e3 hS (.inr ⟨h0, T, t, r, B, hok, rfl, rfl⟩) (.inr ⟨by simp, T, t', r', B', e2, rfl, rfl⟩) e5 fun a ha => ?_
      rw [e4]
      exact hmine a ha

end Verif.IpcMem
