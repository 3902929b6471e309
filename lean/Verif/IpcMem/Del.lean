import Verif.IpcMem.Table
/-!
# Lemmas for the cache of opened IPC handles: taking an item out of a table
-/
namespace Verif.IpcMem

theorem upd_self {α : Type} {f : Addr → α} {a : Addr} {x : α} (h : f a = x) : upd f a x = f := by
  funext b
  unfold upd
  split
  · rename_i e; rw [e, h]
  · rfl

theorem freeTable_ok {s : St} {c head T : Addr} {t : Tab} {r : Arr} {h : Addr} (hl : s.live head = true)
    (hT : s.link .tbl head = T) (ht : s.tabs T = some t) (hr : s.arrs t.buckets = some r) (hc : s.caches c = some h) :
    freeTable c head s = .ok () { s with
      arrs := upd s.arrs t.buckets none, tabs := upd s.tabs T none, caches := upd s.caches c (some 0) } := by
  simp only [freeTable, bind_app, rd, hl, hT, getT, ht, freeArr, hr, freeT, setHead, hc, ↓reduceIte]

/-- The only item is taken out. -/
theorem hashDel_last {s : St} {e T c : Addr} {t : Tab} {r : Arr} {B : Nat → List Addr} (h : TabOk s [e] T t r B)
    (hc : s.caches c = some e) : hashDel c e s = .ok () { s with
      arrs := upd s.arrs t.buckets none, tabs := upd s.tabs T none, caches := upd s.caches c (some 0) } := by
  have hl := h.live e (by simp)
  have hs := h.seg.1
  simp only [List.headD_nil] at hs
  simp only [hashDel, bind_app, rd_app hl, hs.1, hs.2, getHead_app hc, ite_app, and_self, if_true]
  exact freeTable_ok hl (h.tbl e (by simp)) h.tab h.arr hc

/-- The bucket's part of a removal: the item is out of the list of the table already. -/
theorem delFromTable_ok {s : St} {l : List Addr} {e T c : Addr} {t t1 : Tab} {r : Arr} {B : Nat → List Addr} {s1 : St}
    (h : TabOk s l T t r B) (he : e ∈ l) (hlive : s1.live = s.live) (hdata : s1.data = s.data)
    (hL : ∀ k, k ≠ .aNext → k ≠ .aPrev → s1.link k = s.link k) (hh : ∃ x, s1.caches c = some x ∧ x ∈ l)
    (ht : s1.tabs T = some t1) (hb : t1.buckets = t.buckets) (hn : t1.num = t.num) (ha : s1.arrs = s.arrs) :
    ∃ L r' B', delFromTable c e s1 = .ok () { s1 with
        link := L, arrs := upd s1.arrs t.buckets (some r'), tabs := upd s1.tabs T (some { t1 with items := t1.items - 1 }) } ∧
      Chains (L .bNext) (L .bPrev) (fun a => (s.data a).hashv) t.num r' (l.erase e) B' ∧
      (∀ k, k ≠ .bNext → k ≠ .bPrev → L k = s1.link k) ∧ ∀ a, a ∉ l → ∀ k, L k a = s1.link k a := by
  obtain ⟨x, hx, hxl⟩ := hh
  have hch : Chains (s1.link .bNext) (s1.link .bPrev) (fun a => (s.data a).hashv) t.num r l B := by
    rw [hL _ (by decide) (by decide), hL _ (by decide) (by decide)]
    exact h.chains
  have ha' : s1.arrs t.buckets = some r := by rw [ha, h.arr]
  have hl' : ∀ a ∈ l, s1.live a = true := fun a h' => by rw [hlive, h.live a h']
  obtain ⟨L, r', B', e1, e2, e3, e4⟩ := delInBkt_ok ha' hch h.zero h.nodup he hl' (h.bkt_lt _)
  refine ⟨L, r', B', ?_, e2, e3, e4⟩
  have hxT : s1.link .tbl x = T := by rw [hL _ (by decide) (by decide), h.tbl x hxl]
  simp only [delFromTable, bind_app, getD_app (hl' e he), getHead_app hx, rd_app (hl' x hxl), hxT, getT_app ht, hb, hn, hdata,
    e1, setT, ht]

/-- An item is taken out, others stay. -/
theorem hashDel_mid {s : St} {l : List Addr} {e T c : Addr} {t : Tab} {r : Arr} {B : Nat → List Addr} (h : TabOk s l T t r B)
    (hc : s.caches c = some (l.headD 0)) (he : e ∈ l) (hne : l ≠ [e]) :
    ∃ s' t' r' B', hashDel c e s = .ok () s' ∧ TabOk s' (l.erase e) T t' r' B' ∧
      Touch s s' l (some T) (some T) (some t.buckets) (some t'.buckets) ∧ s'.data = s.data ∧ s'.host = s.host ∧
      s'.caches = upd s.caches c (some ((l.erase e).headD 0)) ∧ t'.buckets = t.buckets := by
  obtain ⟨l1, l2, rfl⟩ := List.append_of_mem he
  have hn1 : e ∉ l1 := fun h' => (List.nodup_append.1 h.nodup).2.2 e h' e (by simp) rfl
  have hn2 : e ∉ l2 := (List.nodup_cons.1 (List.nodup_append.1 h.nodup).2.1).1
  have her : (l1 ++ e :: l2).erase e = l1 ++ l2 := by
    rw [List.erase_append_right _ hn1, List.erase_cons_head]
  have hz1 : 0 ∉ l1 := fun h' => h.zero (by simp [h'])
  have hz2 : 0 ∉ l2 := fun h' => h.zero (by simp [h'])
  obtain ⟨ep, en⟩ := seg_mid h.seg
  have hle := h.live e he
  have hu := nseg_unlink h.seg h.nodup h.zero
  have hhm : (l1 ++ e :: l2).headD 0 ∈ l1 ++ e :: l2 := by
    cases l1 <;> simp
  have hlh := h.live _ hhm
  have htail : e = t.tail ↔ l2 = [] := by
    rw [h.tail, getLastD_append_cons]
    cases l2 with
    | nil => simp
    | cons y k =>
      have h1 : (y :: k).getLastD e ∈ y :: k := lastD_mem (by simp)
      simp only [reduceCtorEq, iff_false]
      intro h2
      rw [← h2] at h1
      exact hn2 h1
  have hp : s.link .aPrev e ≠ 0 ↔ l1 ≠ [] := by rw [ep]; exact lastD_ne_zero hz1
  have hn : s.link .aNext e ≠ 0 ↔ l2 ≠ [] := by rw [en]; exact headD_ne_zero hz2
  have hnot : ¬(s.link .aPrev e = 0 ∧ s.link .aNext e = 0) := by
    rintro ⟨h1, h2⟩
    have h3 : l1 = [] := Classical.byContradiction fun h' => hp.2 h' h1
    have h4 : l2 = [] := Classical.byContradiction fun h' => hn.2 h' h2
    exact hne (by rw [h3, h4]; rfl)
  -- the state before the bucket's part
  have key : ∀ (s1 : St) (t1 : Tab), delFromTable c e s1 = hashDel c e s → s1.live = s.live → s1.data = s.data →
      s1.glob = s.glob → s1.host = s.host →
      (∀ k, k ≠ .aNext → k ≠ .aPrev → s1.link k = s.link k) → (∀ a, a ∉ l1 ++ e :: l2 → ∀ k, s1.link k a = s.link k a) →
      Seg (s1.link .aNext) (s1.link .aPrev) 0 (l1 ++ l2) 0 → s1.caches = upd s.caches c (some ((l1 ++ l2).headD 0)) →
      s1.tabs = upd s.tabs T (some t1) → t1 = { t with tail := (l1 ++ l2).getLastD 0 } → s1.arrs = s.arrs →
      ∃ s' t' r' B', hashDel c e s = .ok () s' ∧ TabOk s' (l1 ++ l2) T t' r' B' ∧
        Touch s s' (l1 ++ e :: l2) (some T) (some T) (some t.buckets) (some t'.buckets) ∧ s'.data = s.data ∧ s'.host = s.host ∧
        s'.caches = upd s.caches c (some ((l1 ++ l2).headD 0)) ∧ t'.buckets = t.buckets := by
    intro s1 t1 g1 g2 g3 g4 g5 g6 g7 g8 g9 g10 g11 g12
    have hl12 : l1 ++ l2 ≠ [] := by
      intro h'
      simp only [List.append_eq_nil_iff] at h'
      exact hne (by rw [h'.1, h'.2]; rfl)
    obtain ⟨L, r', B', e1, e2, e3, e4⟩ := delFromTable_ok (s1 := s1) (c := c) (t1 := t1) h he g2 g3 g6
      ⟨(l1 ++ l2).headD 0, by rw [g9, upd_same], by
        have : (l1 ++ l2).headD 0 ∈ l1 ++ l2 := by
          cases h12 : l1 ++ l2 with
          | nil => exact absurd h12 hl12
          | cons y k => simp
        simp only [List.mem_append, List.mem_cons] at this ⊢
        rcases this with h' | h'
        · exact .inl h'
        · exact .inr (.inr h')⟩ (by rw [g10, upd_same]) (by rw [g11]) (by rw [g11]) g12
    rw [her] at e2
    refine ⟨{ s1 with
      link := L, arrs := upd s1.arrs t.buckets (some r'), tabs := upd s1.tabs T (some { t1 with items := t1.items - 1 }) },
      { t1 with items := t1.items - 1 }, r', B', by rw [← g1]; exact e1, ?_, ?_, g3, g5, g9, by rw [g11]⟩
    · refine ⟨?_, ?_, ?_, ?_, ?_, upd_same _ _ _, ?_, ?_, ?_, ?_, ?_⟩
      · dsimp only
        rw [e3 _ (by decide) (by decide), e3 _ (by decide) (by decide)]
        exact g8
      · rw [← her]
        exact h.nodup.erase e
      · simp only [List.mem_append, not_or]
        exact ⟨hz1, hz2⟩
      · intro a ha
        show s1.live a = true
        rw [g2]
        refine h.live a ?_
        simp only [List.mem_append, List.mem_cons] at ha ⊢
        rcases ha with h' | h'
        · exact .inl h'
        · exact .inr (.inr h')
      · intro a ha
        dsimp only
        rw [e3 _ (by decide) (by decide), g6 _ (by decide) (by decide)]
        refine h.tbl a ?_
        simp only [List.mem_append, List.mem_cons] at ha ⊢
        rcases ha with h' | h'
        · exact .inl h'
        · exact .inr (.inr h')
      · rw [g11]
      · have := h.items
        rw [g11]
        simp only [List.length_append, List.length_cons] at this ⊢
        omega
      · rw [g11]
        exact h.num
      · rw [g11]
        exact upd_same _ _ _
      · rw [g11]
        dsimp only
        rw [g3]
        exact e2
    · have hb : ({ t1 with items := t1.items - 1 } : Tab).buckets = t.buckets := by rw [g11]
      rw [hb]
      refine ⟨g2, g4, ?_, ?_, fun a _ => by dsimp only; rw [g3], ?_, fun X h1 h2 => absurd h1 h2, fun X h1 h2 => absurd h1 h2, ?_,
        fun X h1 h2 => absurd h1 h2, fun X h1 h2 => absurd h1 h2⟩
      · rintro k (rfl | rfl)
        · dsimp only
          rw [e3 _ (by decide) (by decide), g6 _ (by decide) (by decide)]
        · dsimp only
          rw [e3 _ (by decide) (by decide), g6 _ (by decide) (by decide)]
      · intro a ha k
        dsimp only
        rw [e4 a ha, g7 a ha]
      · intro X h1 _
        have h2 : X ≠ T := fun e' => h1 (by rw [e'])
        dsimp only
        rw [upd_ne _ _ h2, g10, upd_ne _ _ h2]
      · intro X h1 _
        have h2 : X ≠ t.buckets := fun e' => h1 (by rw [e'])
        dsimp only
        rw [upd_ne _ _ h2, g12]
  rw [her]
  by_cases h1 : l1 = []
  · have h2 : l2 ≠ [] := fun h' => hne (by rw [h1, h']; rfl)
    have hp0 : s.link .aPrev e = 0 := Classical.byContradiction fun h' => hp.1 h' h1
    have hn0 := hn.2 h2
    have hnt : ¬ e = t.tail := fun h' => h2 (htail.1 h')
    have hnm : s.link .aNext e ∈ l1 ++ e :: l2 := by
      rw [en]
      cases l2 with
      | nil => exact absurd rfl h2
      | cons y k => simp
    refine key { s with link := updL s.link .aPrev (s.link .aNext e) (s.link .aPrev e), caches := upd s.caches c (some (s.link .aNext e)) } t ?_ rfl
      rfl rfl rfl ?_ ?_ ?_ ?_ (upd_self h.tab).symm ?_ rfl
    · simp only [hashDel, bind_app, rd, hle, getHead, hc, ite_app, if_neg hnot, hlh, h.tbl _ hhm, getT, h.tab, if_neg hnt, pure_app,
        if_neg (show ¬ s.link .aPrev e ≠ 0 from fun h' => h' hp0), setHead, if_pos hn0, wr, h.live _ hnm, ↓reduceIte]
    · intro k _ h3
      exact updL_ne _ _ _ h3
    · intro a ha k
      dsimp only
      unfold updL
      rw [if_neg]
      rintro ⟨_, rfl⟩
      exact ha hnm
    · rw [if_neg (show ¬ s.link .aPrev e ≠ 0 from fun h' => h' hp0), if_pos hn0] at hu
      dsimp only
      rw [updL_ne _ _ _ (show Fld.aNext ≠ Fld.aPrev by decide), updL_same]
      exact hu
    · dsimp only
      rw [en, h1]
      rfl
    · have e1 : (l1 ++ l2).getLastD 0 = t.tail := by
        rw [h.tail, getLastD_append_cons, h1]
        cases l2 with
        | nil => exact absurd rfl h2
        | cons y k => rfl
      rw [e1]
  · have hp0 := hp.2 h1
    have hpm : s.link .aPrev e ∈ l1 ++ e :: l2 := by
      rw [ep]
      exact List.mem_append_left _ (lastD_mem h1)
    have hhd : (l1 ++ e :: l2).headD 0 = (l1 ++ l2).headD 0 := by
      cases l1 with
      | nil => exact absurd rfl h1
      | cons y k => rfl
    by_cases h2 : l2 = []
    · have hn0 : s.link .aNext e = 0 := Classical.byContradiction fun h' => hn.1 h' h2
      have ht := htail.2 h2
      refine key { s with link := updL s.link .aNext (s.link .aPrev e) (s.link .aNext e), tabs := upd s.tabs T (some { t with tail := s.link .aPrev e }) }
        { t with tail := s.link .aPrev e } ?_ rfl rfl rfl rfl ?_ ?_ ?_ ?_ rfl ?_ rfl
      · simp only [hashDel, bind_app, rd, hle, getHead, hc, ite_app, if_neg hnot, hlh, h.tbl _ hhm, getT, h.tab, if_pos ht, setT,
          if_pos hp0, wr, h.live _ hpm, if_neg (show ¬ s.link .aNext e ≠ 0 from fun h' => h' hn0), pure_app, ↓reduceIte]
      · intro k h3 _
        exact updL_ne _ _ _ h3
      · intro a ha k
        dsimp only
        unfold updL
        rw [if_neg]
        rintro ⟨_, rfl⟩
        exact ha hpm
      · rw [if_pos hp0, if_neg (show ¬ s.link .aNext e ≠ 0 from fun h' => h' hn0)] at hu
        dsimp only
        rw [updL_ne _ _ _ (show Fld.aPrev ≠ Fld.aNext by decide), updL_same]
        exact hu
      · dsimp only
        rw [upd_self]
        rw [hc, hhd]
      · rw [ep, h2, List.append_nil]
    · have hn0 := hn.2 h2
      have hnt : ¬ e = t.tail := fun h' => h2 (htail.1 h')
      have hnm : s.link .aNext e ∈ l1 ++ e :: l2 := by
        rw [en]
        cases l2 with
        | nil => exact absurd rfl h2
        | cons y k => simp
      refine key { s with link := updL (updL s.link .aNext (s.link .aPrev e) (s.link .aNext e)) .aPrev (s.link .aNext e) (s.link .aPrev e) } t ?_ rfl
        rfl rfl rfl ?_ ?_ ?_ ?_ (upd_self h.tab).symm ?_ rfl
      · simp only [hashDel, bind_app, rd, hle, getHead, hc, ite_app, if_neg hnot, hlh, h.tbl _ hhm, getT, h.tab, if_neg hnt, pure_app,
          if_pos hp0, if_pos hn0, wr, h.live _ hnm, h.live _ hpm, ↓reduceIte]
      · intro k h3 h4
        dsimp only
        rw [updL_ne _ _ _ h4, updL_ne _ _ _ h3]
      · intro a ha k
        dsimp only
        unfold updL
        rw [if_neg, if_neg]
        · rintro ⟨_, rfl⟩
          exact ha hpm
        · rintro ⟨_, rfl⟩
          exact ha hnm
      · rw [if_pos hp0, if_pos hn0] at hu
        dsimp only
        rw [updL_ne _ _ _ (show Fld.aNext ≠ Fld.aPrev by decide), updL_same, updL_same,
          updL_ne _ _ _ (show Fld.aPrev ≠ Fld.aNext by decide)]
        exact hu
      · dsimp only
        rw [upd_self]
        rw [hc, hhd]
      · have e1 : (l1 ++ l2).getLastD 0 = t.tail := by
          rw [h.tail, getLastD_append_cons]
          cases l2 with
          | nil => exact absurd rfl h2
          | cons y k => rw [getLastD_append_cons]; cases k <;> rfl
        rw [e1]

end Verif.IpcMem
