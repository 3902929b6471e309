import Verif.IpcMem.Expand
/-!
# Lemmas for the cache of opened IPC handles: adding an item to a table
-/
namespace Verif.IpcMem

theorem Touch.trans {s s1 s2 : St} {S S' : List Addr} {T T1 T2 A A1 A2 : Option Addr} (h : Touch s s1 S T T1 A A1)
    (h' : Touch s1 s2 S' T1 T2 A1 A2) (hS : ∀ a ∈ S', a ∈ S) : Touch s s2 S T T2 A A2 where
  live := h'.live.trans h.live
  glob := h'.glob.trans h.glob
  lru := fun k hk => (h'.lru k hk).trans (h.lru k hk)
  link := fun a ha k => (h'.link a (fun x => ha (hS a x)) k).trans (h.link a ha k)
  data := fun a ha => (h'.data a fun x => ha (hS a x)).trans (h.data a ha)
  tabs := fun X h1 h2 => by
    by_cases h3 : some X = T1
    · rw [h'.oldT X h3 h2, h.newT X h3 h1]
    · rw [h'.tabs X h3 h2, h.tabs X h1 h3]
  oldT := fun X h1 h2 => by
    by_cases h3 : some X = T1
    · exact h'.oldT X h3 h2
    · rw [h'.tabs X h3 h2, h.oldT X h1 h3]
  newT := fun X h1 h2 => by
    by_cases h3 : some X = T1
    · exact h.newT X h3 h2
    · rw [← h.tabs X h2 h3, h'.newT X h1 h3]
  arrs := fun X h1 h2 => by
    by_cases h3 : some X = A1
    · rw [h'.oldA X h3 h2, h.newA X h3 h1]
    · rw [h'.arrs X h3 h2, h.arrs X h1 h3]
  oldA := fun X h1 h2 => by
    by_cases h3 : some X = A1
    · exact h'.oldA X h3 h2
    · rw [h'.arrs X h3 h2, h.oldA X h1 h3]
  newA := fun X h1 h2 => by
    by_cases h3 : some X = A1
    · exact h.newA X h3 h2
    · rw [← h.arrs X h2 h3, h'.newA X h1 h3]

/-- A table with one item in its list that is in no bucket yet. -/
structure Half (s : St) (l : List Addr) (e T : Addr) (t : Tab) (r : Arr) (B : Nat → List Addr) : Prop where
  seg : Seg (s.link .aNext) (s.link .aPrev) 0 (l ++ [e]) 0
  nodup : (l ++ [e]).Nodup
  zero : 0 ∉ l ++ [e]
  live : ∀ a ∈ l ++ [e], s.live a = true
  tbl : ∀ a ∈ l ++ [e], s.link .tbl a = T
  tab : s.tabs T = some t
  tail : t.tail = e
  items : t.items = l.length
  num : t.num = 2 ^ t.log2
  arr : s.arrs t.buckets = some r
  chains : Chains (s.link .bNext) (s.link .bPrev) (fun a => (s.data a).hashv) t.num r l B

theorem addToTable_ok {s : St} {l : List Addr} {e T : Addr} {t : Tab} {r : Arr} {B : Nat → List Addr} (h : Half s l e T t r B)
    {hd : Addr} (hhd : hd ∈ l ++ [e]) {fuel : Nat} (hf : l.length + 1 < fuel) :
    (addToTable fuel hd e (s.data e).hashv s = .exit ∧ ¬ Rich 1 s) ∨
    ∃ s' t' r' B', addToTable fuel hd e (s.data e).hashv s = .ok () s' ∧ TabOk s' (l ++ [e]) T t' r' B' ∧
      Touch s s' (l ++ [e]) (some T) (some T) (some t.buckets) (some t'.buckets) ∧ s'.data = s.data ∧ s'.caches = s.caches := by
  have hi : toBkt (s.data e).hashv t.num < t.num := by
    rw [h.num]
    exact toBkt_lt _ _
  generalize hib : toBkt (s.data e).hashv t.num = i at hi
  have hi' : i < r.len := by rw [h.chains.len]; exact hi
  have hel : e ∈ l ++ [e] := by simp
  have hle := h.live e hel
  have hnl : e ∉ l := fun h' => (List.nodup_append.1 h.nodup).2.2 e h' e (by simp) rfl
  have hz : 0 ∉ l := fun h' => h.zero (by simp [h'])
  have hbm : (r.cell i).head ≠ 0 → (r.cell i).head ∈ l := by
    intro h'
    rw [h.chains.head i hi] at h' ⊢
    refine ((h.chains.mem i hi _).1 ?_).1
    cases hB : B i with
    | nil => rw [hB] at h'; exact absurd rfl h'
    | cons y k => simp
  have hbl : (r.cell i).head ≠ 0 → s.live (r.cell i).head = true := fun h' => h.live _ (by simp [hbm h'])
  have hadd := chains_add (m := (r.cell i).mult) h.chains hz hnl hi hib
  rw [← h.chains.head i hi] at hadd
  let L : Fld → Addr → Addr := if (r.cell i).head ≠ 0 then
    updL (updL (updL s.link .bNext e (r.cell i).head) .bPrev e 0) .bPrev (r.cell i).head e
    else updL (updL s.link .bNext e (r.cell i).head) .bPrev e 0
  let t2 : Tab := { t with items := t.items + 1 }
  let r2 : Arr := { r with cell := upd r.cell i ⟨e, (r.cell i).count + 1, (r.cell i).mult⟩ }
  let s2 : St := { s with link := L, tabs := upd s.tabs T (some t2), arrs := upd s.arrs t.buckets (some r2) }
  have hL : ∀ k, k ≠ .bNext → k ≠ .bPrev → L k = s.link k := by
    intro k h1 h2
    by_cases h' : (r.cell i).head ≠ 0
    · simp only [L, if_pos h']
      rw [updL_ne _ _ _ h2, updL_ne _ _ _ h2, updL_ne _ _ _ h1]
    · simp only [L, if_neg h']
      rw [updL_ne _ _ _ h2, updL_ne _ _ _ h1]
  have hLy : ∀ y, y ∉ l ++ [e] → ∀ k, L k y = s.link k y := by
    intro y hy k
    simp only [List.mem_append, List.mem_singleton, not_or] at hy
    have h3 : ∀ k, updL (updL s.link .bNext e (r.cell i).head) .bPrev e 0 k y = s.link k y := by
      intro k
      unfold updL
      rw [if_neg fun h' => hy.2 h'.2, if_neg fun h' => hy.2 h'.2]
    by_cases h' : (r.cell i).head ≠ 0
    · simp only [L, if_pos h']
      rw [← h3 k]
      have : ∀ f : Fld → Addr → Addr, updL f .bPrev (r.cell i).head e k y = f k y := fun f => by
        unfold updL
        rw [if_neg]
        rintro ⟨-, h''⟩
        exact hy.1 (h'' ▸ hbm h')
      exact this _
    · simp only [L, if_neg h']
      exact h3 k
  have hch : Chains (L .bNext) (L .bPrev) (fun a => (s.data a).hashv) t.num r2 (l ++ [e]) (upd B i (e :: B i)) := by
    refine (hadd.congr (hv' := fun a => (s.data a).hashv) (fun y _ => ?_) fun _ _ => rfl).perm fun a => by simp [or_comm]
    by_cases h' : (r.cell i).head ≠ 0
    · simp only [L, if_pos h', updL_same, updL_ne _ _ _ (show Fld.bNext ≠ Fld.bPrev by decide),
        updL_ne _ _ _ (show Fld.bPrev ≠ Fld.bNext by decide)]
      exact ⟨trivial, trivial⟩
    · simp only [L, if_neg h', updL_same, updL_ne _ _ _ (show Fld.bNext ≠ Fld.bPrev by decide),
        updL_ne _ _ _ (show Fld.bPrev ≠ Fld.bNext by decide)]
      exact ⟨trivial, trivial⟩
  have hT2 : TabOk s2 (l ++ [e]) T t2 r2 (upd B i (e :: B i)) := by
    refine ⟨?_, h.nodup, h.zero, h.live, ?_, upd_same _ _ _, ?_, ?_, h.num, upd_same _ _ _, hch⟩
    · show Seg (L .aNext) (L .aPrev) 0 (l ++ [e]) 0
      rw [hL _ (by decide) (by decide), hL _ (by decide) (by decide)]
      exact h.seg
    · intro a ha
      show L .tbl a = T
      rw [hL _ (by decide) (by decide)]
      exact h.tbl a ha
    · show t.tail = _
      rw [h.tail]
      simp
    · show t.items + 1 = _
      rw [h.items]
      simp
  have hto : Touch s s2 (l ++ [e]) (some T) (some T) (some t.buckets) (some t2.buckets) := by
    refine ⟨rfl, rfl, ?_, hLy, fun _ _ => rfl, ?_, fun X h1 h2 => absurd h1 h2, fun X h1 h2 => absurd h1 h2, ?_,
      fun X h1 h2 => absurd h1 h2, fun X h1 h2 => absurd h1 h2⟩
    · rintro k (rfl | rfl)
      · exact hL _ (by decide) (by decide)
      · exact hL _ (by decide) (by decide)
    · intro X h1 _
      exact upd_ne _ _ fun e' => h1 (by rw [e'])
    · intro X h1 _
      exact upd_ne _ _ fun e' => h1 (by rw [e'])
  have hrun : addToTable fuel hd e (s.data e).hashv s =
      if (r.cell i).count + 1 ≥ ((r.cell i).mult + 1) * 10 ∧ t2.noexpand = false then expand fuel T s2 else .ok () s2 := by
    have hte : L .tbl e = T := by
      rw [hL _ (by decide) (by decide)]
      exact h.tbl e hel
    simp only [addToTable, addToBkt, bind_app, rd, h.live hd hhd, h.tbl hd hhd, getT, h.tab, setT, hib, getBkt, h.arr, hi', setBkt, wr,
      hle, ite_app, upd_same, upd_upd, ↓reduceIte]
    by_cases h' : (r.cell i).head ≠ 0
    · simp only [L, if_pos h'] at hte
      simp only [if_pos h', hbl h', hle, hi', hte, upd_same, upd_upd, ↓reduceIte, pure_app, s2, L, t2, r2]
    · simp only [L, if_neg h'] at hte
      simp only [if_neg h', hte, upd_same, ↓reduceIte, pure_app, s2, L, t2, r2]
  rw [hrun]
  split
  · rcases expand_ok hT2 (fuel := fuel) (by simpa using hf) with ⟨e1, e2⟩ | ⟨s', t', r', B', e1, e2, e3, e4, e5⟩
    · refine .inl ⟨e1, fun hR => e2 (hR.mono rfl fun a ha => ?_)⟩
      rw [fresh_iff] at ha ⊢
      obtain ⟨a1, a2, a3, a4⟩ := ha
      refine ⟨a1, ?_, ?_, a4⟩
      · show upd s.tabs T (some t2) a = none
        rw [upd_ne, a2]
        rintro rfl
        rw [h.tab] at a2
        cases a2
      · show upd s.arrs t.buckets (some r2) a = none
        rw [upd_ne, a3]
        rintro rfl
        rw [h.arr] at a3
        cases a3
    · exact .inr ⟨s', t', r', B', e1, e2, hto.trans e3 fun _ h' => h', e4, e5⟩
  · exact .inr ⟨s2, t2, r2, _, rfl, hT2, hto, rfl, rfl⟩

/-- An item is added to a table that has some. -/
theorem hashAdd_more {hash : Key → Nat} {s : St} {l : List Addr} {c e T : Addr} {t : Tab} {r : Arr} {B : Nat → List Addr}
    (h : TabOk s l T t r B) (hc : s.caches c = some (l.headD 0)) (hne : l ≠ []) (he : e ∉ l) (he0 : e ≠ 0)
    (hle : s.live e = true) {fuel : Nat} (hf : l.length + 1 < fuel) :
    (hashAdd hash fuel c e s = .exit ∧ ¬ Rich 1 s) ∨
    ∃ s' t' r' B', hashAdd hash fuel c e s = .ok () s' ∧ TabOk s' (l ++ [e]) T t' r' B' ∧
      Touch s s' (l ++ [e]) (some T) (some T) (some t.buckets) (some t'.buckets) ∧
      s'.data = upd s.data e { s.data e with hashv := hash (s.data e).key } ∧
      s'.caches = upd s.caches c (some ((l ++ [e]).headD 0)) := by
  have hh0 : l.headD 0 ≠ 0 := (headD_ne_zero h.zero).2 hne
  have hhm : l.headD 0 ∈ l := by
    cases l with
    | nil => exact absurd rfl hne
    | cons y k => simp
  have hhe : l.headD 0 ≠ e := fun e' => he (e' ▸ hhm)
  have htm : t.tail ∈ l := by
    rw [h.tail]
    exact lastD_mem hne
  have hlt := h.live _ htm
  let L : Fld → Addr → Addr := updL (updL (updL (updL s.link .tbl e T) .aNext e 0) .aPrev e t.tail) .aNext t.tail e
  let s1 : St := { s with
    data := upd s.data e { s.data e with hashv := hash (s.data e).key }, link := L,
    tabs := upd s.tabs T (some { t with tail := e }) }
  have hL : ∀ k, k ≠ .tbl → k ≠ .aNext → k ≠ .aPrev → L k = s.link k := by
    intro k h1 h2 h3
    simp only [L]
    rw [updL_ne _ _ _ h2, updL_ne _ _ _ h3, updL_ne _ _ _ h2, updL_ne _ _ _ h1]
  have hLt : L .tbl = upd (s.link .tbl) e T := by
    simp only [L]
    rw [updL_ne _ _ _ (by decide), updL_ne _ _ _ (by decide), updL_ne _ _ _ (by decide), updL_same]
  have hH : Half s1 l e T { t with tail := e } r B := by
    refine ⟨?_, ?_, ?_, ?_, ?_, upd_same _ _ _, rfl, h.items, h.num, h.arr, ?_⟩
    · show Seg (L .aNext) (L .aPrev) 0 (l ++ [e]) 0
      have := nseg_back h.seg h.nodup he hne
      rw [← h.tail] at this
      simp only [L]
      rw [updL_same, updL_ne _ _ _ (show Fld.aNext ≠ Fld.aPrev by decide), updL_same,
        updL_ne _ _ _ (show Fld.aNext ≠ Fld.tbl by decide), updL_ne _ _ _ (show Fld.aPrev ≠ Fld.aNext by decide), updL_same,
        updL_ne _ _ _ (show Fld.aPrev ≠ Fld.aNext by decide), updL_ne _ _ _ (show Fld.aPrev ≠ Fld.tbl by decide)]
      exact this
    · refine List.nodup_append.2 ⟨h.nodup, by simp, fun a ha b hb e' => ?_⟩
      simp only [List.mem_singleton] at hb
      exact he (hb ▸ e' ▸ ha)
    · simp only [List.mem_append, List.mem_singleton, not_or]
      exact ⟨h.zero, Ne.symm he0⟩
    · intro a ha
      simp only [List.mem_append, List.mem_singleton] at ha
      rcases ha with ha | rfl
      · exact h.live a ha
      · exact hle
    · intro a ha
      show L .tbl a = T
      rw [hLt]
      by_cases hae : a = e
      · rw [hae, upd_same]
      · rw [upd_ne _ _ hae]
        simp only [List.mem_append, List.mem_singleton] at ha
        rcases ha with ha | ha
        · exact h.tbl a ha
        · exact absurd ha hae
    · show Chains (L .bNext) (L .bPrev) _ t.num r l B
      rw [hL _ (by decide) (by decide) (by decide), hL _ (by decide) (by decide) (by decide)]
      refine h.chains.congr (fun a _ => ⟨rfl, rfl⟩) fun a ha => ?_
      show (upd s.data e _ a).hashv = _
      rw [upd_ne]
      rintro rfl
      exact he ha
  have hto : Touch s s1 (l ++ [e]) (some T) (some T) (some t.buckets) (some t.buckets) := by
    refine ⟨rfl, rfl, ?_, fun a ha k => ?_, fun a ha => ?_, fun X h1 _ => ?_, fun X h1 h2 => absurd h1 h2,
      fun X h1 h2 => absurd h1 h2, fun _ _ _ => rfl, fun X h1 h2 => absurd h1 h2, fun X h1 h2 => absurd h1 h2⟩
    · rintro k (rfl | rfl)
      · exact hL .next (by decide) (by decide) (by decide)
      · exact hL .prev (by decide) (by decide) (by decide)
    · simp only [List.mem_append, List.mem_singleton, not_or] at ha
      show L k a = s.link k a
      simp only [L]
      unfold updL
      have : ¬ (k = .aNext ∧ a = t.tail) := fun h' => ha.1 (h'.2 ▸ htm)
      rw [if_neg this, if_neg fun h' => ha.2 h'.2, if_neg fun h' => ha.2 h'.2, if_neg fun h' => ha.2 h'.2]
    · simp only [List.mem_append, List.mem_singleton, not_or] at ha
      exact upd_ne _ _ ha.2
    · exact upd_ne _ _ fun e' => h1 (by rw [e'])
  have hhe1 : (s1.data e).hashv = hash (s.data e).key := by
    show (upd s.data e _ e).hashv = _
    rw [upd_same]
  have hrun : hashAdd hash fuel c e s = addToTable fuel (l.headD 0) e (hash (s.data e).key) s1 := by
    have e1 : updL s.link .tbl e T .tbl (l.headD 0) = T := by
      rw [updL_same, upd_ne _ _ hhe, h.tbl _ hhm]
    have e2 : updL (updL s.link .tbl e T) .aNext e 0 .tbl (l.headD 0) = T := by
      rw [updL_ne _ _ _ (by decide), e1]
    simp only [hashAdd, appendList, bind_app, getD, hle, setD, getHead, hc, ite_app, if_neg hh0, rd, h.live _ hhm, h.tbl _ hhm, wr, e2,
      getT, h.tab, hlt, setT, ↓reduceIte, s1, L]
  have hhd : l.headD 0 ∈ l ++ [e] := List.mem_append_left _ hhm
  have hcc : s.caches = upd s.caches c (some ((l ++ [e]).headD 0)) := by
    rw [upd_self]
    rw [hc]
    cases l with
    | nil => exact absurd rfl hne
    | cons y k => rfl
  have hfin := addToTable_ok hH hhd hf
  rw [hhe1] at hfin
  rw [hrun]
  rcases hfin with ⟨e1, e2⟩ | ⟨s', t', r', B', e1, e2, e3, e4, e5⟩
  · refine .inl ⟨e1, fun hR => e2 (hR.mono rfl fun a ha => ?_)⟩
    rw [fresh_iff] at ha ⊢
    obtain ⟨a1, a2, a3, a4⟩ := ha
    refine ⟨a1, ?_, a3, a4⟩
    show upd s.tabs T _ a = none
    rw [upd_ne, a2]
    rintro rfl
    rw [h.tab] at a2
    cases a2
  · exact .inr ⟨s', t', r', B', e1, e2, hto.trans e3 fun _ h' => h', e4, e5.trans hcc⟩

/-- The first item of a table. -/
theorem hashAdd_first {hash : Key → Nat} {s : St} {c e : Addr} (hc : s.caches c = some 0) (he0 : e ≠ 0) (hle : s.live e = true)
    {fuel : Nat} (hf : 1 < fuel) : (hashAdd hash fuel c e s = .exit ∧ ¬ Rich 3 s) ∨
    ∃ s' T t' r' B', hashAdd hash fuel c e s = .ok () s' ∧ TabOk s' [e] T t' r' B' ∧
      Touch s s' [e] none (some T) none (some t'.buckets) ∧
      s'.data = upd s.data e { s.data e with hashv := hash (s.data e).key } ∧ s'.caches = upd s.caches c (some e) := by
  let L : Fld → Addr → Addr := updL (updL s.link .aNext e 0) .aPrev e 0
  let D : Addr → Data := upd s.data e { s.data e with hashv := hash (s.data e).key }
  have hstart : hashAdd hash fuel c e s =
      (do makeTable e; setHead c e; addToTable fuel e e (hash (s.data e).key)) { s with data := D, link := L } := by
    simp only [hashAdd, bind_app, getD, hle, setD, getHead, hc, ite_app, if_true, wr, ↓reduceIte, L, D]
  rcases hostAlloc_cases { s with data := D, link := L } with ⟨T, hT0, hTf, hTh, hTe⟩ | ⟨hTe, hR⟩
  · let s1 : St := { s with data := D, link := updL L .tbl e T, tabs := upd s.tabs T (some ⟨0, 32, 5, 0, e, 0, 0, 0, false⟩), host := s.host.tail }
    have hTf' := fresh_iff.1 hTf
    rcases hostAlloc_cases s1 with ⟨a, ha0, haf, hah, hae⟩ | ⟨hae, hR⟩
    · let t : Tab := ⟨a, 32, 5, 0, e, 0, 0, 0, false⟩
      let s2 : St := { s with
        data := D, link := updL L .tbl e T, tabs := upd s.tabs T (some t), arrs := upd s.arrs a (some ⟨32, fun _ => ⟨0, 0, 0⟩⟩),
        host := s.host.tail.tail, caches := upd s.caches c (some e) }
      have haf' := fresh_iff.1 haf
      have hrun : hashAdd hash fuel c e s = addToTable fuel e e (hash (s.data e).key) s2 := by
        rw [hstart]
        have hae' : hostAlloc { s with
          data := D, link := updL L .tbl e T, tabs := upd s.tabs T (some ⟨0, 32, 5, 0, e, 0, 0, 0, false⟩), host := s.host.tail } =
            .ok a { s1 with host := s1.host.tail } := hae
        simp only [makeTable, bind_app, hTe, wr, hle, ite_app, if_neg hT0, newT, ↓reduceIte]
        rw [hae']
        simp only [if_neg ha0, getT, upd_same, setT, newArr, upd_upd, setHead, hc, s1, s2, t]
      have hH : Half s2 [] e T t ⟨32, fun _ => ⟨0, 0, 0⟩⟩ fun _ => [] := by
        refine ⟨⟨⟨?_, ?_⟩, trivial⟩, by simp, by simpa using Ne.symm he0, by simpa using hle, ?_, upd_same _ _ _, rfl, rfl, rfl, upd_same _ _ _,
          chains_empty _ _ _ _⟩
        · show updL L .tbl e T .aPrev e = 0
          simp only [L]
          rw [updL_ne _ _ _ (by decide), updL_same, upd_same]
        · show updL L .tbl e T .aNext e = 0
          simp only [L]
          rw [updL_ne _ _ _ (by decide), updL_ne _ _ _ (by decide), updL_same, upd_same]
        · intro x hx
          simp only [List.nil_append, List.mem_singleton] at hx
          rw [hx]
          show updL L .tbl e T .tbl e = T
          rw [updL_same, upd_same]
      have hto : Touch s s2 [e] none (some T) none (some t.buckets) := by
        refine ⟨rfl, rfl, ?_, fun x hx k => ?_, fun x hx => ?_, fun X _ h2 => ?_, nofun, fun X h1 _ => ?_,
          fun X _ h2 => ?_, nofun, fun X h1 _ => ?_⟩
        · have : ∀ k, k ≠ .tbl → k ≠ .aNext → k ≠ .aPrev → s2.link k = s.link k := by
            intro k h1 h2 h3
            simp only [s2, L]
            rw [updL_ne _ _ _ h1, updL_ne _ _ _ h3, updL_ne _ _ _ h2]
          rintro k (rfl | rfl)
          · exact this .next (by decide) (by decide) (by decide)
          · exact this .prev (by decide) (by decide) (by decide)
        · simp only [List.mem_singleton] at hx
          show updL L .tbl e T k x = s.link k x
          simp only [L]
          unfold updL
          rw [if_neg fun h' => hx h'.2, if_neg fun h' => hx h'.2, if_neg fun h' => hx h'.2]
        · simp only [List.mem_singleton] at hx
          exact upd_ne _ _ hx
        · exact upd_ne _ _ fun e' => h2 (by rw [e'])
        · cases h1
          exact hTf'.2.1
        · exact upd_ne _ _ fun e' => h2 (by rw [e'])
        · cases h1
          exact haf'.2.2.1
      have hhe1 : (s2.data e).hashv = hash (s.data e).key := by
        show (upd s.data e _ e).hashv = _
        rw [upd_same]
      have hfin := addToTable_ok hH (hd := e) (by simp) (fuel := fuel) (by simpa using hf)
      rw [hhe1] at hfin
      rw [hrun]
      rcases hfin with ⟨e1, e2⟩ | ⟨s', t', r', B', e1, e2, e3, e4, e5⟩
      · refine .inl ⟨e1, fun hR => e2 ?_⟩
        have hR1 : Rich 2 s1 := by
          refine hR.next rfl fun x hx hxf => ?_
          rw [fresh_iff] at hxf ⊢
          refine ⟨hxf.1, ?_, hxf.2.2.1, hxf.2.2.2⟩
          show upd s.tabs T _ x = none
          rw [upd_ne, hxf.2.1]
          rintro rfl
          exact hx hTh
        refine hR1.next rfl fun x hx hxf => ?_
        rw [fresh_iff] at hxf ⊢
        refine ⟨hxf.1, ?_, ?_, ?_⟩
        · show upd s.tabs T _ x = none
          have := hxf.2.1
          simp only [s1] at this
          by_cases hxT : x = T
          · rw [hxT, upd_same] at this
            cases this
          · rw [upd_ne _ _ hxT] at this ⊢
            exact this
        · show upd s.arrs a _ x = none
          rw [upd_ne]
          · exact hxf.2.2.1
          · rintro rfl
            exact hx hah
        · show upd s.caches c _ x = none
          rw [upd_ne]
          · exact hxf.2.2.2
          · rintro rfl
            have := hxf.2.2.2
            simp only [s1] at this
            rw [hc] at this
            cases this
      · exact .inr ⟨s', T, t', r', B', e1, e2, hto.trans e3 fun _ h' => h', e4, e5⟩
    · refine .inl ⟨?_, fun hR' => hR ?_⟩
      · rw [hstart]
        have hae' : hostAlloc { s with
          data := D, link := updL L .tbl e T, tabs := upd s.tabs T (some ⟨0, 32, 5, 0, e, 0, 0, 0, false⟩), host := s.host.tail } =
            .ok 0 { s1 with host := s1.host.tail } := hae
        simp only [makeTable, bind_app, hTe, wr, hle, ite_app, if_neg hT0, newT, ↓reduceIte]
        rw [hae']
        rfl
      · have hR1 : Rich 2 s1 := by
          refine hR'.next rfl fun x hx hxf => ?_
          rw [fresh_iff] at hxf ⊢
          refine ⟨hxf.1, ?_, hxf.2.2.1, hxf.2.2.2⟩
          show upd s.tabs T _ x = none
          rw [upd_ne, hxf.2.1]
          rintro rfl
          exact hx hTh
        exact hR1.less (by omega)
  · refine .inl ⟨?_, fun hR' => hR ((hR'.less (by omega)).mono rfl fun _ h' => h')⟩
    rw [hstart]
    simp only [makeTable, bind_app, hTe, wr, hle, ite_app, if_true, ↓reduceIte]
    rfl

end Verif.IpcMem
