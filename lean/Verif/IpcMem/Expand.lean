import Verif.IpcMem.Del
/-!
# Lemmas for the cache of opened IPC handles: a table gets more buckets
-/
namespace Verif.IpcMem

/-- The base allocator has answers for `k` blocks. -/
def Rich (k : Nat) (s : St) : Prop :=
  ∃ xs ys, s.host = xs ++ ys ∧ xs.length = k ∧ xs.Nodup ∧ ∀ x ∈ xs, x ≠ 0 ∧ fresh s x = true

theorem Rich.mono {s s' : St} {k : Nat} (h : Rich k s) (hh : s'.host = s.host)
    (hf : ∀ a, fresh s a = true → fresh s' a = true) : Rich k s' := by
  obtain ⟨xs, ys, h1, h2, h3, h4⟩ := h
  exact ⟨xs, ys, by rw [hh, h1], h2, h3, fun x hx => ⟨(h4 x hx).1, hf x (h4 x hx).2⟩⟩

theorem Rich.less {s : St} {k j : Nat} (h : Rich k s) (hj : j ≤ k) : Rich j s := by
  obtain ⟨xs, ys, h1, h2, h3, h4⟩ := h
  refine ⟨xs.take j, xs.drop j ++ ys, by rw [h1, ← List.append_assoc, List.take_append_drop], by simp; omega,
    h3.sublist (List.take_sublist _ _), fun x hx => h4 x (List.mem_of_mem_take hx)⟩

theorem Rich.next {s s' : St} {k : Nat} (h : Rich (k + 1) s) (hh : s'.host = s.host.tail)
    (hf : ∀ a, a ≠ s.host.headD 0 → fresh s a = true → fresh s' a = true) : Rich k s' := by
  obtain ⟨xs, ys, h1, h2, h3, h4⟩ := h
  cases xs with
  | nil => simp at h2
  | cons x xs =>
    rw [h1] at hh hf
    simp only [List.cons_append, List.tail_cons, List.headD_cons] at hh hf
    refine ⟨xs, ys, hh, by simpa using h2, (List.nodup_cons.1 h3).2, fun y hy => ?_⟩
    have := h4 y (by simp [hy])
    refine ⟨this.1, hf y ?_ this.2⟩
    rintro rfl
    exact (List.nodup_cons.1 h3).1 hy

theorem hostAlloc_cases (s : St) :
    (∃ a, a ≠ 0 ∧ fresh s a = true ∧ a = s.host.headD 0 ∧ hostAlloc s = .ok a { s with host := s.host.tail }) ∨
    (hostAlloc s = .ok 0 { s with host := s.host.tail } ∧ ¬ Rich 1 s) := by
  unfold hostAlloc
  by_cases h : s.host.headD 0 ≠ 0 ∧ fresh s (s.host.headD 0) = true
  · exact .inl ⟨s.host.headD 0, h.1, h.2, rfl, by simp only [if_pos h]⟩
  · refine .inr ⟨by simp only [if_neg h], ?_⟩
    rintro ⟨xs, ys, h1, h2, h3, h4⟩
    obtain ⟨x, rfl⟩ := List.length_eq_one_iff.1 h2
    rw [h1] at h
    exact h (h4 x (by simp))

theorem fresh_iff {s : St} {a : Addr} :
    fresh s a = true ↔ s.live a = false ∧ s.tabs a = none ∧ s.arrs a = none ∧ s.caches a = none := by
  simp only [fresh, Bool.and_eq_true, Bool.not_eq_true', Option.isNone_iff_eq_none, and_assoc]

/-- The items `P` have been moved to the new array `a`, since the state `s0` in which table `T` was `t`. -/
def Moved (s0 : St) (T a : Addr) (t : Tab) (P : List Addr) (s : St) : Prop :=
  ∃ L v r D, s = { s0 with
      link := L, tabs := upd s0.tabs T (some { t with nonideal := v }), arrs := upd s0.arrs a (some r) } ∧
    Chains (L .bNext) (L .bPrev) (fun y => (s0.data y).hashv) (t.num * 2) r P D ∧
    (∀ k, k ≠ .bNext → k ≠ .bPrev → L k = s0.link k) ∧ (∀ y, y ∉ P → ∀ k, L k y = s0.link k y) ∧
    ∀ y ∈ P, s0.live y = true ∧ y ≠ 0

theorem moveItem_ok {s0 s : St} {T a x : Addr} {t : Tab} {P : List Addr} (h : Moved s0 T a t P s) (hn : t.num = 2 ^ t.log2)
    (hx : x ∉ P) (hx0 : x ≠ 0) (hl : s0.live x = true) : ∃ s', moveItem T a x s = .ok () s' ∧ Moved s0 T a t (x :: P) s' := by
  obtain ⟨L, v, r, D, rfl, hc, hL, hy, hP⟩ := h
  have hz : 0 ∉ P := fun h' => (hP 0 h').2 rfl
  have hi : toBkt (s0.data x).hashv (t.num * 2) < t.num * 2 := by
    rw [hn, ← Nat.pow_succ]
    exact toBkt_lt _ _
  have hi' : toBkt (s0.data x).hashv (t.num * 2) < r.len := by rw [hc.len]; exact hi
  generalize hib : toBkt (s0.data x).hashv (t.num * 2) = i at hi hi'
  have hbl : (r.cell i).head ≠ 0 → s0.live (r.cell i).head = true := by
    intro h'
    rw [hc.head i hi] at h' ⊢
    refine (hP _ (((hc.mem i hi _).1 ?_).1)).1
    cases hB : D i with
    | nil => rw [hB] at h'; exact absurd rfl h'
    | cons y k => simp
  have hbm : (r.cell i).head ≠ 0 → (r.cell i).head ∈ P := by
    intro h'
    rw [hc.head i hi] at h' ⊢
    refine ((hc.mem i hi _).1 ?_).1
    cases hB : D i with
    | nil => rw [hB] at h'; exact absurd rfl h'
    | cons y k => simp
  -- the end of the body, whatever the counters of the bucket are
  have fin : ∀ v' m, Moved s0 T a t (x :: P) { s0 with
        link := if (r.cell i).head ≠ 0 then updL (updL (updL L .bPrev x 0) .bNext x (r.cell i).head) .bPrev (r.cell i).head x
          else updL (updL L .bPrev x 0) .bNext x (r.cell i).head,
        tabs := upd s0.tabs T (some { t with nonideal := v' }),
        arrs := upd s0.arrs a (some { r with cell := upd r.cell i ⟨x, (r.cell i).count + 1, m⟩ }) } := by
    intro v' m
    refine ⟨_, v', _, _, rfl, (chains_add (m := m) hc hz hx hi hib).congr (hv' := fun y => (s0.data y).hashv)
      (fun y _ => ?_) fun _ _ => rfl, fun k h1 h2 => ?_, fun y h1 k => ?_, fun y h1 => ?_⟩
    · rw [← hc.head i hi]
      by_cases h' : (r.cell i).head = 0
      · simp [h', updL_same, updL_ne _ _ _ (show Fld.bNext ≠ Fld.bPrev by decide),
          updL_ne _ _ _ (show Fld.bPrev ≠ Fld.bNext by decide)]
      · simp [h', updL_same, updL_ne _ _ _ (show Fld.bNext ≠ Fld.bPrev by decide),
          updL_ne _ _ _ (show Fld.bPrev ≠ Fld.bNext by decide)]
    · by_cases h' : (r.cell i).head = 0
      · simp only [h', ne_eq, not_true, if_false]
        rw [updL_ne _ _ _ h1, updL_ne _ _ _ h2, hL k h1 h2]
      · simp only [h', ne_eq, not_false_iff, if_true]
        rw [updL_ne _ _ _ h2, updL_ne _ _ _ h1, updL_ne _ _ _ h2, hL k h1 h2]
    · simp only [List.mem_cons, not_or] at h1
      have h2 : (r.cell i).head ≠ 0 → y ≠ (r.cell i).head := fun h' e' => h1.2 (e' ▸ hbm h')
      have h3 : ∀ k, updL (updL L .bPrev x 0) .bNext x (r.cell i).head k y = L k y := by
        intro k
        unfold updL
        rw [if_neg fun h' => h1.1 h'.2, if_neg fun h' => h1.1 h'.2]
      rw [← hy y h1.2 k]
      by_cases h' : (r.cell i).head = 0
      · rw [if_neg fun h'' => h'' h', h3]
      · simp only [h', ne_eq, not_false_iff, if_true]
        rw [show updL (updL (updL L .bPrev x 0) .bNext x (r.cell i).head) .bPrev (r.cell i).head x k y =
          updL (updL L .bPrev x 0) .bNext x (r.cell i).head k y from if_neg fun h'' => h2 h' h''.2, h3]
    · rcases List.mem_cons.1 h1 with rfl | h1
      · exact ⟨hl, hx0⟩
      · exact hP y h1
  by_cases hid : (r.cell i).count + 1 > t.ideal
  · refine ⟨_, ?_, fin (v + 1) (if (r.cell i).count + 1 > (r.cell i).mult * t.ideal then (r.cell i).mult + 1 else (r.cell i).mult)⟩
    simp only [moveItem, bind_app, getT, upd_same, getD, hl, hib, getBkt, hi', ite_app, if_pos hid, setT, setBkt, wr, ↓reduceIte]
    by_cases h' : (r.cell i).head ≠ 0
    · simp only [if_pos h', hbl h', upd_upd, upd_same, hi', ↓reduceIte]
    · simp only [if_neg h', pure_app, upd_upd, upd_same, hi', ↓reduceIte]
  · refine ⟨_, ?_, fin v (r.cell i).mult⟩
    simp only [moveItem, bind_app, getT, upd_same, getD, hl, hib, getBkt, hi', ite_app, if_neg hid, setT, setBkt, wr, ↓reduceIte]
    by_cases h' : (r.cell i).head ≠ 0
    · simp only [if_pos h', hbl h', upd_upd, upd_same, hi', ↓reduceIte]
    · simp only [if_neg h', pure_app, upd_upd, upd_same, hi', ↓reduceIte]

theorem moveChain_ok {s0 : St} {T a : Addr} {t : Tab} (hn : t.num = 2 ^ t.log2) : ∀ {c : List Addr} {p : Addr}
    {P : List Addr} {s : St} (fuel : Nat), c.length < fuel → Moved s0 T a t P s →
    Seg (s0.link .bNext) (s0.link .bPrev) p c 0 → c.Nodup → (∀ x ∈ c, x ∉ P ∧ x ≠ 0 ∧ s0.live x = true) →
    ∃ s', moveChain T a fuel (c.headD 0) s = .ok () s' ∧ Moved s0 T a t (c.reverse ++ P) s' := by
  intro c
  induction c with
  | nil =>
    intro p P s fuel hf hM _ _ _
    obtain ⟨f, rfl⟩ : ∃ f, fuel = f + 1 := ⟨fuel - 1, by simp at hf; omega⟩
    exact ⟨s, by simp [moveChain, pure_app], hM⟩
  | cons x c ih =>
    intro p P s fuel hf hM hs hd hx
    obtain ⟨f, rfl⟩ : ∃ f, fuel = f + 1 := ⟨fuel - 1, by simp at hf; omega⟩
    obtain ⟨h1, h2, h3⟩ := hx x (by simp)
    obtain ⟨s1, e1, hM1⟩ := moveItem_ok hM hn h1 h2 h3
    obtain ⟨s2, e2, hM2⟩ := ih f (by simp at hf; omega) hM1 hs.2 (List.nodup_cons.1 hd).2 (fun y hy => by
      obtain ⟨g1, g2, g3⟩ := hx y (by simp [hy])
      refine ⟨?_, g2, g3⟩
      simp only [List.mem_cons, not_or]
      refine ⟨?_, g1⟩
      rintro rfl
      exact (List.nodup_cons.1 hd).1 hy)
    refine ⟨s2, ?_, by simpa using hM2⟩
    rw [List.headD_cons, moveChain, if_neg h2]
    have hr : rd .bNext x s = .ok (c.headD 0) s := by
      obtain ⟨L, v, r, D, rfl, _, _, hy, _⟩ := hM
      rw [rd_app (by exact h3)]
      dsimp only
      rw [hy x h1, hs.1.2]
    simp only [bind_app, hr, e1, e2]

theorem moveAll_ok {s0 : St} {T a : Addr} {t : Tab} {r0 : Arr} {l : List Addr} {B : Nat → List Addr}
    (hn : t.num = 2 ^ t.log2) (ha : a ≠ t.buckets) (hr : s0.arrs t.buckets = some r0)
    (hc : Chains (s0.link .bNext) (s0.link .bPrev) (fun y => (s0.data y).hashv) t.num r0 l B) (hl : ∀ x ∈ l, s0.live x = true)
    (hz : 0 ∉ l) (fuel : Nat) (hf : l.length < fuel) : ∀ (k i : Nat) {P : List Addr} {s : St}, i + k = t.num →
    Moved s0 T a t P s → (∀ x, x ∈ P ↔ x ∈ l ∧ toBkt (s0.data x).hashv t.num < i) →
    ∃ P' s', moveAll T a fuel k i s = .ok () s' ∧ Moved s0 T a t P' s' ∧ ∀ x, x ∈ P' ↔ x ∈ l := by
  intro k
  induction k with
  | zero =>
    intro i P s hi hM hP
    refine ⟨P, s, rfl, hM, fun x => ?_⟩
    rw [hP]
    have : i = t.num := by omega
    subst this
    refine ⟨fun h => h.1, fun h => ⟨h, ?_⟩⟩
    rw [hn]
    exact toBkt_lt _ _
  | succ k ih =>
    intro i P s hi hM hP
    have hlt : i < t.num := by omega
    have hlen := chain_length_le hc hlt
    obtain ⟨s1, e1, hM1⟩ := moveChain_ok hn fuel (by omega) hM (hc.seg i hlt) (hc.nodup i hlt) (fun x hx => by
      obtain ⟨g1, g2⟩ := (hc.mem i hlt x).1 hx
      refine ⟨fun h' => ?_, fun e => hz (e ▸ g1), hl x g1⟩
      have := ((hP x).1 h').2
      omega)
    obtain ⟨P', s2, e2, hM2, hP'⟩ := ih (i + 1) (by omega) hM1 (fun x => by
      simp only [List.mem_append, List.mem_reverse]
      rw [hc.mem i hlt x, hP]
      constructor
      · rintro (⟨g1, g2⟩ | ⟨g1, g2⟩)
        · exact ⟨g1, by omega⟩
        · exact ⟨g1, by omega⟩
      · rintro ⟨g1, g2⟩
        by_cases g3 : toBkt (s0.data x).hashv t.num = i
        · exact .inl ⟨g1, g3⟩
        · exact .inr ⟨g1, by omega⟩)
    refine ⟨P', s2, ?_, hM2, hP'⟩
    obtain ⟨L, v, r, D, hs, _, _, _, _⟩ := hM
    have hb : getT T s = .ok { t with nonideal := v } s := getT_app (by rw [hs]; exact upd_same _ _ _)
    have hb2 : getBkt t.buckets i s = .ok (r0.cell i) s :=
      getBkt_app (r := r0) (by rw [hs]; dsimp only; rw [upd_ne _ _ (Ne.symm ha), hr]) (by rw [hc.len]; exact hlt)
    simp only [moveAll, bind_app, hb, hb2, hc.head i hlt, e1, e2]

/-- A table gets more buckets, or the process ends because there is no memory. -/
theorem expand_ok {s : St} {l : List Addr} {T : Addr} {t : Tab} {r : Arr} {B : Nat → List Addr} (h : TabOk s l T t r B)
    {fuel : Nat} (hf : l.length < fuel) : (expand fuel T s = .exit ∧ ¬ Rich 1 s) ∨
    ∃ s' t' r' B', expand fuel T s = .ok () s' ∧ TabOk s' l T t' r' B' ∧
      Touch s s' l (some T) (some T) (some t.buckets) (some t'.buckets) ∧ s'.data = s.data ∧ s'.caches = s.caches := by
  rcases hostAlloc_cases s with ⟨a, ha0, hfr, _, he⟩ | ⟨he, hR⟩
  · right
    obtain ⟨_, _, hfa, _⟩ := fresh_iff.1 hfr
    have hab : a ≠ t.buckets := fun e' => by
      rw [e', h.arr] at hfa
      cases hfa
    let t0 : Tab := { t with
      ideal := (t.items >>> (t.log2 + 1)) + (if (t.items &&& (t.num * 2 - 1)) ≠ 0 then 1 else 0), nonideal := 0 }
    let s0 : St := { s with host := s.host.tail }
    have hM : Moved s0 T a t0 [] { s0 with
        tabs := upd s0.tabs T (some t0), arrs := upd s0.arrs a (some ⟨t0.num * 2, fun _ => ⟨0, 0, 0⟩⟩) } :=
      ⟨s0.link, 0, _, _, rfl, chains_empty _ _ _ _, fun _ _ _ => rfl, fun _ _ _ => rfl, fun y hy => by cases hy⟩
    obtain ⟨P', s1, e1, hM1, hP⟩ := moveAll_ok (s0 := s0) (T := T) (a := a) (t := t0) (r0 := r) (l := l) (B := B) h.num hab h.arr
      h.chains h.live h.zero fuel hf t0.num 0 (by omega) hM (fun x => by simp)
    obtain ⟨L, v, r', D, rfl, hc, hL, hy, hPl⟩ := hM1
    let t1 : Tab := { t0 with nonideal := v }
    let ineff := if t1.nonideal > t1.items >>> 1 then t1.ineff + 1 else 0
    let t' : Tab := { t1 with
      num := t1.num * 2, log2 := t1.log2 + 1, buckets := a, ineff := ineff, noexpand := if ineff > 1 then true else t1.noexpand }
    have hrun : expand fuel T s = .ok () { s0 with
        link := L, tabs := upd s0.tabs T (some t'), arrs := upd (upd s0.arrs a (some r')) t.buckets none } := by
      have e1' : moveAll T a fuel t.num 0 { s with
        host := s.host.tail, tabs := upd s.tabs T (some t0),
        arrs := upd s.arrs a (some ⟨t.num * 2, fun _ => ⟨0, 0, 0⟩⟩) } = _ := e1
      have e2 : upd s.arrs a (some r') t.buckets = some r := by rw [upd_ne _ _ (Ne.symm hab), h.arr]
      simp only [expand, bind_app, he, ite_app, if_neg ha0, getT, h.tab, newArr, setT]
      rw [e1']
      simp only [s0, t0, t', t1, ineff, upd_same, upd_upd, freeArr, e2]
    refine ⟨_, t', r', D, hrun, ?_, ?_, rfl, rfl⟩
    · refine ⟨?_, h.nodup, h.zero, h.live, ?_, upd_same _ _ _, h.tail, h.items, ?_, ?_, ?_⟩
      · dsimp only
        rw [hL _ (by decide) (by decide), hL _ (by decide) (by decide)]
        exact h.seg
      · intro x hx
        dsimp only
        rw [hL _ (by decide) (by decide)]
        exact h.tbl x hx
      · show t.num * 2 = 2 ^ (t.log2 + 1)
        rw [h.num, Nat.pow_succ]
      · show upd (upd s.arrs a (some r')) t.buckets none a = some r'
        rw [upd_ne _ _ hab, upd_same]
      · exact hc.perm hP
    · refine ⟨rfl, rfl, ?_, ?_, fun _ _ => rfl, ?_, fun X h1 h2 => absurd h1 h2, fun X h1 h2 => absurd h1 h2, ?_, ?_, ?_⟩
      · rintro k (rfl | rfl)
        · exact hL _ (by decide) (by decide)
        · exact hL _ (by decide) (by decide)
      · intro x hx k
        exact hy x (fun h' => hx ((hP x).1 h')) k
      · intro X h1 _
        exact upd_ne _ _ fun e' => h1 (by rw [e'])
      · intro X h1 h2
        show upd (upd s.arrs a (some r')) t.buckets none X = s.arrs X
        rw [upd_ne _ _ fun e' => h1 (by rw [e']), upd_ne _ _ fun e' => h2 (by rw [e'])]
      · intro X h1 _
        cases h1
        exact upd_same _ _ _
      · intro X h1 _
        cases h1
        exact hfa
  · left
    exact ⟨by simp only [expand, bind_app, he, ite_app, if_true]; rfl, hR⟩

end Verif.IpcMem
