import Verif.Tracker.Lemmas2
/-! # Every reachable tracker satisfies the invariant -/
set_option linter.unusedSimpArgs false
namespace Verif.Tracker
open Mem

theorem addAtLevel_fail {st st' : St} {lvl pool x size : Nat} {p : Option Nat} {host : Bool} {r : Res}
    (h : addAtLevel st lvl pool x size p host = (st', r)) (hr : r ≠ .success) : st' = st := by
  unfold addAtLevel at h
  split at h
  · injection h with h1 h2; exact h1.symm
  · split at h
    · injection h with h1 h2; exact h1.symm
    · injection h with h1 h2; exact absurd h2.symm hr

theorem add_fail {st st' : St} {pool x size : Nat} {host : Bool} {r : Res}
    (h : add st pool x size host = (st', r)) (hr : r ≠ .success) : st' = st := by
  unfold add at h
  split at h
  · injection h with h1 h2; exact h1.symm
  · injection h with h1 h2; exact h1.symm
  · exact addAtLevel_fail h hr

theorem add_host {st st' : St} {pool x size : Nat} {host : Bool}
    (h : add st pool x size host = (st', .success)) : host = true := by
  unfold add at h
  split at h
  · injection h with h1 h2; cases h2
  · injection h with h1 h2; cases h2
  · unfold addAtLevel at h
    split at h
    · injection h with h1 h2; cases h2
    · rename_i h1; simpa using h1

/-- `umfMemoryTrackerAdd` at its place. -/
theorem add_place {st : St} {G : List Node} (h : Inv st G) {x size pool lvl : Nat} {p : Option Nat}
    {host : Bool} (hb : x + size < 2 ^ 64) (hin : ∀ m ∈ G, Has m.rg x → x + size ≤ m.ptr + m.size)
    (hp : Place G x lvl p) : add st pool x size host = addAtLevel st lvl pool x size p host := by
  unfold add
  rcases hp with ⟨h1, h2, h3⟩ | ⟨n, h1, h2, h3, h4⟩
  · rw [addLoop_none h (fun n hn _ => h1 n hn), h2, h3]
  · rw [addLoop_spec h h1 hb hin 8 0 none (by omega) (by omega), if_neg (by omega), h3, h4]

theorem add_full {st : St} {G : List Node} (h : Inv st G) {x size pool : Nat} {n : Node}
    {host : Bool} (hb : x + size < 2 ^ 64) (hin : ∀ m ∈ G, Has m.rg x → x + size ≤ m.ptr + m.size)
    (hd : Deepest G x n) (h7 : n.level = 7) : add st pool x size host = (st, .outOfResources) := by
  unfold add
  rw [addLoop_spec h hd hb hin 8 0 none (by omega) (by omega), if_pos h7]

theorem place_cases {st : St} {G : List Node} (h : Inv st G) (x : Nat) :
    (∃ lvl p, Place G x lvl p) ∨ ∃ n, Deepest G x n ∧ n.level = 7 := by
  by_cases hex : ∃ n ∈ G, Has n.rg x
  · obtain ⟨n, hn⟩ := deepest_exists hex
    have := h.lt8 n hn.mem
    by_cases h7 : n.level = 7
    · exact Or.inr ⟨n, hn, h7⟩
    · exact Or.inl ⟨n.level + 1, some n.ptr, Or.inr ⟨n, hn, by omega, rfl, rfl⟩⟩
  · refine Or.inl ⟨0, none, Or.inl ⟨?_, rfl, rfl⟩⟩
    intro n hn hx
    exact hex ⟨n, hn, hx⟩

theorem inside_end {G : List Node} {x size : Nat} (hs : 0 < size)
    (h : ∀ a ∈ G, Disjoint (x, size) a.rg ∨ Inside (x, size) a.rg) :
    ∀ m ∈ G, Has m.rg x → x + size ≤ m.ptr + m.size := by
  intro m hm hx
  have hself : Has (x, size) x := ⟨Nat.le_refl _, by show x < x + size; omega⟩
  rcases h m hm with h1 | h1
  · exact (h1 x ⟨hself, hx⟩).elim
  · have := (h1 (x + size - 1) ⟨by show x ≤ _; omega, by show _ < x + size; omega⟩).2
    have h2 : x + size - 1 < m.ptr + m.size := this
    omega

/-- A successful add of a fresh region. -/
theorem inv_add {st st' : St} {G : List Node} (h : Inv st G) {x size pool : Nat} {host : Bool}
    (hx : 0 < x) (hs : 0 < size) (hb : x + size < 2 ^ 64)
    (h2 : ∀ a ∈ G, Disjoint (x, size) a.rg ∨ Inside (x, size) a.rg)
    (ha : add st pool x size host = (st', .success)) :
    ∃ lvl, Inv st' (⟨x, size, pool, lvl⟩ :: G) := by
  have hin := inside_end hs h2
  have hh := add_host ha
  subst hh
  rcases place_cases h x with ⟨lvl, p, hp⟩ | ⟨n, hd, h7⟩
  · rw [add_place h hb hin hp] at ha
    have := inv_insert (l1 := []) (l2 := G) (pool := pool) h hx hs hb (by intro b hb; cases hb) h2 hp
    rw [ha] at this
    exact ⟨lvl, this.2⟩
  · rw [add_full h hb hin hd h7] at ha
    injection ha with h1 h2
    cases h2

theorem map_split {l : List Node} {l1 l2 : List Alloc} {a : Alloc}
    (h : l.map Node.alloc = l1 ++ a :: l2) :
    ∃ m1 n m2, l = m1 ++ n :: m2 ∧ m1.map Node.alloc = l1 ∧ n.alloc = a ∧ m2.map Node.alloc = l2 := by
  rw [List.map_eq_append_iff] at h
  obtain ⟨m1, m2', h1, h2, h3⟩ := h
  rw [List.map_eq_cons_iff] at h3
  obtain ⟨n, m2, h4, h5, h6⟩ := h3
  exact ⟨m1, n, m2, by rw [h1, h4], h2, h5, h6⟩

theorem map_erase {l : List Node} {a : Alloc} (h : a ∈ l.map Node.alloc) :
    ∃ n l', l'.map Node.alloc = (l.map Node.alloc).erase a ∧ n.alloc = a ∧ l.Perm (n :: l') ∧
      l'.Sublist l := by
  induction l with
  | nil => cases h
  | cons m l ih =>
    by_cases hm : m.alloc = a
    · exact ⟨m, l, by simp [hm], hm, List.Perm.refl _, List.sublist_cons_self _ _⟩
    · rw [List.map_cons, List.mem_cons] at h
      rcases h with h | h
      · exact absurd h.symm hm
      · obtain ⟨n, l', h1, h2, h3, h4⟩ := ih h
        refine ⟨n, m :: l', ?_, h2, ?_, h4.cons_cons m⟩
        · rw [List.map_cons, List.map_cons, List.erase_cons_tail (by simpa using hm), h1]
        · exact (h3.cons m).trans (List.Perm.swap _ _ _)

/-- Merging two adjacent allocations that have nothing in common with the others. -/
theorem inv_merge {st st' : St} {G G' : List Node} {lo hi : Node} {r : Res} (h : Inv st G)
    (hp : G.Perm (lo :: hi :: G')) (hsub : G'.Sublist G) (hadj : hi.ptr = lo.ptr + lo.size)
    (hdis : ∀ c ∈ G', Disjoint c.rg (lo.ptr, lo.size + hi.size)) {pool : Nat}
    (hm : trackingMerge st pool lo.ptr hi.ptr (lo.size + hi.size) none true = (st', r, true)) :
    r = .success ∧ Inv st' (⟨lo.ptr, lo.size + hi.size, pool, 0⟩ :: G') := by
  have hlo : lo ∈ G := hp.mem_iff.2 (by simp)
  have hhi : hi ∈ G := hp.mem_iff.2 (by simp)
  have hG' : ∀ c ∈ G', c ∈ G := fun c hc => hsub.subset hc
  have hmem : ∀ c ∈ G, c = lo ∨ c = hi ∨ c ∈ G' := by
    intro c hc
    have := hp.mem_iff.1 hc
    simpa using this
  have oklo := h.ok lo hlo
  have okhi := h.ok hi hhi
  have inlo : Inside lo.rg (lo.ptr, lo.size + hi.size) := inside_of (Nat.le_refl _)
    (by show lo.ptr + lo.size ≤ lo.ptr + (lo.size + hi.size); omega)
  have inhi : Inside hi.rg (lo.ptr, lo.size + hi.size) := inside_of
    (by show lo.ptr ≤ hi.ptr; omega)
    (by show hi.ptr + hi.size ≤ lo.ptr + (lo.size + hi.size); omega)
  have dlohi : Disjoint lo.rg hi.rg := disjoint_of (Or.inl (by show lo.ptr + lo.size ≤ hi.ptr; omega))
  have sizelo : 0 < lo.size := oklo.size
  have sizehi : 0 < hi.size := okhi.size
  have dis_lo : ∀ c ∈ G', Disjoint c.rg lo.rg := fun c hc =>
    disjoint_of_inside (hdis c hc) (fun _ h => h) inlo
  have dis_hi : ∀ c ∈ G', Disjoint c.rg hi.rg := fun c hc =>
    disjoint_of_inside (hdis c hc) (fun _ h => h) inhi
  -- nothing else contains a byte of the two
  have only_lo : ∀ c ∈ G, ∀ x, Has lo.rg x → Has c.rg x → c = lo := by
    intro c hc x h1 h2
    rcases hmem c hc with h3 | h3 | h3
    · exact h3
    · subst h3; exact (dlohi x ⟨h1, h2⟩).elim
    · exact (dis_lo c h3 x ⟨h2, h1⟩).elim
  have only_hi : ∀ c ∈ G, ∀ x, Has hi.rg x → Has c.rg x → c = hi := by
    intro c hc x h1 h2
    rcases hmem c hc with h3 | h3 | h3
    · subst h3; exact (dlohi x ⟨h2, h1⟩).elim
    · exact h3
    · exact (dis_hi c h3 x ⟨h2, h1⟩).elim
  have lvlo : lo.level = 0 := by
    rcases h.par lo hlo with h1 | ⟨m, hm, h2, h3⟩
    · exact h1
    · have := only_lo m hm lo.ptr (has_self oklo) (h3 _ (has_self oklo))
      subst this; omega
  have lvhi : hi.level = 0 := by
    rcases h.par hi hhi with h1 | ⟨m, hm, h2, h3⟩
    · exact h1
    · have := only_hi m hm hi.ptr (has_self okhi) (h3 _ (has_self okhi))
      subst this; omega
  have dlo : Deepest G lo.ptr lo := ⟨hlo, has_self oklo, by
    intro m hm hx; have := only_lo m hm _ (has_self oklo) hx; subst this; omega⟩
  have dhi : Deepest G hi.ptr hi := ⟨hhi, has_self okhi, by
    intro m hm hx; have := only_hi m hm _ (has_self okhi) hx; subst this; omega⟩
  have c0lo : cnt G 1 lo.rg = 0 := by
    unfold cnt
    rw [List.countP_eq_zero]
    intro n hn hc
    simp only [Bool.and_eq_true, decide_eq_true_eq, inR_iff] at hc
    have := only_lo n hn n.ptr hc.2 (has_self (h.ok n hn))
    subst this; omega
  have c0hi : cnt G 1 hi.rg = 0 := by
    unfold cnt
    rw [List.countP_eq_zero]
    intro n hn hc
    simp only [Bool.and_eq_true, decide_eq_true_eq, inR_iff] at hc
    have := only_hi n hn n.ptr hc.2 (has_self (h.ok n hn))
    subst this; omega
  have mlo : ∃ p e, mostNested st lo.ptr false = some (0, p, e) ∧ Ent G lo e := by
    obtain ⟨e, hent, hcase⟩ := nestedLoop_spec h dlo 8 0 none none (by omega) (by omega)
    rcases hcase with ⟨_, par', hl, _⟩ | ⟨h0, _⟩
    · refine ⟨par', e, ?_, hent⟩
      unfold mostNested
      rw [hl]
      simp only
      rw [if_neg (by simp [hent.1]), if_neg (by simp), lvlo]
    · exfalso; apply h0; rw [hent.2.2.2, lvlo]; exact c0lo
  have mhi : ∃ p e, mostNested st hi.ptr false = some (0, p, e) ∧ Ent G hi e := by
    obtain ⟨e, hent, hcase⟩ := nestedLoop_spec h dhi 8 0 none none (by omega) (by omega)
    rcases hcase with ⟨_, par', hl, _⟩ | ⟨h0, _⟩
    · refine ⟨par', e, ?_, hent⟩
      unfold mostNested
      rw [hl]
      simp only
      rw [if_neg (by simp [hent.1]), if_neg (by simp), lvhi]
    · exfalso; apply h0; rw [hent.2.2.2, lvhi]; exact c0hi
  obtain ⟨p1, e1, hm1, ent1⟩ := mlo
  obtain ⟨p2, e2, hm2, ent2⟩ := mhi
  have n1 : e1.nch = 0 := by rw [ent1.2.2.2, lvlo]; exact c0lo
  have n2 : e2.nch = 0 := by rw [ent2.2.2.2, lvhi]; exact c0hi
  unfold trackingMerge at hm
  rw [if_neg (by simp), hm1, hm2] at hm
  simp only at hm
  rw [if_neg (by simp)] at hm
  by_cases hpool : e1.pool ≠ e2.pool
  · rw [if_pos hpool] at hm
    injection hm with _ hm; injection hm with _ hm; cases hm
  rw [if_neg hpool] at hm
  by_cases hsz : word (e1.size + e2.size) ≠ lo.size + hi.size
  · rw [if_pos hsz] at hm
    injection hm with _ hm; injection hm with _ hm; cases hm
  rw [if_neg hsz] at hm
  have hum : upMerge lo.ptr hi.ptr (lo.size + hi.size) none = .success := by
    have h1 := oklo.ptr
    have h2 := okhi.ptr
    unfold upMerge
    rw [if_neg (by omega), if_neg (by omega), if_neg (by omega)]
  rw [hum, n1, n2] at hm
  simp only at hm
  injection hm with hst hm
  injection hm with hr _
  refine ⟨hr.symm, ?_⟩
  subst hst
  obtain ⟨ea, hea, hka⟩ := h.complete lo hlo
  rw [lvlo] at hea
  have hup : upsert (st.lv 0) ⟨lo.ptr, pool, lo.size + hi.size, 0 + 0⟩ =
      (st.lv 0).map fun f => if f.key = lo.ptr then ⟨lo.ptr, pool, lo.size + hi.size, 0⟩ else f := by
    unfold upsert
    rw [if_pos (by show hasKey _ lo.ptr = true; rw [← hka]; exact hasKey_of_mem hea)]
  rw [hup]
  have hcnt : ∀ l r, cnt (⟨lo.ptr, lo.size + hi.size, pool, 0⟩ :: G') (l + 1) r = cnt G (l + 1) r := by
    intro l r
    have e1 : cnt G (l + 1) r = cnt (lo :: hi :: G') (l + 1) r := hp.countP_eq _
    rw [e1, cnt_cons, cnt_cons, cnt_cons, if_neg (by rintro ⟨h3, _⟩; simp at h3),
      if_neg (by rintro ⟨h3, _⟩; omega), if_neg (by rintro ⟨h3, _⟩; omega)]
    omega
  exact {
    lt8 := by
      intro n hn
      rw [List.mem_cons] at hn
      rcases hn with rfl | hn
      · show 0 < 8; omega
      · exact h.lt8 n (hG' n hn)
    ok := by
      intro n hn
      rw [List.mem_cons] at hn
      rcases hn with rfl | hn
      · refine ⟨oklo.ptr, ?_, ?_⟩
        · show 0 < lo.size + hi.size; omega
        · have := okhi.bound; show lo.ptr + (lo.size + hi.size) < 2 ^ 64; omega
      · exact h.ok n (hG' n hn)
    ord := List.Pairwise.cons (fun c hc => Or.inl (hdis c hc).symm) (h.ord.sublist hsub)
    par := by
      intro n hn
      rw [List.mem_cons] at hn
      rcases hn with rfl | hn
      · exact Or.inl rfl
      · rcases h.par n (hG' n hn) with h3 | ⟨m, hm, h4, h5⟩
        · exact Or.inl h3
        · have hs := has_self (h.ok n (hG' n hn))
          rcases hmem m hm with h6 | h6 | h6
          · subst h6; exact (dis_lo n hn _ ⟨hs, h5 _ hs⟩).elim
          · subst h6; exact (dis_hi n hn _ ⟨hs, h5 _ hs⟩).elim
          · exact Or.inr ⟨m, List.mem_cons_of_mem _ h6, h4, h5⟩
    sound := by
      intro l e he
      have hold : ∀ e0 ∈ st.lv l, (l ≠ 0 ∨ (e0.key ≠ lo.ptr ∧ e0.key ≠ hi.ptr)) →
          (⟨e0.key, e0.size, e0.pool, l⟩ : Node) ∈ (⟨lo.ptr, lo.size + hi.size, pool, 0⟩ : Node) :: G' ∧
          e0.nch = cnt (⟨lo.ptr, lo.size + hi.size, pool, 0⟩ :: G') (l + 1) (e0.key, e0.size) := by
        intro e0 he0 hne
        obtain ⟨h3, h4⟩ := h.sound l e0 he0
        rw [hcnt]
        refine ⟨?_, h4⟩
        rcases hmem _ h3 with h5 | h5 | h5
        · exfalso
          have q1 : e0.key = lo.ptr := congrArg Node.ptr h5
          have q2 : l = lo.level := congrArg Node.level h5
          omega
        · exfalso
          have q1 : e0.key = hi.ptr := congrArg Node.ptr h5
          have q2 : l = hi.level := congrArg Node.level h5
          omega
        · exact List.mem_cons_of_mem _ h5
      rw [setLevel_lv] at he
      by_cases hl : l = 0
      · rw [if_pos hl, List.mem_filter, List.mem_map] at he
        obtain ⟨⟨e0, he0, rfl⟩, hf⟩ := he
        by_cases hk : e0.key = lo.ptr
        · rw [if_pos hk]
          refine ⟨by rw [hl]; simp, ?_⟩
          rw [hcnt, hl]
          show 0 = cnt G (0 + 1) (lo.ptr, lo.size + hi.size)
          symm
          unfold cnt
          rw [List.countP_eq_zero]
          intro n hn hc
          simp only [Bool.and_eq_true, decide_eq_true_eq, inR_iff] at hc
          rcases hmem n hn with h5 | h5 | h5
          · subst h5; omega
          · subst h5; omega
          · exact hdis n h5 n.ptr ⟨has_self (h.ok n hn), hc.2⟩
        · rw [if_neg hk] at hf ⊢
          exact hold e0 (by rw [hl]; exact he0) (Or.inr ⟨hk, by simpa using hf⟩)
      · rw [if_neg hl] at he
        exact hold e he (Or.inl hl)
    complete := by
      intro n hn
      rw [setLevel_lv]
      rw [List.mem_cons] at hn
      rcases hn with rfl | hn
      · rw [if_pos rfl]
        refine ⟨⟨lo.ptr, pool, lo.size + hi.size, 0⟩, ?_, rfl⟩
        rw [List.mem_filter, List.mem_map]
        refine ⟨⟨ea, hea, by rw [if_pos hka]⟩, ?_⟩
        simp only [decide_eq_true_eq]
        omega
      · obtain ⟨e, he, hk⟩ := h.complete n (hG' n hn)
        by_cases hl : n.level = 0
        · rw [if_pos hl]
          rw [hl] at he
          have hns := has_self (h.ok n (hG' n hn))
          have n_lo : n.ptr ≠ lo.ptr := by
            intro hq
            have := dis_lo n hn n.ptr ⟨hns, by rw [hq]; exact has_self oklo⟩
            exact this
          have n_hi : n.ptr ≠ hi.ptr := by
            intro hq
            have := dis_hi n hn n.ptr ⟨hns, by rw [hq]; exact has_self okhi⟩
            exact this
          refine ⟨e, ?_, hk⟩
          rw [List.mem_filter, List.mem_map]
          refine ⟨⟨e, he, by rw [if_neg (by omega)]⟩, ?_⟩
          simp only [decide_eq_true_eq]
          omega
        · rw [if_neg hl]; exact ⟨e, he, hk⟩ }

/-- Splitting an allocation without newer ones inside. -/
theorem inv_split {st : St} {l1 l2 : List Node} {a : Node} (h : Inv st (l1 ++ a :: l2))
    (h1 : ∀ b ∈ l1, Disjoint b.rg a.rg) {first pool : Nat} (hf : 0 < first) (hlt : first < a.size) :
    ∃ st', trackingSplit st pool a.ptr a.size first none true true = (st', .success, true) ∧
      Inv st' (l1 ++ ⟨a.ptr + first, a.size - first, pool, a.level⟩ ::
        ⟨a.ptr, first, pool, a.level⟩ :: l2) := by
  obtain ⟨f1, f2, f3, f4⟩ := leaf_facts h h1
  have ham : a ∈ l1 ++ a :: l2 := by simp
  have haok := h.ok a ham
  have hbd := haok.bound
  have hpos := haok.ptr
  have hself := has_self haok
  obtain ⟨e, p, hm, hent, h0, hpl, _⟩ := mostNested_leaf h h1 true
  have hrep := inv_replace h h1 first pool hf (by omega)
  have hx : Has a.rg (a.ptr + first) :=
    ⟨by show a.ptr ≤ _; omega, by show a.ptr + first < a.ptr + a.size; omega⟩
  have hinhi : Inside (a.ptr + first, a.size - first) a.rg := inside_of
    (by show a.ptr ≤ a.ptr + first; omega)
    (by show a.ptr + first + (a.size - first) ≤ a.ptr + a.size; omega)
  have hnlow : ¬ Has (a.ptr, first) (a.ptr + first) := by
    rintro ⟨_, h3⟩
    have h3' : a.ptr + first < a.ptr + first := h3
    omega
  have hpl' : Place (l1 ++ (⟨a.ptr, first, pool, a.level⟩ : Node) :: l2) (a.ptr + first) a.level p := by
    rcases hpl with ⟨hno, h3, h4⟩ | ⟨n, hd, h3, h4, h5⟩
    · refine Or.inl ⟨?_, h3, h4⟩
      intro n hn hx'
      rw [mem_mid] at hn
      rcases hn with rfl | hn
      · exact hnlow hx'
      · exact hno n hn ((f4 n hn _ hx hx').2 _ hself)
    · refine Or.inr ⟨n, ⟨mem_mid.2 (Or.inr hd.mem), (f4 n hd.mem _ hself hd.has).2 _ hx, ?_⟩, h3, h4, h5⟩
      intro m hm' hx'
      rw [mem_mid] at hm'
      rcases hm' with rfl | hm'
      · exact (hnlow hx').elim
      · exact hd.max m hm' ((f4 m hm' _ hx hx').2 _ hself)
  have hord := (pw_mid.1 h.ord).2.2
  obtain ⟨r1, r2⟩ := inv_insert (pool := pool) hrep (by omega : 0 < a.ptr + first)
    (by omega : 0 < a.size - first) (by omega)
    (fun b hb => disjoint_of_inside (h1 b hb) (fun _ h => h) hinhi)
    (by
      intro b hb
      rw [List.mem_cons] at hb
      rcases hb with rfl | hb
      · exact Or.inl (disjoint_of (Or.inr (by show a.ptr + first ≤ a.ptr + first; omega)))
      · rcases hord b hb with h3 | h3
        · exact Or.inl (disjoint_of_inside h3 hinhi (fun _ h => h))
        · exact Or.inr (fun x hx => h3.1 x (hinhi x hx)))
    hpl'
  refine ⟨_, ?_, r2⟩
  unfold trackingSplit
  have hw : word (a.ptr + first) = a.ptr + first := Nat.mod_eq_of_lt (by omega)
  rw [if_neg (by simp), hm]
  simp only
  have hus : upSplit a.size first none = .success := by
    unfold upSplit
    rw [if_neg (by omega), if_neg (by omega)]
  rw [if_neg (by simp [hent.2.1]), hus, hw]
  simp only
  revert r1
  generalize addAtLevel (setLevel st a.level (upsert (st.lv a.level) ⟨a.ptr, pool, first, 0⟩)) a.level
    pool (a.ptr + first) (a.size - first) p true = q
  obtain ⟨q1, q2⟩ := q
  rintro rfl
  rfl

theorem trackingSplit_refused {st st' : St} {pool ptr total first : Nat} {up : Option Nat}
    {host1 host2 : Bool} {r : Res}
    (h : trackingSplit st pool ptr total first up host1 host2 = (st', r, false)) :
    st' = st ∧ r ≠ .success := by
  unfold trackingSplit at h
  split at h
  · injection h with h1 h2; injection h2 with h2 h3; exact ⟨h1.symm, by rw [← h2]; simp⟩
  · split at h
    · injection h with h1 h2; injection h2 with h2 h3; exact ⟨h1.symm, by rw [← h2]; simp⟩
    · split at h
      · injection h with h1 h2; injection h2 with h2 h3; exact ⟨h1.symm, by rw [← h2]; simp⟩
      · split at h
        · split at h
          · injection h with h1 h2; injection h2 with h2 h3; cases h3
          · injection h with h1 h2; injection h2 with h2 h3; cases h3
        · rename_i hne
          injection h with h1 h2; injection h2 with h2 h3
          exact ⟨h1.symm, by rw [← h2]; intro hc; exact hne hc⟩

theorem addAtLevel_host {st : St} {lvl pool x size : Nat} {p : Option Nat} :
    addAtLevel st lvl pool x size p false = (st, .outOfHostMemory) := by
  unfold addAtLevel
  rw [if_pos rfl]

theorem trackingSplit_lost {st st' : St} {pool ptr total first : Nat} {up : Option Nat}
    {host1 : Bool} {r : Res}
    (h : trackingSplit st pool ptr total first up host1 false = (st', r, true)) : st' = st := by
  unfold trackingSplit at h
  split at h
  · injection h with h1 h2; exact h1.symm
  · split at h
    · injection h with h1 h2; exact h1.symm
    · split at h
      · injection h with h1 h2; exact h1.symm
      · split at h
        · rw [addAtLevel_host] at h
          simp only at h
          injection h with h1 h2; exact h1.symm
        · injection h with h1 h2; exact h1.symm

theorem trackingMerge_refused {st st' : St} {pool lo hi total : Nat} {up : Option Nat}
    {host : Bool} {r : Res}
    (h : trackingMerge st pool lo hi total up host = (st', r, false)) :
    st' = st ∧ r ≠ .success := by
  unfold trackingMerge at h
  split at h
  · injection h with h1 h2; injection h2 with h2 h3; exact ⟨h1.symm, by rw [← h2]; simp⟩
  · split at h
    · split at h
      · injection h with h1 h2; injection h2 with h2 h3; exact ⟨h1.symm, by rw [← h2]; simp⟩
      · split at h
        · injection h with h1 h2; injection h2 with h2 h3; exact ⟨h1.symm, by rw [← h2]; simp⟩
        · split at h
          · injection h with h1 h2; injection h2 with h2 h3; exact ⟨h1.symm, by rw [← h2]; simp⟩
          · split at h
            · injection h with h1 h2; injection h2 with h2 h3; cases h3
            · rename_i hne
              injection h with h1 h2; injection h2 with h2 h3
              exact ⟨h1.symm, by rw [← h2]; intro hc; exact hne hc⟩
    · injection h with h1 h2; injection h2 with h2 h3; exact ⟨h1.symm, by rw [← h2]; simp⟩

theorem trackingSplit_performed {st st' : St} {pool ptr total first : Nat} {up : Option Nat}
    {host1 host2 : Bool} {r : Res}
    (h : trackingSplit st pool ptr total first up host1 host2 = (st', r, true)) :
    0 < first ∧ first < total ∧ up = none := by
  unfold trackingSplit at h
  split at h
  · injection h with h1 h2; injection h2 with h2 h3; cases h3
  · split at h
    · injection h with h1 h2; injection h2 with h2 h3; cases h3
    · split at h
      · injection h with h1 h2; injection h2 with h2 h3; cases h3
      · split at h
        · rename_i hus
          unfold upSplit at hus
          split at hus
          · cases hus
          · split at hus
            · cases hus
            · cases up with
              | none => exact ⟨by omega, by omega, rfl⟩
              | some c => cases hus
        · injection h with h1 h2; injection h2 with h2 h3; cases h3

theorem trackingFree_ok (st : St) {pool ptr : Nat} (hp : ptr ≠ 0) (size : Nat) (host : Bool) :
    (trackingFree st pool ptr size none host).1 = (remove st ptr).1 := by
  unfold trackingFree
  rw [if_neg hp]

theorem alloc_rg (n : Node) : n.alloc.range = n.rg := rfl

/-- Every reachable tracker satisfies the invariant. -/
theorem reach_inv {oom : Bool} {st : St} {live : List Alloc} (h : Reach oom st live) :
    ∃ G : List Node, Inv st G ∧ G.map Node.alloc = live := by
  induction h with
  | init =>
    refine ⟨[], ⟨?_, ?_, ?_, ?_, ?_, ?_⟩, rfl⟩
    · intro n hn; cases hn
    · intro n hn; cases hn
    · exact List.Pairwise.nil
    · intro n hn; cases hn
    · intro l e he; cases he
    · intro n hn; cases hn
  | @alloc st live pool size ptr host st' hr hf ha ih =>
    obtain ⟨G, hi, hG⟩ := ih
    have hp := hf.ptr
    have hadd : add st pool ptr size host = (st', .success) := by
      unfold trackingAlloc at ha
      simp only at ha
      rw [if_neg (by have : 0 < ptr := hp; omega)] at ha
      cases hq : add st pool ptr size host with
      | mk s r =>
        rw [hq] at ha
        cases r with
        | success => simp only at ha; injection ha with h1 h2; rw [h1]
        | _ => simp only at ha; injection ha with h1 h2; injection h2 with h2 h3; cases h2
    obtain ⟨lvl, hi'⟩ := inv_add hi hp hf.size hf.bound
      (by
        intro a ha'
        exact hf.nested a.alloc (by rw [← hG]; exact List.mem_map_of_mem ha')) hadd
    exact ⟨_, hi', by simp [hG, Node.alloc]⟩
  | @allocFail st live pool size up host st' r back hr ha ih =>
    obtain ⟨G, hi, hG⟩ := ih
    have : st' = st := by
      unfold trackingAlloc at ha
      split at ha
      · injection ha with h1 h2; exact h1.symm
      · split at ha
        · injection ha with h1 h2; exact h1.symm
        · rename_i hne
          split at ha
          · injection ha with h1 h2; injection h2 with h2 h3; injection h3 with h3 h4
            exact absurd h3 hne
          · rename_i hnr hq
            injection ha with h1 h2
            rw [← h1]
            exact add_fail hq (fun hc => hnr hc)
    exact ⟨G, by rw [this]; exact hi, hG⟩
  | @free st l1 a l2 size host hr hd ih =>
    obtain ⟨G, hi, hG⟩ := ih
    obtain ⟨m1, n, m2, rfl, rfl, rfl, rfl⟩ := map_split hG
    have hpos := (hi.ok n (by simp)).ptr
    have := inv_remove hi (fun b hb => hd b.alloc (List.mem_map_of_mem hb))
    refine ⟨m1 ++ m2, ?_, by simp⟩
    rw [trackingFree_ok _ (by show n.ptr ≠ 0; omega)]
    exact this.2
  | @freeFail st l1 a l2 code hr hd ih =>
    obtain ⟨G, hi, hG⟩ := ih
    obtain ⟨m1, n, m2, rfl, rfl, rfl, rfl⟩ := map_split hG
    have hok := hi.ok n (by simp)
    have hpos := hok.ptr
    have hd' : ∀ b ∈ m1, Disjoint b.rg n.rg := fun b hb => hd b.alloc (List.mem_map_of_mem hb)
    obtain ⟨hrs, hri⟩ := inv_remove hi hd'
    obtain ⟨f1, f2, f3, f4⟩ := leaf_facts hi hd'
    obtain ⟨e, p, _, _, _, hpl, _⟩ := mostNested_leaf hi hd' true
    have h2 : ∀ a ∈ m2, Disjoint (n.ptr, n.size) a.rg ∨ Inside (n.ptr, n.size) a.rg := by
      intro b hb
      rcases (pw_mid.1 hi.ord).2.2 b hb with h3 | h3
      · exact Or.inl h3
      · exact Or.inr h3.1
    have hins := inv_insert (pool := n.pool) hri hok.ptr hok.size hok.bound hd' h2 hpl
    have hadd : add (remove st n.ptr).1 n.pool n.ptr n.size true =
        addAtLevel (remove st n.ptr).1 n.level n.pool n.ptr n.size p true :=
      add_place hri hok.bound (inside_end hok.size (by
        intro b hb
        rw [List.mem_append] at hb
        rcases hb with hb | hb
        · exact Or.inl (hd' b hb).symm
        · exact h2 b hb)) hpl
    refine ⟨m1 ++ n :: m2, ?_, by simp⟩
    have : (trackingFree st n.alloc.pool n.alloc.ptr n.alloc.size (some code) true).1 =
        (add (remove st n.ptr).1 n.pool n.ptr n.size true).1 := by
      show (trackingFree st n.pool n.ptr n.size (some code) true).1 = _
      unfold trackingFree
      rw [if_neg (by omega)]
      simp only
      rw [if_pos hrs]
    rw [this, hadd]
    exact hins.2
  | @freeLost st l1 a l2 code _ hr hd ih =>
    obtain ⟨G, hi, hG⟩ := ih
    obtain ⟨m1, n, m2, rfl, rfl, rfl, rfl⟩ := map_split hG
    have hpos := (hi.ok n (by simp)).ptr
    have hrem := inv_remove hi (fun b hb => hd b.alloc (List.mem_map_of_mem hb))
    refine ⟨m1 ++ m2, ?_, by simp⟩
    show Inv (trackingFree st n.pool n.ptr n.size (some code) false).1 _
    unfold trackingFree
    rw [if_neg (by omega)]
    simp only
    rw [if_pos hrem.1]
    cases hq : add (remove st n.ptr).1 n.pool n.ptr n.size false with
    | mk s r =>
      have hne : r ≠ .success := by
        intro hc
        rw [hc] at hq
        have := add_host hq
        cases this
      show Inv s _
      rw [add_fail hq hne]
      exact hrem.2
  | @split st l1 a l2 first st' r hr hd hs ih =>
    obtain ⟨G, hi, hG⟩ := ih
    obtain ⟨m1, n, m2, rfl, rfl, rfl, rfl⟩ := map_split hG
    obtain ⟨g1, g2, _⟩ := trackingSplit_performed hs
    obtain ⟨st'', hs', hi'⟩ := inv_split (pool := n.pool) hi
      (fun b hb => hd b.alloc (List.mem_map_of_mem hb)) g1 g2
    have hs2 : trackingSplit st n.pool n.ptr n.size first none true true = (st', r, true) := hs
    rw [hs'] at hs2
    injection hs2 with h1 h2
    subst h1
    exact ⟨_, hi', by simp [Node.alloc]⟩
  | @splitRefused st live pool ptr total first up host1 host2 st' r hr hs ih =>
    rw [(trackingSplit_refused hs).1]; exact ih
  | @splitLost st live pool ptr total first up host1 st' r _ hr hs ih =>
    obtain ⟨G, hi, hG⟩ := ih
    refine ⟨G, ?_, hG⟩
    rw [trackingSplit_lost hs]
    exact hi
  | @merge st live lo hi st' r hr hlo hhi hadj hpool hdis hm ih =>
    obtain ⟨G, hi', hG⟩ := ih
    subst hG
    obtain ⟨n, G1, e1, e2, e3, e4⟩ := map_erase hlo
    rw [← e1] at hhi hdis ⊢
    obtain ⟨n', G2, e1', e2', e3', e4'⟩ := map_erase hhi
    rw [← e1'] at hdis ⊢
    subst e2
    subst e2'
    obtain ⟨_, h2⟩ := inv_merge (G' := G2) hi' (e3.trans (e3'.cons n)) (e4'.trans e4) hadj
      (fun c hc => hdis c.alloc (List.mem_map_of_mem hc)) hm
    exact ⟨_, h2, by simp [Node.alloc]⟩
  | @mergeRefused st live pool lo hi total up host st' r hr hm ih =>
    rw [(trackingMerge_refused hm).1]; exact ih

end Verif.Tracker
