import Verif.FromSpace.Lemmas
/-! # C89: providers and pools from memspaces -/
namespace Verif.FromSpace

theorem get_old {h : List (Nat × Cell)} {k a : Nat} {c d : Cell} (hk : get h k = none) (ha : get h a = some d) :
    get ((k, c) :: h) a = some d := by
  unfold get
  rw [if_neg (by rintro rfl; rw [hk] at ha; cases ha)]
  exact ha

theorem partsOf_old {h : List (Nat × Cell)} {k : Nat} (hk : get h k = none) (l : List Nat) (part len : Nat) :
    partsOf ((k, .ptrs l) :: h) part len = partsOf h part len := by
  unfold partsOf
  by_cases c : k = part
  · subst c
    rw [hk]
    simp [get]
  · rw [show get ((k, .ptrs l) :: h) part = get h part by simp [get, c]]

theorem wanted_old {h : List (Nat × Cell)} {k : Nat} (hk : get h k = none) (l : List Nat) {all cap space : Nat} {ns : List Nat}
    {pol : Option Pol} {s : Settings} : Wanted ((k, .ptrs l) :: h) all cap space ns pol s ↔ Wanted h all cap space ns pol s := by
  constructor
  · intro hw
    cases hw with
    | hostAll h => exact .hostAll h
    | plain h => exact .plain h
    | interleave ps x y => exact .interleave ps x y
    | bind x y z => exact .bind x y z
    | preferred x y z => exact .preferred x y z
    | split x part len h =>
      rw [partsOf_old hk]
      exact .split x part len h
  · intro hw
    cases hw with
    | hostAll h => exact .hostAll h
    | plain h => exact .plain h
    | interleave ps x y => exact .interleave ps x y
    | bind x y z => exact .bind x y z
    | preferred x y z => exact .preferred x y z
    | split x part len h =>
      rw [← partsOf_old hk l]
      exact .split x part len h

theorem ids_eq {h : List (Nat × Cell)} {ps ns : List Nat} (hf : List.Forall₂ (fun p n => get h p = some (.numa n)) ps ns) :
    ids h ps = some ns := by
  induction hf with
  | nil => rfl
  | cons h1 _ ih =>
    unfold ids
    rw [h1, ih]

theorem privs_eq {h : List (Nat × Cell)} {ts ps : List Nat} (hf : List.Forall₂ (fun t p => get h t = some (.target p)) ts ps) :
    privsOf h ts = some ps := by
  induction hf with
  | nil => rfl
  | cons h1 _ ih =>
    unfold privsOf
    rw [h1, ih]

/-- The nodes that are used. -/
def used (cap space : Nat) (ns : List Nat) : List Nat := if space = cap then ns.take 1 else ns

theorem choose_none {h : List (Nat × Cell)} {all cap space : Nat} {ns : List Nat} {pol : Option Pol}
    (hc : choose (decide (space = all)) pol = none) : ¬ ∃ s, Wanted h all cap space ns pol s := by
  rintro ⟨s, hw⟩
  cases hw <;> simp [choose] at hc

theorem choose_some {h : List (Nat × Cell)} {all cap space : Nat} {ns : List Nat} {pol : Option Pol} (hp : PolOk h pol) (h0 : get h 0 = none) {c : Choice}
    (hc : choose (decide (space = all)) pol = some c) :
    (∃ Q, PartsOk h c Q ∧ Wanted h all cap space ns pol ⟨c.mode, if space = all ∧ pol = none then [] else used cap space ns, c.partSize, Q⟩) ∨
    (c.parts = 0 ∧ c.partsLen ≠ 0 ∧ ¬ ∃ s, Wanted h all cap space ns pol s) := by
  unfold used
  cases pol with
  | none =>
    simp only [choose, Option.some.injEq] at hc
    subst hc
    refine Or.inl ⟨[], Or.inl ⟨rfl, rfl⟩, ?_⟩
    by_cases e : space = all
    · simp only [e, decide_true, if_true, and_self]
      exact e ▸ .hostAll rfl
    · simp only [e, decide_false, false_and, if_false]
      exact .plain e
  | some p =>
    obtain ⟨ty, sz, pt, ln⟩ := p
    simp only [choose] at hc
    split at hc
    · rename_i e
      subst e
      simp only [Option.some.injEq] at hc
      subst hc
      refine Or.inl ⟨[], Or.inl ⟨rfl, rfl⟩, ?_⟩
      simp only [reduceCtorEq, and_false, if_false]
      exact .interleave sz pt ln
    split at hc
    · rename_i e
      subst e
      simp only [Option.some.injEq] at hc
      subst hc
      refine Or.inl ⟨[], Or.inl ⟨rfl, rfl⟩, ?_⟩
      simp only [reduceCtorEq, and_false, if_false]
      exact .bind sz pt ln
    split at hc
    · rename_i e
      subst e
      simp only [Option.some.injEq] at hc
      subst hc
      refine Or.inl ⟨[], Or.inl ⟨rfl, rfl⟩, ?_⟩
      simp only [reduceCtorEq, and_false, if_false]
      exact .preferred sz pt ln
    split at hc
    · rename_i e
      subst e
      simp only [Option.some.injEq] at hc
      subst hc
      obtain ⟨p1, p2⟩ : ln < 2 ^ 32 ∧ (pt = 0 ∨ ∃ l, get h pt = some (.parts l) ∧ ln ≤ l.length) := hp
      have p3 : ln % 2 ^ 32 = ln := Nat.mod_eq_of_lt p1
      rw [p3]
      by_cases l0 : ln = 0
      · subst l0
        refine Or.inl ⟨[], Or.inl ⟨rfl, rfl⟩, ?_⟩
        simp only [reduceCtorEq, and_false, if_false]
        have e : partsOf h pt 0 = [] := by
          unfold partsOf
          split <;> simp
        have := Wanted.split (h := h) (all := all) (cap := cap) (space := space) (ns := ns) sz pt 0 (fun _ => rfl)
        rw [e] at this
        exact this
      · rcases p2 with rfl | ⟨l, p4, p5⟩
        · refine Or.inr ⟨rfl, l0, ?_⟩
          rintro ⟨s, hw⟩
          cases hw with
          | split _ _ _ hz => exact l0 (hz rfl)
        · refine Or.inl ⟨l.take ln, Or.inr ⟨l, p4, p5, l0, rfl⟩, ?_⟩
          simp only [reduceCtorEq, and_false, if_false]
          have e : partsOf h pt ln = l.take ln := by
            unfold partsOf
            rw [p4]
          have := Wanted.split (h := h) (all := all) (cap := cap) (space := space) (ns := ns) sz pt ln
            (by rintro rfl; rw [h0] at p4; cases p4)
          rw [e] at this
          exact this
    · cases hc

theorem parts_old {h : List (Nat × Cell)} {k : Nat} {d : Cell} (hk : get h k = none) {c : Choice} {Q : List (Nat × Nat)} (hq : PartsOk h c Q) :
    PartsOk ((k, d) :: h) c Q := by
  rcases hq with hq | ⟨l, h1, h2⟩
  · exact Or.inl hq
  · exact Or.inr ⟨l, get_old hk h1, h2⟩

/-- What `numa_memory_provider_create_from_memspace` leaves. -/
def Left (accept : Settings → Nat) (st : St) (W : Settings → Prop) (r out : Nat) (st' : St) : Prop :=
  st.next ≤ st'.next ∧
  ((r = 0 ∧ ∃ s, W s ∧ accept s = 0 ∧ st.next ≤ out ∧ out < st'.next ∧ st'.heap = (out, .prov s) :: st.heap) ∨
   (out = 0 ∧ st'.heap = st.heap ∧ ((r = 1 ∧ false ∈ st.ans) ∨ (r = 3 ∧ ¬ ∃ s, W s) ∨ (r ≠ 0 ∧ ∃ s, W s ∧ accept s = r))))

theorem ok_alloc {st : St} (h : Ok st) (c : Cell) : Ok (alloc st c).2 := by
  obtain ⟨h1, h2⟩ := h
  unfold alloc
  split
  · refine ⟨Nat.succ_pos _, ?_⟩
    intro e he
    rcases List.mem_cons.1 he with rfl | he
    · exact ⟨h1, Nat.lt_succ_self _⟩
    · exact ⟨(h2 e he).1, Nat.lt_succ_of_lt (h2 e he).2⟩
  · exact ⟨h1, h2⟩

theorem numa_eff (accept : Settings → Nat) (all cap : Nat) {st : St} (hok : Ok st) {space privs : Nat} {ps ns : List Nat}
    (hp : get st.heap privs = some (.ptrs ps)) (hn : List.Forall₂ (fun p n => get st.heap p = some (.numa n)) ps ns) (hne : ps ≠ [])
    (hlen : ps.length < 2 ^ 32) {pol : Option Pol} (hpol : PolOk st.heap pol) :
    ∃ r out st', numaProvider accept all cap st space privs ps.length pol = some (r, out, st') ∧
      Left accept st (Wanted st.heap all cap space ns pol) r out st' := by
  have h0 : get st.heap 0 = none := by
    cases e : get st.heap 0 with
    | none => rfl
    | some c => exact absurd (get_lt hok.2 e).1 (by omega)
  have hpos : 0 < ps.length := List.length_pos_iff.2 hne
  have hk : (if space = cap then 1 else ps.length) ≠ 0 := by split <;> omega
  unfold numaProvider
  rw [if_neg hk]
  cases hc : choose (decide (space = all)) pol with
  | none => exact ⟨3, 0, st, rfl, Nat.le_refl _, Or.inr ⟨rfl, rfl, Or.inr (Or.inl ⟨rfl, choose_none hc⟩)⟩⟩
  | some c =>
    dsimp only
    by_cases ha : space = all ∧ pol = none
    · rw [if_pos ha]
      rcases choose_some (ns := ns) (cap := cap) hpol h0 hc with ⟨Q, hq, hw⟩ | ⟨q1, q2, hw⟩
      · obtain ⟨r, out, st', e1, e2, e3⟩ := withList_eff accept hok (list := 0) (len := 0) (L := []) (Or.inl ⟨rfl, rfl, rfl⟩) hq
        rw [if_pos ha] at hw
        refine ⟨r, out, st', e1, e2, ?_⟩
        rcases e3 with ⟨f1, f2, f3, f4, f5⟩ | ⟨f1, f2, f3⟩
        · exact Or.inl ⟨f1, _, hw, f2, f3, f4, f5⟩
        · refine Or.inr ⟨f1, f2, ?_⟩
          rcases f3 with f3 | ⟨f3, f4⟩
          · exact Or.inl f3
          · exact Or.inr (Or.inr ⟨f4, _, hw, f3.symm⟩)
      · obtain ⟨r, out, st', e1, e2, f1, f2, f3⟩ := withList_bad accept hok (list := 0) (len := 0) (L := []) (Or.inl ⟨rfl, rfl, rfl⟩) q1 q2
        refine ⟨r, out, st', e1, e2, Or.inr ⟨f1, f2, ?_⟩⟩
        rcases f3 with f3 | f3
        · exact Or.inl f3
        · exact Or.inr (Or.inl ⟨f3, hw⟩)
    · rw [if_neg ha]
      have hr : readPtrs st privs (if space = cap then 1 else ps.length) = some (ps.take (if space = cap then 1 else ps.length)) := by
        unfold readPtrs
        rw [if_neg hk, hp]
        dsimp only
        rw [if_pos (by split <;> omega)]
      rw [hr]
      dsimp only
      have hln : ps.length = ns.length := hn.length_eq
      have hu : ns.take (if space = cap then 1 else ps.length) = used cap space ns := by
        unfold used
        split
        · rfl
        · rw [hln]; simp
      have hi : ids st.heap (ps.take (if space = cap then 1 else ps.length)) = some (used cap space ns) := by
        rw [← hu]
        exact ids_eq (List.forall₂_take _ hn)
      have hul : (if space = cap then 1 else ps.length) = (used cap space ns).length := by
        rw [← hu, List.length_take]
        split <;> omega
      have hmod : (if space = cap then 1 else ps.length) % 2 ^ 32 = (used cap space ns).length := by
        rw [hul, Nat.mod_eq_of_lt]
        rw [← hul]
        split <;> omega
      have hune : used cap space ns ≠ [] := by
        intro e
        rw [e] at hul
        exact hk hul
      rw [hi]
      dsimp only
      rw [hmod]
      by_cases hg : granted st.ans = true
      · have ea : alloc st (.nums (used cap space ns)) = (st.next, ⟨(st.next, .nums (used cap space ns)) :: st.heap, st.next + 1, st.ans.tail⟩) := by
          unfold alloc
          rw [if_pos hg]
        have hok1 := ok_alloc hok (.nums (used cap space ns))
        rw [ea] at hok1 ⊢
        dsimp only at hok1 ⊢
        have hnx : st.next ≠ 0 := by have := hok.1; omega
        rw [if_neg hnx]
        have hkn : get st.heap st.next = none := get_ge hok.2 (Nat.le_refl _)
        have hL : ListOk ((st.next, .nums (used cap space ns)) :: st.heap) st.next (used cap space ns).length (used cap space ns) :=
          Or.inr ⟨by simp [get], rfl, hune⟩
        have hrm : rm0 ((st.next, .nums (used cap space ns)) :: st.heap) st.next = st.heap := by
          unfold rm0
          rw [if_neg hnx]
          simp [rm]
        have hans : false ∈ st.ans.tail → false ∈ st.ans := List.mem_of_mem_tail
        rcases choose_some (ns := ns) (cap := cap) hpol h0 hc with ⟨Q, hq, hw⟩ | ⟨q1, q2, hw⟩
        · obtain ⟨r, out, st', e1, e2, e3⟩ := withList_eff accept hok1 hL (parts_old hkn hq)
          rw [if_neg ha] at hw
          dsimp only at e2 e3
          rw [hrm] at e3
          refine ⟨r, out, st', e1, by omega, ?_⟩
          rcases e3 with ⟨f1, f2, f3, f4, f5⟩ | ⟨f1, f2, f3⟩
          · exact Or.inl ⟨f1, _, hw, f2, by omega, f4, f5⟩
          · refine Or.inr ⟨f1, f2, ?_⟩
            rcases f3 with ⟨f3, f4⟩ | ⟨f3, f4⟩
            · exact Or.inl ⟨f3, hans f4⟩
            · exact Or.inr (Or.inr ⟨f4, _, hw, f3.symm⟩)
        · obtain ⟨r, out, st', e1, e2, f1, f2, f3⟩ := withList_bad accept hok1 hL q1 q2
          dsimp only at e2 f2 f3
          rw [hrm] at f2
          refine ⟨r, out, st', e1, by omega, Or.inr ⟨f1, f2, ?_⟩⟩
          rcases f3 with ⟨f3, f4⟩ | f3
          · exact Or.inl ⟨f3, hans f4⟩
          · exact Or.inr (Or.inl ⟨f3, hw⟩)
      · have ea : alloc st (.nums (used cap space ns)) = (0, { st with ans := st.ans.tail }) := by
          unfold alloc
          rw [if_neg hg]
        rw [ea]
        dsimp only
        rw [if_pos rfl]
        refine ⟨1, 0, _, rfl, Nat.le_refl _, Or.inr ⟨rfl, rfl, Or.inl ⟨rfl, ?_⟩⟩⟩
        cases e : st.ans with
        | nil => rw [e] at hg; exact absurd rfl hg
        | cons b t => rw [e] at hg; cases b <;> simp [granted] at hg ⊢

/-- C89: a provider from a memspace. The call uses no memory that does not exist, and frees what it allocates on the way, whatever
fails. If it succeeds, one new block is left, a provider with the settings that the memspace and the policy ask for, whose handle is
written. If it fails, memory is as before and no handle is written; it fails only if memory is refused, if the memspace is empty, if
the policy is not one, or with the error of the OS provider for these settings. -/
theorem C89_provider (accept : Settings → Nat) (all cap : Nat) {st : St} (hok : Ok st) {space : Nat} {ts ps ns : List Nat}
    (hs : HasSpace st.heap space ts ps ns) (hlen : ns.length < 2 ^ 32) {pol : Option Pol} (hpol : PolOk st.heap pol) :
    ∃ r out st', providerFrom accept all cap st space pol true = some (r, out, st') ∧ Ok st' ∧
      (r = 0 → ∃ s, Wanted st.heap all cap space ns pol s ∧ accept s = 0 ∧ out ≠ 0 ∧ get st.heap out = none ∧
        st'.heap = (out, .prov s) :: st.heap) ∧
      (r ≠ 0 → out = 0 ∧ st'.heap = st.heap ∧
        ((r = 1 ∧ false ∈ st.ans) ∨ (r = 3 ∧ (ns = [] ∨ ¬ ∃ s, Wanted st.heap all cap space ns pol s)) ∨
          ∃ s, Wanted st.heap all cap space ns pol s ∧ accept s = r)) := by
  obtain ⟨hz, ⟨a, h1, h2⟩, h3, h4⟩ := hs
  have l3 := h3.length_eq
  have l4 := h4.length_eq
  unfold providerFrom create
  rw [if_neg (by simp [hz]), h1]
  dsimp only
  by_cases hts : ts = []
  · subst hts
    rw [if_pos (show ([] : List Nat).length = 0 from rfl)]
    refine ⟨3, 0, st, rfl, hok, fun h => absurd h (by decide), fun _ => ⟨rfl, rfl, Or.inr (Or.inl ⟨rfl, Or.inl ?_⟩)⟩⟩
    apply List.length_eq_zero_iff.1
    rw [← l4, ← l3]
    rfl
  · have hpos : 0 < ts.length := List.length_pos_iff.2 hts
    rw [if_neg (by omega)]
    have hr : readPtrs st a ts.length = some ts := by
      unfold readPtrs
      rw [if_neg (by omega), h2 hts]
      simp
    rw [hr]
    dsimp only
    rw [privs_eq h3]
    dsimp only
    by_cases hg : granted st.ans = true
    · have ea : alloc st (.ptrs ps) = (st.next, ⟨(st.next, .ptrs ps) :: st.heap, st.next + 1, st.ans.tail⟩) := by
        unfold alloc
        rw [if_pos hg]
      have hok1 := ok_alloc hok (.ptrs ps)
      rw [ea] at hok1 ⊢
      dsimp only at hok1 ⊢
      have hnx : st.next ≠ 0 := by have := hok.1; omega
      rw [if_neg hnx]
      have hkn : get st.heap st.next = none := get_ge hok.2 (Nat.le_refl _)
      have hpol1 : PolOk ((st.next, .ptrs ps) :: st.heap) pol := by
        unfold PolOk at hpol ⊢
        split
        · refine ⟨hpol.1, ?_⟩
          rcases hpol.2 with h | ⟨l, h, h'⟩
          · exact Or.inl h
          · exact Or.inr ⟨l, get_old hkn h, h'⟩
        · trivial
      have hps : ps ≠ [] := by rintro rfl; simp at l3; exact hts l3
      have hn1 : List.Forall₂ (fun p n => get ((st.next, Cell.ptrs ps) :: st.heap) p = some (.numa n)) ps ns :=
        h4.imp fun _ _ h => get_old hkn h
      obtain ⟨r, out, st', e1, e2, e3⟩ := numa_eff accept all cap hok1 (space := space) (privs := st.next) (ps := ps) (ns := ns)
        (by simp [get]) hn1 hps (by omega) hpol1
      dsimp only at e2 e3
      rw [l3, e1]
      unfold dropPrivs
      dsimp only
      have hans : false ∈ st.ans.tail → false ∈ st.ans := List.mem_of_mem_tail
      rcases e3 with ⟨f1, s, f2, f3, f4, f5, f6⟩ | ⟨f1, f2, f3⟩
      · have hfree : free st' st.next = some { st' with heap := (out, .prov s) :: st.heap } := by
          unfold free
          rw [if_neg hnx, f6]
          simp [get, rm, show out ≠ st.next by omega]
        rw [hfree]
        refine ⟨r, out, _, rfl, ⟨show 0 < st'.next by omega, ?_⟩, ?_, fun h => absurd f1 h⟩
        · intro e he
          rcases List.mem_cons.1 he with rfl | he
          · exact ⟨by dsimp only; omega, f5⟩
          · have := hok.2 e he
            exact ⟨this.1, by dsimp only; omega⟩
        · intro _
          exact ⟨s, (wanted_old hkn ps).1 f2, f3, by omega, get_ge hok.2 (by omega), rfl⟩
      · have hfree : free st' st.next = some { st' with heap := st.heap } := by
          unfold free
          rw [if_neg hnx, f2]
          simp [get, rm]
        rw [hfree]
        refine ⟨r, out, _, rfl, ⟨show 0 < st'.next by omega, ?_⟩, ?_, ?_⟩
        · intro e he
          have := hok.2 e he
          exact ⟨this.1, by dsimp only; omega⟩
        · intro h
          rcases f3 with ⟨f3, _⟩ | ⟨f3, _⟩ | ⟨f3, _⟩ <;> omega
        · intro _
          refine ⟨f1, rfl, ?_⟩
          rcases f3 with ⟨f3, f4⟩ | ⟨f3, f4⟩ | ⟨f3, s, f4, f5⟩
          · exact Or.inl ⟨f3, hans f4⟩
          · refine Or.inr (Or.inl ⟨f3, Or.inr ?_⟩)
            rintro ⟨s, hw⟩
            exact f4 ⟨s, (wanted_old hkn ps).2 hw⟩
          · exact Or.inr (Or.inr ⟨s, (wanted_old hkn ps).1 f4, f5⟩)
    · have ea : alloc st (.ptrs ps) = (0, { st with ans := st.ans.tail }) := by
        unfold alloc
        rw [if_neg hg]
      rw [ea]
      dsimp only
      rw [if_pos rfl]
      refine ⟨1, 0, _, rfl, hok, fun h => absurd h (by decide), fun _ => ⟨rfl, rfl, Or.inl ⟨rfl, ?_⟩⟩⟩
      cases e : st.ans with
      | nil => rw [e] at hg; exact absurd rfl hg
      | cons b t => rw [e] at hg; cases b <;> simp [granted] at hg ⊢

/-- C89: if no memory is refused, a provider is created for every memspace that is not empty, if the settings are accepted. -/
theorem C89_succeeds (accept : Settings → Nat) (all cap : Nat) {st : St} (hok : Ok st) {space : Nat} {ts ps ns : List Nat}
    (hs : HasSpace st.heap space ts ps ns) (hne : ns ≠ []) (hlen : ns.length < 2 ^ 32) {pol : Option Pol} (hpol : PolOk st.heap pol)
    {s : Settings} (hw : Wanted st.heap all cap space ns pol s) (ha : accept s = 0) (hm : false ∉ st.ans) :
    ∃ out st', providerFrom accept all cap st space pol true = some (0, out, st') := by
  obtain ⟨r, out, st', e1, _, _, e3⟩ := C89_provider accept all cap hok hs hlen hpol
  have : r = 0 := by
    by_contra hr
    obtain ⟨_, _, h⟩ := e3 hr
    rcases h with ⟨_, h⟩ | ⟨_, h | h⟩ | ⟨s', h, h'⟩
    · exact hm h
    · exact hne h
    · exact h ⟨s, hw⟩
    · have : s' = s := by
        cases hw <;> cases h <;> first | rfl | contradiction
      subst this
      omega
  subst this
  exact ⟨out, st', e1⟩

/-- C89: a null memspace and a null result pointer are refused, and memory is as before. -/
theorem C89_null (accept : Settings → Nat) (all cap : Nat) (st : St) (space : Nat) (pol : Option Pol) (out : Bool)
    (h : space = 0 ∨ out = false) :
    providerFrom accept all cap st space pol out = some (3, 0, st) ∧ poolFrom st space out = some (3, 0, st) := by
  unfold providerFrom poolFrom create
  rw [if_pos h, if_pos h]
  exact ⟨rfl, rfl⟩

/-- C89: a pool from a memspace: memory is as before and no handle is written. -/
theorem C89_pool {st : St} (hok : Ok st) {space : Nat} {ts ps ns : List Nat} (hs : HasSpace st.heap space ts ps ns) :
    ∃ r st', poolFrom st space true = some (r, 0, st') ∧ st'.heap = st.heap ∧
      ((r = 1 ∧ false ∈ st.ans) ∨ (r = 3 ∧ ns = []) ∨ (r = 5 ∧ ns ≠ [])) := by
  obtain ⟨hz, ⟨a, h1, h2⟩, h3, h4⟩ := hs
  have l3 := h3.length_eq
  have l4 := h4.length_eq
  unfold poolFrom create
  rw [if_neg (by simp [hz]), h1]
  dsimp only
  by_cases hts : ts = []
  · subst hts
    rw [if_pos (show ([] : List Nat).length = 0 from rfl)]
    refine ⟨3, st, rfl, rfl, Or.inr (Or.inl ⟨rfl, ?_⟩)⟩
    apply List.length_eq_zero_iff.1
    rw [← l4, ← l3]
    rfl
  · have hpos : 0 < ts.length := List.length_pos_iff.2 hts
    rw [if_neg (by omega)]
    have hr : readPtrs st a ts.length = some ts := by
      unfold readPtrs
      rw [if_neg (by omega), h2 hts]
      simp
    rw [hr]
    dsimp only
    rw [privs_eq h3]
    dsimp only
    by_cases hg : granted st.ans = true
    · have ea : alloc st (.ptrs ps) = (st.next, ⟨(st.next, .ptrs ps) :: st.heap, st.next + 1, st.ans.tail⟩) := by
        unfold alloc
        rw [if_pos hg]
      rw [ea]
      have hnx : st.next ≠ 0 := by have := hok.1; omega
      dsimp only
      rw [if_neg hnx]
      refine ⟨5, ⟨st.heap, st.next + 1, st.ans.tail⟩, ?_, rfl, Or.inr (Or.inr ⟨rfl, ?_⟩)⟩
      · simp [dropPrivs, numaPool, free, hnx, get, rm]
      · rintro rfl
        simp at l4
        rw [l4] at l3
        exact hts (List.length_eq_zero_iff.1 l3)
    · have ea : alloc st (.ptrs ps) = (0, { st with ans := st.ans.tail }) := by
        unfold alloc
        rw [if_neg hg]
      rw [ea]
      dsimp only
      rw [if_pos rfl]
      refine ⟨1, _, rfl, rfl, Or.inl ⟨rfl, ?_⟩⟩
      cases e : st.ans with
      | nil => rw [e] at hg; exact absurd rfl hg
      | cons b t => rw [e] at hg; cases b <;> simp [granted] at hg ⊢

/-- C89: a new memspace is empty, and one block; if memory is refused, memory is as before, and otherwise the call succeeds. -/
theorem C89_new {st : St} (hok : Ok st) :
    newSpace st false = (3, 0, st) ∧
    ∃ r out st', newSpace st true = (r, out, st') ∧ Ok st' ∧
      ((r = 0 ∧ get st.heap out = none ∧ HasSpace st'.heap out [] [] [] ∧ ∃ c, st'.heap = (out, c) :: st.heap) ∨
       (r = 1 ∧ out = 0 ∧ st'.heap = st.heap ∧ false ∈ st.ans)) := by
  refine ⟨rfl, ?_⟩
  have hnx : st.next ≠ 0 := by have := hok.1; omega
  have hok1 := ok_alloc hok (.space 0 0)
  unfold newSpace
  rw [if_neg (by decide)]
  by_cases hg : granted st.ans = true
  · have ea : alloc st (.space 0 0) = (st.next, ⟨(st.next, .space 0 0) :: st.heap, st.next + 1, st.ans.tail⟩) := by
      unfold alloc
      rw [if_pos hg]
    rw [ea] at hok1 ⊢
    rw [if_neg hnx]
    exact ⟨0, _, _, rfl, hok1, Or.inl ⟨rfl, get_ge hok.2 (Nat.le_refl _),
      ⟨hnx, ⟨0, by simp [get], fun h => absurd rfl h⟩, .nil, .nil⟩, _, rfl⟩⟩
  · have ea : alloc st (.space 0 0) = (0, { st with ans := st.ans.tail }) := by
      unfold alloc
      rw [if_neg hg]
    rw [ea] at hok1 ⊢
    rw [if_pos rfl]
    refine ⟨1, 0, _, rfl, hok1, Or.inr ⟨rfl, rfl, rfl, ?_⟩⟩
    cases e : st.ans with
    | nil => rw [e] at hg; exact absurd rfl hg
    | cons b t => rw [e] at hg; cases b <;> simp [granted] at hg ⊢

/-- C89: the targets of a memspace are those with the numbers below their number, in order; other numbers and a null memspace give NULL. -/
theorem C89_targets {st : St} {space : Nat} {ts ps ns : List Nat} (hs : HasSpace st.heap space ts ps ns) :
    targetNum st space = some ns.length ∧ (∀ i (h : i < ts.length), targetGet st space i = some ts[i]) ∧
    (∀ i, ns.length ≤ i → targetGet st space i = some 0) ∧ targetNum st 0 = some 0 ∧ ∀ i, targetGet st 0 i = some 0 := by
  obtain ⟨hz, ⟨a, h1, h2⟩, h3, h4⟩ := hs
  have l3 := h3.length_eq
  have l4 := h4.length_eq
  refine ⟨?_, ?_, ?_, rfl, fun _ => rfl⟩
  · unfold targetNum
    rw [if_neg hz, h1]
    dsimp only
    rw [l3, l4]
  · intro i h
    unfold targetGet
    rw [if_neg hz, h1]
    dsimp only
    rw [if_neg (by omega), h2 (by rintro rfl; simp at h)]
    exact List.getElem?_eq_getElem h
  · intro i h
    unfold targetGet
    rw [if_neg hz, h1]
    dsimp only
    rw [if_pos (by omega)]

end Verif.FromSpace
