import Verif.Params.Ops2
/-!
# Lemmas for the parameter objects: calls with copies
-/
namespace Verif.Params

variable {s : St} {A : Spec} {ans : List Addr}

theorem plenty_no (hm : ¬ (ans.headD 0 ≠ 0 ∧ s.heap (ans.headD 0) = none)) : ¬ Plenty s ans := by
  rintro ⟨a, b, rest, rfl, h1, h2, h3, h4, h5⟩
  exact hm ⟨h1, h4⟩

/-- A call that replaces a copy. -/
theorem good_swap {op : Op} {h : Addr} {c c' : Cell} {w : Val} {old p : Addr} {l a : List Nat} (R : Rel s A)
    (hs : step s op ans =
      some ((.success, 0), ⟨upd (rel (upd s.heap p (some (.arr l))) old) h (some c'), s.user, a⟩))
    (hw : want A op = .change h w) (hc : s.heap h = some c) (ho : Obj c) (ho' : Obj c') (hp0 : p ≠ 0)
    (hp : s.heap p = none) (hold : old = 0 ∨ old ∈ ptrs c)
    (hptrs : ∀ x, x ∈ ptrs c' ↔ x = p ∨ (x ∈ ptrs c ∧ x ≠ old)) (hnd : (ptrs c').Nodup)
    (hv : ∃ v, view ⟨upd (rel (upd s.heap p (some (.arr l))) old) h (some c'), s.user, a⟩ h = some v ∧ Agrees v w)
    (hn : ∀ out, (A.next op out).user = A.user ∧ (A.next op out).lent = A.lent)
    (hl' : ∀ o, c' ≠ .ze o) : Good s A op ans := by
  refine ⟨_, _, hs, Or.inr (by rw [hw]), ?_, by simp⟩
  refine R.swap _ hc ho ho' hp0 hp hold hptrs hnd hv ?_ (hn _).1 (by rw [(hn _).2]; exact fun _ h => h) hl'
  simp [Spec.next, hw]

/-- A call that gives up a copy. -/
theorem good_unset {op : Op} {h : Addr} {c c' : Cell} {w : Val} {old : Addr} (R : Rel s A)
    (hs : step s op ans = some ((.success, 0), ⟨upd (rel s.heap old) h (some c'), s.user, ans⟩))
    (hw : want A op = .change h w) (hc : s.heap h = some c) (ho : Obj c) (ho' : Obj c')
    (hold : old = 0 ∨ old ∈ ptrs c)
    (hptrs : ∀ x, x ∈ ptrs c' ↔ (x ∈ ptrs c ∧ x ≠ old)) (hnd : (ptrs c').Nodup)
    (hv : ∃ v, view ⟨upd (rel s.heap old) h (some c'), s.user, ans⟩ h = some v ∧ Agrees v w)
    (hn : ∀ out, (A.next op out).user = A.user ∧ (A.next op out).lent = A.lent)
    (hl' : ∀ o, c' ≠ .ze o) : Good s A op ans := by
  refine ⟨_, _, hs, Or.inr (by rw [hw]), ?_, by simp⟩
  refine R.unset _ hc ho ho' hold hptrs hnd hv ?_ (hn _).1 (by rw [(hn _).2]; exact fun _ h => h) hl'
  simp [Spec.next, hw]

/-! ## OS provider -/

theorem mem_os {o : OsObj} {x : Nat} :
    x ∈ ptrs (.os o) ↔ x ≠ 0 ∧ (x = o.shmName ∨ x = o.numaList ∨ x = o.partitions) := by
  simp only [ptrs, List.mem_filter, List.mem_cons, List.not_mem_nil, or_false, decide_eq_true_eq]
  exact ⟨fun h => ⟨h.2, h.1⟩, fun h => ⟨h.2, h.1⟩⟩

theorem nodup_os {o : OsObj} : (ptrs (.os o)).Nodup ↔
    (o.shmName ≠ 0 → o.numaList ≠ o.shmName) ∧ (o.shmName ≠ 0 → o.partitions ≠ o.shmName) ∧
      (o.numaList ≠ 0 → o.partitions ≠ o.numaList) := by
  refine ⟨nodup3, ?_⟩
  intro h
  simp only [ptrs]
  generalize o.shmName = a, o.numaList = b, o.partitions = c at h
  by_cases h1 : a = 0 <;> by_cases h2 : b = 0 <;> by_cases h3 : c = 0 <;> simp_all [List.filter, eq_comm]

theorem good_osDestroy {h : Addr} (R : Rel s A) (hl : A.Handle h IsOs) : Good s A (.osDestroy h) ans := by
  rcases Handle.cases hl R with ⟨rfl, hv⟩ | ⟨h0, _, hv, o', rfl⟩
  · exact good_nothing R rfl (by simp [want]) (by simp [Spec.next, want])
  · obtain ⟨o, hc, _⟩ := R.os hv
    have hp : ∀ p ∈ ptrs (.os o), p ≠ h := fun p hp => no_obj R.inv hc trivial hc hp
    have hsome : ∀ p ∈ ptrs (.os o), s.heap p ≠ none := fun p hp => by
      obtain ⟨l, hl⟩ := R.inv.arrs h _ hc p hp
      rw [hl]; simp
    obtain ⟨n1, n2, n3⟩ := nodup_os.1 (R.inv.nodup h _ hc)
    have hne : ∀ p, p = o.shmName ∨ p = o.numaList ∨ p = o.partitions → p ≠ h := by
      intro p hpm
      by_cases hz : p = 0
      · rw [hz]; exact Ne.symm h0
      · exact hp p (mem_os.2 ⟨hz, hpm⟩)
    have m1 := hne o.shmName (by simp)
    have m2 := hne o.numaList (by simp)
    have m3 := hne o.partitions (by simp)
    refine good_drop (heap' := rel (rel (rel (rel s.heap o.shmName) o.numaList) o.partitions) h) R hc trivial ?_
      (rel_same _ h0) ?_ ?_ (by simp [want, h0])
      (fun out => by unfold Spec.next; split <;> exact ⟨rfl, rfl⟩)
    · simp only [step, Op.code, osDestroy]
      rw [if_pos h0]
      simp only [bind_app, getOs, hc]
      rw [free_app o.shmName ⟨s.heap, s.user, ans⟩ (fun hz => hsome _ (mem_os.2 ⟨hz, by simp⟩))]
      dsimp only
      rw [free_app o.numaList _ (fun hz => by
        dsimp only
        by_cases h1 : o.shmName = 0
        · rw [h1, rel_zero]; exact hsome _ (mem_os.2 ⟨hz, by simp⟩)
        · rw [rel_ne _ (n1 h1)]; exact hsome _ (mem_os.2 ⟨hz, by simp⟩))]
      dsimp only
      rw [free_app o.partitions _ (fun hz => by
        dsimp only
        have e1 : rel (rel s.heap o.shmName) o.numaList o.partitions = s.heap o.partitions := by
          by_cases h2 : o.numaList = 0
          · rw [h2, rel_zero]
            by_cases h1 : o.shmName = 0
            · rw [h1, rel_zero]
            · rw [rel_ne _ (n2 h1)]
          · rw [rel_ne _ (n3 h2)]
            by_cases h1 : o.shmName = 0
            · rw [h1, rel_zero]
            · rw [rel_ne _ (n2 h1)]
        rw [e1]
        exact hsome _ (mem_os.2 ⟨hz, by simp⟩))]
      dsimp only
      rw [free_app h _ (fun _ => by
        dsimp only
        rw [rel_ne _ (Ne.symm m3), rel_ne _ (Ne.symm m2), rel_ne _ (Ne.symm m1), hc]
        simp)]
      rfl
    · intro p hpm
      obtain ⟨hz, hpo⟩ := mem_os.1 hpm
      rw [rel_ne _ (hp p hpm)]
      by_cases e3 : p = o.partitions
      · rw [← e3, rel_same _ hz]
      rw [rel_ne _ e3]
      by_cases e2 : p = o.numaList
      · rw [← e2, rel_same _ hz]
      rw [rel_ne _ e2]
      rcases hpo with e | e | e
      · rw [← e, rel_same _ hz]
      · exact absurd e e2
      · exact absurd e e3
    · intro a ha hna
      by_cases hz : a = 0
      · have : ∀ f : Addr → Option Cell, ∀ b, rel f b 0 = f 0 := by
          intro f b
          by_cases hb : b = 0
          · rw [hb, rel_zero]
          · rw [rel_ne _ (Ne.symm hb)]
        rw [hz, this, this, this, this]
      · have hno : a ≠ o.shmName ∧ a ≠ o.numaList ∧ a ≠ o.partitions := by
          refine ⟨?_, ?_, ?_⟩ <;> intro e <;> exact hna (mem_os.2 ⟨hz, by simp [e]⟩)
        rw [rel_ne _ ha, rel_ne _ hno.2.2, rel_ne _ hno.2.1, rel_ne _ hno.1]

/-- Memory after a copy `old` of `h` was replaced by `p`. -/
theorem swap_heap (R : Rel s A) {h p old : Addr} {c c' : Cell} {l : List Nat} (hc : s.heap h = some c) (ho : Obj c)
    (hp0 : p ≠ 0) (hp : s.heap p = none) (hold : old = 0 ∨ old ∈ ptrs c) :
    upd (rel (upd s.heap p (some (.arr l))) old) h (some c') p = some (.arr l) ∧
    (∀ x, x ∈ ptrs c ∨ x = 0 → x ≠ old ∨ x = 0 →
      upd (rel (upd s.heap p (some (.arr l))) old) h (some c') x = s.heap x) ∧
    p ≠ h ∧ p ∉ ptrs c ∧ upd s.heap p (some (.arr l)) h = some c ∧
    (old ≠ 0 → upd s.heap p (some (.arr l)) old ≠ none) ∧
    rel (upd s.heap p (some (.arr l))) old h ≠ none := by
  have h0 : h ≠ 0 := by
    rintro rfl
    rw [R.inv.zero] at hc
    cases hc
  have hph : p ≠ h := by rintro rfl; rw [hc] at hp; cases hp
  have hpc : p ∉ ptrs c := by
    intro h1
    obtain ⟨l, hl⟩ := R.inv.arrs h c hc p h1
    rw [hp] at hl; cases hl
  have key : ∀ p ∈ ptrs c, p ≠ h := fun p hpm => no_obj R.inv hc ho hc hpm
  have hpo : p ≠ old := by
    rintro rfl
    rcases hold with h1 | h1
    · exact hp0 h1
    · exact hpc h1
  have hoh : h ≠ old := by
    rcases hold with h1 | h1
    · rw [h1]; exact h0
    · exact Ne.symm (key _ h1)
  have hup : upd s.heap p (some (.arr l)) h = some c := by rw [upd_ne _ _ (Ne.symm hph), hc]
  refine ⟨by rw [upd_ne _ _ hph, rel_ne _ hpo, upd_same], ?_, hph, hpc, hup, ?_, ?_⟩
  · intro x hx hxo
    have hxh : x ≠ h := by
      rcases hx with hx | hx
      · exact key x hx
      · rw [hx]; exact Ne.symm h0
    have hxp : x ≠ p := by
      rcases hx with hx | hx
      · rintro rfl; exact hpc hx
      · rw [hx]; exact Ne.symm hp0
    rw [upd_ne _ _ hxh]
    by_cases e : x = old
    · rcases hxo with h1 | h1
      · exact absurd e h1
      · rw [← e, h1, rel_zero, ← h1, upd_ne _ _ hxp]
    · rw [rel_ne _ e, upd_ne _ _ hxp]
  · intro hz
    rcases hold with h1 | h1
    · exact absurd h1 hz
    · rw [upd_ne _ _ (Ne.symm hpo)]
      obtain ⟨l, hl⟩ := R.inv.arrs h c hc old h1
      rw [hl]; simp
  · rw [rel_ne _ hoh, hup]; simp

/-- Memory after a copy `old` of `h` was given up. -/
theorem unset_heap (R : Rel s A) {h old : Addr} {c c' : Cell} (hc : s.heap h = some c) (ho : Obj c)
    (hold : old = 0 ∨ old ∈ ptrs c) :
    (∀ x, x ∈ ptrs c ∨ x = 0 → x ≠ old ∨ x = 0 → upd (rel s.heap old) h (some c') x = s.heap x) ∧
    (old ≠ 0 → s.heap old ≠ none) ∧ rel s.heap old h ≠ none := by
  have h0 : h ≠ 0 := by
    rintro rfl
    rw [R.inv.zero] at hc
    cases hc
  have key : ∀ p ∈ ptrs c, p ≠ h := fun p hpm => no_obj R.inv hc ho hc hpm
  have hoh : h ≠ old := by
    rcases hold with h1 | h1
    · rw [h1]; exact h0
    · exact Ne.symm (key _ h1)
  refine ⟨?_, ?_, ?_⟩
  · intro x hx hxo
    have hxh : x ≠ h := by
      rcases hx with hx | hx
      · exact key x hx
      · rw [hx]; exact Ne.symm h0
    rw [upd_ne _ _ hxh]
    by_cases e : x = old
    · rcases hxo with h1 | h1
      · exact absurd e h1
      · rw [← e, h1, rel_zero]
    · rw [rel_ne _ e]
  · intro hz
    rcases hold with h1 | h1
    · exact absurd h1 hz
    · obtain ⟨l, hl⟩ := R.inv.arrs h c hc old h1
      rw [hl]; simp
  · rw [rel_ne _ hoh, hc]; simp

theorem or_os {o : OsObj} {x : Nat} (h : x = o.shmName ∨ x = o.numaList ∨ x = o.partitions) :
    x ∈ ptrs (.os o) ∨ x = 0 := by
  by_cases hz : x = 0
  · exact Or.inr hz
  · exact Or.inl (mem_os.2 ⟨hz, h⟩)

theorem or_os' {o : OsObj} {x : Nat} (h : x = o.shmName ∨ x = o.numaList ∨ x = o.partitions) :
    x = 0 ∨ x ∈ ptrs (.os o) := (or_os h).symm

theorem good_osSetShmName {h p : Nat} (R : Rel s A) (hl : A.Handle h IsOs) (hp : p = 0 ∨ A.IsText p) :
    Good s A (.osSetShmName h p) ans := by
  rcases Handle.cases hl R with ⟨rfl, hv⟩ | ⟨h0, _, hv, o', rfl⟩
  · exact good_refuse R ⟨ans, rfl⟩ (by simp only [want, Spec.onOs, hv])
  obtain ⟨o, hc, e1, e2, e3, e4, e5, e6, e7⟩ := R.os hv
  obtain ⟨n1, n2, n3⟩ := nodup_os.1 (R.inv.nodup h _ hc)
  have hold : o.shmName = 0 ∨ o.shmName ∈ ptrs (.os o) := or_os' (by simp)
  have f2 : o.numaList ≠ o.shmName ∨ o.numaList = 0 := by
    by_cases hz : o.shmName = 0
    · by_cases hz2 : o.numaList = 0
      · exact Or.inr hz2
      · exact Or.inl (by rw [hz]; exact hz2)
    · exact Or.inl (n1 hz)
  have f3 : o.partitions ≠ o.shmName ∨ o.partitions = 0 := by
    by_cases hz : o.shmName = 0
    · by_cases hz2 : o.partitions = 0
      · exact Or.inr hz2
      · exact Or.inl (by rw [hz]; exact hz2)
    · exact Or.inl (n2 hz)
  by_cases hp0 : p = 0
  · obtain ⟨k1, k2, k3⟩ := unset_heap (c' := .os { o with shmName := 0 }) R hc trivial hold
    refine good_unset (c' := .os { o with shmName := 0 }) (w := .os { o' with shmName := none }) R ?_
      (by simp only [want, Spec.onOs, hv, if_pos hp0]) hc trivial trivial hold ?_ ?_ ?_
      (fun out => by unfold Spec.next; split <;> exact ⟨rfl, rfl⟩) (fun _ e => by cases e)
    · simp only [step, Op.code, osSetShmName, if_neg h0, if_pos hp0, bind_app, getOs, hc]
      rw [free_app _ ⟨s.heap, s.user, ans⟩ k2]
      dsimp only
      rw [put_app _ _ ⟨rel s.heap _, s.user, ans⟩ k3]
      rfl
    · intro x
      rw [mem_os, mem_os]
      dsimp only
      constructor
      · rintro ⟨hz, h1 | h1 | h1⟩
        · exact absurd h1 hz
        · refine ⟨⟨hz, Or.inr (Or.inl h1)⟩, ?_⟩
          rw [h1]
          exact f2.resolve_right (by rw [← h1]; exact hz)
        · refine ⟨⟨hz, Or.inr (Or.inr h1)⟩, ?_⟩
          rw [h1]
          exact f3.resolve_right (by rw [← h1]; exact hz)
      · rintro ⟨⟨hz, h1 | h1 | h1⟩, h2⟩
        · exact absurd h1 h2
        · exact ⟨hz, Or.inr (Or.inl h1)⟩
        · exact ⟨hz, Or.inr (Or.inr h1)⟩
    · rw [nodup_os]
      exact ⟨fun h => absurd rfl h, fun h => absurd rfl h, n3⟩
    · refine ⟨_, ?_, agrees_refl _⟩
      unfold view
      dsimp only
      rw [upd_same]
      dsimp only
      rw [readArr_congr (s := s) (p := o.numaList) (k1 o.numaList (or_os (by simp)) f2), e2,
        readArr_congr (s := s) (p := o.partitions) (k1 o.partitions (or_os (by simp)) f3), e3, ← e4, ← e5, ← e6, ← e7]
      rfl
  · obtain ⟨l, hl1, hz⟩ := hp.resolve_left hp0
    have hl1' : s.user p = some l := by rw [R.user, hl1]
    by_cases hm : ans.headD 0 ≠ 0 ∧ s.heap (ans.headD 0) = none
    · obtain ⟨k1, k2, k3, k4, k5, k6, k7⟩ := swap_heap (l := strn (l.idxOf 0 + 1) l)
        (c' := .os { o with shmName := ans.headD 0 }) R hc trivial hm.1 hm.2 hold
      refine good_swap (l := strn (l.idxOf 0 + 1) l) (c' := .os { o with shmName := ans.headD 0 })
        (w := .os { o' with shmName := some (A.text p) }) (a := ans.tail) R ?_
        (by simp only [want, Spec.onOs, hv, if_neg hp0]) hc trivial trivial hm.1 hm.2 hold ?_ ?_ ?_
        (fun out => by unfold Spec.next; split <;> exact ⟨rfl, rfl⟩) (fun _ e => by cases e)
      · simp only [step, Op.code, osSetShmName, if_neg h0, if_neg hp0, bind_app, strlen, hl1', if_pos hz]
        rw [alloc_ok _ _ hm.1 hm.2]
        dsimp only
        rw [if_neg hm.1]
        simp only [strncpy, upd_same, hl1', bind_app]
        rw [if_pos ⟨Nat.le_refl _, Or.inl hz⟩]
        dsimp only
        rw [upd_upd]
        simp only [getOs, k5]
        rw [free_app _ ⟨_, s.user, ans.tail⟩ k6]
        dsimp only
        rw [put_app _ _ ⟨rel _ _, s.user, ans.tail⟩ k7]
        rfl
      · intro x
        rw [mem_os, mem_os]
        dsimp only
        constructor
        · rintro ⟨hz, h1 | h1 | h1⟩
          · exact Or.inl h1
          · refine Or.inr ⟨⟨hz, Or.inr (Or.inl h1)⟩, ?_⟩
            rw [h1]
            exact f2.resolve_right (by rw [← h1]; exact hz)
          · refine Or.inr ⟨⟨hz, Or.inr (Or.inr h1)⟩, ?_⟩
            rw [h1]
            exact f3.resolve_right (by rw [← h1]; exact hz)
        · rintro (h1 | ⟨⟨hz, h1 | h1 | h1⟩, h2⟩)
          · exact ⟨by rw [h1]; exact hm.1, Or.inl h1⟩
          · exact absurd h1 h2
          · exact ⟨hz, Or.inr (Or.inl h1)⟩
          · exact ⟨hz, Or.inr (Or.inr h1)⟩
      · rw [nodup_os]
        refine ⟨?_, ?_, n3⟩
        · intro _ e
          exact k4 (mem_os.2 ⟨hm.1, Or.inr (Or.inl e.symm)⟩)
        · intro _ e
          exact k4 (mem_os.2 ⟨hm.1, Or.inr (Or.inr e.symm)⟩)
      · refine ⟨_, ?_, agrees_refl _⟩
        unfold view
        dsimp only
        rw [upd_same]
        dsimp only
        rw [readArr_congr (s := s) (p := o.numaList) (k2 o.numaList (or_os (by simp)) f2), e2,
          readArr_congr (s := s) (p := o.partitions) (k2 o.partitions (or_os (by simp)) f3), e3, readStr_text hm.1 hz k1, ← e4, ← e5, ← e6, ← e7]
        simp only [Spec.text, hl1, Option.getD_some]
    · refine good_oom R ⟨ans.tail, ?_⟩ (Or.inr rfl) (plenty_no hm)
      simp only [step, Op.code, osSetShmName, if_neg h0, if_neg hp0, bind_app, strlen, hl1', if_pos hz]
      rw [alloc_no _ _ hm]
      rfl

theorem good_osSetNumaList {h p n : Nat} (R : Rel s A) (hl : A.Handle h IsOs) (hp : n = 0 ∨ p = 0 ∨ A.IsArr p n) :
    Good s A (.osSetNumaList h p n) ans := by
  by_cases hb : n ≠ 0 ∧ p = 0
  · refine good_refuse R ⟨ans, ?_⟩ (by simp only [want, if_pos hb])
    by_cases h0 : h = 0
    · subst h0; rfl
    · simp only [step, Op.code, osSetNumaList, if_neg h0, if_pos hb, bad, pure_app]
  rcases Handle.cases hl R with ⟨rfl, hv⟩ | ⟨h0, _, hv, o', rfl⟩
  · exact good_refuse R ⟨ans, rfl⟩ (by simp only [want, if_neg hb, Spec.onOs, hv])
  obtain ⟨o, hc, e1, e2, e3, e4, e5, e6, e7⟩ := R.os hv
  obtain ⟨n1, n2, n3⟩ := nodup_os.1 (R.inv.nodup h _ hc)
  have hold : o.numaList = 0 ∨ o.numaList ∈ ptrs (.os o) := or_os' (by simp)
  have f2 : o.shmName ≠ o.numaList ∨ o.shmName = 0 := by
    by_cases hz : o.shmName = 0
    · exact Or.inr hz
    · exact Or.inl (Ne.symm (n1 hz))
  have f3 : o.partitions ≠ o.numaList ∨ o.partitions = 0 := by
    by_cases hz : o.numaList = 0
    · by_cases hz2 : o.partitions = 0
      · exact Or.inr hz2
      · exact Or.inl (by rw [hz]; exact hz2)
    · exact Or.inl (n3 hz)
  by_cases hn0 : n = 0
  · obtain ⟨k1, k2, k3⟩ := unset_heap (c' := .os { o with numaList := 0, numaLen := n }) R hc trivial hold
    refine good_unset (c' := .os { o with numaList := 0, numaLen := n }) (w := .os { o' with numaList := A.elems p n }) R ?_
      (by simp only [want, Spec.onOs, hv, if_neg hb]) hc trivial trivial hold ?_ ?_ ?_
      (fun out => by unfold Spec.next; split <;> exact ⟨rfl, rfl⟩) (fun _ e => by cases e)
    · simp only [step, Op.code, osSetNumaList, if_neg h0, if_neg hb, if_pos hn0, bind_app, getOs, hc]
      rw [free_app _ ⟨s.heap, s.user, ans⟩ k2]
      dsimp only
      rw [put_app _ _ ⟨rel s.heap _, s.user, ans⟩ k3]
      rfl
    · intro x
      rw [mem_os, mem_os]
      dsimp only
      constructor
      · rintro ⟨hz, h1 | h1 | h1⟩
        · refine ⟨⟨hz, Or.inl h1⟩, ?_⟩
          rw [h1]
          exact f2.resolve_right (by rw [← h1]; exact hz)
        · exact absurd h1 hz
        · refine ⟨⟨hz, Or.inr (Or.inr h1)⟩, ?_⟩
          rw [h1]
          exact f3.resolve_right (by rw [← h1]; exact hz)
      · rintro ⟨⟨hz, h1 | h1 | h1⟩, h2⟩
        · exact ⟨hz, Or.inl h1⟩
        · exact absurd h1 h2
        · exact ⟨hz, Or.inr (Or.inr h1)⟩
    · rw [nodup_os]
      exact ⟨fun h e => h e.symm, n2, fun h => absurd rfl h⟩
    · refine ⟨_, ?_, agrees_refl _⟩
      unfold view
      dsimp only
      rw [upd_same]
      dsimp only
      rw [readStr_congr (s := s) (p := o.shmName) (fun _ => k1 o.shmName (or_os (by simp)) f2), e1,
        readArr_congr (s := s) (p := o.partitions) (k1 o.partitions (or_os (by simp)) f3), e3, ← e4, ← e5, ← e6, ← e7]
      subst hn0
      simp [readArr, Spec.elems]
  · have hp0 : p ≠ 0 := fun e => hb ⟨hn0, e⟩
    obtain ⟨l, hl1, hz⟩ := (hp.resolve_left hn0).resolve_left hp0
    have hl1' : s.user p = some l := by rw [R.user, hl1]
    by_cases hm : ans.headD 0 ≠ 0 ∧ s.heap (ans.headD 0) = none
    · obtain ⟨k1, k2, k3, k4, k5, k6, k7⟩ := swap_heap (l := l.take n)
        (c' := .os { o with numaList := ans.headD 0, numaLen := n }) R hc trivial hm.1 hm.2 hold
      refine good_swap (l := l.take n) (c' := .os { o with numaList := ans.headD 0, numaLen := n })
        (w := .os { o' with numaList := A.elems p n }) (a := ans.tail) R ?_
        (by simp only [want, Spec.onOs, hv, if_neg hb]) hc trivial trivial hm.1 hm.2 hold ?_ ?_ ?_
        (fun out => by unfold Spec.next; split <;> exact ⟨rfl, rfl⟩) (fun _ e => by cases e)
      · simp only [step, Op.code, osSetNumaList, if_neg h0, if_neg hb, if_neg hn0, bind_app]
        rw [alloc_ok _ _ hm.1 hm.2]
        dsimp only
        rw [if_neg hm.1]
        simp only [memcpy, upd_same, hl1', bind_app]
        rw [if_pos ⟨Nat.le_refl _, hz⟩]
        dsimp only
        rw [upd_upd]
        simp only [getOs, k5]
        rw [free_app _ ⟨_, s.user, ans.tail⟩ k6]
        dsimp only
        rw [put_app _ _ ⟨rel _ _, s.user, ans.tail⟩ k7]
        rfl
      · intro x
        rw [mem_os, mem_os]
        dsimp only
        constructor
        · rintro ⟨hz, h1 | h1 | h1⟩
          · refine Or.inr ⟨⟨hz, Or.inl h1⟩, ?_⟩
            rw [h1]
            exact f2.resolve_right (by rw [← h1]; exact hz)
          · exact Or.inl h1
          · refine Or.inr ⟨⟨hz, Or.inr (Or.inr h1)⟩, ?_⟩
            rw [h1]
            exact f3.resolve_right (by rw [← h1]; exact hz)
        · rintro (h1 | ⟨⟨hz, h1 | h1 | h1⟩, h2⟩)
          · exact ⟨by rw [h1]; exact hm.1, Or.inr (Or.inl h1)⟩
          · exact ⟨hz, Or.inl h1⟩
          · exact absurd h1 h2
          · exact ⟨hz, Or.inr (Or.inr h1)⟩
      · rw [nodup_os]
        refine ⟨?_, n2, ?_⟩
        · intro h1 e
          exact k4 (mem_os.2 ⟨hm.1, Or.inl e⟩)
        · intro _ e
          exact k4 (mem_os.2 ⟨hm.1, Or.inr (Or.inr e.symm)⟩)
      · refine ⟨_, ?_, agrees_refl _⟩
        unfold view
        dsimp only
        rw [upd_same]
        dsimp only
        rw [readStr_congr (s := s) (p := o.shmName) (fun _ => k2 o.shmName (or_os (by simp)) f2), e1,
          readArr_congr (s := s) (p := o.partitions) (k2 o.partitions (or_os (by simp)) f3), e3, readArr_copy hz k1, ← e4, ← e5, ← e6, ← e7]
        simp only [Spec.elems, hl1, Option.getD_some]
    · refine good_oom R ⟨ans.tail, ?_⟩ (Or.inr rfl) (plenty_no hm)
      simp only [step, Op.code, osSetNumaList, if_neg h0, if_neg hb, if_neg hn0, bind_app]
      rw [alloc_no _ _ hm]
      rfl

theorem good_osSetPartitions {h p n : Nat} (R : Rel s A) (hl : A.Handle h IsOs)
    (hp : n = 0 ∨ p = 0 ∨ A.IsArr p (2 * n)) : Good s A (.osSetPartitions h p n) ans := by
  by_cases hb : n ≠ 0 ∧ p = 0
  · refine good_refuse R ⟨ans, ?_⟩ (by simp only [want, if_pos hb])
    by_cases h0 : h = 0
    · subst h0; rfl
    · simp only [step, Op.code, osSetPartitions, if_neg h0, if_pos hb, bad, pure_app]
  rcases Handle.cases hl R with ⟨rfl, hv⟩ | ⟨h0, _, hv, o', rfl⟩
  · exact good_refuse R ⟨ans, rfl⟩ (by simp only [want, if_neg hb, Spec.onOs, hv])
  obtain ⟨o, hc, e1, e2, e3, e4, e5, e6, e7⟩ := R.os hv
  obtain ⟨n1, n2, n3⟩ := nodup_os.1 (R.inv.nodup h _ hc)
  have hold : o.partitions = 0 ∨ o.partitions ∈ ptrs (.os o) := or_os' (by simp)
  have f2 : o.shmName ≠ o.partitions ∨ o.shmName = 0 := by
    by_cases hz : o.shmName = 0
    · exact Or.inr hz
    · exact Or.inl (Ne.symm (n2 hz))
  have f3 : o.numaList ≠ o.partitions ∨ o.numaList = 0 := by
    by_cases hz : o.numaList = 0
    · exact Or.inr hz
    · exact Or.inl (Ne.symm (n3 hz))
  by_cases hn0 : n = 0
  · obtain ⟨k1, k2, k3⟩ := unset_heap (c' := .os { o with partitions := 0, partitionsLen := n }) R hc trivial hold
    refine good_unset (c' := .os { o with partitions := 0, partitionsLen := n })
      (w := .os { o' with partitions := A.elems p (2 * n) }) R ?_
      (by simp only [want, Spec.onOs, hv, if_neg hb]) hc trivial trivial hold ?_ ?_ ?_
      (fun out => by unfold Spec.next; split <;> exact ⟨rfl, rfl⟩) (fun _ e => by cases e)
    · simp only [step, Op.code, osSetPartitions, if_neg h0, if_neg hb, if_pos hn0, bind_app, getOs, hc]
      rw [free_app _ ⟨s.heap, s.user, ans⟩ k2]
      dsimp only
      rw [put_app _ _ ⟨rel s.heap _, s.user, ans⟩ k3]
      rfl
    · intro x
      rw [mem_os, mem_os]
      dsimp only
      constructor
      · rintro ⟨hz, h1 | h1 | h1⟩
        · refine ⟨⟨hz, Or.inl h1⟩, ?_⟩
          rw [h1]
          exact f2.resolve_right (by rw [← h1]; exact hz)
        · refine ⟨⟨hz, Or.inr (Or.inl h1)⟩, ?_⟩
          rw [h1]
          exact f3.resolve_right (by rw [← h1]; exact hz)
        · exact absurd h1 hz
      · rintro ⟨⟨hz, h1 | h1 | h1⟩, h2⟩
        · exact ⟨hz, Or.inl h1⟩
        · exact ⟨hz, Or.inr (Or.inl h1)⟩
        · exact absurd h1 h2
    · rw [nodup_os]
      exact ⟨n1, fun h e => h e.symm, fun h e => h e.symm⟩
    · refine ⟨_, ?_, agrees_refl _⟩
      unfold view
      dsimp only
      rw [upd_same]
      dsimp only
      rw [readStr_congr (s := s) (p := o.shmName) (fun _ => k1 o.shmName (or_os (by simp)) f2), e1,
        readArr_congr (s := s) (p := o.numaList) (k1 o.numaList (or_os (by simp)) f3), e2, ← e4, ← e5, ← e6, ← e7]
      subst hn0
      simp [readArr, Spec.elems]
  · have hp0 : p ≠ 0 := fun e => hb ⟨hn0, e⟩
    obtain ⟨l, hl1, hz⟩ := (hp.resolve_left hn0).resolve_left hp0
    have hl1' : s.user p = some l := by rw [R.user, hl1]
    rw [Nat.mul_comm] at hz
    by_cases hm : ans.headD 0 ≠ 0 ∧ s.heap (ans.headD 0) = none
    · obtain ⟨k1, k2, k3, k4, k5, k6, k7⟩ := swap_heap (l := l.take (n * 2))
        (c' := .os { o with partitions := ans.headD 0, partitionsLen := n }) R hc trivial hm.1 hm.2 hold
      refine good_swap (l := l.take (n * 2)) (c' := .os { o with partitions := ans.headD 0, partitionsLen := n })
        (w := .os { o' with partitions := A.elems p (2 * n) }) (a := ans.tail) R ?_
        (by simp only [want, Spec.onOs, hv, if_neg hb]) hc trivial trivial hm.1 hm.2 hold ?_ ?_ ?_
        (fun out => by unfold Spec.next; split <;> exact ⟨rfl, rfl⟩) (fun _ e => by cases e)
      · simp only [step, Op.code, osSetPartitions, if_neg h0, if_neg hb, if_neg hn0, bind_app]
        rw [alloc_ok _ _ hm.1 hm.2]
        dsimp only
        rw [if_neg hm.1]
        simp only [memcpy, upd_same, hl1', bind_app]
        rw [if_pos ⟨Nat.le_refl _, hz⟩]
        dsimp only
        rw [upd_upd]
        simp only [getOs, k5]
        rw [free_app _ ⟨_, s.user, ans.tail⟩ k6]
        dsimp only
        rw [put_app _ _ ⟨rel _ _, s.user, ans.tail⟩ k7]
        rfl
      · intro x
        rw [mem_os, mem_os]
        dsimp only
        constructor
        · rintro ⟨hz, h1 | h1 | h1⟩
          · refine Or.inr ⟨⟨hz, Or.inl h1⟩, ?_⟩
            rw [h1]
            exact f2.resolve_right (by rw [← h1]; exact hz)
          · refine Or.inr ⟨⟨hz, Or.inr (Or.inl h1)⟩, ?_⟩
            rw [h1]
            exact f3.resolve_right (by rw [← h1]; exact hz)
          · exact Or.inl h1
        · rintro (h1 | ⟨⟨hz, h1 | h1 | h1⟩, h2⟩)
          · exact ⟨by rw [h1]; exact hm.1, Or.inr (Or.inr h1)⟩
          · exact ⟨hz, Or.inl h1⟩
          · exact ⟨hz, Or.inr (Or.inl h1)⟩
          · exact absurd h1 h2
      · rw [nodup_os]
        refine ⟨n1, ?_, ?_⟩
        · intro h1 e
          exact k4 (mem_os.2 ⟨hm.1, Or.inl e⟩)
        · intro _ e
          exact k4 (mem_os.2 ⟨hm.1, Or.inr (Or.inl e)⟩)
      · refine ⟨_, ?_, agrees_refl _⟩
        unfold view
        dsimp only
        rw [upd_same]
        dsimp only
        rw [readStr_congr (s := s) (p := o.shmName) (fun _ => k2 o.shmName (or_os (by simp)) f2), e1,
          readArr_congr (s := s) (p := o.numaList) (k2 o.numaList (or_os (by simp)) f3), e2, readArr_copy hz k1, ← e4, ← e5, ← e6, ← e7]
        simp only [Spec.elems, hl1, Option.getD_some, Nat.mul_comm]
    · refine good_oom R ⟨ans.tail, ?_⟩ (Or.inr rfl) (plenty_no hm)
      simp only [step, Op.code, osSetPartitions, if_neg h0, if_neg hb, if_neg hn0, bind_app]
      rw [alloc_no _ _ hm]
      rfl

theorem text_nil {l : List Nat} (hz : 0 ∈ l) : l.takeWhile (fun c => decide (c ≠ 0)) = [] ↔ l.idxOf 0 = 0 := by
  cases l with
  | nil => simp at hz
  | cons a l =>
    by_cases h : a = 0
    · simp [h]
    · have hb : (a == 0) = false := by simp [h]
      simp [List.idxOf_cons, h, hb]

theorem rel_upd {f : Addr → Option Cell} {h : Addr} {c : Cell} (h0 : h ≠ 0) (hf : f h = none) :
    rel (upd f h (some c)) h = f := by
  funext k
  by_cases hk : k = h
  · rw [hk, rel_same _ h0, hf]
  · rw [rel_ne _ hk, upd_ne _ _ hk]

theorem upd_comm {f : Addr → Option Cell} {a b : Addr} {x y : Option Cell} (h : a ≠ b) :
    upd (upd f b x) a y = upd (upd f a y) b x := by
  funext k
  unfold upd
  by_cases h1 : k = a <;> by_cases h2 : k = b <;> simp_all

/-! ## File provider -/

theorem good_fileSetPath {h p : Nat} (R : Rel s A) (hl : A.Handle h IsFile) (hp : p = 0 ∨ A.IsText p) :
    Good s A (.fileSetPath h p) ans := by
  by_cases hb : p ≠ 0 ∧ A.text p ≠ []
  case neg =>
    refine good_refuse R ⟨ans, ?_⟩ (by simp only [want, if_neg hb])
    by_cases h0 : h = 0
    · subst h0; rfl
    by_cases hp0 : p = 0
    · simp only [step, Op.code, fileSetPath, if_neg h0, if_pos hp0, bad, pure_app]
    · obtain ⟨l, hl1, hz⟩ := hp.resolve_left hp0
      have hl1' : s.user p = some l := by rw [R.user, hl1]
      have hi : l.idxOf 0 = 0 := by
        have : A.text p = [] := Decidable.byContradiction fun h => hb ⟨hp0, h⟩
        simp only [Spec.text, hl1, Option.getD_some] at this
        exact (text_nil hz).1 this
      simp only [step, Op.code, fileSetPath, if_neg h0, if_neg hp0, bind_app, strlen, hl1', if_pos hz]
      rw [if_pos hi]
      rfl
  rcases Handle.cases hl R with ⟨rfl, hv⟩ | ⟨h0, _, hv, o', rfl⟩
  · exact good_refuse R ⟨ans, rfl⟩ (by simp only [want, if_pos hb, Spec.onFile, hv])
  obtain ⟨o, hc, e1, e2, e3⟩ := R.file hv
  have hold : o.path = 0 ∨ o.path ∈ ptrs (.file o) := by
    by_cases hz : o.path = 0
    · exact Or.inl hz
    · exact Or.inr (by simp [ptrs, hz])
  have hp0 := hb.1
  obtain ⟨l, hl1, hz⟩ := hp.resolve_left hp0
  have hl1' : s.user p = some l := by rw [R.user, hl1]
  have hi : l.idxOf 0 ≠ 0 := by
    intro h
    have := (text_nil hz).2 h
    apply hb.2
    simp only [Spec.text, hl1, Option.getD_some]
    exact this
  by_cases hm : ans.headD 0 ≠ 0 ∧ s.heap (ans.headD 0) = none
  · obtain ⟨k1, k2, k3, k4, k5, k6, k7⟩ := swap_heap (l := strn (l.idxOf 0 + 1) l)
      (c' := .file { o with path := ans.headD 0 }) R hc trivial hm.1 hm.2 hold
    refine good_swap (l := strn (l.idxOf 0 + 1) l) (c' := .file { o with path := ans.headD 0 })
      (w := .file { o' with path := some (A.text p) }) (a := ans.tail) R ?_
      (by simp only [want, if_pos hb, Spec.onFile, hv]) hc trivial trivial hm.1 hm.2 hold ?_ ?_ ?_
      (fun out => by unfold Spec.next; split <;> exact ⟨rfl, rfl⟩) (fun _ e => by cases e)
    · simp only [step, Op.code, fileSetPath, if_neg h0, if_neg hp0, bind_app, strlen, hl1', if_pos hz]
      rw [if_neg hi, bind_app, alloc_ok _ _ hm.1 hm.2]
      dsimp only
      rw [if_neg hm.1]
      simp only [strncpy, upd_same, hl1', bind_app]
      rw [if_pos ⟨Nat.le_refl _, Or.inl hz⟩]
      dsimp only
      rw [upd_upd]
      simp only [getFile, k5]
      rw [free_app _ ⟨_, s.user, ans.tail⟩ k6]
      dsimp only
      rw [put_app _ _ ⟨rel _ _, s.user, ans.tail⟩ k7]
      rfl
    · intro x
      simp only [ptrs, List.mem_filter, List.mem_singleton, decide_eq_true_eq]
      constructor
      · rintro ⟨h1, _⟩
        exact Or.inl h1
      · rintro (h1 | ⟨⟨h1, _⟩, h2⟩)
        · exact ⟨h1, by rw [h1]; exact hm.1⟩
        · exact absurd h1 h2
    · simp only [ptrs]
      exact List.Pairwise.filter _ (List.pairwise_singleton _ _)
    · refine ⟨_, ?_, agrees_refl _⟩
      unfold view
      dsimp only
      rw [upd_same]
      dsimp only
      rw [readStr_text hm.1 hz k1, ← e2, ← e3]
      simp only [Spec.text, hl1, Option.getD_some]
  · refine good_oom R ⟨ans.tail, ?_⟩ (Or.inr rfl) (plenty_no hm)
    simp only [step, Op.code, fileSetPath, if_neg h0, if_neg hp0, bind_app, strlen, hl1', if_pos hz]
    rw [if_neg hi, bind_app, alloc_no _ _ hm]
    rfl

theorem good_fileCreate {out : Bool} {p : Nat} (R : Rel s A) (hp : p = 0 ∨ A.IsText p) :
    Good s A (.fileCreate out p) ans := by
  cases out with
  | false => exact good_refuse R ⟨ans, rfl⟩ (by simp [want])
  | true =>
    by_cases hp0 : p = 0
    · refine good_refuse R ⟨ans, ?_⟩ (by simp [want, hp0])
      simp only [step, Op.code, fileCreate]
      rw [if_neg (by simp), if_pos hp0]
      rfl
    obtain ⟨l, hl1, hz⟩ := hp.resolve_left hp0
    have hl1' : s.user p = some l := by rw [R.user, hl1]
    have ht : A.text p = [] ↔ l.idxOf 0 = 0 := by
      simp only [Spec.text, hl1, Option.getD_some]
      exact text_nil hz
    by_cases hm : ans.headD 0 ≠ 0 ∧ s.heap (ans.headD 0) = none
    case neg =>
      refine good_oom R ⟨ans.tail, ?_⟩ (Or.inl rfl) (plenty_no hm)
      simp only [step, Op.code, fileCreate]
      rw [if_neg (by simp), if_neg hp0, bind_app, alloc_no _ _ hm]
      rfl
    have hstep : step s (.fileCreate true p) ans =
        (match fileSetPath (ans.headD 0) p ⟨upd s.heap (ans.headD 0) (some (.file ⟨0, 6, 1⟩)), s.user, ans.tail⟩ with
          | none => none
          | some (r, t) => (if r.1 ≠ .success then (do free (ans.headD 0); pure (r.1, 0))
              else (pure (.success, ans.headD 0) : M Out)) t) := by
      simp only [step, Op.code, fileCreate]
      rw [if_neg (by simp), if_neg hp0, bind_app, alloc_ok _ _ hm.1 hm.2]
      dsimp only
      rw [if_neg hm.1, bind_app, put_app _ _ _ (by simp [upd])]
      dsimp only
      rw [bind_app, upd_upd]
      split <;> rename_i hx <;> rw [hx]
    by_cases hi : l.idxOf 0 = 0
    · refine good_refuse R ⟨ans.tail, ?_⟩ ?_
      · rw [hstep]
        simp only [fileSetPath, if_neg hm.1, if_neg hp0, bind_app, strlen, hl1', if_pos hz]
        rw [if_pos hi]
        simp only [bad, pure_app]
        rw [if_pos (by simp), bind_app, free_app _ _ (fun _ => by dsimp only; rw [upd_same]; simp)]
        dsimp only
        rw [rel_upd hm.1 hm.2]
        rfl
      · simp only [want]
        rw [if_neg]
        rintro ⟨_, _, h1⟩
        exact h1 (ht.2 hi)
    by_cases hm2 : ans.tail.headD 0 ≠ 0 ∧ upd s.heap (ans.headD 0) (some (.file ⟨0, 6, 1⟩)) (ans.tail.headD 0) = none
    · have hne : ans.tail.headD 0 ≠ ans.headD 0 := by
        intro h
        have := hm2.2
        rw [h, upd_same] at this
        cases this
      have hs2 : s.heap (ans.tail.headD 0) = none := by
        have := hm2.2
        rwa [upd_ne _ _ hne] at this
      have hs : step s (.fileCreate true p) ans = some ((.success, ans.headD 0),
          ⟨upd (upd s.heap (ans.tail.headD 0) (some (.arr (strn (l.idxOf 0 + 1) l)))) (ans.headD 0)
            (some (.file ⟨ans.tail.headD 0, 6, 1⟩)), s.user, ans.tail.tail⟩) := by
        rw [hstep]
        simp only [fileSetPath, if_neg hm.1, if_neg hp0, bind_app, strlen, hl1', if_pos hz]
        rw [if_neg hi, bind_app, alloc_ok _ _ hm2.1 hm2.2]
        dsimp only
        rw [if_neg hm2.1]
        simp only [strncpy, upd_same, hl1', bind_app]
        rw [if_pos ⟨Nat.le_refl _, Or.inl hz⟩]
        dsimp only
        rw [upd_upd]
        simp only [getFile]
        rw [upd_ne _ _ (Ne.symm hne), upd_same]
        dsimp only
        rw [free_app _ _ (fun h => absurd rfl h)]
        dsimp only
        rw [rel_zero, put_app _ _ _ (by dsimp only; rw [upd_ne _ _ (Ne.symm hne), upd_same]; simp)]
        dsimp only
        simp only [ok, pure_app]
        rw [if_neg (by simp), upd_comm hne, upd_upd]
        rfl
      have hw : want A (.fileCreate true p) = .make (.file ⟨some (A.text p), 2 + 4, 1⟩) := by
        simp only [want]
        rw [if_pos ⟨trivial, hp0, fun h => hi (ht.1 h)⟩]
      have hn : ∀ op' out, op' = .fileCreate true p → (A.next op' out).user = A.user ∧ (A.next op' out).lent = A.lent := by
        rintro op' out rfl
        unfold Spec.next; split <;> exact ⟨rfl, rfl⟩
      refine ⟨_, _, hs, Or.inr ?_, ?_, by simp⟩
      · rw [hw]
        refine ⟨rfl, hm.1, ?_⟩
        exact R.fresh hm.2
      · refine R.make1 (w := .file ⟨some (A.text p), 2 + 4, 1⟩) _ hm.1 hm.2 hm2.1 hs2 hne trivial
          (by have hq := hm2.1; generalize ans.tail.headD 0 = q at hq; simp [ptrs, hq]) ?_
          (by simp [Spec.next, hw]) (hn _ _ rfl).1 (by rw [(hn _ _ rfl).2]; exact fun _ h => h) (fun _ e => by cases e)
        refine ⟨_, ?_, agrees_refl _⟩
        unfold view
        dsimp only
        rw [upd_same]
        dsimp only
        rw [readStr_text hm2.1 hz (by dsimp only; rw [upd_ne _ _ hne, upd_same])]
        simp only [Spec.text, hl1, Option.getD_some]
    · refine good_oom R ⟨ans.tail.tail, ?_⟩ (Or.inl rfl) ?_
      · rw [hstep]
        simp only [fileSetPath, if_neg hm.1, if_neg hp0, bind_app, strlen, hl1', if_pos hz]
        rw [if_neg hi, bind_app, alloc_no _ _ hm2]
        dsimp only
        rw [if_pos rfl]
        simp only [noMem, pure_app]
        rw [if_pos (by simp), bind_app, free_app _ _ (fun _ => by dsimp only; rw [upd_same]; simp)]
        dsimp only
        rw [rel_upd hm.1 hm.2]
        rfl
      · rintro ⟨a, b, rest, rfl, h1, h2, h3, h4, h5⟩
        apply hm2
        dsimp only [List.tail_cons, List.headD_cons]
        exact ⟨h2, by rw [upd_ne _ _ (Ne.symm h3)]; exact h5⟩

/-! ## Devdax provider -/

theorem good_daxSet {h p n : Nat} (R : Rel s A) (hl : A.Handle h IsDax) (hp : p = 0 ∨ A.IsText p) :
    Good s A (.daxSet h p n) ans := by
  by_cases hb : p ≠ 0 ∧ A.text p ≠ []
  case neg =>
    refine good_refuse R ⟨ans, ?_⟩ (by simp only [want, if_neg hb])
    by_cases h0 : h = 0
    · subst h0; rfl
    by_cases hp0 : p = 0
    · simp only [step, Op.code, daxSet, if_neg h0, if_pos hp0, bad, pure_app]
    · obtain ⟨l, hl1, hz⟩ := hp.resolve_left hp0
      have hl1' : s.user p = some l := by rw [R.user, hl1]
      have hi : l.idxOf 0 = 0 := by
        have : A.text p = [] := Decidable.byContradiction fun h => hb ⟨hp0, h⟩
        simp only [Spec.text, hl1, Option.getD_some] at this
        exact (text_nil hz).1 this
      simp only [step, Op.code, daxSet, if_neg h0, if_neg hp0, bind_app, strlen, hl1', if_pos hz]
      rw [if_pos hi]
      rfl
  rcases Handle.cases hl R with ⟨rfl, hv⟩ | ⟨h0, _, hv, o', rfl⟩
  · exact good_refuse R ⟨ans, rfl⟩ (by simp only [want, if_pos hb, Spec.onDax, hv])
  obtain ⟨o, hc, e1, e2, e3⟩ := R.dax hv
  have hold : o.path = 0 ∨ o.path ∈ ptrs (.dax o) := by
    by_cases hz : o.path = 0
    · exact Or.inl hz
    · exact Or.inr (by simp [ptrs, hz])
  have hp0 := hb.1
  obtain ⟨l, hl1, hz⟩ := hp.resolve_left hp0
  have hl1' : s.user p = some l := by rw [R.user, hl1]
  have hi : l.idxOf 0 ≠ 0 := by
    intro h
    have := (text_nil hz).2 h
    apply hb.2
    simp only [Spec.text, hl1, Option.getD_some]
    exact this
  by_cases hm : ans.headD 0 ≠ 0 ∧ s.heap (ans.headD 0) = none
  · obtain ⟨k1, k2, k3, k4, k5, k6, k7⟩ := swap_heap (l := strn (l.idxOf 0 + 1) l)
      (c' := .dax { o with path := ans.headD 0, size := n }) R hc trivial hm.1 hm.2 hold
    refine good_swap (l := strn (l.idxOf 0 + 1) l) (c' := .dax { o with path := ans.headD 0, size := n })
      (w := .dax { o' with path := some (A.text p), size := n }) (a := ans.tail) R ?_
      (by simp only [want, if_pos hb, Spec.onDax, hv]) hc trivial trivial hm.1 hm.2 hold ?_ ?_ ?_
      (fun out => by unfold Spec.next; split <;> exact ⟨rfl, rfl⟩) (fun _ e => by cases e)
    · simp only [step, Op.code, daxSet, if_neg h0, if_neg hp0, bind_app, strlen, hl1', if_pos hz]
      rw [if_neg hi, bind_app, alloc_ok _ _ hm.1 hm.2]
      dsimp only
      rw [if_neg hm.1]
      simp only [strncpy, upd_same, hl1', bind_app]
      rw [if_pos ⟨Nat.le_refl _, Or.inl hz⟩]
      dsimp only
      rw [upd_upd]
      simp only [getDax, k5]
      rw [free_app _ ⟨_, s.user, ans.tail⟩ k6]
      dsimp only
      rw [put_app _ _ ⟨rel _ _, s.user, ans.tail⟩ k7]
      rfl
    · intro x
      simp only [ptrs, List.mem_filter, List.mem_singleton, decide_eq_true_eq]
      constructor
      · rintro ⟨h1, _⟩
        exact Or.inl h1
      · rintro (h1 | ⟨⟨h1, _⟩, h2⟩)
        · exact ⟨h1, by rw [h1]; exact hm.1⟩
        · exact absurd h1 h2
    · simp only [ptrs]
      exact List.Pairwise.filter _ (List.pairwise_singleton _ _)
    · refine ⟨_, ?_, agrees_refl _⟩
      unfold view
      dsimp only
      rw [upd_same]
      dsimp only
      rw [readStr_text hm.1 hz k1, ← e2]
      simp only [Spec.text, hl1, Option.getD_some]
  · refine good_oom R ⟨ans.tail, ?_⟩ (Or.inr rfl) (plenty_no hm)
    simp only [step, Op.code, daxSet, if_neg h0, if_neg hp0, bind_app, strlen, hl1', if_pos hz]
    rw [if_neg hi, bind_app, alloc_no _ _ hm]
    rfl

theorem good_daxCreate {out : Bool} {p n : Nat} (R : Rel s A) (hp : p = 0 ∨ A.IsText p) :
    Good s A (.daxCreate out p n) ans := by
  cases out with
  | false => exact good_refuse R ⟨ans, rfl⟩ (by simp [want])
  | true =>
    by_cases hp0 : p = 0
    · refine good_refuse R ⟨ans, ?_⟩ (by simp [want, hp0])
      simp only [step, Op.code, daxCreate]
      rw [if_neg (by simp), if_pos hp0]
      rfl
    obtain ⟨l, hl1, hz⟩ := hp.resolve_left hp0
    have hl1' : s.user p = some l := by rw [R.user, hl1]
    have ht : A.text p = [] ↔ l.idxOf 0 = 0 := by
      simp only [Spec.text, hl1, Option.getD_some]
      exact text_nil hz
    by_cases hm : ans.headD 0 ≠ 0 ∧ s.heap (ans.headD 0) = none
    case neg =>
      refine good_oom R ⟨ans.tail, ?_⟩ (Or.inl rfl) (plenty_no hm)
      simp only [step, Op.code, daxCreate]
      rw [if_neg (by simp), if_neg hp0, bind_app, alloc_no _ _ hm]
      rfl
    have hstep : step s (.daxCreate true p n) ans =
        (match daxSet (ans.headD 0) p n ⟨upd s.heap (ans.headD 0) (some (.dax ⟨0, 0, 6⟩)), s.user, ans.tail⟩ with
          | none => none
          | some (r, t) => (if r.1 ≠ .success then (do free (ans.headD 0); pure (r.1, 0))
              else (pure (.success, ans.headD 0) : M Out)) t) := by
      simp only [step, Op.code, daxCreate]
      rw [if_neg (by simp), if_neg hp0, bind_app, alloc_ok _ _ hm.1 hm.2]
      dsimp only
      rw [if_neg hm.1, bind_app, put_app _ _ _ (by simp [upd])]
      dsimp only
      rw [bind_app, upd_upd]
      split <;> rename_i hx <;> rw [hx]
    by_cases hi : l.idxOf 0 = 0
    · refine good_refuse R ⟨ans.tail, ?_⟩ ?_
      · rw [hstep]
        simp only [daxSet, if_neg hm.1, if_neg hp0, bind_app, strlen, hl1', if_pos hz]
        rw [if_pos hi]
        simp only [bad, pure_app]
        rw [if_pos (by simp), bind_app, free_app _ _ (fun _ => by dsimp only; rw [upd_same]; simp)]
        dsimp only
        rw [rel_upd hm.1 hm.2]
        rfl
      · simp only [want]
        rw [if_neg]
        rintro ⟨_, _, h1⟩
        exact h1 (ht.2 hi)
    by_cases hm2 : ans.tail.headD 0 ≠ 0 ∧ upd s.heap (ans.headD 0) (some (.dax ⟨0, 0, 6⟩)) (ans.tail.headD 0) = none
    · have hne : ans.tail.headD 0 ≠ ans.headD 0 := by
        intro h
        have := hm2.2
        rw [h, upd_same] at this
        cases this
      have hs2 : s.heap (ans.tail.headD 0) = none := by
        have := hm2.2
        rwa [upd_ne _ _ hne] at this
      have hs : step s (.daxCreate true p n) ans = some ((.success, ans.headD 0),
          ⟨upd (upd s.heap (ans.tail.headD 0) (some (.arr (strn (l.idxOf 0 + 1) l)))) (ans.headD 0)
            (some (.dax ⟨ans.tail.headD 0, n, 6⟩)), s.user, ans.tail.tail⟩) := by
        rw [hstep]
        simp only [daxSet, if_neg hm.1, if_neg hp0, bind_app, strlen, hl1', if_pos hz]
        rw [if_neg hi, bind_app, alloc_ok _ _ hm2.1 hm2.2]
        dsimp only
        rw [if_neg hm2.1]
        simp only [strncpy, upd_same, hl1', bind_app]
        rw [if_pos ⟨Nat.le_refl _, Or.inl hz⟩]
        dsimp only
        rw [upd_upd]
        simp only [getDax]
        rw [upd_ne _ _ (Ne.symm hne), upd_same]
        dsimp only
        rw [free_app _ _ (fun h => absurd rfl h)]
        dsimp only
        rw [rel_zero, put_app _ _ _ (by dsimp only; rw [upd_ne _ _ (Ne.symm hne), upd_same]; simp)]
        dsimp only
        simp only [ok, pure_app]
        rw [if_neg (by simp), upd_comm hne, upd_upd]
        rfl
      have hw : want A (.daxCreate true p n) = .make (.dax ⟨some (A.text p), n, 2 + 4⟩) := by
        simp only [want]
        rw [if_pos ⟨trivial, hp0, fun h => hi (ht.1 h)⟩]
      have hn : ∀ op' out, op' = .daxCreate true p n → (A.next op' out).user = A.user ∧ (A.next op' out).lent = A.lent := by
        rintro op' out rfl
        unfold Spec.next; split <;> exact ⟨rfl, rfl⟩
      refine ⟨_, _, hs, Or.inr ?_, ?_, by simp⟩
      · rw [hw]
        refine ⟨rfl, hm.1, ?_⟩
        exact R.fresh hm.2
      · refine R.make1 (w := .dax ⟨some (A.text p), n, 2 + 4⟩) _ hm.1 hm.2 hm2.1 hs2 hne trivial
          (by have hq := hm2.1; generalize ans.tail.headD 0 = q at hq; simp [ptrs, hq]) ?_
          (by simp [Spec.next, hw]) (hn _ _ rfl).1 (by rw [(hn _ _ rfl).2]; exact fun _ h => h) (fun _ e => by cases e)
        refine ⟨_, ?_, agrees_refl _⟩
        unfold view
        dsimp only
        rw [upd_same]
        dsimp only
        rw [readStr_text hm2.1 hz (by dsimp only; rw [upd_ne _ _ hne, upd_same])]
        simp only [Spec.text, hl1, Option.getD_some]
    · refine good_oom R ⟨ans.tail.tail, ?_⟩ (Or.inl rfl) ?_
      · rw [hstep]
        simp only [daxSet, if_neg hm.1, if_neg hp0, bind_app, strlen, hl1', if_pos hz]
        rw [if_neg hi, bind_app, alloc_no _ _ hm2]
        dsimp only
        rw [if_pos rfl]
        simp only [noMem, pure_app]
        rw [if_pos (by simp), bind_app, free_app _ _ (fun _ => by dsimp only; rw [upd_same]; simp)]
        dsimp only
        rw [rel_upd hm.1 hm.2]
        rfl
      · rintro ⟨a, b, rest, rfl, h1, h2, h3, h4, h5⟩
        apply hm2
        dsimp only [List.tail_cons, List.headD_cons]
        exact ⟨h2, by rw [upd_ne _ _ (Ne.symm h3)]; exact h5⟩

end Verif.Params
