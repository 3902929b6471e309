import Verif.Params.Ops
/-!
# Lemmas for the parameter objects: strings, making and removing objects, copies
-/
namespace Verif.Params

variable {s : St} {A : Spec} {ans : List Addr}

/-! ## Strings -/

theorem idx_tw (l : List Nat) (h : 0 ∈ l) : l.idxOf 0 = (l.takeWhile (· ≠ 0)).length := by
  induction l with
  | nil => cases h
  | cons a l ih =>
    by_cases ha : a = 0
    · subst ha; simp
    · have h2 : 0 ∈ l := by
        rcases List.mem_cons.1 h with h | h
        · exact absurd h.symm ha
        · exact h
      rw [List.idxOf_cons, List.takeWhile_cons_of_pos (by simpa using ha), ih h2]
      have : (a == 0) = false := by simpa using ha
      rw [this]
      rfl

theorem tw_ne (l : List Nat) : ∀ x ∈ l.takeWhile (· ≠ 0), x ≠ 0 := by
  induction l with
  | nil => simp
  | cons a l ih =>
    by_cases ha : a = 0
    · subst ha; simp
    · rw [List.takeWhile_cons_of_pos (by simpa using ha)]
      intro x hx
      rcases List.mem_cons.1 hx with h | h
      · rw [h]; exact ha
      · exact ih x h

theorem tw_of_ne {t u : List Nat} (h : ∀ x ∈ t, x ≠ 0) : (t ++ 0 :: u).takeWhile (· ≠ 0) = t := by
  rw [List.takeWhile_append_of_pos (by intro x hx; simpa using h x hx)]
  simp

theorem strn_full (l : List Nat) (h : 0 ∈ l) : strn (l.idxOf 0 + 1) l = l.takeWhile (· ≠ 0) ++ [0] := by
  unfold strn
  dsimp only
  rw [idx_tw l h, List.take_of_length_le (by omega)]
  simp

theorem strn_length (n : Nat) (l : List Nat) : (strn n l).length = n := by
  unfold strn
  dsimp only
  simp only [List.length_append, List.length_replicate, List.length_take]
  omega

/-- The name after `strncpy`. -/
theorem strn_name (l name : List Nat) (h2 : name.drop 63 = [0]) :
    (strn 63 l ++ name.drop 63).takeWhile (· ≠ 0) = (l.takeWhile (· ≠ 0)).take 63 := by
  rw [h2]
  unfold strn
  dsimp only
  have hne : ∀ x ∈ (l.takeWhile (· ≠ 0)).take 63, x ≠ 0 := fun x hx => tw_ne l x (List.mem_of_mem_take hx)
  cases e : 63 - ((l.takeWhile (· ≠ 0)).take 63).length with
  | zero =>
    rw [List.replicate_zero, List.append_nil]
    exact tw_of_ne hne
  | succ k =>
    rw [List.replicate_succ, List.append_assoc, List.cons_append]
    exact tw_of_ne hne

theorem readStr_text {s' : St} {p : Addr} {l : List Nat} (hp : p ≠ 0) (h : 0 ∈ l)
    (hc : s'.heap p = some (.arr (strn (l.idxOf 0 + 1) l))) : readStr s' p = some (some (l.takeWhile (· ≠ 0))) := by
  unfold readStr
  rw [if_neg hp, hc, strn_full l h]
  dsimp only
  rw [if_pos (by simp), tw_of_ne (tw_ne l)]

theorem readArr_copy {s' : St} {p n : Nat} {l : List Nat} (hn : n ≤ l.length)
    (hc : s'.heap p = some (.arr (l.take n))) : readArr s' p n = some (l.take n) := by
  unfold readArr
  by_cases h0 : n = 0
  · rw [if_pos h0, h0]; simp
  · rw [if_neg h0, hc]
    dsimp only
    rw [if_pos (by rw [List.length_take]; omega), List.take_take, Nat.min_self]

/-! ## Names of disjoint pools -/

theorem good_djSetName {h p : Nat} (R : Rel s A) (hl : A.Handle h IsDj) (hp : A.IsText p) :
    Good s A (.djSetName h p) ans := by
  rcases Handle.cases hl R with ⟨rfl, hv⟩ | ⟨h0, _, hv, o', rfl⟩
  · exact good_refuse R ⟨ans, rfl⟩ (by simp only [want, Spec.onDj, hv])
  · obtain ⟨o, hc, e1, e2, e3, e4, e5, e6, e7⟩ := R.dj hv
    obtain ⟨l, hl, hz⟩ := hp
    have ho : Obj (.dj o) := (R.inv.good _ _ hc).resolve_right (by rintro ⟨l, hl⟩; cases hl)
    have ho' : Obj (.dj { o with name := strn (NAME_SIZE - 1) l ++ o.name.drop (NAME_SIZE - 1) }) := by
      have hn : (NAME_SIZE - 1) = 63 := rfl
      rw [hn]
      show (strn 63 l ++ o.name.drop 63).length = 64 ∧ (strn 63 l ++ o.name.drop 63).drop 63 = [0]
      rw [ho.2]
      constructor
      · rw [List.length_append, strn_length]; rfl
      · rw [List.drop_left' (strn_length 63 l)]
    refine good_set (h := h) (w := .dj { o' with name := some ((A.text p).take 63) }) R ?_
      (by simp only [want, Spec.onDj, hv]) hc ho ho' rfl ?_ rfl (fun _ h => h) ?_
    · have hl' : s.user p = some l := by rw [R.user, hl]
      simp only [step, Op.code, djSetName, if_neg h0, source, hl', if_pos (Or.inl hz : 0 ∈ l ∨ NAME_SIZE - 1 ≤ l.length), bind_app, getDj, hc, ok, pure_app]
      rw [put_app _ _ _ (by simp [hc])]
    · refine ⟨_, ?_, agrees_refl _⟩
      unfold view
      dsimp only
      rw [upd_same]
      dsimp only
      rw [if_pos (obj_zero ho')]
      have hn : (NAME_SIZE - 1) = 63 := rfl
      rw [hn, strn_name l o.name ho.2, ← e1, ← e2, ← e3, ← e4, ← e5, ← e6]
      simp only [Spec.text, hl, Option.getD_some]
    · intro z hz; cases hz

/-! ## The caller's own memory -/

theorem good_write {a : Addr} {l : List Nat} (R : Rel s A) (ha : a ∉ A.lent) : Good s A (.write a l) ans :=
  ⟨_, _, rfl, Or.inr rfl, by
    have h := R.caller (some l) ha ans
    have e : A.next (.write a l) (.success, 0) = { A with user := fun k => if k = a then some l else A.user k } := by
      simp [Spec.next, want]
    rw [e]
    exact h, by simp⟩

theorem good_giveBack {a : Addr} (R : Rel s A) (ha : a ∉ A.lent) : Good s A (.giveBack a) ans :=
  ⟨_, _, rfl, Or.inr rfl, by
    have h := R.caller none ha ans
    have e : A.next (.giveBack a) (.success, 0) = { A with user := fun k => if k = a then none else A.user k } := by
      simp [Spec.next, want]
    rw [e]
    exact h, by simp⟩

/-! ## Making objects -/

/-- A call that makes an object without copies. -/
theorem good_make {op : Op} {c' : Cell} {w : Val} (R : Rel s A)
    (hno : ¬ (ans.headD 0 ≠ 0 ∧ s.heap (ans.headD 0) = none) → ∃ a, step s op ans = some ((.oom, 0), { s with ans := a }))
    (hs : ans.headD 0 ≠ 0 → s.heap (ans.headD 0) = none → ∃ a, step s op ans =
      some ((.success, ans.headD 0), ⟨upd s.heap (ans.headD 0) (some c'), s.user, a⟩))
    (hcr : op.creates = true) (hw : want A op = .make w) (ho' : Obj c') (hp : ptrs c' = [])
    (hv : ∀ (s' : St) h, s'.heap h = some c' → ∃ v, view s' h = some v ∧ Agrees v w)
    (hn : ∀ out, (A.next op out).user = A.user ∧ (A.next op out).lent = A.lent)
    (hl' : ∀ o, c' = .ze o → o.residentCount = 0) : Good s A op ans := by
  by_cases hm : ans.headD 0 ≠ 0 ∧ s.heap (ans.headD 0) = none
  · obtain ⟨a, hs⟩ := hs hm.1 hm.2
    refine ⟨_, _, hs, Or.inr ?_, ?_, by simp⟩
    · rw [hw]; exact ⟨rfl, hm.1, R.fresh hm.2⟩
    · refine R.make _ hm.1 hm.2 ho' hp (hv _ _ (upd_same _ _ _)) ?_ (hn _).1 (by rw [(hn _).2]; exact fun _ h => h) hl'
      simp [Spec.next, hw]
  · refine good_oom R (hno hm) (Or.inl hcr) ?_
    rintro ⟨a, b, rest, rfl, h1, h2, h3, h4, h5⟩
    exact hm ⟨h1, h4⟩

theorem make_no {c c' : Cell} {k : Addr → Out} (hm : ¬ (ans.headD 0 ≠ 0 ∧ s.heap (ans.headD 0) = none)) :
    ∃ a, (do
      let p ← alloc c
      if p = 0 then noMem else do
        put p c'
        pure (k p) : M Out) { s with ans := ans } = some ((.oom, 0), { s with ans := a }) := by
  refine ⟨ans.tail, ?_⟩
  rw [bind_app, alloc_no _ _ hm]
  rfl

theorem make_ok {c c' : Cell} {k : Addr → Out} (h1 : ans.headD 0 ≠ 0) (h2 : s.heap (ans.headD 0) = none) :
    ∃ a, (do
      let p ← alloc c
      if p = 0 then noMem else do
        put p c'
        pure (k p) : M Out) { s with ans := ans } =
      some (k (ans.headD 0), ⟨upd s.heap (ans.headD 0) (some c'), s.user, a⟩) := by
  refine ⟨ans.tail, ?_⟩
  rw [bind_app, alloc_ok _ _ h1 h2]
  dsimp only
  rw [if_neg h1, bind_app, put_app _ _ _ (by simp [upd])]
  dsimp only
  rw [pure_app, upd_upd]

theorem good_osCreate {out : Bool} (R : Rel s A) : Good s A (.osCreate out) ans := by
  cases out with
  | false => exact good_refuse R ⟨ans, rfl⟩ rfl
  | true =>
    refine good_make (c' := .os ⟨6, 1, 0, 0, 0, 0, 0, 0, 0⟩) (w := .os ⟨2 + 4, 1, none, [], 0, 0, []⟩) R
      (fun hm => make_no hm) (fun h1 h2 => make_ok h1 h2) rfl rfl trivial rfl ?_
      (fun out => by unfold Spec.next; split <;> exact ⟨rfl, rfl⟩) (fun o h => by cases h)
    intro s' h hc
    exact ⟨_, by unfold view; rw [hc]; rfl, agrees_refl _⟩

theorem good_zeCreate {out : Bool} (R : Rel s A) : Good s A (.zeCreate out) ans := by
  cases out with
  | false => exact good_refuse R ⟨ans, rfl⟩ rfl
  | true =>
    refine good_make (c' := .ze ⟨0, 0, 0, 0, 0, 0, 0⟩) (w := .ze ⟨0, 0, 0, [], 0, 0⟩) R
      (fun hm => make_no hm) (fun h1 h2 => make_ok h1 h2) rfl rfl trivial rfl ?_
      (fun out => by unfold Spec.next; split <;> exact ⟨rfl, rfl⟩) (fun o h => by cases h; rfl)
    intro s' h hc
    exact ⟨_, by unfold view; rw [hc]; rfl, agrees_refl _⟩

theorem good_scalCreate {out : Bool} (R : Rel s A) : Good s A (.scalCreate out) ans := by
  cases out with
  | false => exact good_refuse R ⟨ans, rfl⟩ rfl
  | true =>
    refine good_make (c' := .scal (2 * 1024 * 1024) false) (w := .scal 2097152 false) R
      (fun hm => make_no hm) (fun h1 h2 => make_ok h1 h2) rfl rfl trivial rfl ?_
      (fun out => by unfold Spec.next; split <;> exact ⟨rfl, rfl⟩) (fun o h => by cases h)
    intro s' h hc
    exact ⟨_, by unfold view; rw [hc], agrees_refl _⟩

theorem good_djCreate {out : Bool} (R : Rel s A) : Good s A (.djCreate out) ans := by
  cases out with
  | false => exact good_refuse R ⟨ans, rfl⟩ rfl
  | true =>
    refine good_make
      (c' := .dj ⟨0, 0, 0, 8, 0, 0, 0, DEFAULT_NAME.take 1 ++ List.replicate (NAME_SIZE - 1) 0⟩)
      (w := .dj ⟨0, 0, 0, 8, 0, 0, none⟩) R
      (fun hm => make_no hm) (fun h1 h2 => make_ok h1 h2) rfl rfl ⟨rfl, rfl⟩ rfl ?_
      (fun out => by unfold Spec.next; split <;> exact ⟨rfl, rfl⟩) (fun o h => by cases h)
    intro s' h hc
    refine ⟨.dj ⟨0, 0, 0, 8, 0, 0, some [100]⟩, ?_, ⟨rfl, Or.inl rfl⟩⟩
    unfold view
    rw [hc]
    dsimp only
    rw [if_pos (by decide)]
    rfl

theorem good_cuCreate {out : Bool} {ctx : Option Nat} {dev : Option Int} (R : Rel s A) :
    Good s A (.cuCreate out true ctx dev) ans := by
  cases out with
  | false => exact good_refuse R ⟨ans, rfl⟩ rfl
  | true =>
    refine good_make (c' := .cu ⟨ctx.getD 0, dev.getD (-1), 0, 0⟩) (w := .cu ⟨ctx.getD 0, dev.getD (-1), 0, 0⟩) R
      (fun hm => make_no hm) (fun h1 h2 => make_ok h1 h2) rfl rfl trivial rfl ?_
      (fun out => by unfold Spec.next; split <;> exact ⟨rfl, rfl⟩) (fun o h => by cases h)
    intro s' h hc
    exact ⟨_, by unfold view; rw [hc], agrees_refl _⟩

theorem upd_none {f : Addr → Option Cell} {a : Addr} {c : Option Cell} (h : f a = none) : upd (upd f a c) a none = f := by
  funext b
  unfold upd
  split
  · rename_i e; rw [e, h]
  · rfl

theorem good_fixedSet {h p n : Nat} (R : Rel s A) (hl : A.Handle h IsFixed) : Good s A (.fixedSet h p n) ans := by
  rcases Handle.cases hl R with ⟨rfl, hv⟩ | ⟨h0, _, hv, a, b, rfl⟩
  · exact good_refuse R ⟨ans, rfl⟩ (by simp [want])
  · have hc := (R.cell hv).1 a b rfl
    by_cases h1 : p = 0
    · refine good_refuse R ⟨ans, ?_⟩ (by simp [want, h1])
      simp only [step, Op.code, fixedSet, if_neg h0, if_pos h1, bad, pure_app]
    by_cases h2 : n = 0
    · refine good_refuse R ⟨ans, ?_⟩ (by simp [want, h2])
      simp only [step, Op.code, fixedSet, if_neg h0, if_neg h1, if_pos h2, bad, pure_app]
    refine good_set (h := h) (c' := .fixed p n) (w := .fixed p n) R ?_ (by simp [want, h0, h1, h2]) hc trivial trivial rfl
      ?_ rfl (fun _ h => h) ?_
    · simp only [step, Op.code, fixedSet, if_neg h0, if_neg h1, if_neg h2, bind_app, ok, pure_app]
      rw [put_app _ _ _ (by simp [hc])]
    · refine ⟨_, ?_, agrees_refl _⟩
      unfold view
      dsimp only
      rw [upd_same]
    · intro z hz; cases hz

theorem good_fixedCreate {out : Bool} {p n : Nat} (R : Rel s A) : Good s A (.fixedCreate out p n) ans := by
  cases out with
  | false => exact good_refuse R ⟨ans, rfl⟩ rfl
  | true =>
    by_cases hpn : p ≠ 0 ∧ n ≠ 0
    · obtain ⟨h1, h2⟩ := hpn
      refine good_make (c' := .fixed p n) (w := .fixed p n) R ?_ ?_ rfl (by simp [want, h1, h2]) trivial rfl ?_
        (fun out => by unfold Spec.next; split <;> exact ⟨rfl, rfl⟩) (fun o h => by cases h)
      · intro hm
        refine ⟨ans.tail, ?_⟩
        simp only [step, Op.code, fixedCreate]
        rw [if_neg (by simp), bind_app, alloc_no _ _ hm]
        rfl
      · intro h3 h4
        refine ⟨ans.tail, ?_⟩
        simp only [step, Op.code, fixedCreate]
        rw [if_neg (by simp), bind_app, alloc_ok _ _ h3 h4]
        dsimp only
        rw [if_neg h3, bind_app]
        unfold fixedSet
        rw [if_neg h3, if_neg h1, if_neg h2, bind_app, put_app _ _ _ (by simp [upd])]
        dsimp only
        simp only [ok, pure_app]
        rw [if_neg (by simp), upd_upd]
        rfl
      · intro s' h hc
        exact ⟨_, by unfold view; rw [hc], agrees_refl _⟩
    · have hw : want A (.fixedCreate true p n) = .refuse := by
        simp only [want]
        rw [if_neg]
        rintro ⟨_, h1, h2⟩
        exact hpn ⟨h1, h2⟩
      by_cases hm : ans.headD 0 ≠ 0 ∧ s.heap (ans.headD 0) = none
      · refine good_refuse R ⟨ans.tail, ?_⟩ hw
        simp only [step, Op.code, fixedCreate]
        rw [if_neg (by simp), bind_app, alloc_ok _ _ hm.1 hm.2]
        dsimp only
        rw [if_neg hm.1, bind_app]
        have hb : ∀ t, fixedSet (ans.headD 0) p n t = some ((.invalidArgument, 0), t) := by
          intro t
          unfold fixedSet
          rw [if_neg hm.1]
          by_cases h1 : p = 0
          · rw [if_pos h1]; rfl
          · rw [if_neg h1, if_pos]
            · rfl
            · exact Decidable.byContradiction fun h2 => hpn ⟨h1, h2⟩
        rw [hb]
        dsimp only
        rw [if_pos (by simp), bind_app, free_app _ _ (by simp [upd])]
        dsimp only
        rw [pure_app]
        unfold rel
        rw [if_neg hm.1, upd_none hm.2]
      · refine good_oom R ⟨ans.tail, ?_⟩ (Or.inl rfl) ?_
        · simp only [step, Op.code, fixedCreate]
          rw [if_neg (by simp), bind_app, alloc_no _ _ hm]
          rfl
        · rintro ⟨a, b, rest, rfl, h1, h2, h3, h4, h5⟩
          exact hm ⟨h1, h4⟩

/-! ## Removing objects -/

/-- A call that removes an object without copies. -/
theorem good_drop {op : Op} {h : Addr} {c : Cell} (R : Rel s A) (hc : s.heap h = some c) (ho : Obj c)
    {heap' : Addr → Option Cell} (hs : step s op ans = some ((.success, 0), ⟨heap', s.user, ans⟩))
    (hh : heap' h = none) (hp : ∀ p ∈ ptrs c, heap' p = none)
    (hrest : ∀ a, a ≠ h → a ∉ ptrs c → heap' a = s.heap a)
    (hw : want A op = .remove h)
    (hn : ∀ out, (A.next op out).user = A.user ∧ (A.next op out).lent = A.lent) : Good s A op ans := by
  refine ⟨_, _, hs, Or.inr (by rw [hw]), ?_, by simp⟩
  refine R.drop _ hc ho hh hp hrest ?_ (hn _).1 (by rw [(hn _).2]; exact fun _ h => h)
  simp [Spec.next, hw]

theorem good_drop0 {op : Op} {h : Addr} {c : Cell} (R : Rel s A) (h0 : h ≠ 0) (hc : s.heap h = some c) (ho : Obj c)
    (hs : step s op ans = some ((.success, 0), ⟨rel s.heap h, s.user, ans⟩)) (hp : ptrs c = [])
    (hw : want A op = .remove h)
    (hn : ∀ out, (A.next op out).user = A.user ∧ (A.next op out).lent = A.lent) : Good s A op ans := by
  refine good_drop R hc ho hs (rel_same _ h0) (by simp [hp]) ?_ hw hn
  intro a ha _
  rw [rel_ne _ ha]

theorem good_zeDestroy {h : Addr} (R : Rel s A) (hl : A.Handle h IsZe) : Good s A (.zeDestroy h) ans := by
  rcases Handle.cases hl R with ⟨rfl, hv⟩ | ⟨h0, _, hv, o', rfl⟩
  · exact good_nothing R rfl (by simp [want]) (by simp [Spec.next, want])
  · obtain ⟨o, hc, _⟩ := R.ze hv
    refine good_drop0 R h0 hc trivial ?_ rfl (by simp [want, h0])
      (fun out => by unfold Spec.next; split <;> exact ⟨rfl, rfl⟩)
    simp only [step, Op.code, zeDestroy]
    rw [bind_app, free_app _ _ (by simp [hc])]
    rfl

theorem good_cuDestroy {h : Addr} (R : Rel s A) (hl : A.Handle h IsCu) : Good s A (.cuDestroy h) ans := by
  rcases Handle.cases hl R with ⟨rfl, hv⟩ | ⟨h0, _, hv, o, rfl⟩
  · exact good_nothing R rfl (by simp [want]) (by simp [Spec.next, want])
  · have hc := (R.cell hv).2.1 o rfl
    refine good_drop0 R h0 hc trivial ?_ rfl (by simp [want, h0])
      (fun out => by unfold Spec.next; split <;> exact ⟨rfl, rfl⟩)
    simp only [step, Op.code, cuDestroy]
    rw [bind_app, free_app _ _ (by simp [hc])]
    rfl

theorem good_fixedDestroy {h : Addr} (R : Rel s A) (hl : A.Handle h IsFixed) : Good s A (.fixedDestroy h) ans := by
  rcases Handle.cases hl R with ⟨rfl, hv⟩ | ⟨h0, _, hv, a, b, rfl⟩
  · exact good_nothing R rfl (by simp [want]) (by simp [Spec.next, want])
  · have hc := (R.cell hv).1 a b rfl
    refine good_drop0 R h0 hc trivial ?_ rfl (by simp [want, h0])
      (fun out => by unfold Spec.next; split <;> exact ⟨rfl, rfl⟩)
    simp only [step, Op.code, fixedDestroy]
    rw [if_pos h0, bind_app, free_app _ _ (by simp [hc])]
    rfl

theorem good_scalDestroy {h : Addr} (R : Rel s A) (hl : A.Handle h IsScal) : Good s A (.scalDestroy h) ans := by
  rcases Handle.cases hl R with ⟨rfl, hv⟩ | ⟨h0, _, hv, a, b, rfl⟩
  · exact good_refuse R ⟨ans, rfl⟩ (by simp [want])
  · have hc := (R.cell hv).2.2 a b rfl
    refine good_drop0 R h0 hc trivial ?_ rfl (by simp [want, h0])
      (fun out => by unfold Spec.next; split <;> exact ⟨rfl, rfl⟩)
    simp only [step, Op.code, scalDestroy]
    rw [if_neg h0, bind_app, free_app _ _ (by simp [hc])]
    rfl

theorem good_djDestroy {h : Addr} (R : Rel s A) (hl : A.Handle h IsDj) : Good s A (.djDestroy h) ans := by
  rcases Handle.cases hl R with ⟨rfl, hv⟩ | ⟨h0, _, hv, o', rfl⟩
  · exact good_nothing R rfl (by simp [want]) (by simp [Spec.next, want])
  · obtain ⟨o, hc, _⟩ := R.dj hv
    have ho : Obj (.dj o) := (R.inv.good _ _ hc).resolve_right (by rintro ⟨l, hl⟩; cases hl)
    refine good_drop0 R h0 hc ho ?_ rfl (by simp [want, h0])
      (fun out => by unfold Spec.next; split <;> exact ⟨rfl, rfl⟩)
    simp only [step, Op.code, djDestroy]
    rw [if_pos h0, bind_app, free_app _ _ (by simp [hc])]
    rfl

theorem good_fileDestroy {h : Addr} (R : Rel s A) (hl : A.Handle h IsFile) : Good s A (.fileDestroy h) ans := by
  rcases Handle.cases hl R with ⟨rfl, hv⟩ | ⟨h0, _, hv, o', rfl⟩
  · exact good_nothing R rfl (by simp [want]) (by simp [Spec.next, want])
  · obtain ⟨o, hc, _⟩ := R.file hv
    have hp : ∀ p ∈ ptrs (.file o), p ≠ h := fun p hp => no_obj R.inv hc trivial hc hp
    have hpath : o.path ≠ 0 → o.path ∈ ptrs (.file o) := fun h => by simp [ptrs, h]
    refine good_drop (heap' := rel (rel s.heap o.path) h) R hc trivial ?_ (rel_same _ h0) ?_ ?_ (by simp [want, h0])
      (fun out => by unfold Spec.next; split <;> exact ⟨rfl, rfl⟩)
    · simp only [step, Op.code, fileDestroy]
      rw [if_pos h0, bind_app]
      simp only [getFile, hc]
      rw [bind_app, free_app _ _ ?_]
      · dsimp only
        rw [bind_app, free_app]
        · rfl
        · intro _
          dsimp only
          rw [rel_ne]
          · rw [hc]; simp
          · intro e
            by_cases hz : o.path = 0
            · exact h0 (e.trans hz)
            · exact hp _ (hpath hz) e.symm
      · intro hz
        obtain ⟨l, hl⟩ := R.inv.arrs h _ hc _ (hpath hz)
        dsimp only; rw [hl]; simp
    · intro p hpm
      rw [rel_ne _ (hp p hpm)]
      have : p = o.path := by simp [ptrs] at hpm; exact hpm.1
      rw [this, rel_same]
      rw [← this]; exact mem_ptrs_ne hpm
    · intro a ha hna
      rw [rel_ne _ ha]
      by_cases hz : o.path = 0
      · rw [hz, rel_zero]
      · rw [rel_ne]
        rintro rfl
        exact hna (hpath hz)

theorem good_daxDestroy {h : Addr} (R : Rel s A) (hl : A.Handle h IsDax) : Good s A (.daxDestroy h) ans := by
  rcases Handle.cases hl R with ⟨rfl, hv⟩ | ⟨h0, _, hv, o', rfl⟩
  · exact good_nothing R rfl (by simp [want]) (by simp [Spec.next, want])
  · obtain ⟨o, hc, _⟩ := R.dax hv
    have hp : ∀ p ∈ ptrs (.dax o), p ≠ h := fun p hp => no_obj R.inv hc trivial hc hp
    have hpath : o.path ≠ 0 → o.path ∈ ptrs (.dax o) := fun h => by simp [ptrs, h]
    refine good_drop (heap' := rel (rel s.heap o.path) h) R hc trivial ?_ (rel_same _ h0) ?_ ?_ (by simp [want, h0])
      (fun out => by unfold Spec.next; split <;> exact ⟨rfl, rfl⟩)
    · simp only [step, Op.code, daxDestroy]
      rw [if_pos h0, bind_app]
      simp only [getDax, hc]
      rw [bind_app, free_app _ _ ?_]
      · dsimp only
        rw [bind_app, free_app]
        · rfl
        · intro _
          dsimp only
          rw [rel_ne]
          · rw [hc]; simp
          · intro e
            by_cases hz : o.path = 0
            · exact h0 (e.trans hz)
            · exact hp _ (hpath hz) e.symm
      · intro hz
        obtain ⟨l, hl⟩ := R.inv.arrs h _ hc _ (hpath hz)
        dsimp only; rw [hl]; simp
    · intro p hpm
      rw [rel_ne _ (hp p hpm)]
      have : p = o.path := by simp [ptrs] at hpm; exact hpm.1
      rw [this, rel_same]
      rw [← this]; exact mem_ptrs_ne hpm
    · intro a ha hna
      rw [rel_ne _ ha]
      by_cases hz : o.path = 0
      · rw [hz, rel_zero]
      · rw [rel_ne]
        rintro rfl
        exact hna (hpath hz)

theorem nodup3 {a b c : Nat} (h : ([a, b, c].filter (· ≠ 0)).Nodup) :
    (a ≠ 0 → b ≠ a) ∧ (a ≠ 0 → c ≠ a) ∧ (b ≠ 0 → c ≠ b) := by
  by_cases h1 : a = 0 <;> by_cases h2 : b = 0 <;> by_cases h3 : c = 0 <;> simp [List.filter, h1, h2, h3] at h ⊢ <;> omega

end Verif.Params
