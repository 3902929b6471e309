import Verif.Gpu.ZeCreate

/-! # The invariant of all threads together -/
namespace Verif.Gpu
open Function (update)

variable {E : Env}

/-- A thread's view of a state. -/
def view (s : St) (own : Tid → Rsrc → Option Info) (t : Tid) (refused : List (Call × Nat)) : L :=
  { own := own t, cur := s.drv.cur t, user := s.user t, lost := s.lost t, tls := s.tls t, refused := refused }

structure Inv (E : Env) (s : St) (own : Tid → Rsrc → Option Info) : Prop where
  live : ∀ t x i, own t x = some i → s.drv.live x = some i
  notHeld : ∀ t x i, own t x = some i → s.held x = none
  uniq : ∀ t t' x i j, own t x = some i → own t' x = some j → t = t'
  held : ∀ x g, s.held x = some g → ∃ i, s.drv.live x = some i ∧ Fits g x i
  clean : Clean s.refused → E.cu = true → ∀ x i, s.drv.live x = some i →
    (∃ g, s.held x = some g) ∨ ∃ t j, own t x = some j
  idleOwn : ∀ t, s.th t = none → ∀ x, own t x = none
  idleCtx : ∀ t, s.th t = none → s.lost t = false → s.drv.cur t = s.user t
  run : ∀ t th, s.th t = some th → ∃ own0 : Rsrc → Option Info,
    (∀ x ∈ th.op.takes, ∃ g i, th.saved x = some g ∧ own0 x = some i ∧ Fits g x i) ∧
    wp s.drv.pid th.op (Post E th.op own0) th.prog (view s own t th.refused)
  ref : ∀ t th, s.th t = some th → ∀ y ∈ th.refused, y ∈ s.refused
  last : ∀ t op o rf, s.th t = none → s.last t = some (op, o, rf) → NativeOk op o rf (s.tls t)

theorem Call.Valid.mono {own live : Rsrc → Option Info} {c : Call} (h : ∀ x i, own x = some i → live x = some i)
    (hv : c.Valid own) : c.Valid live := by
  cases c
  case baFree p => obtain ⟨i, hi⟩ := hv; exact ⟨i, h _ _ hi⟩
  case closeFd p => obtain ⟨i, hi⟩ := hv; exact ⟨i, h _ _ hi⟩
  case cuMemFree p => obtain ⟨i, hi, h2⟩ := hv; exact ⟨i, h _ _ hi, h2⟩
  case cuMemFreeHost p => obtain ⟨i, hi, h2⟩ := hv; exact ⟨i, h _ _ hi, h2⟩
  case zeMemFree c p => obtain ⟨i, hi, h2⟩ := hv; exact ⟨i, h _ _ hi, h2⟩
  case zeMemFreeExt c q p => obtain ⟨i, hi, h2⟩ := hv; exact ⟨i, h _ _ hi, h2⟩
  case zeMakeResident c d p n => obtain ⟨i, hi, h2⟩ := hv; exact ⟨i, h _ _ hi, h2⟩
  all_goals trivial

theorem CallOk.mono {own live : Rsrc → Option Info} {cur pid : Nat} {op : Op} {c : Call}
    (h : ∀ x i, own x = some i → live x = some i) (hv : CallOk own cur pid op c) : CallOk live cur pid op c := by
  refine ⟨hv.1, fun ctx dev hd heq => ?_⟩
  obtain ⟨p, d, h1, h2, h3, h4, h5, h6⟩ := hv.2 ctx dev hd heq
  refine ⟨p, d, h1, h2, h3, h4, h5, fun hp => ?_⟩
  obtain ⟨i, hi, hi2⟩ := h6 hp
  exact ⟨i, h _ _ hi, hi2⟩

theorem Call.Valid.kills {own : Rsrc → Option Info} {c : Call} {x : Rsrc} (hv : c.Valid own)
    (hk : c.kills = some x) : ∃ i, own x = some i := by
  cases c <;> simp only [Call.kills, Option.some.injEq, reduceCtorEq] at hk <;> subst hk <;> obtain ⟨i, hi⟩ := hv
  all_goals first | exact ⟨i, hi⟩ | exact ⟨i, hi.1⟩

theorem Call.Valid.residency {own : Rsrc → Option Info} {c : Call} {x : Rsrc} {d : Nat} (hv : c.Valid own)
    (hk : c.residency = some (x, d)) : ∃ i, own x = some i := by
  cases c <;> simp only [Call.residency, Option.some.injEq, Prod.mk.injEq, reduceCtorEq] at hk
  obtain ⟨rfl, rfl⟩ := hk
  obtain ⟨i, hi, _⟩ := hv
  exact ⟨i, hi⟩

theorem Call.Answer.anti {own live : Rsrc → Option Info} {cur pid : Nat} {c : Call} {r : Resp}
    (h : ∀ x i, own x = some i → live x = some i) (ha : c.Answer live cur pid r) : c.Answer own cur pid r := by
  refine ⟨fun he => ⟨fun x hx => ?_, (ha.1 he).2⟩, ha.2.1, ha.2.2⟩
  obtain ⟨h1, h2⟩ := (ha.1 he).1 x hx
  refine ⟨?_, h2⟩
  cases ho : own x with
  | none => rfl
  | some i => rw [h x i ho] at h1; cases h1

/-- A resource that the thread does not own is untouched. -/
theorem untouched {own live : Rsrc → Option Info} {cur pid : Nat} {c : Call} {r : Resp} {x : Rsrc} {i : Info}
    (hv : c.Valid own) (ha : c.Answer live cur pid r) (hx : live x = some i) (ho : own x = none) :
    c.liveAfter live cur r x = some i := by
  unfold Call.liveAfter Info.after
  rw [if_neg, if_neg, hx]
  · cases hr : c.residency with
    | none => rfl
    | some y =>
      obtain ⟨y, d⟩ := y
      have hy : y ≠ x := by
        rintro rfl
        obtain ⟨j, hj⟩ := hv.residency hr
        rw [ho] at hj
        cases hj
      simp [hy]
  · rintro ⟨_, hk⟩
    obtain ⟨j, hj⟩ := hv.kills hk
    rw [ho] at hj
    cases hj
  · rintro ⟨he, hm⟩
    have := ((ha.1 he).1 x hm).1
    rw [hx] at this
    cases this

theorem liveAfter_mono {own live : Rsrc → Option Info} {cur : Nat} {c : Call} {r : Resp}
    (h : ∀ x i, own x = some i → live x = some i) (x : Rsrc) (i : Info)
    (hx : c.liveAfter own cur r x = some i) : c.liveAfter live cur r x = some i := by
  unfold Call.liveAfter at *
  split at hx
  · next h1 => rw [if_pos h1]; exact hx
  · next h1 =>
    rw [if_neg h1]
    split at hx
    · cases hx
    · next h2 =>
      rw [if_neg h2]
      cases ho : own x with
      | none => rw [ho] at hx; cases hx
      | some j => rw [ho] at hx; rw [h x j ho]; exact hx

/-- What a thread owns after its call: what it made, or what it owned before. -/
theorem liveAfter_cases {own : Rsrc → Option Info} {cur : Nat} {c : Call} {r : Resp} {x : Rsrc} {i : Info}
    (hx : c.liveAfter own cur r x = some i) :
    (r.err = 0 ∧ c.makes r = some x) ∨ ∃ j, own x = some j := by
  unfold Call.liveAfter at hx
  split at hx
  · next h => exact .inl h
  · split at hx
    · cases hx
    · cases ho : own x with
      | none => rw [ho] at hx; cases hx
      | some j => exact .inr ⟨j, rfl⟩

/-- What is in use after a call is owned by the thread if it was before or was made. -/
theorem liveAfter_owned {own live : Rsrc → Option Info} {cur : Nat} {c : Call} {r : Resp} {x : Rsrc} {i : Info}
    (hx : c.liveAfter live cur r x = some i) (h : (r.err = 0 ∧ c.makes r = some x) ∨ ∃ j, own x = some j) :
    ∃ j, c.liveAfter own cur r x = some j := by
  unfold Call.liveAfter at *
  by_cases h1 : r.err = 0 ∧ c.makes r = some x
  · rw [if_pos h1]
    exact ⟨_, rfl⟩
  · rw [if_neg h1] at hx ⊢
    split at hx
    · cases hx
    · next h2 =>
      rw [if_neg h2]
      obtain ⟨j, hj⟩ := h.resolve_left h1
      rw [hj]
      exact ⟨_, rfl⟩

theorem Clean.mono {a b : List (Call × Nat)} (h : ∀ y ∈ a, y ∈ b) (hb : Clean b) : Clean a :=
  fun y hy => hb y (h y hy)

theorem Inv.init {s : St} (h : Init s) : Inv E s (fun _ _ => none) := by
  obtain ⟨h1, h2, h3, h4, h5, h6⟩ := h
  refine ⟨by simp, by simp, by simp, ?_, ?_, by simp, fun t _ _ => h4 t, ?_, ?_, ?_⟩
  · intro x g hg
    rw [h2] at hg
    cases hg
  · intro _ _ x i hx
    rw [h1] at hx
    cases hx
  · intro t th hth
    rw [h3] at hth
    cases hth
  · intro t th hth
    rw [h3] at hth
    cases hth
  · intro t op o rf _ hl
    rw [h5] at hl
    cases hl

variable {s : St} {own : Tid → Rsrc → Option Info}

/-- What other threads see does not change when their variables do not. -/
theorem view_congr {s' : St} {own' : Tid → Rsrc → Option Info} {t : Tid} {rf : List (Call × Nat)}
    (h1 : own' t = own t) (h2 : s'.drv.cur t = s.drv.cur t) (h3 : s'.user t = s.user t)
    (h4 : s'.lost t = s.lost t) (h5 : s'.tls t = s.tls t) : view s' own' t rf = view s own t rf := by
  unfold view
  rw [h1, h2, h3, h4, h5]

theorem Inv.setCtx (h : Inv E s own) {t : Tid} {c : Nat} (ht : s.th t = none) :
    Inv E { s with
      drv := { s.drv with cur := update s.drv.cur t c }
      user := update s.user t c
      lost := update s.lost t false } own := by
  refine ⟨h.live, h.notHeld, h.uniq, h.held, h.clean, h.idleOwn, ?_, ?_, h.ref, h.last⟩
  · intro t' ht' hl
    by_cases hn : t' = t
    · subst hn
      simp
    · simp only [update, hn, dite_false] at hl ⊢
      exact h.idleCtx t' ht' hl
  · intro t' th hth
    have hn : t' ≠ t := by
      rintro rfl
      have hth : s.th t' = some th := hth
      rw [ht] at hth
      cases hth
    obtain ⟨own0, h1, h2⟩ := h.run t' th hth
    refine ⟨own0, h1, ?_⟩
    rw [view_congr (s := s) (own := own)] <;> simp [hn]
    exact h2

theorem Inv.store (h : Inv E s own) {t : Tid} {th : Th} {b : Be} {e : Nat} {k : Prog} (ht : s.th t = some th)
    (hp : th.prog = .store b e k) :
    Inv E { s with
      th := update s.th t (some { th with prog := k })
      tls := update s.tls t (update (s.tls t) b e) } own := by
  refine ⟨h.live, h.notHeld, h.uniq, h.held, h.clean, ?_, ?_, ?_, ?_, ?_⟩
  · intro t' ht'
    have hn : t' ≠ t := by
      rintro rfl
      simp at ht'
    simp only [update, hn, dite_false] at ht'
    exact h.idleOwn t' ht'
  · intro t' ht'
    have hn : t' ≠ t := by
      rintro rfl
      simp at ht'
    simp only [update, hn, dite_false] at ht'
    exact h.idleCtx t' ht'
  · intro t' th' hth
    by_cases hn : t' = t
    · subst hn
      simp only [Function.update_self, Option.some.injEq] at hth
      subst hth
      obtain ⟨own0, h1, h2⟩ := h.run t' th ht
      refine ⟨own0, h1, ?_⟩
      rw [hp] at h2
      simp only [wp] at h2
      simpa [view] using h2
    · simp only [update, hn, dite_false] at hth
      obtain ⟨own0, h1, h2⟩ := h.run t' th' hth
      refine ⟨own0, h1, ?_⟩
      rw [view_congr (s := s) (own := own)] <;> simp [hn]
      exact h2
  · intro t' th' hth
    by_cases hn : t' = t
    · subst hn
      simp only [Function.update_self, Option.some.injEq] at hth
      subst hth
      exact h.ref t' th ht
    · simp only [update, hn, dite_false] at hth
      exact h.ref t' th' hth
  · intro t' op o rf ht' hl
    have hn : t' ≠ t := by
      rintro rfl
      simp at ht'
    simp only [update, hn, dite_false] at ht' ⊢
    exact h.last t' op o rf ht' hl

theorem Inv.call (h : Inv E s own) {t : Tid} {th : Th} {c : Call} {k : Resp → Prog} {r : Resp}
    (ht : s.th t = some th) (hp : th.prog = .call c k)
    (ha : c.Answer s.drv.live (s.drv.cur t) s.drv.pid r) :
    Inv E { s with
        drv := { s.drv with
          live := c.liveAfter s.drv.live (s.drv.cur t) r
          cur := update s.drv.cur t (c.curAfter (s.drv.cur t) r) }
        th := update s.th t (some { th with
          prog := k r
          refused := if r.err = 0 then th.refused else (c, r.err) :: th.refused })
        lost := update s.lost t
          (s.lost t || (c.isCtx && decide (r.err ≠ 0) && decide (s.drv.cur t ≠ s.user t)))
        refused := if r.err = 0 then s.refused else (c, r.err) :: s.refused }
      (update own t (c.liveAfter (own t) (s.drv.cur t) r)) := by
  obtain ⟨own0, hsaved, hwp⟩ := h.run t th ht
  rw [hp] at hwp
  obtain ⟨hv, hok, hk⟩ := hwp
  have hsub : ∀ x i, own t x = some i → s.drv.live x = some i := h.live t
  -- other owners are untouched
  have hother : ∀ t' x i, t' ≠ t → own t' x = some i → c.liveAfter s.drv.live (s.drv.cur t) r x = some i := by
    intro t' x i hn hx
    refine untouched hv ha (h.live t' x i hx) ?_
    show own t x = none
    cases ho : own t x with
    | none => rfl
    | some j => exact absurd (h.uniq t' t x i j hx ho) hn
  have hheld : ∀ x g, s.held x = some g → own t x = none := by
    intro x g hg
    cases ho : own t x with
    | none => rfl
    | some j => rw [h.notHeld t x j ho] at hg; cases hg
  have hmine : ∀ x i, c.liveAfter (own t) (s.drv.cur t) r x = some i →
      (s.drv.live x = none ∨ ∃ j, own t x = some j) := by
    intro x i hx
    rcases liveAfter_cases hx with ⟨he, hm⟩ | hj
    · exact .inl ((ha.1 he).1 x hm).1
    · exact .inr hj
  have hidle : ∀ {t' : Tid}, update s.th t (some { th with
          prog := k r
          refused := if r.err = 0 then th.refused else (c, r.err) :: th.refused }) t' = none →
      t' ≠ t ∧ s.th t' = none := by
    intro t' h0
    have hn : t' ≠ t := by
      rintro rfl
      simp at h0
    exact ⟨hn, by simpa [hn] using h0⟩
  refine ⟨?_, ?_, ?_, ?_, ?_, ?_, ?_, ?_, ?_, ?_⟩
  · intro t' x i hx
    by_cases hn : t' = t
    · subst hn
      rw [Function.update_self] at hx
      exact liveAfter_mono hsub x i hx
    · rw [Function.update_of_ne hn] at hx
      exact hother t' x i hn hx
  · intro t' x i hx
    by_cases hn : t' = t
    · subst hn
      rw [Function.update_self] at hx
      rcases hmine x i hx with h0 | ⟨j, hj⟩
      · show s.held x = none
        cases hg : s.held x with
        | none => rfl
        | some g =>
          obtain ⟨i', hi', _⟩ := h.held x g hg
          rw [h0] at hi'
          cases hi'
      · exact h.notHeld t' x j hj
    · rw [Function.update_of_ne hn] at hx
      exact h.notHeld t' x i hx
  · intro t1 t2 x i j h1 h2
    by_cases hn1 : t1 = t
    · by_cases hn2 : t2 = t
      · rw [hn1, hn2]
      · subst hn1
        rw [Function.update_self] at h1
        rw [Function.update_of_ne hn2] at h2
        rcases hmine x i h1 with h0 | ⟨j', hj'⟩
        · rw [h.live t2 x j h2] at h0
          cases h0
        · exact h.uniq t1 t2 x j' j hj' h2
    · rw [Function.update_of_ne hn1] at h1
      by_cases hn2 : t2 = t
      · subst hn2
        rw [Function.update_self] at h2
        rcases hmine x j h2 with h0 | ⟨j', hj'⟩
        · rw [h.live t1 x i h1] at h0
          cases h0
        · exact h.uniq t1 t2 x i j' h1 hj'
      · rw [Function.update_of_ne hn2] at h2
        exact h.uniq t1 t2 x i j h1 h2
  · intro x g hg
    obtain ⟨i, hi, hf⟩ := h.held x g hg
    exact ⟨i, untouched hv ha hi (hheld x g hg), hf⟩
  · intro hcl hE x i hx
    have hcl' : Clean s.refused := by
      refine Clean.mono ?_ hcl
      intro y hy
      dsimp only
      split
      · exact hy
      · exact List.mem_cons_of_mem _ hy
    have hx : c.liveAfter s.drv.live (s.drv.cur t) r x = some i := hx
    rcases liveAfter_cases hx with hm | ⟨j, hj⟩
    · obtain ⟨j, hj⟩ := liveAfter_owned (own := own t) hx (.inl hm)
      exact .inr ⟨t, j, by rw [Function.update_self]; exact hj⟩
    · rcases h.clean hcl' hE x j hj with hg | ⟨t', j', hj'⟩
      · exact .inl hg
      · refine .inr ?_
        by_cases hn : t' = t
        · subst hn
          obtain ⟨j2, hj2⟩ := liveAfter_owned (own := own t') hx (.inr ⟨j', hj'⟩)
          exact ⟨t', j2, by rw [Function.update_self]; exact hj2⟩
        · exact ⟨t', j', by rw [Function.update_of_ne hn]; exact hj'⟩
  · intro t' h0 x
    obtain ⟨hn, h1⟩ := hidle h0
    rw [Function.update_of_ne hn]
    exact h.idleOwn t' h1 x
  · intro t' h0 hl
    obtain ⟨hn, h1⟩ := hidle h0
    simp only [Function.update_of_ne hn] at hl ⊢
    exact h.idleCtx t' h1 hl
  · intro t' th' hth
    by_cases hn : t' = t
    · subst hn
      simp only [Function.update_self, Option.some.injEq] at hth
      subst hth
      refine ⟨own0, hsaved, ?_⟩
      have := hk r (ha.anti hsub)
      simp only [view, L.after, Function.update_self] at this ⊢
      exact this
    · simp only [update, hn, dite_false] at hth
      obtain ⟨own0', h1, h2⟩ := h.run t' th' hth
      refine ⟨own0', h1, ?_⟩
      rw [view_congr (s := s) (own := own)] <;> simp [hn]
      exact h2
  · intro t' th' hth y hy
    by_cases hn : t' = t
    · subst hn
      simp only [Function.update_self, Option.some.injEq] at hth
      subst hth
      dsimp only at hy ⊢
      split at hy
      · next he => rw [if_pos he]; exact h.ref t' th ht y hy
      · next he =>
        rw [if_neg he]
        rcases List.mem_cons.1 hy with hy | hy
        · exact List.mem_cons.2 (.inl hy)
        · exact List.mem_cons_of_mem _ (h.ref t' th ht y hy)
    · simp only [update, hn, dite_false] at hth
      have := h.ref t' th' hth y hy
      dsimp only
      split
      · exact this
      · exact List.mem_cons_of_mem _ this
  · intro t' op o rf h0 hl
    obtain ⟨hn, h1⟩ := hidle h0
    exact h.last t' op o rf h1 hl

theorem Inv.ret (h : Inv E s own) {t : Tid} {th : Th} {o : Out} (ht : s.th t = some th)
    (hp : th.prog = .ret o) :
    Inv E { s with
        th := update s.th t none
        held := fun x =>
          if x ∈ th.op.gives o then some (th.op, o)
          else if o.res ≠ .success ∧ x ∈ th.op.takes then th.saved x
          else s.held x
        last := update s.last t (some (th.op, o, th.refused)) } (update own t fun _ => none) := by
  obtain ⟨own0, hsaved, hwp⟩ := h.run t th ht
  rw [hp] at hwp
  obtain ⟨hctx, hnat, hgives, hfail, hclean⟩ := hwp
  have hctx : s.lost t = false → s.drv.cur t = s.user t := hctx
  have hnat : NativeOk th.op o th.refused (s.tls t) := hnat
  have hgives : ∀ x ∈ th.op.gives o, ∃ i, own t x = some i ∧ Fits (th.op, o) x i := hgives
  have htakes : o.res ≠ .success → ∀ x ∈ th.op.takes,
      ∃ g i, th.saved x = some g ∧ own t x = some i ∧ Fits g x i := by
    intro hr x hx
    obtain ⟨g, i, h1, h2, h3⟩ := hsaved x hx
    exact ⟨g, i, h1, ((hfail hr).1 x hx).trans h2, h3⟩
  have hclean : Clean th.refused → (th.op = .cuParamsCreate → E.cu = true) → ∀ x i, own t x = some i →
      x ∈ th.op.gives o ∨ (o.res ≠ .success ∧ x ∈ th.op.takes) := hclean
  refine ⟨?_, ?_, ?_, ?_, ?_, ?_, ?_, ?_, ?_, ?_⟩
  · intro t' x i hx
    by_cases hn : t' = t
    · subst hn
      simp at hx
    · rw [Function.update_of_ne hn] at hx
      exact h.live t' x i hx
  · intro t' x i hx
    by_cases hn : t' = t
    · subst hn
      simp at hx
    · rw [Function.update_of_ne hn] at hx
      dsimp only
      rw [if_neg, if_neg]
      · exact h.notHeld t' x i hx
      · rintro ⟨hr, hxt⟩
        obtain ⟨_, j, _, hj, _⟩ := htakes hr x hxt
        exact hn (h.uniq t' t x i j hx hj)
      · intro hxg
        obtain ⟨j, hj, _⟩ := hgives x hxg
        exact hn (h.uniq t' t x i j hx hj)
  · intro t1 t2 x i j h1 h2
    have hn1 : t1 ≠ t := by
      rintro rfl
      simp at h1
    have hn2 : t2 ≠ t := by
      rintro rfl
      simp at h2
    rw [Function.update_of_ne hn1] at h1
    rw [Function.update_of_ne hn2] at h2
    exact h.uniq t1 t2 x i j h1 h2
  · intro x g hg
    dsimp only at hg
    split at hg
    · next hxg =>
      cases hg
      obtain ⟨i, hi, hf⟩ := hgives x hxg
      exact ⟨i, h.live t x i hi, hf⟩
    · split at hg
      · next hr =>
        obtain ⟨g', i, h1, h2, h3⟩ := htakes hr.1 x hr.2
        rw [h1] at hg
        cases hg
        exact ⟨i, h.live t x i h2, h3⟩
      · exact h.held x g hg
  · intro hcl hE x i hx
    have hx : s.drv.live x = some i := hx
    dsimp only
    by_cases hxg : x ∈ th.op.gives o
    · exact .inl ⟨(th.op, o), if_pos hxg⟩
    rw [if_neg hxg]
    by_cases hxt : o.res ≠ .success ∧ x ∈ th.op.takes
    · obtain ⟨g', _, h1, _⟩ := htakes hxt.1 x hxt.2
      exact .inl ⟨g', by rw [if_pos hxt]; exact h1⟩
    rw [if_neg hxt]
    rcases h.clean hcl hE x i hx with hg | ⟨t', j, hj⟩
    · exact .inl hg
    · right
      by_cases hn : t' = t
      · subst hn
        have hcl' : Clean th.refused := hcl.mono (h.ref t' th ht)
        rcases hclean hcl' (fun _ => hE) x j hj with h1 | h1
        · exact absurd h1 hxg
        · exact absurd h1 hxt
      · exact ⟨t', j, by rw [Function.update_of_ne hn]; exact hj⟩
  · intro t' h0 x
    by_cases hn : t' = t
    · subst hn
      simp
    · simp only [Function.update_of_ne hn] at h0 ⊢
      exact h.idleOwn t' h0 x
  · intro t' h0 hl
    by_cases hn : t' = t
    · subst hn
      exact hctx hl
    · simp only [Function.update_of_ne hn] at h0
      exact h.idleCtx t' h0 hl
  · intro t' th' hth
    by_cases hn : t' = t
    · subst hn
      simp at hth
    · simp only [update, hn, dite_false] at hth
      obtain ⟨own0', h1, h2⟩ := h.run t' th' hth
      refine ⟨own0', h1, ?_⟩
      rw [view_congr (s := s) (own := own)] <;> simp [hn]
      exact h2
  · intro t' th' hth
    by_cases hn : t' = t
    · subst hn
      simp at hth
    · simp only [update, hn, dite_false] at hth
      exact h.ref t' th' hth
  · intro t' op' o' rf h0 hl
    by_cases hn : t' = t
    · subst hn
      simp only [Function.update_self, Option.some.injEq, Prod.mk.injEq] at hl
      obtain ⟨rfl, rfl, rfl⟩ := hl
      exact hnat
    · simp only [Function.update_of_ne hn] at h0 hl
      exact h.last t' op' o' rf h0 hl

end Verif.Gpu
