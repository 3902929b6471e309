import Verif.Gpu.CuOps

/-! # The remaining programs of the CUDA provider -/
namespace Verif.Gpu
open Function (update)

variable {pid : Nat} {op : Op} {Q : Option Out → L → Prop} {E : Env}

/-- A call that ends with nothing made. -/
theorem post_nothing {own0 : Rsrc → Option Info} {o : Out} {l : L} (h1 : l.lost = false → l.cur = l.user)
    (h2 : ∀ x, l.own x = none) (h3 : op.gives o = []) (h4 : op.takes = [] ∨ o.res = .success)
    (h5 : NativeOk op o l.refused l.tls) : Post E op own0 (some o) l := by
  refine ⟨h1, h5, by simp [h3], ?_, ?_⟩
  · intro hs
    rcases h4 with h4 | h4
    · exact ⟨by simp [h4], h3⟩
    · exact absurd h4 hs
  · intro _ _ x i hx
    rw [h2 x] at hx
    cases hx

theorem nativeOk_of {o : Out} {l : List (Call × Nat)} {tls : Be → Nat} (h : o.res ≠ .specific) :
    NativeOk op o l tls := fun h' => absurd h' h

/-- A call that changes nothing that is tracked. -/
theorem after_plain {l : L} {c : Call} {r : Resp} (h1 : c.makes r = none) (h2 : c.kills = none)
    (h3 : c.residency = none) (h4 : c.isCtx = false) :
    l.after c r = { l with refused := if r.err = 0 then l.refused else (c, r.err) :: l.refused } := by
  unfold L.after
  rw [liveAfter_plain h1 h2 h3, h4]
  have : c.curAfter l.cur r = l.cur := by
    cases c <;> first | rfl | simp [Call.isCtx] at h4
  simp [this]

theorem after_refused {l : L} {c : Call} {r : Resp} (h : r.err ≠ 0) (h2 : c.killsAnyway = false)
    (h4 : c.isCtx = false) : l.after c r = { l with refused := (c, r.err) :: l.refused } := by
  unfold L.after
  rw [liveAfter_refused h h2, h4]
  have : c.curAfter l.cur r = l.cur := by
    cases c <;> first | rfl | simp [Call.isCtx] at h4
  simp [this, h]

theorem callOk_plain {own cur} {c : Call} (h1 : c.usesCtx = false)
    (h2 : ∀ ctx dev h, c ≠ .zeMemOpenIpcHandle ctx dev h) : CallOk own cur pid op c :=
  ⟨by simp [h1], fun ctx dev h heq => absurd heq (h2 ctx dev h)⟩

/-- The native error after one refused call. -/
theorem nativeOk_one {o : Out} {l : List (Call × Nat)} {tls : Be → Nat} {c : Call} {e : Nat}
    (hc : c.isCtx = false) (hm : (c, e) ∈ l)
    (h : o.res = .specific → tls op.be = e ∧ ¬ mapped op.be e) : NativeOk op o l tls := by
  intro hs
  obtain ⟨h1, h2⟩ := h hs
  exact ⟨c, by rw [h1]; exact hm, by rw [h1]; exact h2, fun _ => hc⟩

theorem cuParamsCreate_ok {l : L} (hown : ∀ x, l.own x = none) (hl : l.lost = false → l.cur = l.user) :
    wp pid .cuParamsCreate (Post E .cuParamsCreate l.own) (cuParamsCreate E) l := by
  unfold cuParamsCreate
  refine ⟨trivial, callOk_plain rfl (by simp), fun r hr => ?_⟩
  dsimp only
  split
  · next he =>
    rw [after_refused he rfl rfl]
    exact post_nothing hl hown (by simp [Op.gives]) (.inl rfl) (nativeOk_of (by simp))
  next he =>
  have he : r.err = 0 := by simpa using he
  have hown' : ∀ x, (l.after (.baAlloc 24) r).own x =
      if x = .ba r.val then some { call := .baAlloc 24, ctx := l.cur } else none := by
    intro x
    show Call.liveAfter l.own l.cur _ r x = _
    rw [liveAfter_make he rfl rfl rfl, hown x]
  have hl' : (l.after (.baAlloc 24) r).lost = false →
      (l.after (.baAlloc 24) r).cur = (l.after (.baAlloc 24) r).user := by
    simpa [L.after, Call.isCtx, Call.curAfter] using hl
  split
  · next hE =>
    refine ⟨hl', nativeOk_of (by simp), by simp [Op.gives], fun _ => ⟨by simp [Op.takes], by simp [Op.gives]⟩, ?_⟩
    intro _ hE2
    simp [hE2 rfl] at hE
  · refine ⟨trivial, callOk_plain rfl (by simp), fun r2 hr2 => ?_⟩
    refine ⟨trivial, callOk_plain rfl (by simp), fun r3 hr3 => ?_⟩
    dsimp only
    rw [after_plain (c := .cuCtxGetDevice) rfl rfl rfl rfl]
    refine ⟨?_, nativeOk_of (by simp), ?_, by simp, ?_⟩
    · intro h
      simp only [L.after, Bool.or_eq_false_iff] at h
      exact hl h.1.1
    · intro x hx
      simp only [Op.gives, if_true, List.mem_singleton] at hx
      refine ⟨{ call := .baAlloc 24, ctx := l.cur }, ?_, trivial⟩
      show Call.liveAfter (l.after (.baAlloc 24) r).own _ _ r2 x = _
      rw [liveAfter_plain rfl rfl rfl, hown', if_pos hx]
    · intro _ _ x i hx
      have hx : Call.liveAfter (l.after (.baAlloc 24) r).own _ .cuCtxGetCurrent r2 x = some i := hx
      rw [liveAfter_plain rfl rfl rfl, hown'] at hx
      split at hx
      · next h => left; simp [Op.gives, h]
      · cases hx

theorem zeParamsCreate_ok {l : L} (hown : ∀ x, l.own x = none) (hl : l.lost = false → l.cur = l.user) :
    wp pid .zeParamsCreate (Post E .zeParamsCreate l.own) zeParamsCreate l := by
  unfold zeParamsCreate
  refine ⟨trivial, callOk_plain rfl (by simp), fun r hr => ?_⟩
  dsimp only
  split
  · next he =>
    rw [after_refused he rfl rfl]
    exact post_nothing hl hown (by simp [Op.gives]) (.inl rfl) (nativeOk_of (by simp))
  next he =>
  have he : r.err = 0 := by simpa using he
  have hown' : ∀ x, (l.after (.baAlloc 48) r).own x =
      if x = .ba r.val then some { call := .baAlloc 48, ctx := l.cur } else none := by
    intro x
    show Call.liveAfter l.own l.cur _ r x = _
    rw [liveAfter_make he rfl rfl rfl, hown x]
  refine ⟨?_, nativeOk_of (by simp), ?_, by simp, ?_⟩
  · simpa [L.after, Call.isCtx, Call.curAfter] using hl
  · intro x hx
    simp only [Op.gives, if_true, List.mem_singleton] at hx
    exact ⟨_, by rw [hown', if_pos hx], trivial⟩
  · intro _ _ x i hx
    rw [hown'] at hx
    split at hx
    · next h => left; simp [Op.gives, h]
    · cases hx

/-- Releasing memory of the base allocator. -/
theorem liveAfter_baFree {live cur} {r : Resp} {p : Nat} (x : Rsrc) :
    (Call.baFree p).liveAfter live cur r x = if x = .ba p then none else live x := by
  unfold Call.liveAfter Info.after
  simp only [Call.makes, Call.kills, Call.killsAnyway, Call.residency, reduceCtorEq, and_false, if_false, or_true,
    true_and, Option.some.injEq]
  by_cases hx : x = .ba p
  · simp [hx]
  · rw [if_neg (fun h => hx h.symm), if_neg hx]
    simp

theorem after_baFree {l : L} {r : Resp} {p : Nat} :
    l.after (.baFree p) r = { l with
      own := fun x => if x = .ba p then none else l.own x
      refused := if r.err = 0 then l.refused else (.baFree p, r.err) :: l.refused } := by
  unfold L.after
  have : (Call.baFree p).liveAfter l.own l.cur r = fun x => if x = .ba p then none else l.own x :=
    funext liveAfter_baFree
  rw [this]
  simp [Call.isCtx, Call.curAfter]

theorem paramsDestroy_ok {q : Nat} {i : Info} {l : L}
    (hown : ∀ x, l.own x = if q ≠ 0 ∧ x = .ba q then some i else none)
    (hl : l.lost = false → l.cur = l.user) :
    wp pid (.paramsDestroy q) (Post E (.paramsDestroy q) l.own) (paramsDestroy q) l := by
  unfold paramsDestroy
  split
  · next hq =>
    exact post_nothing hl (fun x => by rw [hown]; simp [hq]) (by simp [Op.gives]) (.inr rfl) (nativeOk_of (by simp))
  · next hq =>
    refine ⟨⟨i, by rw [hown]; simp [hq]⟩, callOk_plain rfl (by simp), fun r _ => ?_⟩
    dsimp only
    rw [after_baFree]
    refine post_nothing hl (fun x => ?_) (by simp [Op.gives]) (.inr rfl) (nativeOk_of (by simp))
    show (if x = .ba q then none else l.own x) = none
    rw [hown]
    split <;> simp_all

theorem cuDestroy_ok {p : CuProv} {i : Info} {l : L}
    (hown : ∀ x, l.own x = if x = .ba p.addr then some i else none) (hl : l.lost = false → l.cur = l.user) :
    wp pid (.cuDestroy p) (Post E (.cuDestroy p) l.own) (cuDestroy p) l := by
  unfold cuDestroy
  refine ⟨⟨i, by rw [hown]; simp⟩, callOk_plain rfl (by simp), fun r _ => ?_⟩
  dsimp only
  rw [after_baFree]
  refine post_nothing hl (fun x => ?_) (by simp [Op.gives]) (.inr rfl) (nativeOk_of (by simp))
  show (if x = .ba p.addr then none else l.own x) = none
  rw [hown]
  split <;> simp_all

theorem cuCreate_ok {P : Option CuParams} {l : L} (hown : ∀ x, l.own x = none)
    (hl : l.lost = false → l.cur = l.user) (href : l.refused = []) :
    wp pid (.cuCreate P) (Post E (.cuCreate P) l.own) (cuCreate E P) l := by
  have fail : ∀ u, u ≠ .specific →
      wp pid (.cuCreate P) (Post E (.cuCreate P) l.own) (.done u) l := by
    intro u hu
    exact post_nothing hl hown (by simp [Op.gives]) (.inl rfl) (nativeOk_of hu)
  unfold cuCreate
  split
  · exact fail _ (by simp)
  next P =>
  split
  · exact fail _ (by simp)
  next h1 =>
  split
  · exact fail _ (by simp)
  next h2 =>
  split
  · exact fail _ (by simp)
  next h3 =>
  split
  · exact fail _ (by simp)
  refine ⟨trivial, callOk_plain rfl (by simp), fun m hm => ?_⟩
  dsimp only
  split
  · next he =>
    rw [after_refused he rfl rfl]
    exact post_nothing hl hown (by simp [Op.gives]) (.inl rfl) (nativeOk_of (by simp))
  next he =>
  have he : m.err = 0 := by simpa using he
  have hown' : ∀ x, (l.after (.baAlloc 40) m).own x =
      if x = .ba m.val then some { call := .baAlloc 40, ctx := l.cur } else none := by
    intro x
    show Call.liveAfter l.own l.cur _ m x = _
    rw [liveAfter_make he rfl rfl rfl, hown x]
  have hl' : (l.after (.baAlloc 40) m).lost = false →
      (l.after (.baAlloc 40) m).cur = (l.after (.baAlloc 40) m).user := by
    simpa [L.after, Call.isCtx, Call.curAfter] using hl
  have href' : (l.after (.baAlloc 40) m).refused = [] := by simp [L.after, he, href]
  generalize l.after (.baAlloc 40) m = l1 at *
  refine ⟨trivial, callOk_plain rfl (by simp), fun g hg => ?_⟩
  dsimp only
  rw [after_plain (c := .cuGranularity P.dev false) rfl rfl rfl rfl]
  split
  · next hge =>
    refine ⟨⟨_, by show l1.own (.ba m.val) = _; rw [hown', if_pos rfl]⟩, callOk_plain rfl (by simp), fun f _ => ?_⟩
    dsimp only
    rw [after_baFree]
    refine wp_cu2umf fun u tls hu hsp _ => ?_
    refine post_nothing hl' (fun x => ?_) (by simp [Op.gives]) (.inl rfl) ?_
    · show (if x = .ba m.val then none else l1.own x) = none
      rw [hown']
      split <;> simp_all
    · refine nativeOk_one (c := .cuGranularity P.dev false) (e := g.err) rfl ?_ hsp
      simp
      split <;> simp
  · refine ⟨hl', nativeOk_of (by simp), ?_, by simp, ?_⟩
    · intro x hx
      simp only [Op.gives, List.mem_singleton] at hx
      refine ⟨_, by show l1.own x = _; rw [hown', if_pos hx], P, _, rfl, rfl, rfl, rfl, rfl, ?_, h2, by omega, ?_, ?_⟩
      · have hty : ∀ ty : Nat, ¬(ty = 0 ∨ ty > 3) → ty = 1 ∨ ty = 2 ∨ ty = 3 := by omega
        exact hty _ h1
      · intro h
        show (if P.type = 3 ∧ P.flags = 0 then 1 else P.flags) = 1
        rw [if_pos h]
      · intro h
        show (if P.type = 3 ∧ P.flags = 0 then 1 else P.flags) = P.flags
        rw [if_neg h]
    · intro _ _ x i hx
      have hx : l1.own x = some i := hx
      rw [hown'] at hx
      split at hx
      · next h => left; simp [Op.gives, h]
      · cases hx

theorem cuPageSize_ok {p : CuProv} {rec : Bool} {l : L} (hown : ∀ x, l.own x = none)
    (hl : l.lost = false → l.cur = l.user) :
    wp pid (.cuPageSize p rec) (Post E (.cuPageSize p rec) l.own) (cuPageSize p rec) l := by
  unfold cuPageSize
  refine ⟨trivial, callOk_plain rfl (by simp), fun r _ => ?_⟩
  dsimp only
  rw [after_plain (c := .cuGranularity p.dev rec) rfl rfl rfl rfl]
  refine wp_cu2umf fun u tls hu hsp _ => post_nothing hl hown (by simp [Op.gives]) (.inl rfl) ?_
  intro hs
  have hs : u = .specific := hs
  have he : r.err ≠ 0 := fun h => by rw [hu.2 h] at hs; cases hs
  exact nativeOk_one (op := .cuPageSize p rec) (o := { res := u, ptr := r.val })
    (c := .cuGranularity p.dev rec) (e := r.err) rfl (by simp [he]) hsp hs

/-- One call whose error is translated. -/
theorem one_call {c : Call} {k : Resp → Prog} {l : L} (hm : ∀ r, c.makes r = none) (hk : c.kills = none)
    (hr : c.residency = none) (hc : c.isCtx = false) (hv : ∀ own, c.Valid own)
    (hok : CallOk l.own l.cur pid op c) (ht : op.takes = []) (hg : ∀ o, op.gives o = [])
    (hown : ∀ x, l.own x = none) (hl : l.lost = false → l.cur = l.user) (hb : op.be = .cu)
    (hs : ∀ r, ∃ o : Out, o.res = .success ∧ (k r = if r.err ≠ 0 then cu2umf r.err .done else .ret o)) :
    wp pid op (Post E op l.own) (.call c k) l := by
  refine ⟨hv _, hok, fun r _ => ?_⟩
  rw [after_plain (hm r) hk hr hc]
  obtain ⟨o, ho, hkr⟩ := hs r
  rw [hkr]
  split
  · next he =>
    refine wp_cu2umf fun u tls hu hsp _ => post_nothing hl hown (hg _) (.inl ht) ?_
    exact nativeOk_one (c := c) (e := r.err) hc (by simp) (by rw [hb]; exact hsp)
  · exact post_nothing hl hown (hg _) (.inl ht) (nativeOk_of (by simp [ho]))

theorem cuIpcGet_ok {p : CuProv} {q : Nat} {l : L} (hown : ∀ x, l.own x = none)
    (hl : l.lost = false → l.cur = l.user) :
    wp pid (.cuIpcGet p q) (Post E (.cuIpcGet p q) l.own) (cuIpcGet p q) l :=
  one_call (fun _ => rfl) rfl rfl rfl (fun _ => trivial) (callOk_plain rfl (by simp)) rfl (fun _ => rfl) hown hl rfl
    fun r => ⟨{ res := .success, ptr := r.val }, rfl, rfl⟩

theorem cuIpcClose_ok {p : CuProv} {q : Nat} {l : L} (hown : ∀ x, l.own x = none)
    (hl : l.lost = false → l.cur = l.user) :
    wp pid (.cuIpcClose p q) (Post E (.cuIpcClose p q) l.own) (cuIpcClose p q) l :=
  one_call (fun _ => rfl) rfl rfl rfl (fun _ => trivial) (callOk_plain rfl (by simp)) rfl (fun _ => rfl) hown hl rfl
    fun _ => ⟨{ res := .success }, rfl, rfl⟩

theorem cuIpcOpen_ok {p : CuProv} {h : Nat} {l : L} (hown : ∀ x, l.own x = none)
    (hl : l.lost = false → l.cur = l.user) (href : l.refused = []) :
    wp pid (.cuIpcOpen p h) (Post E (.cuIpcOpen p h) l.own) (cuIpcOpen p h) l := by
  unfold cuIpcOpen
  refine wp_setContext ?_ ?_
  · rw [if_neg (by simp)]
    refine ⟨trivial, ⟨?_, by simp⟩, fun r _ => ?_⟩
    · intro _
      exact ⟨p, rfl, rfl⟩
    dsimp only
    rw [after_plain (c := .cuIpcOpenMemHandle h) rfl rfl rfl rfl]
    refine wp_restore ?_ hl
    intro u l' h1 h2 h3 _ h5 h6 h7 _
    refine post_nothing (h5 hl) (fun x => by rw [h1]; exact hown x) (by simp [Op.gives]) (.inl rfl) ?_
    intro hs
    have hs : u = .specific := hs
    have he : r.err ≠ 0 := fun h => by rw [h3.2 h] at hs; cases hs
    exact nativeOk_one (op := .cuIpcOpen p h) (o := { res := u, ptr := r.val })
      (c := .cuIpcOpenMemHandle h) (e := r.err) rfl (h6 _ (by simp [he])) h7 hs
  · intro u rs tls c e hu _ hc he hsp
    rw [if_pos hu]
    refine post_nothing ?_ hown (by simp [Op.gives]) (.inl rfl) ?_
    · intro h1
      simp only [Bool.or_eq_false_iff] at h1
      exact hl h1.1
    · intro hs
      obtain ⟨h3, h4⟩ := hsp hs
      refine ⟨c, ?_, by show ¬ mapped .cu (tls .cu); rw [h3]; exact h4, ?_⟩
      · show (c, tls .cu) ∈ _
        rw [h3]
        simp
      · rintro ⟨x, hx, hx2⟩
        simp only [href, List.mem_singleton] at hx
        rw [hx] at hx2
        rw [hc] at hx2
        cases hx2

end Verif.Gpu
