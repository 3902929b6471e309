import Verif.Gpu.Start

/-! # Running concrete schedules, for examples and counterexamples -/
namespace Verif.Gpu
open Function (update)

def allocInB (ctx : Nat) : Call → Bool
  | .zeMemAllocHost c _ _ | .zeMemAllocDevice c _ _ _ _ _ | .zeMemAllocShared c _ _ _ _ _ => c == ctx
  | _ => false

theorem allocInB_sound {ctx : Nat} {c : Call} (h : allocInB ctx c = true) : c.zeAllocIn ctx := by
  cases c <;> simp_all [allocInB, Call.zeAllocIn]

def validB (live : Rsrc → Option Info) (c : Call) : Bool :=
  match c with
  | .baFree p => (live (.ba p)).isSome
  | .closeFd n => (live (.fd n)).isSome
  | .cuMemFree p => match live (.gpu .cu p) with
      | some ⟨.cuMemAlloc _, _, _⟩ | some ⟨.cuMemAllocManaged _ _, _, _⟩ => true
      | _ => false
  | .cuMemFreeHost p => match live (.gpu .cu p) with
      | some ⟨.cuMemHostAlloc _ _, _, _⟩ => true
      | _ => false
  | .zeMemFree ctx p | .zeMemFreeExt ctx _ p | .zeMakeResident ctx _ p _ => match live (.gpu .ze p) with
      | some i => allocInB ctx i.call
      | none => false
  | _ => true

theorem validB_sound {live : Rsrc → Option Info} {c : Call} (h : validB live c = true) : c.Valid live := by
  cases c <;> simp only [validB] at h <;> try trivial
  case baFree p => exact Option.isSome_iff_exists.1 h
  case closeFd p => exact Option.isSome_iff_exists.1 h
  case cuMemFree p =>
    split at h
    · next s _ _ hl => exact ⟨_, hl, .inl ⟨s, rfl⟩⟩
    · next s f _ _ hl => exact ⟨_, hl, .inr ⟨s, f, rfl⟩⟩
    · cases h
  case cuMemFreeHost p =>
    split at h
    · next s f _ _ hl => exact ⟨_, hl, s, f, rfl⟩
    · cases h
  all_goals
    split at h
    · next i hl => exact ⟨i, hl, allocInB_sound h⟩
    · cases h

def nonNullB : Rsrc → Bool
  | .gpu _ a => a != 0
  | .ba a => a != 0
  | .fd _ => true

def alignB (c : Call) (v : Nat) : Bool :=
  match c with
  | .zeMemAllocHost _ _ a | .zeMemAllocDevice _ _ _ _ _ a | .zeMemAllocShared _ _ _ _ _ a => a == 0 || v % a == 0
  | _ => true

def answerB (live : Rsrc → Option Info) (cur pid : Nat) (c : Call) (r : Resp) : Bool :=
  (r.err != 0 || ((match c.makes r with
      | some x => (live x).isNone && nonNullB x
      | none => true) && alignB c r.val)) &&
  (!decide (c = .cuCtxGetCurrent) || (r.err != 0 || r.val == cur)) &&
  (!decide (c = .getpid) || (r.err == 0 && r.val == pid))

theorem alignB_sound {c : Call} {v : Nat} (h : alignB c v = true) : c.alignOk v := by
  cases c <;> simp only [alignB] at h <;> try trivial
  all_goals
    intro ha
    simp only [Bool.or_eq_true, beq_iff_eq, ha, false_or] at h
    exact Nat.dvd_of_mod_eq_zero h

theorem answerB_sound {live : Rsrc → Option Info} {cur pid : Nat} {c : Call} {r : Resp}
    (h : answerB live cur pid c r = true) : c.Answer live cur pid r := by
  unfold answerB at h
  simp only [Bool.and_eq_true, Bool.or_eq_true, bne_iff_ne, ne_eq, Bool.not_eq_true', decide_eq_false_iff_not,
    beq_iff_eq] at h
  obtain ⟨⟨h1, h2⟩, h3⟩ := h
  refine ⟨fun he => ?_, fun hc he => ?_, fun hc => ?_⟩
  · rcases h1 with h1 | ⟨h1, h4⟩
    · exact absurd he h1
    refine ⟨fun x hx => ?_, alignB_sound h4⟩
    rw [hx] at h1
    simp only [Bool.and_eq_true, Option.isNone_iff_eq_none] at h1
    refine ⟨h1.1, ?_⟩
    have := h1.2
    cases x <;> simp_all [nonNullB, Rsrc.NonNull]
  · rcases h2 with h2 | h2 | h2
    · exact absurd hc h2
    · exact absurd he h2
    · exact h2
  · rcases h3 with h3 | h3
    · exact absurd hc h3
    · exact h3

/-- The start of a call. -/
def St.begin (s : St) (E : Env) (t : Tid) (op : Op) : St :=
  { s with
    th := update s.th t (some ⟨op, op.prog E, s.held, []⟩)
    held := fun x => if x ∈ op.takes then none else s.held x }

/-- One step of a thread; an answer that is not possible changes nothing. -/
def St.go (s : St) (t : Tid) (r : Resp) : St :=
  match s.th t with
  | none => s
  | some th =>
    match th.prog with
    | .ub => s
    | .call c k =>
      if validB s.drv.live c && answerB s.drv.live (s.drv.cur t) s.drv.pid c r then
        { s with
          drv := { s.drv with
            live := c.liveAfter s.drv.live (s.drv.cur t) r
            cur := update s.drv.cur t (c.curAfter (s.drv.cur t) r) }
          th := update s.th t (some { th with
            prog := k r
            refused := if r.err = 0 then th.refused else (c, r.err) :: th.refused })
          lost := update s.lost t
            (s.lost t || (c.isCtx && decide (r.err ≠ 0) && decide (s.drv.cur t ≠ s.user t)))
          refused := if r.err = 0 then s.refused else (c, r.err) :: s.refused }
      else s
    | .store b e k =>
      { s with
        th := update s.th t (some { th with prog := k })
        tls := update s.tls t (update (s.tls t) b e) }
    | .ret o =>
      { s with
        th := update s.th t none
        held := fun x =>
          if x ∈ th.op.gives o then some (th.op, o)
          else if o.res ≠ .success ∧ x ∈ th.op.takes then th.saved x
          else s.held x
        last := update s.last t (some (th.op, o, th.refused)) }

/-- Steps of a thread, one answer for each. -/
def St.run (s : St) (t : Tid) : List Resp → St
  | [] => s
  | r :: rs => (s.go t r).run t rs

theorem Reach.begin {E : Env} {s : St} (h : Reach E s) {t : Tid} {op : Op} (ht : s.th t = none) (hl : Legal s op) :
    Reach E (s.begin E t op) := .step h (.start t op ht hl)

theorem Reach.go {E : Env} {s : St} (h : Reach E s) (t : Tid) (r : Resp) : Reach E (s.go t r) := by
  unfold St.go
  split
  · exact h
  next th ht =>
  split
  · exact h
  · next c k hp =>
    split
    · next hv =>
      rw [Bool.and_eq_true] at hv
      exact .step h (.call t th c k r ht hp (validB_sound hv.1) (answerB_sound hv.2))
    · exact h
  · next b e k hp => exact .step h (.store t th b e k ht hp)
  · next o hp => exact .step h (.ret t th o ht hp)

theorem Reach.run {E : Env} : ∀ {rs : List Resp} {s : St}, Reach E s → ∀ t, Reach E (s.run t rs)
  | [], _, h, _ => h
  | r :: _, _, h, t => (h.go t r).run t

/-- Nothing was made yet. -/
def start0 (pid : Nat) : St :=
  { drv := { live := fun _ => none, cur := fun _ => 0, pid := pid }
    th := fun _ => none, tls := fun _ _ => 0, user := fun _ => 0, lost := fun _ => false
    held := fun _ => none, last := fun _ => none, refused := [] }

theorem start0_reach {E : Env} {pid : Nat} : Reach E (start0 pid) :=
  .init ⟨fun _ => rfl, fun _ => rfl, fun _ => rfl, fun _ => rfl, fun _ => rfl, rfl⟩

end Verif.Gpu
