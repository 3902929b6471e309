import Verif.IpcExp.Bound

/-! # A call that is refused nothing -/
namespace Verif.IpcExp

/-- The places where a call is that was refused nothing. -/
def Fine (x : Nat) : Pc → Prop
  | .lookup y => y = x
  | .size1 y _ _ => y = x
  | .alloc1 y _ _ _ => y = x
  | .look g => g.x = x
  | .size2 g => g.x = x
  | .alloc2 g _ => g.x = x
  | .upget g _ _ => g.x = x
  | .fill g _ _ _ => g.x = x
  | .ins g _ => g.x = x
  | .put g _ full => g.x = x ∧ full = false
  | .freeV g _ r => g.x = x ∧ r = none
  | .copy g _ => g.x = x
  | .done y r => y = x ∧ ∃ d, r = .handle d
  | _ => False

theorem Fine.call {x : Nat} {p : Pc} (h : Fine x p) : Verif.IpcExp.call p = .get x := by
  cases p <;> simp_all [Fine, Verif.IpcExp.call]

theorem find_some (regs : List (Nat × Nat)) (x b sz : Nat) (h : (b, sz) ∈ regs) (hx : Within x b sz) :
    ∃ r, find regs x = some r := by
  have : (find regs x).isSome = true := by
    unfold find
    rw [List.find?_isSome]
    exact ⟨(b, sz), h, by simp only [decide_eq_true_eq]; exact hx⟩
  exact Option.isSome_iff_exists.1 this

theorem Fine.step (x : Nat) (s : St) (t n : Nat) (h : Fine x (s.pc t)) (hr : ∃ b sz, (b, sz) ∈ s.regs ∧ Within x b sz) :
    Fine x ((step s t (.yes n)).pc t) := by
  have hg : ∀ (s : St) p, (s.to t p).pc t = p := fun s p => by simp [St.to, upd]
  cases e : s.pc t <;> rw [e] at h <;> simp only [Fine] at h <;> simp only [Verif.IpcExp.step, e]
  case lookup y =>
    obtain ⟨b, sz, h1, h2⟩ := hr
    obtain ⟨⟨b', sz'⟩, h3⟩ := find_some s.regs x b sz h1 h2
    subst h
    rw [h3]
    dsimp only
    rw [hg]
    rfl
  case look g => split <;> rw [hg] <;> exact h
  case ins g v => split <;> rw [hg] <;> simp [Fine, h]
  case put g v full =>
    obtain ⟨h1, rfl⟩ := h
    rw [hg]
    exact ⟨h1, rfl⟩
  case freeV g v r =>
    obtain ⟨h1, rfl⟩ := h
    dsimp only
    rw [hg]
    exact h1
  case copy g v => rw [hg]; exact ⟨h, _, rfl⟩
  case done y r => exact h
  all_goals rw [hg]; exact h

theorem step_regs_keep (x : Nat) (s : St) (u t : Nat) (a : Ans) (hi : InvR s) (hc : call (s.pc t) = .get x)
    (hr : ∃ b sz, (b, sz) ∈ s.regs ∧ Within x b sz) : ∃ b sz, (b, sz) ∈ (step s u a).regs ∧ Within x b sz := by
  obtain ⟨b, sz, h1, h2⟩ := hr
  have key : (b, sz) ∈ (step s u a).regs := by
    cases e : s.pc u <;> simp only [step, e]
    case free0 b' sz' =>
      have h3 := hi.excl t u x b' sz' hc (by rw [e]; rfl)
      have h4 := hi.f0 u b' sz' e
      simp only [St.to, List.mem_filter, decide_eq_true_eq]
      refine ⟨h1, fun eb => ?_⟩
      subst eb
      rw [hi.one s b sz sz' h1 h4] at h2
      exact h3 h2
    case freeAdd b' sz' c => cases a <;> simp [St.to, h1]
    case fill g v len u' => exact (fillV_frame s v len u').1 ▸ h1
    case copy g v => exact (copyV_frame s g v).1 ▸ h1
    case freeD g r => exact (gfree_frame s g.d).1 ▸ h1
    case freePut b' sz' v => exact (uput_frame s v).1 ▸ h1
    case freeVal b' sz' v => exact (gfree_frame s v).1 ▸ h1
    case put g v full => cases a <;> exact (uput_frame s v).1 ▸ h1
    case freeV g v r => cases r <;> exact (gfree_frame s v).1 ▸ h1
    all_goals first | exact h1 | (split <;> first | exact h1 | (split <;> exact h1))
  exact ⟨b, sz, key, h2⟩

theorem Granted.ok {L t x : Nat} {w : World} (h : Granted L t x w) :
    Reach L w ∧ (∃ b sz, (b, sz) ∈ w.s.regs ∧ Within x b sz) ∧ Fine x (w.s.pc t) := by
  induction h with
  | call w b sz h hi hr hx hf =>
    refine ⟨Reach.next _ _ _ h (Next.callGet w t x hi hf), ⟨b, sz, hr, hx⟩, ?_⟩
    have : (w.s.to t (.lookup x)).pc t = .lookup x := by simp [St.to, upd]
    dsimp only
    rw [this]
    rfl
  | own w n _ he ih =>
    obtain ⟨h1, h2, h3⟩ := ih
    exact ⟨Reach.next _ _ _ h1 (Next.step w t _ he), step_regs_keep x w.s t t _ h1.inv.1 h3.call h2, h3.step x w.s t n h2⟩
  | other w w' l _ hn hl ih =>
    obtain ⟨h1, h2, h3⟩ := ih
    refine ⟨Reach.next _ _ _ h1 hn, ?_, by rw [(rank_other L w w' l t h1.inv.1 hn hl).1]; exact h3⟩
    cases hn with
    | alloc _ b sz hsz hr' hf =>
      obtain ⟨b', sz', h4, h5⟩ := h2
      exact ⟨b', sz', List.mem_cons_of_mem _ h4, h5⟩
    | callGet _ u y hi hf => exact h2
    | retHandle _ u y d hh hp ho => exact h2
    | retError _ u y r hp h' => exact h2
    | callFree _ u b sz hi hr' hg hf => exact h2
    | retFree _ u b sz r hp => exact h2
    | put _ d hd =>
      have : (putHandle w.s d).regs = w.s.regs := (gfree_frame w.s d).1
      dsimp only
      rw [this]
      exact h2
    | step _ u a he => exact step_regs_keep x w.s u t a h1.inv.1 h3.call h2

end Verif.IpcExp
