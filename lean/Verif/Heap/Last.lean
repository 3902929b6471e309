import Verif.Heap.Start

/-!
# The last call of each thread, and its error
-/
namespace Verif.Heap
open Function (update)

variable {cfg : Cfg} {s s' : St} {G : Gh} {t : Tid} {f f' : Frame}

structure LastOk (s : St) : Prop where
  last : ∀ t f, s.last t = some f → (∀ fr, s.th t = some fr → fr.op.isLastError = true) →
    ∃ o, f.prog = .ret o ∧ ErrOk f o (s.tls t)
  asking : ∀ t fr g p, s.th t = some fr → fr.op = .lastError g p →
    fr.prog = fr.op.prog ∨ fr.prog = .ret { res := s.tls t (.alloc g) }

theorem LastOk.not_asking (h : LastOk s) (ht : s.th t = some f)
    (h1 : ∀ g p, f.prog ≠ (Op.lastError g p).prog) (h2 : ∀ o, f.prog ≠ .ret o) : f.op.isLastError = false := by
  cases hop : f.op <;> try rfl
  case lastError g p =>
    rcases h.asking t f g p ht hop with h3 | h3
    · rw [hop] at h3; exact absurd h3 (h1 g p)
    · exact absurd h3 (h2 _)

theorem LastOk.advance (h : LastOk s) (ht : s.th t = some f) (hl : f.op.isLastError = false)
    (hth : s'.th = update s.th t (some f')) (hop : f'.op = f.op) (htls : ∀ t', t' ≠ t → s'.tls t' = s.tls t')
    (hlast : s'.last = s.last) : LastOk s' := by
  constructor
  · intro t' g hg hn
    rw [hlast] at hg
    by_cases e : t' = t
    · subst e
      have := hn f' (by rw [hth]; simp)
      rw [hop, hl] at this
      cases this
    · rw [htls t' e]
      refine h.last t' g hg fun fr hfr => hn fr ?_
      rw [hth, Function.update_of_ne e]
      exact hfr
  · intro t' fr g p hfr ho
    by_cases e : t' = t
    · subst e
      rw [hth] at hfr
      simp only [Function.update_self, Option.some.injEq] at hfr
      subst hfr
      rw [← hop, ho] at hl
      cases hl
    · rw [hth, Function.update_of_ne e] at hfr
      rw [htls t' e]
      exact h.asking t' fr g p hfr ho

theorem ret_err (hi : Inv cfg s G) (ht : s.th t = some f) {o : Out} (hp : f.prog = .ret o) :
    ErrOk f o (s.tls t) ∧ FreeOk f o := by
  obtain ⟨pv, src, own0, zero, f0, h1, h2, h3, h4, h5, h6, h7⟩ := (hi.th t f ht).prog
  rw [hp] at h7
  obtain ⟨q1, q2, _⟩ := h7
  refine ⟨fun hf => ?_, fun p ptr hop hr hn => ?_⟩
  · have := q1 (by dsimp only; rw [h2]; exact hf)
    dsimp only at this
    rw [h2] at this
    exact this
  · have := q2 p ptr (by dsimp only; rw [h2]; exact hop) hr hn
    exact this

theorem lastOk_step (hi : Inv cfg s G) (h : LastOk s) (hs : Step cfg s s') : LastOk s' := by
  cases hs with
  | start t op h1 h2 =>
    constructor
    · intro t' g hg hn
      by_cases e : t' = t
      · subst e
        exact h.last t' g hg fun fr hfr => by rw [h1] at hfr; cases hfr
      · refine h.last t' g hg fun fr hfr => hn fr ?_
        show update s.th t _ t' = _
        rw [Function.update_of_ne e]
        exact hfr
    · intro t' fr g p hfr ho
      have hfr : update s.th t _ t' = some fr := hfr
      by_cases e : t' = t
      · subst e
        simp only [Function.update_self, Option.some.injEq] at hfr
        subst hfr
        exact .inl rfl
      · rw [Function.update_of_ne e] at hfr
        exact h.asking t' fr g p hfr ho
  | call t f c k r h1 h2 h3 h4 h5 =>
    have hl := h.not_asking h1 (by rw [h2]; intro g p hh; cases hh) (by rw [h2]; intro o hh; cases hh)
    exact h.advance h1 hl rfl rfl (fun _ _ => rfl) rfl
  | hook t f c k hk l o tls h1 h2 h3 h4 =>
    have hl := h.not_asking h1 (by rw [h2]; intro g p hh; cases hh) (by rw [h2]; intro o hh; cases hh)
    exact h.advance h1 hl rfl rfl (fun _ e => Function.update_of_ne e _ _) rfl
  | nested t f c k tls h1 h2 =>
    have hl := h.not_asking h1 (by rw [h2]; intro g p hh; cases hh) (by rw [h2]; intro o hh; cases hh)
    exact h.advance h1 hl rfl rfl (fun _ e => Function.update_of_ne e _ _) rfl
  | write mem h1 => exact ⟨h.last, h.asking⟩
  | setTls t f v e k h1 h2 =>
    have hl := h.not_asking h1 (by rw [h2]; intro g p hh; cases hh) (by rw [h2]; intro o hh; cases hh)
    exact h.advance h1 hl rfl rfl (fun _ e => Function.update_of_ne e _ _) rfl
  | getTls t f v k h1 h2 =>
    by_cases hl : f.op.isLastError = true
    · constructor
      · intro t' g hg hn
        refine h.last t' g hg fun fr hfr => ?_
        by_cases e : t' = t
        · subst e
          rw [h1] at hfr
          cases hfr
          exact hl
        · refine hn fr ?_
          show update s.th t _ t' = _
          rw [Function.update_of_ne e]
          exact hfr
      · intro t' fr g p hfr ho
        have hfr : update s.th t _ t' = some fr := hfr
        by_cases e : t' = t
        · subst e
          simp only [Function.update_self, Option.some.injEq] at hfr
          subst hfr
          have ho : f.op = .lastError g p := ho
          rcases h.asking t' f g p h1 ho with h3 | h3
          · right
            rw [h2, ho] at h3
            simp only [Op.prog, Prog.getTls.injEq] at h3
            rw [h3.1, h3.2]
          · rw [h2] at h3; cases h3
        · rw [Function.update_of_ne e] at hfr
          exact h.asking t' fr g p hfr ho
    · exact h.advance h1 (by simpa using hl) rfl rfl (fun _ _ => rfl) rfl
  | noRec t f k h1 h2 =>
    have hl := h.not_asking h1 (by rw [h2]; intro g p hh; cases hh) (by rw [h2]; intro o hh; cases hh)
    exact h.advance h1 hl rfl rfl (fun _ _ => rfl) rfl
  | newRec t f k p g h1 h2 h3 h4 =>
    have hl := h.not_asking h1 (by rw [h2]; intro g p hh; cases hh) (by rw [h2]; intro o hh; cases hh)
    exact h.advance h1 hl rfl rfl (fun _ _ => rfl) rfl
  | setRec t f p r k h1 h2 =>
    have hl := h.not_asking h1 (by rw [h2]; intro g p hh; cases hh) (by rw [h2]; intro o hh; cases hh)
    exact h.advance h1 hl rfl rfl (fun _ _ => rfl) rfl
  | getRec t f p r k h1 h2 h3 =>
    have hl := h.not_asking h1 (by rw [h2]; intro g p hh; cases hh) (by rw [h2]; intro o hh; cases hh)
    exact h.advance h1 hl rfl rfl (fun _ _ => rfl) rfl
  | freeRec t f p k h1 h2 =>
    have hl := h.not_asking h1 (by rw [h2]; intro g p hh; cases hh) (by rw [h2]; intro o hh; cases hh)
    exact h.advance h1 hl rfl rfl (fun _ _ => rfl) rfl
  | setTab t f a v k h1 h2 =>
    have hl := h.not_asking h1 (by rw [h2]; intro g p hh; cases hh) (by rw [h2]; intro o hh; cases hh)
    exact h.advance h1 hl rfl rfl (fun _ _ => rfl) rfl
  | ret t f o h1 h2 =>
    constructor
    · intro t' g hg hn
      have hg : (if f.op.isLastError then s.last else update s.last t (some f)) t' = some g := hg
      have hn : ∀ fr, update s.th t none t' = some fr → _ := hn
      by_cases e : t' = t
      · subst e
        split at hg
        · next hl =>
          refine h.last t' g hg fun fr hfr => ?_
          rw [h1] at hfr
          cases hfr
          exact hl
        · simp only [Function.update_self, Option.some.injEq] at hg
          subst hg
          exact ⟨o, h2, (ret_err hi h1 h2).1⟩
      · refine h.last t' g ?_ fun fr hfr => hn fr ?_
        · split at hg
          · exact hg
          · rw [Function.update_of_ne e] at hg; exact hg
        · rw [Function.update_of_ne e]; exact hfr
    · intro t' fr g p hfr ho
      have hfr : update s.th t none t' = some fr := hfr
      by_cases e : t' = t
      · subst e
        simp at hfr
      · rw [Function.update_of_ne e] at hfr
        exact h.asking t' fr g p hfr ho

theorem reach_last (hcalm : cfg.calm = true) (hsa : cfg.someAlign = true) (h : Reach cfg s) : LastOk s := by
  induction h with
  | init h =>
    obtain ⟨h1, h2, h3, h4, h5, h6, h7, h8, h9⟩ := h
    constructor
    · intro t f hf; rw [h9] at hf; cases hf
    · intro t f g p hf; rw [h8] at hf; cases hf
  | step hr hs ih =>
    obtain ⟨G, hG⟩ := reach_inv hcalm hsa hr
    exact lastOk_step hG ih hs

end Verif.Heap
