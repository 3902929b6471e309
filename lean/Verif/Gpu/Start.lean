import Verif.Gpu.Inv

/-! # Starting a call keeps the invariant; all reachable states have it -/
namespace Verif.Gpu
open Function (update)

variable {E : Env} {s : St} {own : Tid → Rsrc → Option Info}

theorem takes_held {op : Op} (hl : Legal s op) {x : Rsrc} (hx : x ∈ op.takes) : ∃ g, s.held x = some g := by
  cases op <;> simp only [Op.takes, List.not_mem_nil] at hx
  case paramsDestroy q =>
    split at hx
    · simp at hx
    · next hq =>
      simp only [List.mem_singleton] at hx
      subst hx
      obtain ⟨o, h | h⟩ := hl.params q rfl hq <;> exact ⟨_, h⟩
  case cuDestroy p =>
    simp only [List.mem_singleton] at hx
    subst hx
    obtain ⟨P, o, h, _⟩ := hl.cu p rfl
    exact ⟨_, h⟩
  case cuFree p q =>
    split at hx
    · simp at hx
    · next hq =>
      simp only [List.mem_singleton] at hx
      subst hx
      obtain ⟨n, a, o, h⟩ := hl.cuFree p q rfl hq
      exact ⟨_, h⟩
  case zeDestroy p =>
    obtain ⟨P, o, h, _, h2⟩ := hl.ze p rfl
    split at hx
    · simp only [List.mem_singleton] at hx
      subst hx
      exact ⟨_, h⟩
    · next h0 =>
      simp only [List.mem_cons, List.not_mem_nil, or_false] at hx
      rcases hx with rfl | rfl
      · exact ⟨_, h⟩
      · exact ⟨_, h2 h0⟩
  case zeFree p q =>
    split at hx
    · simp at hx
    · next hq =>
      simp only [List.mem_singleton] at hx
      subst hx
      obtain ⟨n, a, o, h⟩ := hl.zeFree p q rfl hq
      exact ⟨_, h⟩

/-- The resources a thread owns when it starts a call. -/
def startOwn (s : St) (op : Op) : Rsrc → Option Info := fun x => if x ∈ op.takes then s.drv.live x else none

/-- Every call keeps its promises from the start. -/
theorem start_wp (h : Inv E s own) {op : Op} (hl : Legal s op) {t : Tid} (ht : s.th t = none) :
    wp s.drv.pid op (Post E op (startOwn s op)) (op.prog E)
      { own := startOwn s op, cur := s.drv.cur t, user := s.user t, lost := s.lost t, tls := s.tls t,
        refused := [] } := by
  have hctx : s.lost t = false → s.drv.cur t = s.user t := h.idleCtx t ht
  have hcuT : ∀ p, op.cuProv = some p → p.type = 1 ∨ p.type = 2 ∨ p.type = 3 := by
    intro p hp
    obtain ⟨P, o, h1, h2⟩ := hl.cu p hp
    obtain ⟨i, _, Q, p', _, h4, h5⟩ := h.held _ _ h1
    dsimp only at h4
    rw [h2] at h4
    cases h4
    rw [h5.2.2.1]
    exact h5.2.2.2.1
  have hzeT : ∀ p, op.zeProv = some p →
      (p.type = 1 ∨ p.type = 2 ∨ p.type = 3) ∧ p.addr ≠ p.resAddr := by
    intro p hp
    obtain ⟨P, o, h1, h2, _⟩ := hl.ze p hp
    obtain ⟨i, _, Q, p', _, h4, h5, h6⟩ := h.held _ _ h1
    dsimp only at h4
    rw [h2] at h4
    cases h4
    refine ⟨?_, h6⟩
    rw [h5.2.2.1]
    rcases h5.2.2.2.2.2.1 with h | ⟨h, _⟩
    · exact .inl h.1
    · exact .inr h
  suffices hs : ∀ l : L, l.own = startOwn s op → (l.lost = false → l.cur = l.user) → l.refused = [] →
      wp s.drv.pid op (Post E op l.own) (op.prog E) l from
    hs ⟨startOwn s op, s.drv.cur t, s.user t, s.lost t, s.tls t, []⟩ rfl hctx rfl
  clear hctx
  intro l hown hctx href
  cases op with
  | cuParamsCreate => exact cuParamsCreate_ok (l := l) (fun x => by rw [hown]; simp [startOwn, Op.takes]) hctx
  | zeParamsCreate => exact zeParamsCreate_ok (l := l) (fun x => by rw [hown]; simp [startOwn, Op.takes]) hctx
  | paramsDestroy q =>
    by_cases hq : q = 0
    · exact paramsDestroy_ok (i := ⟨.getpid, 0, []⟩) (l := l) (fun x => by rw [hown]; simp [startOwn, Op.takes, hq]) hctx
    · obtain ⟨g, hg⟩ := takes_held hl (x := .ba q) (by simp [Op.takes, hq])
      obtain ⟨i, hi, _⟩ := h.held _ _ hg
      refine paramsDestroy_ok (i := i) (l := l) (fun x => ?_) hctx
      rw [hown]
      unfold startOwn
      simp only [Op.takes, hq, if_false, List.mem_singleton, ne_eq, not_false_iff, true_and]
      split <;> simp_all
  | cuCreate P => exact cuCreate_ok (l := l) (fun x => by rw [hown]; simp [startOwn, Op.takes]) hctx href
  | cuDestroy p =>
    obtain ⟨g, hg⟩ := takes_held hl (x := .ba p.addr) (by simp [Op.takes])
    obtain ⟨i, hi, _⟩ := h.held _ _ hg
    refine cuDestroy_ok (i := i) (l := l) (fun x => ?_) hctx
    rw [hown]
    unfold startOwn
    simp only [Op.takes, List.mem_singleton]
    split <;> simp_all
  | cuAlloc p n a => exact cuAlloc_ok (hcuT p rfl) (l := l) (fun x => by rw [hown]; simp [startOwn, Op.takes]) hctx href
  | cuFree p q =>
    by_cases hq : q = 0
    · exact cuFree_ok (i := ⟨.getpid, 0, []⟩) (n := 0) (a := 0)
        (l := l) (fun x => by rw [hown]; simp [startOwn, Op.takes, hq]) (fun h => absurd hq h) hctx href
    · obtain ⟨n, a, o, hg⟩ := hl.cuFree p q rfl hq
      obtain ⟨i, hi, hf⟩ := h.held _ _ hg
      obtain ⟨addr, he, _, hf⟩ := hf
      cases he
      refine cuFree_ok (i := i) (n := n) (a := a) (l := l) (fun x => ?_) (fun _ => hf) hctx href
      rw [hown]
      unfold startOwn
      simp only [Op.takes, hq, if_false, List.mem_singleton, ne_eq, not_false_iff, true_and]
      split <;> simp_all
  | cuPageSize p r => exact cuPageSize_ok (l := l) (fun x => by rw [hown]; simp [startOwn, Op.takes]) hctx
  | cuIpcGet p q => exact cuIpcGet_ok (l := l) (fun x => by rw [hown]; simp [startOwn, Op.takes]) hctx
  | cuIpcOpen p q => exact cuIpcOpen_ok (l := l) (fun x => by rw [hown]; simp [startOwn, Op.takes]) hctx href
  | cuIpcClose p q => exact cuIpcClose_ok (l := l) (fun x => by rw [hown]; simp [startOwn, Op.takes]) hctx
  | zeCreate P =>
    refine zeCreate_ok (l := l) (fun x => by rw [hown]; simp [startOwn, Op.takes]) hctx ?_
    rintro Q d rfl hd
    exact hl.resident Q d rfl hd
  | zeDestroy p =>
    obtain ⟨g, hg⟩ := takes_held hl (x := .ba p.addr) (by simp only [Op.takes]; split <;> simp)
    obtain ⟨i, hi, _⟩ := h.held _ _ hg
    by_cases h0 : p.resAddr = 0
    · refine zeDestroy_ok (i := i) (j := i) (l := l) (fun x => ?_) (hzeT p rfl).2 hctx
      rw [hown]
      unfold startOwn
      simp only [Op.takes, h0, if_true, List.mem_singleton, ne_eq, not_true_eq_false, false_and, if_false]
      split <;> simp_all
    · obtain ⟨g', hg'⟩ := takes_held hl (x := .ba p.resAddr) (by simp [Op.takes, h0])
      obtain ⟨j, hj, _⟩ := h.held _ _ hg'
      refine zeDestroy_ok (i := i) (j := j) (l := l) (fun x => ?_) (hzeT p rfl).2 hctx
      rw [hown]
      unfold startOwn
      simp only [Op.takes, h0, if_false, List.mem_cons, List.not_mem_nil, or_false, ne_eq, not_false_iff, true_and]
      by_cases hx1 : x = .ba p.addr
      · rw [if_pos (.inl hx1), if_pos hx1, hx1]
        exact hi
      · by_cases hx2 : x = .ba p.resAddr
        · rw [if_pos (.inr hx2), if_neg hx1, if_pos hx2, hx2]
          exact hj
        · rw [if_neg (by rintro (h | h) <;> contradiction), if_neg hx1, if_neg hx2]
  | zeAlloc p n a => exact zeAlloc_ok (hzeT p rfl).1 (l := l) (fun x => by rw [hown]; simp [startOwn, Op.takes]) hctx
  | zeFree p q =>
    by_cases hq : q = 0
    · exact zeFree_ok (i := ⟨.getpid, 0, []⟩) (n := 0) (a := 0)
        (l := l) (fun x => by rw [hown]; simp [startOwn, Op.takes, hq]) (fun h => absurd hq h) hctx
    · obtain ⟨n, a, o, hg⟩ := hl.zeFree p q rfl hq
      obtain ⟨i, hi, hf⟩ := h.held _ _ hg
      obtain ⟨addr, he, _, hf⟩ := hf
      cases he
      refine zeFree_ok (i := i) (n := n) (a := a) (l := l) (fun x => ?_) (fun _ => hf) hctx
      rw [hown]
      unfold startOwn
      simp only [Op.takes, hq, if_false, List.mem_singleton, ne_eq, not_false_iff, true_and]
      split <;> simp_all
  | zePageSize p q => exact zePageSize_ok (l := l) (fun x => by rw [hown]; simp [startOwn, Op.takes]) hctx
  | zeIpcGet p q => exact zeIpcGet_ok (l := l) (fun x => by rw [hown]; simp [startOwn, Op.takes]) hctx
  | zeIpcPut p d => exact zeIpcPut_ok (l := l) (fun x => by rw [hown]; simp [startOwn, Op.takes]) hctx
  | zeIpcOpen p d => exact zeIpcOpen_ok (l := l) (fun x => by rw [hown]; simp [startOwn, Op.takes]) hctx
  | zeIpcClose p q => exact zeIpcClose_ok (l := l) (fun x => by rw [hown]; simp [startOwn, Op.takes]) hctx

theorem Inv.start (h : Inv E s own) {t : Tid} {op : Op} (ht : s.th t = none) (hl : Legal s op) :
    Inv E { s with
        th := update s.th t (some ⟨op, op.prog E, s.held, []⟩)
        held := fun x => if x ∈ op.takes then none else s.held x } (update own t (startOwn s op)) := by
  have hmine : ∀ x i, startOwn s op x = some i → x ∈ op.takes ∧ s.drv.live x = some i := by
    intro x i hx
    unfold startOwn at hx
    split at hx
    · next h => exact ⟨h, hx⟩
    · cases hx
  have hfree : ∀ x, x ∈ op.takes → ∀ t' j, own t' x = some j → False := by
    intro x hx t' j hj
    obtain ⟨g, hg⟩ := takes_held hl hx
    rw [h.notHeld t' x j hj] at hg
    cases hg
  have hidle : ∀ {t' : Tid}, update s.th t (some ⟨op, op.prog E, s.held, []⟩) t' = none →
      t' ≠ t ∧ s.th t' = none := by
    intro t' h0
    have hn : t' ≠ t := by
      rintro rfl
      simp at h0
    exact ⟨hn, by simpa [hn] using h0⟩
  refine ⟨?_, ?_, ?_, ?_, ?_, ?_, ?_, ?_, ?_, ?_⟩
  · intro t' x i hx
    by_cases hn : t' = t
    · subst hn
      rw [Function.update_self] at hx
      exact (hmine x i hx).2
    · rw [Function.update_of_ne hn] at hx
      exact h.live t' x i hx
  · intro t' x i hx
    dsimp only
    by_cases hn : t' = t
    · subst hn
      rw [Function.update_self] at hx
      rw [if_pos (hmine x i hx).1]
    · rw [Function.update_of_ne hn] at hx
      split
      · rfl
      · exact h.notHeld t' x i hx
  · intro t1 t2 x i j h1 h2
    by_cases hn1 : t1 = t
    · by_cases hn2 : t2 = t
      · rw [hn1, hn2]
      · subst hn1
        rw [Function.update_self] at h1
        rw [Function.update_of_ne hn2] at h2
        exact (hfree x (hmine x i h1).1 t2 j h2).elim
    · rw [Function.update_of_ne hn1] at h1
      by_cases hn2 : t2 = t
      · subst hn2
        rw [Function.update_self] at h2
        exact (hfree x (hmine x j h2).1 t1 i h1).elim
      · rw [Function.update_of_ne hn2] at h2
        exact h.uniq t1 t2 x i j h1 h2
  · intro x g hg
    dsimp only at hg
    split at hg
    · cases hg
    · exact h.held x g hg
  · intro hcl hE x i hx
    have hx : s.drv.live x = some i := hx
    dsimp only
    by_cases hxt : x ∈ op.takes
    · exact .inr ⟨t, i, by rw [Function.update_self]; unfold startOwn; rw [if_pos hxt]; exact hx⟩
    · rw [if_neg hxt]
      rcases h.clean hcl hE x i hx with hg | ⟨t', j, hj⟩
      · exact .inl hg
      · have hn : t' ≠ t := by
          rintro rfl
          rw [h.idleOwn t' ht] at hj
          cases hj
        exact .inr ⟨t', j, by rw [Function.update_of_ne hn]; exact hj⟩
  · intro t' h0 x
    obtain ⟨hn, h1⟩ := hidle h0
    rw [Function.update_of_ne hn]
    exact h.idleOwn t' h1 x
  · intro t' h0 hc
    obtain ⟨hn, h1⟩ := hidle h0
    exact h.idleCtx t' h1 hc
  · intro t' th' hth
    by_cases hn : t' = t
    · subst hn
      simp only [Function.update_self, Option.some.injEq] at hth
      subst hth
      refine ⟨startOwn s op, ?_, ?_⟩
      · intro x hx
        obtain ⟨g, hg⟩ := takes_held hl hx
        obtain ⟨i, hi, hf⟩ := h.held x g hg
        exact ⟨g, i, hg, by unfold startOwn; rw [if_pos hx]; exact hi, hf⟩
      · have := start_wp h hl ht
        simp only [view, Function.update_self]
        exact this
    · simp only [update, hn, dite_false] at hth
      obtain ⟨own0', h1, h2⟩ := h.run t' th' hth
      refine ⟨own0', h1, ?_⟩
      rw [view_congr (s := s) (own := own)] <;> simp [hn]
      exact h2
  · intro t' th' hth y hy
    by_cases hn : t' = t
    · subst hn
      simp only [Function.update_self, Option.some.injEq] at hth
      subst hth
      simp at hy
    · simp only [update, hn, dite_false] at hth
      exact h.ref t' th' hth y hy
  · intro t' op' o rf h0 hla
    obtain ⟨hn, h1⟩ := hidle h0
    exact h.last t' op' o rf h1 hla

theorem Reach.inv (h : Reach E s) : ∃ own, Inv E s own := by
  induction h with
  | init h => exact ⟨_, Inv.init h⟩
  | step _ hs ih =>
    obtain ⟨own, ih⟩ := ih
    cases hs with
    | setCtx t c ht => exact ⟨_, ih.setCtx ht⟩
    | start t op ht hl => exact ⟨_, ih.start ht hl⟩
    | call t th c k r ht hp _ ha => exact ⟨_, ih.call ht hp ha⟩
    | store t th b e k ht hp => exact ⟨_, ih.store ht hp⟩
    | ret t th o ht hp => exact ⟨_, ih.ret ht hp⟩

end Verif.Gpu
