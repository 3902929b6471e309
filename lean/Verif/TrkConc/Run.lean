import Verif.TrkConc.Step2
/-!
# Lemmas for the tracker used by several threads: the invariant holds in every reachable state
-/
namespace Verif.TrkConc

theorem Core.congr {l : List (Nat × Addr)} {h : Addr → Info} {u : Addr → Bool} {live live' : List Rec} {C C' : Nat → List Rec}
    {B : Nat → List Addr} (hc : Core l h u live C B) (hr : ∀ r, Reg live' C' r ↔ Reg live C r) : Core l h u live' C' B where
  reg := fun r h => hc.reg r ((hr r).1 h)
  key := fun e he => by
    obtain ⟨r, h1, h2⟩ := hc.key e he
    exact ⟨r, (hr r).2 h1, h2⟩
  uniq := hc.uniq
  inj := hc.inj
  usedE := hc.usedE
  usedB := hc.usedB
  sep := hc.sep
  nd := hc.nd
  all := hc.all

theorem C_upd (st : St) (live : List Rec) (s : Sys) (t : Nat) (op : Op) (pc : Pc) :
    Sys.C ⟨st, live, upd s.thr t (some (op, pc))⟩ = upd s.C t (regs op pc) := by
  funext b
  unfold Sys.C
  by_cases e : b = t
  · subst e
    simp only [upd_same]
  · simp only [upd_ne _ _ e]

theorem B_upd (st : St) (live : List Rec) (s : Sys) (t : Nat) (op : Op) (pc : Pc) :
    Sys.B ⟨st, live, upd s.thr t (some (op, pc))⟩ = upd s.B t (blocks op pc) := by
  funext b
  unfold Sys.B
  by_cases e : b = t
  · subst e
    simp only [upd_same]
  · simp only [upd_ne _ _ e]

theorem C_upd0 (st : St) (live : List Rec) (s : Sys) (t : Nat) : Sys.C ⟨st, live, upd s.thr t none⟩ = upd s.C t [] := by
  funext b
  unfold Sys.C
  by_cases e : b = t
  · subst e
    simp only [upd_same]
  · simp only [upd_ne _ _ e]

theorem B_upd0 (st : St) (live : List Rec) (s : Sys) (t : Nat) : Sys.B ⟨st, live, upd s.thr t none⟩ = upd s.B t [] := by
  funext b
  unfold Sys.B
  by_cases e : b = t
  · subst e
    simp only [upd_same]
  · simp only [upd_ne _ _ e]

theorem ops_upd (st : St) (live : List Rec) (s : Sys) (t : Nat) (x : Option (Op × Pc)) :
    Sys.ops ⟨st, live, upd s.thr t x⟩ = upd s.ops t (x.map (·.1)) := by
  funext b
  unfold Sys.ops
  by_cases e : b = t
  · subst e
    simp only [upd_same]
  · simp only [upd_ne _ _ e]

theorem upd_self {α : Type} (f : Nat → α) {a : Nat} {x : α} (h : f a = x) : upd f a x = f := by
  funext b
  by_cases e : b = a
  · rw [e, upd_same, h]
  · rw [upd_ne _ _ e]

theorem ops_some {s : Sys} {t : Nat} {op : Op} (h : s.ops t = some op) : ∃ pc, s.thr t = some (op, pc) := by
  unfold Sys.ops at h
  cases e : s.thr t with
  | none => rw [e] at h; cases h
  | some x =>
    rw [e] at h
    cases h
    exact ⟨x.2, rfl⟩

theorem Apart.symm {p q : Rec} (h : Apart p q) : Apart q p := Or.symm h

theorem pairwise_mem {L : List Rec} (hp : L.Pairwise Apart) {p q : Rec} (h1 : p ∈ L) (h2 : q ∈ L) (hne : p ≠ q) : Apart p q := by
  induction hp with
  | nil => cases h1
  | cons hd _ ih =>
    rcases List.mem_cons.1 h1 with h1 | h1 <;> rcases List.mem_cons.1 h2 with h2 | h2
    · exact absurd (h1.trans h2.symm) hne
    · rw [h1]; exact hd _ h2
    · rw [h2]; exact (hd _ h1).symm
    · exact ih h1 h2

variable {s : Sys} {t : Nat} {op : Op} {pc pc' : Pc} {v : Ans} {st' : St}

theorem inv_move (hi : Inv s) (ht : s.thr t = some (op, pc)) (hv : Careful s t v) (hg : Good s t op pc v st' pc') :
    Inv ⟨st', s.live, upd s.thr t (some (op, pc'))⟩ := by
  have hO : Sys.ops ⟨st', s.live, upd s.thr t (some (op, pc'))⟩ = s.ops := by
    rw [ops_upd]
    exact upd_self _ (ops_eq ht)
  refine ⟨?_, hg.up, ?_, ?_, ?_⟩
  · rw [C_upd, B_upd]
    exact hg.core
  · rw [hO]
    exact hi.geo
  · intro t' op' pc2 h
    by_cases e : t' = t
    · subst e
      have h : upd s.thr t' _ t' = _ := h
      rw [upd_same] at h
      cases h
      exact hg.loc
    · have h : upd s.thr t _ t' = _ := h
      rw [upd_ne _ _ e] at h
      refine Loc.mono (hi.geo.fit t' op' (ops_eq h)) (hi.loc t' op' pc2 h) ?_ ?_ ?_
      · intro k a hk ha
        refine hg.keep _ ha ?_
        intro q hq
        show k < q.ptr ∨ q.ptr + q.size ≤ k
        rcases hk with ⟨q', g1, g2, g3⟩ | ⟨r, x, rfl, rfl⟩
        · have := hi.geo.spans t' t op' op q' q e (ops_eq h) (ops_eq ht) g1 hq
          unfold Apart at this
          omega
        · have g1 := hi.geo.seen t' r x (ops_eq h)
          have g2 := hi.geo.liveOk r g1
          have := hi.geo.spanLive t op q (ops_eq ht) hq r g1
          unfold Apart at this
          unfold Rec.Ok at g2
          omega
      · intro x hx
        exact hg.heap t' e x (by rw [Sys.B_eq h]; exact hx)
      · rintro lvl par k a rfl
        by_cases e2 : (st'.heap a).size = (s.st.heap a).size
        · exact e2
        · have := hg.size a e2
          subst this
          exact absurd h (hv t' op' lvl par k)
  · intro t'
    have hlk := hi.lock
    show st'.lock = some t' ↔ ∃ op2 pc2, upd s.thr t (some (op, pc')) t' = some (op2, pc2) ∧ inLock op2 pc2 = true
    by_cases e : t' = t
    · subst e
      simp only [upd_same]
      have h1 : (∃ op2 pc2, some (op, pc') = some (op2, pc2) ∧ inLock op2 pc2 = true) ↔ inLock op pc' = true := by
        constructor
        · rintro ⟨_, _, g, g'⟩
          cases g
          exact g'
        · exact fun g => ⟨_, _, rfl, g⟩
      rw [h1]
      have h2 : s.st.lock = some t' ↔ inLock op pc = true := by
        rw [hlk t', ht]
        constructor
        · rintro ⟨_, _, g, g'⟩
          cases g
          exact g'
        · exact fun g => ⟨_, _, rfl, g⟩
      rcases hg.lock with ⟨g1, g2⟩ | ⟨g1, g2, g3, g4⟩ | ⟨g1, g2, g3⟩
      · rw [g1, g2, h2]
      · simp [g2, g3]
      · simp [g2, g3]
    · rw [upd_ne _ _ e]
      rw [← hlk t']
      rcases hg.lock with ⟨g1, g2⟩ | ⟨g1, g2, g3, g4⟩ | ⟨g1, g2, g3⟩
      · rw [g1]
      · rw [g1, g2]
        constructor
        · intro g
          exact absurd (Option.some.inj g).symm e
        · intro g
          cases g
      · have g4 := (hlk t).2 ⟨op, pc, ht, g1⟩
        rw [g3, g4]
        constructor
        · intro g
          cases g
        · intro g
          exact absurd (Option.some.inj g).symm e

theorem span_ok {q : Rec} (hf : op.Fit) (hs : op.span = some q) : q.Ok := by
  cases op with
  | add r => cases hs; exact hf
  | remove r => cases hs; exact hf
  | split r f => cases hs; exact hf.1
  | merge l h =>
    cases hs
    obtain ⟨⟨_, _, _⟩, ⟨_, _, _⟩, _, _⟩ := hf
    refine ⟨?_, ?_, ?_⟩ <;> dsimp only <;> omega
  | look r x => cases hs

theorem apart_join {l h q : Rec} (hq : 0 < q.size) (hadj : l.ptr + l.size = h.ptr) (h1 : Apart l q) (h2 : Apart h q) :
    Apart ⟨l.ptr, l.size + h.size, l.pool⟩ q := by
  unfold Apart at *
  dsimp only
  omega

theorem start_regs (hl : Legal s op) (p : Rec) :
    (p ∈ s.live ∧ p ∉ op.takes) ∨ p ∈ regs op .start ↔ p ∈ s.live := by
  have hr : regs op .start = op.takes := by cases op <;> rfl
  rw [hr]
  constructor
  · rintro (⟨h, _⟩ | h)
    · exact h
    · cases op with
      | add r => cases h
      | look r x => cases h
      | remove r => rw [List.mem_singleton.1 h]; exact hl.1
      | split r f => rw [List.mem_singleton.1 h]; exact hl.1
      | merge l h' =>
        rcases List.mem_cons.1 h with e | e
        · rw [e]; exact hl.1
        · rw [List.mem_singleton.1 e]; exact hl.2.1
  · intro h
    by_cases e : p ∈ op.takes
    · exact Or.inr e
    · exact Or.inl ⟨h, e⟩

theorem inv_start (hi : Inv s) (ht : s.thr t = none) (hl : Legal s op) :
    Inv ⟨s.st, s.live.filter fun r => r ∉ op.takes, upd s.thr t (some (op, .start))⟩ := by
  have hC : s.C t = [] := by simp only [Sys.C, ht]
  have hB : s.B t = [] := by simp only [Sys.B, ht]
  have hb : blocks op .start = [] := rfl
  have hmem : ∀ p, p ∈ (s.live.filter fun r => r ∉ op.takes) ↔ p ∈ s.live ∧ p ∉ op.takes := by
    intro p
    simp [List.mem_filter]
  have hgeo := hi.geo
  have hfit : op.Fit := by
    cases op with
    | add r => exact hl.1
    | remove r => exact hgeo.liveOk r hl.1
    | split r f => exact ⟨hgeo.liveOk r hl.1, hl.2.2⟩
    | merge l h => exact ⟨hgeo.liveOk l hl.1, hgeo.liveOk h hl.2.1, hl.2.2.2.2⟩
    | look r x => exact ⟨hgeo.liveOk r hl.1, hl.2⟩
  -- the span of the new operation is apart from the regions that stay
  have hspan : ∀ q, op.span = some q → ∀ p ∈ s.live, p ∉ op.takes → Apart q p := by
    intro q hq p hp hnt
    have hpo := (hgeo.liveOk p hp).2.1
    cases op with
    | add r => cases hq; exact hl.2.1 p hp
    | remove r =>
      cases hq
      exact pairwise_mem hgeo.apart hl.1 hp (fun e => hnt (by rw [← e]; exact List.mem_singleton.2 rfl))
    | split r f =>
      cases hq
      exact pairwise_mem hgeo.apart hl.1 hp (fun e => hnt (by rw [← e]; exact List.mem_singleton.2 rfl))
    | merge l h =>
      cases hq
      refine apart_join hpo hl.2.2.2.2.1 ?_ ?_
      · exact pairwise_mem hgeo.apart hl.1 hp (fun e => hnt (by rw [← e]; exact List.mem_cons_self))
      · exact pairwise_mem hgeo.apart hl.2.1 hp (fun e => hnt (by rw [← e]; exact List.mem_cons_of_mem _ List.mem_cons_self))
    | look r x => cases hq
  -- and from the spans of the other operations
  have hspan2 : ∀ t' op' q q', s.ops t' = some op' → op.span = some q → op'.span = some q' → Apart q q' := by
    intro t' op' q q' ho hq hq'
    have hqo := (span_ok (hgeo.fit t' op' ho) hq').2.1
    have hlv : ∀ p ∈ s.live, Apart p q' := fun p hp => (hgeo.spanLive t' op' q' ho hq' p hp).symm
    cases op with
    | add r =>
      cases hq
      obtain ⟨pc, h⟩ := ops_some ho
      exact hl.2.2 t' op' pc q' h hq'
    | remove r => cases hq; exact hlv _ hl.1
    | split r f => cases hq; exact hlv _ hl.1
    | merge l h => cases hq; exact apart_join hqo hl.2.2.2.2.1 (hlv l hl.1) (hlv h hl.2.1)
    | look r x => cases hq
  have hO : ∀ t' op', upd s.ops t (some op) t' = some op' → (t' = t ∧ op' = op) ∨ (t' ≠ t ∧ s.ops t' = some op') := by
    intro t' op' h
    by_cases e : t' = t
    · subst e
      rw [upd_same] at h
      exact Or.inl ⟨rfl, (Option.some.inj h).symm⟩
    · rw [upd_ne _ _ e] at h
      exact Or.inr ⟨e, h⟩
  refine ⟨?_, hi.up, ?_, ?_, ?_⟩
  · rw [C_upd, B_upd, hb, upd_self _ hB]
    refine hi.core.congr ?_
    intro p
    rw [reg_upd, reg_split (t := t), hC, hmem]
    have := start_regs (s := s) hl p
    simp only [List.not_mem_nil, or_false]
    constructor
    · rintro ((h | h) | h)
      · exact Or.inl h.1
      · exact Or.inr h
      · exact Or.inl (this.1 (Or.inr h))
    · rintro (h | h)
      · rcases this.2 h with h | h
        · exact Or.inl (Or.inl h)
        · exact Or.inr h
      · exact Or.inl (Or.inr h)
  · rw [ops_upd]
    refine ⟨?_, ?_, ?_, ?_, ?_, ?_⟩
    · intro r hr
      exact hgeo.liveOk r ((hmem r).1 hr).1
    · exact hgeo.apart.filter _
    · intro t' op' h
      rcases hO t' op' h with ⟨rfl, rfl⟩ | ⟨_, h⟩
      · exact hfit
      · exact hgeo.fit t' op' h
    · intro t' op' q h hq r hr
      obtain ⟨h1, h2⟩ := (hmem r).1 hr
      rcases hO t' op' h with ⟨rfl, rfl⟩ | ⟨_, h⟩
      · exact hspan q hq r h1 h2
      · exact hgeo.spanLive t' op' q h hq r h1
    · intro t1 t2 op1 op2 q1 q2 hne h1 h2 g1 g2
      rcases hO t1 op1 h1 with ⟨rfl, rfl⟩ | ⟨_, k1⟩
      · rcases hO t2 op2 h2 with ⟨rfl, rfl⟩ | ⟨_, k2⟩
        · exact absurd rfl hne
        · exact hspan2 t2 op2 q1 q2 k2 g1 g2
      · rcases hO t2 op2 h2 with ⟨rfl, rfl⟩ | ⟨_, k2⟩
        · exact (hspan2 t1 op1 q2 q1 k1 g2 g1).symm
        · exact hgeo.spans t1 t2 op1 op2 q1 q2 hne k1 k2 g1 g2
    · intro t' r x h
      rcases hO t' _ h with ⟨rfl, e⟩ | ⟨_, h⟩
      · subst e
        exact (hmem r).2 ⟨hl.1, fun h => (nomatch h)⟩
      · refine (hmem r).2 ⟨hgeo.seen t' r x h, ?_⟩
        intro hin
        obtain ⟨pc, hp⟩ := ops_some h
        cases op with
        | add r' => cases hin
        | look r' x' => cases hin
        | remove r' => rw [List.mem_singleton.1 hin] at hp; exact hl.2 t' x pc hp
        | split r' f => rw [List.mem_singleton.1 hin] at hp; exact hl.2.1 t' x pc hp
        | merge l h =>
          rcases List.mem_cons.1 hin with e | e
          · rw [e] at hp; exact hl.2.2.1 t' x pc hp
          · rw [List.mem_singleton.1 e] at hp; exact hl.2.2.2.1 t' x pc hp
  · intro t' op' pc2 h
    have h : upd s.thr t _ t' = _ := h
    by_cases e : t' = t
    · subst e
      rw [upd_same] at h
      cases h
      cases op <;> trivial
    · rw [upd_ne _ _ e] at h
      exact hi.loc t' op' pc2 h
  · intro t'
    show s.st.lock = some t' ↔ ∃ op2 pc2, upd s.thr t (some (op, .start)) t' = some (op2, pc2) ∧ inLock op2 pc2 = true
    rw [hi.lock t']
    by_cases e : t' = t
    · subst e
      simp only [upd_same, ht]
      constructor
      · rintro ⟨_, _, g, _⟩
        cases g
      · rintro ⟨_, _, g, g'⟩
        cases g
        cases op <;> cases g'
    · rw [upd_ne _ _ e]

theorem fin_regs {res : Res} (p : Rec) : p ∈ op.gives res ↔ p ∈ regs op (.fin res) := by
  cases op <;> cases res <;> simp [Op.gives, regs, Rec.lower, Rec.upper, Rec.join]

theorem gives_apart {res : Res} (hf : op.Fit) : (op.gives res).Pairwise Apart := by
  cases op with
  | add r => unfold Op.gives; dsimp only; split <;> simp
  | remove r => unfold Op.gives; dsimp only; split <;> simp
  | look r x => unfold Op.gives; dsimp only; simp
  | split r f =>
    unfold Op.gives
    dsimp only
    split
    · simp [Apart]
    · simp
  | merge l h =>
    unfold Op.gives
    dsimp only
    split
    · simp
    · obtain ⟨_, _, h1, _⟩ := hf
      simp only [List.pairwise_cons, List.mem_singleton, List.not_mem_nil, false_imp_iff, implies_true, List.Pairwise.nil, and_true]
      rintro p rfl
      unfold Apart
      omega

theorem inv_ret {res : Res} (hi : Inv s) (ht : s.thr t = some (op, .fin res)) :
    Inv ⟨s.st, op.gives res ++ s.live, upd s.thr t none⟩ := by
  have hC : s.C t = regs op (.fin res) := Sys.C_eq ht
  have hB : s.B t = [] := Sys.B_eq ht
  have hgeo := hi.geo
  have hf := hgeo.fit t op (ops_eq ht)
  have hin : ∀ p ∈ op.gives res, ∃ q, op.span = some q ∧ q.ptr ≤ p.ptr ∧ p.ptr + p.size ≤ q.ptr + q.size ∧ 0 < p.size := by
    intro p hp
    have hp := (fin_regs p).1 hp
    obtain ⟨q, hq⟩ := regs_span hp
    exact ⟨q, hq, regs_in_span hf hq hp⟩
  have hO : ∀ t' op', upd s.ops t none t' = some op' → t' ≠ t ∧ s.ops t' = some op' := by
    intro t' op' h
    by_cases e : t' = t
    · subst e
      rw [upd_same] at h
      cases h
    · rw [upd_ne _ _ e] at h
      exact ⟨e, h⟩
  refine ⟨?_, hi.up, ?_, ?_, ?_⟩
  · rw [C_upd0, B_upd0, upd_self _ hB]
    refine hi.core.congr ?_
    intro p
    rw [reg_upd, reg_split (t := t), hC, ← fin_regs, List.mem_append]
    simp only [List.not_mem_nil, or_false]
    constructor
    · rintro ((h | h) | h)
      · exact Or.inr h
      · exact Or.inl (Or.inl h)
      · exact Or.inl (Or.inr h)
    · rintro ((h | h) | h)
      · exact Or.inl (Or.inr h)
      · exact Or.inr h
      · exact Or.inl (Or.inl h)
  · rw [ops_upd]
    refine ⟨?_, ?_, ?_, ?_, ?_, ?_⟩
    · intro r hr
      rcases List.mem_append.1 hr with hr | hr
      · obtain ⟨q, g1, g2, g3, g4⟩ := hin r hr
        obtain ⟨k1, k2, k3⟩ := span_ok hf g1
        exact ⟨by omega, g4, by omega⟩
      · exact hgeo.liveOk r hr
    · rw [List.pairwise_append]
      refine ⟨gives_apart hf, hgeo.apart, ?_⟩
      intro p hp r hr
      obtain ⟨q, g1, g2, g3, g4⟩ := hin p hp
      have := hgeo.spanLive t op q (ops_eq ht) g1 r hr
      unfold Apart at *
      omega
    · intro t' op' h
      exact hgeo.fit t' op' (hO t' op' h).2
    · intro t' op' q' h hq' r hr
      obtain ⟨e, h⟩ := hO t' op' h
      rcases List.mem_append.1 hr with hr | hr
      · obtain ⟨q, g1, g2, g3, g4⟩ := hin r hr
        have := hgeo.spans t' t op' op q' q e h (ops_eq ht) hq' g1
        unfold Apart at *
        omega
      · exact hgeo.spanLive t' op' q' h hq' r hr
    · intro t1 t2 op1 op2 q1 q2 hne h1 h2
      exact hgeo.spans t1 t2 op1 op2 q1 q2 hne (hO _ _ h1).2 (hO _ _ h2).2
    · intro t' r x h
      exact List.mem_append.2 (Or.inr (hgeo.seen t' r x (hO _ _ h).2))
  · intro t' op' pc2 h
    have h : upd s.thr t _ t' = _ := h
    by_cases e : t' = t
    · subst e
      rw [upd_same] at h
      cases h
    · rw [upd_ne _ _ e] at h
      exact hi.loc t' op' pc2 h
  · intro t'
    show s.st.lock = some t' ↔ ∃ op2 pc2, upd s.thr t none t' = some (op2, pc2) ∧ inLock op2 pc2 = true
    rw [hi.lock t']
    by_cases e : t' = t
    · subst e
      simp only [upd_same, ht]
      constructor
      · rintro ⟨_, _, g, g'⟩
        cases g
        cases op <;> cases g'
      · rintro ⟨_, _, g, _⟩
        cases g
    · rw [upd_ne _ _ e]

theorem reach_inv (h : Reach Careful s) : Inv s := by
  induction h with
  | init => exact inv_init
  | start _ ht hl ih => exact inv_start ih ht hl
  | move _ ht hv hn ih =>
    obtain ⟨st2, pc2, h1, h2⟩ := step ih ht hv
    rw [h1] at hn
    cases hn
    exact inv_move ih ht hv h2
  | ret _ ht ih => exact inv_ret ih ht

end Verif.TrkConc
