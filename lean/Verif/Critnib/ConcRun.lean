import Verif.Critnib.ConcReader
import Verif.Critnib.ConcInsert2
import Verif.Critnib.ConcRemove
/-! # Runs -/
namespace Verif.Critnib.Conc
open Verif.Critnib
open Verif.Critnib.Conc.Spec

variable {V : Type}

/-- The labelled memory, the update of the writer and whether it has taken effect. -/
structure Gh (V : Type) where
  g : G V
  op : Spec.Op V
  d : Bool

/-- The state of the system, with labels. -/
structure WOk (s : Sys V) (x : Gh V) : Prop where
  mem : x.g.mem = s.mem
  gi : GI x.g
  ok : s.broken = false
  wr : match s.writer with
    | none => Idle x.g
    | some (ss, out) => AllS x.op out x.d x.g ss

theorem WOk.idle {s : Sys V} {x : Gh V} (h : WOk s x) (hw : s.writer = none) : Idle x.g := by
  have := h.wr; rw [hw] at this; exact this

theorem WOk.busy {s : Sys V} {x : Gh V} (h : WOk s x) {ss : List (Store V)} {out : Spec.Out V}
    (hw : s.writer = some (ss, out)) : AllS x.op out x.d x.g ss := by
  have := h.wr; rw [hw] at this; exact this

theorem WOk.mk_none {s : Sys V} {x : Gh V} (h1 : x.g.mem = s.mem) (h2 : s.broken = false)
    (h3 : s.writer = none) (h4 : Idle x.g) : WOk s x :=
  ⟨h1, h4.1, h2, by rw [h3]; exact h4⟩

theorem WOk.mk_some {s : Sys V} {x : Gh V} (h1 : x.g.mem = s.mem) (h2 : s.broken = false)
    (h5 : GI x.g) {ss : List (Store V)} {out : Spec.Out V} (h3 : s.writer = some (ss, out))
    (h4 : AllS x.op out x.d x.g ss) : WOk s x :=
  ⟨h1, h5, h2, by rw [h3]; exact h4⟩

theorem quiet_refl (g : G V) : Quiet g g :=
  ⟨rfl, Nat.le_refl _, fun _ h => ⟨h, rfl⟩, fun _ h => ⟨h, rfl⟩, fun _ h => h, fun _ h => h,
    fun _ _ h _ => ⟨h, rfl⟩, fun _ _ h _ => ⟨h, rfl⟩⟩

/-- What one step does to the labels and to the map. -/
structure Next (s : Sys V) (a : Act V) (x y : Gh V) : Prop where
  ok : WOk (step s a).1 y
  tr : Tr x.g y.g
  free : s.writer = none → absMap y.g.mem = absMap x.g.mem
  call : ∀ op, (step s a).2 = .updCall op → y.op = op ∧ ∃ ss out,
    (step s a).1.writer = some (ss, out) ∧
    (y.d = true → Allowed (absMap x.g.mem) op out ∧
      Verif.Critnib.Spec.after (absMap x.g.mem) op out = absMap x.g.mem)
  held : ∀ ss out, s.writer = some (ss, out) → y.op = x.op ∧
    Eff x.op out x.d x.g y.g y.d ∧
    (((step s a).2 = .updRet out ∧ x.d = true ∧ absMap y.g.mem = absMap x.g.mem) ∨
      ((∀ o, (step s a).2 ≠ .updRet o) ∧ ∃ ss', (step s a).1.writer = some (ss', out)))

/-- Steps that leave the memory and the writer alone. -/
theorem next_same {s : Sys V} {a : Act V} {x : Gh V} (h : WOk s x)
    (hm : (step s a).1.mem = s.mem) (hw : (step s a).1.writer = s.writer)
    (hb : (step s a).1.broken = s.broken) (hc : ∀ op, (step s a).2 ≠ .updCall op)
    (hr : ∀ o, (step s a).2 ≠ .updRet o) : Next s a x x where
  ok := ⟨h.mem.trans hm.symm, h.gi, hb.trans h.ok, by rw [hw]; exact h.wr⟩
  tr := (quiet_refl x.g).tr h.gi
  free := fun _ => rfl
  call := fun op e => (hc op e).elim
  held := fun ss out e => ⟨rfl, .inl ⟨rfl, rfl⟩, .inr ⟨hr, ss, hw.trans e⟩⟩

/-- A writer begins. -/
theorem next_begin {s : Sys V} {a : Act V} {x : Gh V} (h : WOk s x) (hw : s.writer = none)
    {op : Spec.Op V} {ss : List (Store V)} {out : Spec.Out V}
    (hs : step s a = ({ s with writer := some (ss, out) }, .updCall op))
    (hsim : Sim op out x.g ss) : ∃ y, Next s a x y := by
  have key : ∀ d, AllS op out d x.g ss →
      (d = true → Allowed (absMap x.g.mem) op out ∧
        Verif.Critnib.Spec.after (absMap x.g.mem) op out = absMap x.g.mem) →
      Next s a x ⟨x.g, op, d⟩ := by
    intro d h1 h2
    refine ⟨?_, (quiet_refl x.g).tr h.gi, fun _ => rfl, ?_, fun ss out e => ?_⟩
    · rw [hs]; exact WOk.mk_some h.mem h.ok h.gi rfl h1
    · intro op' e
      rw [hs] at e ⊢
      cases e
      exact ⟨rfl, ss, out, rfl, h2⟩
    · rw [hw] at e; cases e
  rcases hsim with h1 | ⟨h1, h2, h3⟩
  · exact ⟨_, key false h1 (fun e => by cases e)⟩
  · exact ⟨_, key true h3 fun _ => ⟨h1, h2⟩⟩

theorem next_exists {s : Sys V} {x : Gh V} (h : WOk s x) (a : Act V) : ∃ y, Next s a x y := by
  cases a with
  | insert key v upd lo no =>
    cases hw : s.writer with
    | some w =>
      have hs : step s (.insert key v upd lo no) = (s, .tau) := by unfold step; rw [hw]
      exact ⟨x, next_same h (by rw [hs]) (by rw [hs]) (by rw [hs])
        (by rw [hs]; intro _ e; cases e) (by rw [hs]; intro _ e; cases e)⟩
    | none =>
      obtain ⟨ss, r, h1, h2⟩ := insert_sim (h.idle hw) key v upd lo no
      refine next_begin (op := .insert key v upd lo no) (ss := ss) (out := .inserted r) h hw ?_ h2
      rw [h.mem] at h1
      unfold step
      rw [hw]
      dsimp only
      rw [h1]
  | remove key =>
    cases hw : s.writer with
    | some w =>
      have hs : step s (.remove key) = (s, .tau) := by unfold step; rw [hw]
      exact ⟨x, next_same h (by rw [hs]) (by rw [hs]) (by rw [hs])
        (by rw [hs]; intro _ e; cases e) (by rw [hs]; intro _ e; cases e)⟩
    | none =>
      obtain ⟨ss, r, h1, h2⟩ := remove_sim (h.idle hw) key
      refine next_begin (op := .remove key) (ss := ss) (out := .value r) h hw ?_ h2
      rw [h.mem] at h1
      unfold step
      rw [hw]
      dsimp only
      rw [h1]
  | write =>
    cases hw : s.writer with
    | none =>
      have hs : step s .write = (s, .tau) := by unfold step; rw [hw]
      exact ⟨x, next_same h (by rw [hs]) (by rw [hs]) (by rw [hs])
        (by rw [hs]; intro _ e; cases e) (by rw [hs]; intro _ e; cases e)⟩
    | some w =>
      obtain ⟨ss, out⟩ := w
      have hall := h.busy hw
      cases ss with
      | nil =>
        have hs : step s .write = ({ s with writer := none }, .updRet out) := by unfold step; rw [hw]
        obtain ⟨hd, hi⟩ := hall
        refine ⟨x, ?_, (quiet_refl x.g).tr h.gi, fun _ => rfl, ?_, ?_⟩
        · rw [hs]; exact WOk.mk_none h.mem h.ok rfl hi
        · rw [hs]; intro _ e; cases e
        · intro ss' out' e
          rw [hw] at e
          cases e
          rw [hs]
          exact ⟨rfl, .inl ⟨rfl, rfl⟩, .inl ⟨rfl, hd, rfl⟩⟩
      | cons a ss =>
        have hs : step s .write = ({ s with mem := s.mem.store a, writer := some (ss, out) }, .tau) := by
          unfold step; rw [hw]
        obtain ⟨g', d', h1, h2, h3, h4, h5⟩ := hall
        refine ⟨⟨g', x.op, d'⟩, ?_, h2, ?_, ?_, ?_⟩
        · rw [hs]
          exact WOk.mk_some (by rw [← h.mem]; exact h1) h.ok h3 rfl h5
        · rw [hw]; intro e; cases e
        · rw [hs]; intro _ e; cases e
        · intro ss' out' e
          rw [hw] at e
          cases e
          rw [hs]
          exact ⟨rfl, h4, .inr ⟨fun o e => (by cases e), ss, rfl⟩⟩
  | call r q =>
    refine ⟨x, next_same h ?_ ?_ ?_ ?_ ?_⟩ <;> unfold step <;> dsimp only <;> split <;>
      first | rfl | (intro _ e; cases e)
  | read r =>
    refine ⟨x, next_same h rfl rfl rfl ?_ ?_⟩ <;> unfold step <;> dsimp only <;> split <;>
      (intro _ e; cases e)

/-! ## The labels along a run -/

section run
variable (s0 : Sys V) (x0 : Gh V) (h0 : WOk s0 x0) (sched : Nat → Act V)

/-- The labels at every time of a run. -/
noncomputable def ghost : (t : Nat) → { x : Gh V // WOk (run s0 sched t) x }
  | 0 => ⟨x0, h0⟩
  | t + 1 => ⟨(next_exists (ghost t).2 (sched t)).choose,
      (next_exists (ghost t).2 (sched t)).choose_spec.ok⟩

theorem ghost_next (t : Nat) : Next (run s0 sched t) (sched t) (ghost s0 x0 h0 sched t).1
    (ghost s0 x0 h0 sched (t + 1)).1 :=
  (next_exists (ghost s0 x0 h0 sched t).2 (sched t)).choose_spec

/-- The labelled memory at time `t`. -/
noncomputable def labels (t : Nat) : G V := (ghost s0 x0 h0 sched t).1.g

theorem labels_mem (t : Nat) : (labels s0 x0 h0 sched t).mem = (run s0 sched t).mem :=
  (ghost s0 x0 h0 sched t).2.mem

theorem labels_hist : Hist (labels s0 x0 h0 sched) :=
  ⟨fun t => (ghost s0 x0 h0 sched t).2.gi, fun t => (ghost_next s0 x0 h0 sched t).tr⟩

end run

/-- The map just before time `t`. -/
noncomputable def mapAt (s0 : Sys V) (sched : Nat → Act V) (t : Nat) : Spec.Map V :=
  absMap (run s0 sched t).mem

/-! ## Updates -/

section upd
variable {s0 : Sys V} {x0 : Gh V} (h0 : WOk s0 x0) (sched : Nat → Act V)
include h0

theorem not_broken (t : Nat) : (run s0 sched t).broken = false := (ghost s0 x0 h0 sched t).2.ok

theorem mapAt_eq (t : Nat) : absMap (ghost s0 x0 h0 sched t).1.g.mem = mapAt s0 sched t := by
  rw [(ghost s0 x0 h0 sched t).2.mem]; rfl

/-- A writer that holds the mutex has been called. -/
theorem writer_called (hn : s0.writer = none) (t : Nat) (hw : (run s0 sched t).writer ≠ none) :
    ∃ i op, i < t ∧ event s0 sched i = .updCall op ∧
      ∀ u, i < u → u < t → ∀ o, event s0 sched u ≠ .updRet o := by
  induction t with
  | zero => exact absurd hn hw
  | succ t ih =>
    have hN := ghost_next s0 x0 h0 sched t
    by_cases hwt : (run s0 sched t).writer = none
    · -- a call
      refine ⟨t, ?_⟩
      suffices ∃ op, event s0 sched t = .updCall op by
        obtain ⟨op, h⟩ := this
        exact ⟨op, Nat.lt_succ_self t, h, fun u h1 h2 => by omega⟩
      revert hw
      show (step (run s0 sched t) (sched t)).1.writer ≠ none → _
      unfold event
      generalize sched t = a
      clear hN ih
      cases a with
      | insert key v upd lo no =>
        unfold step; rw [hwt]; dsimp only
        cases insertStores (run s0 sched t).mem key v upd lo no with
        | none => intro h; exact absurd rfl h
        | some p => intro _; exact ⟨_, rfl⟩
      | remove key =>
        unfold step; rw [hwt]; dsimp only
        cases removeStores (run s0 sched t).mem key with
        | none => intro h; exact absurd rfl h
        | some p => intro _; exact ⟨_, rfl⟩
      | write => unfold step; rw [hwt]; intro h; exact absurd hwt h
      | call r q =>
        unfold step; dsimp only; split <;> intro h <;> exact absurd hwt h
      | read r => intro h; exact absurd hwt h
    · obtain ⟨i, op, h1, h2, h3⟩ := ih hwt
      refine ⟨i, op, by omega, h2, fun u h4 h5 o e => ?_⟩
      rcases Nat.lt_or_ge u t with h | h
      · exact h3 u h4 h o e
      · have : u = t := by omega
        subst this
        -- the writer returned at time `u`
        revert e; revert hw
        show (step (run s0 sched u) (sched u)).1.writer ≠ none →
          (step (run s0 sched u) (sched u)).2 = _ → _
        generalize sched u = a
        clear hN ih h3
        cases a with
        | insert key v upd lo no =>
          unfold step
          cases hc : (run s0 sched u).writer with
          | none => exact absurd hc hwt
          | some p => intro _ e; cases e
        | remove key =>
          unfold step
          cases hc : (run s0 sched u).writer with
          | none => exact absurd hc hwt
          | some p => intro _ e; cases e
        | write =>
          unfold step
          cases hc : (run s0 sched u).writer with
          | none => exact absurd hc hwt
          | some p =>
            obtain ⟨ss, out⟩ := p
            cases ss with
            | nil => intro h; exact absurd rfl h
            | cons a ss => intro _ e; cases e
        | call r q => unfold step; dsimp only; split <;> intro _ e <;> cases e
        | read r => unfold step; dsimp only; split <;> intro _ e <;> cases e

theorem updates_atomic (hn : s0.writer = none) (he : mapAt s0 sched 0 = Verif.Critnib.Spec.empty) :
    UpdatesAtomic (event s0 sched) (mapAt s0 sched) := by
  refine ⟨he, fun t ht => ?_, fun i j op out hij hi hj hno => ?_⟩
  · have hN := ghost_next s0 x0 h0 sched t
    rw [← mapAt_eq h0 sched (t + 1), ← mapAt_eq h0 sched t]
    cases hw : (run s0 sched t).writer with
    | none => exact hN.free hw
    | some p =>
      obtain ⟨ss, out⟩ := p
      obtain ⟨_, _, h⟩ := hN.held ss out hw
      rcases h with ⟨_, _, h⟩ | ⟨h, _⟩
      · exact h
      · obtain ⟨i, op, h1, h2, h3⟩ := writer_called h0 sched hn t (by rw [hw]; simp)
        refine absurd ⟨i, op, Nat.le_of_lt h1, h2, fun u h4 h5 => ?_⟩ ht
        rcases Nat.lt_or_ge u t with h6 | h6
        · exact h3 u h4 h6
        · have : u = t := by omega
          subst this; exact h
  · -- the writer begun at `i`
    obtain ⟨hop, ss0, o, hw0, hd0⟩ := (ghost_next s0 x0 h0 sched i).call op hi
    have main : ∀ u, i < u → u ≤ j → ∃ ss, (run s0 sched u).writer = some (ss, o) ∧
        (ghost s0 x0 h0 sched u).1.op = op ∧
        (((ghost s0 x0 h0 sched u).1.d = false ∧
            ∀ v, i ≤ v → v < u → mapAt s0 sched (v + 1) = mapAt s0 sched v) ∨
         ((ghost s0 x0 h0 sched u).1.d = true ∧ ∃ t, i ≤ t ∧ t < u ∧
            Allowed (mapAt s0 sched t) op o ∧
            mapAt s0 sched (t + 1) = Verif.Critnib.Spec.after (mapAt s0 sched t) op o ∧
            ∀ v, i ≤ v → v < u → v ≠ t → mapAt s0 sched (v + 1) = mapAt s0 sched v)) := by
      intro u
      induction u with
      | zero => intro h; omega
      | succ u ih =>
        intro h1 h2
        rcases Nat.lt_or_ge i u with h | h
        · obtain ⟨ss, h3, h4, h5⟩ := ih h (by omega)
          obtain ⟨h6, h7, h8⟩ := (ghost_next s0 x0 h0 sched u).held ss o h3
          rcases h8 with ⟨h8, _⟩ | ⟨_, ss', h8⟩
          · exact absurd h8 (hno u h (by omega) o)
          · refine ⟨ss', h8, h6.trans h4, ?_⟩
            rw [h4] at h7
            unfold Eff at h7
            rw [mapAt_eq h0 sched (u + 1), mapAt_eq h0 sched u] at h7
            rcases h7 with ⟨h9, h10⟩ | ⟨h9, h10, h11, h12⟩
            · rw [h10]
              rcases h5 with ⟨h13, h14⟩ | ⟨h13, t, h14, h15, h16, h17, h18⟩
              · refine .inl ⟨h13, fun v h15 h16 => ?_⟩
                rcases Nat.lt_or_ge v u with h17 | h17
                · exact h14 v h15 h17
                · have : v = u := by omega
                  subst this; exact h9
              · refine .inr ⟨h13, t, h14, by omega, h16, h17, fun v h19 h20 h21 => ?_⟩
                rcases Nat.lt_or_ge v u with h22 | h22
                · exact h18 v h19 h22 h21
                · have : v = u := by omega
                  subst this; exact h9
            · rcases h5 with ⟨h13, h14⟩ | ⟨h13, _⟩
              · refine .inr ⟨h10, u, by omega, by omega, h11, h12, fun v h15 h16 h17 => ?_⟩
                exact h14 v h15 (by omega)
              · rw [h9] at h13; cases h13
        · have : u = i := by omega
          subst this
          refine ⟨ss0, hw0, hop, ?_⟩
          have hfree : mapAt s0 sched (u + 1) = mapAt s0 sched u := by
            rw [← mapAt_eq h0 sched (u + 1), ← mapAt_eq h0 sched u]
            refine (ghost_next s0 x0 h0 sched u).free ?_
            cases hc : (run s0 sched u).writer with
            | none => rfl
            | some p =>
              exfalso
              have hev : (step (run s0 sched u) (sched u)).2 = .updCall op := hi
              revert hev
              generalize sched u = a
              cases a with
              | insert key v upd lo no => unfold step; rw [hc]; intro e; cases e
              | remove key => unfold step; rw [hc]; intro e; cases e
              | write =>
                unfold step; rw [hc]
                obtain ⟨ss, out⟩ := p
                cases ss <;> intro e <;> cases e
              | call r q => unfold step; dsimp only; split <;> intro e <;> cases e
              | read r => unfold step; dsimp only; split <;> intro e <;> cases e
          cases hd : (ghost s0 x0 h0 sched (u + 1)).1.d with
          | false =>
            refine .inl ⟨rfl, fun v h3 h4 => ?_⟩
            have : v = u := by omega
            subst this; exact hfree
          | true =>
            obtain ⟨h3, h4⟩ := hd0 hd
            rw [mapAt_eq h0 sched u] at h3 h4
            exact .inr ⟨rfl, u, Nat.le_refl _, Nat.lt_succ_self _, h3, hfree.trans h4.symm,
              fun v h5 h6 h7 => by omega⟩
    obtain ⟨ss, h1, _, h3⟩ := main j hij (Nat.le_refl _)
    obtain ⟨_, _, h4⟩ := (ghost_next s0 x0 h0 sched j).held ss o h1
    rcases h4 with ⟨h4, h5, _⟩ | ⟨h4, _⟩
    · have h4' : event s0 sched j = .updRet o := h4
      rw [hj] at h4'
      cases h4'
      rcases h3 with ⟨h3, _⟩ | ⟨_, h3⟩
      · rw [h5] at h3; cases h3
      · exact h3
    · exact absurd hj (h4 out)

end upd

/-! ## Lookups -/

section look
variable {s0 : Sys V} {sched : Nat → Act V}

theorem reader_step (s : Sys V) (a : Act V) (r : Nat) :
    (step s a).1.readers r = s.readers r ∨
    (a = .read r) ∨
    ((s.readers r).2 = .idle ∧ ∃ q, a = .call r q) := by
  cases a with
  | insert key v upd lo no =>
    left
    unfold step
    cases s.writer with
    | none => dsimp only; cases insertStores s.mem key v upd lo no <;> rfl
    | some _ => rfl
  | remove key =>
    left
    unfold step
    cases s.writer with
    | none => dsimp only; cases removeStores s.mem key <;> rfl
    | some _ => rfl
  | write =>
    left
    unfold step
    cases s.writer with
    | none => rfl
    | some p => obtain ⟨ss, out⟩ := p; cases ss <;> rfl
  | call r' q =>
    by_cases h : r = r'
    · subst h
      by_cases hp : (s.readers r).2 = .idle
      · exact .inr (.inr ⟨hp, q, rfl⟩)
      · left
        unfold step
        dsimp only
        split
        · exact absurd ‹_› hp
        · rfl
    · left
      unfold step
      dsimp only
      split
      · exact Function.update_of_ne h _ _
      · rfl
  | read r' =>
    by_cases h : r = r'
    · subst h; exact .inr (.inl rfl)
    · left; exact Function.update_of_ne h _ _

theorem read_event (s : Sys V) (r : Nat) :
    ((readStep s.mem (s.readers r).1 (s.readers r).2).2 = none ∧ (step s (.read r)).2 = .tau) ∨
    ∃ res, (readStep s.mem (s.readers r).1 (s.readers r).2).2 = some res ∧
      (step s (.read r)).2 = .ret r res := by
  unfold step
  cases h : (readStep s.mem (s.readers r).1 (s.readers r).2).2 with
  | none => left; exact ⟨rfl, by dsimp only; rw [h]⟩
  | some res => right; exact ⟨res, rfl, by dsimp only; rw [h]⟩

theorem ret_event {s : Sys V} {a : Act V} {r : Nat} {res : Option (W × Val V)}
    (h : (step s a).2 = .ret r res) :
    (readStep s.mem (s.readers r).1 (s.readers r).2).2 = some res := by
  cases a with
  | insert key v upd lo no =>
    unfold step at h
    cases hw : s.writer with
    | none =>
      rw [hw] at h; dsimp only at h
      cases hi : insertStores s.mem key v upd lo no <;> rw [hi] at h <;> cases h
    | some _ => rw [hw] at h; cases h
  | remove key =>
    unfold step at h
    cases hw : s.writer with
    | none =>
      rw [hw] at h; dsimp only at h
      cases hi : removeStores s.mem key <;> rw [hi] at h <;> cases h
    | some _ => rw [hw] at h; cases h
  | write =>
    unfold step at h
    cases hw : s.writer with
    | none => rw [hw] at h; cases h
    | some p =>
      obtain ⟨ss, out⟩ := p
      rw [hw] at h
      cases ss <;> cases h
  | call r' q => unfold step at h; dsimp only at h; split at h <;> cases h
  | read r' =>
    rcases read_event s r' with ⟨_, h1⟩ | ⟨x, h1, h2⟩
    · rw [h1] at h; cases h
    · rw [h2] at h; cases h; exact h1

theorem call_event {s : Sys V} {a : Act V} {r : Nat} {q : Query}
    (h : (step s a).2 = .call r q) : (step s a).1.readers r = (q, .start) := by
  cases a with
  | insert key v upd lo no =>
    unfold step at h
    cases hw : s.writer with
    | none =>
      rw [hw] at h; dsimp only at h
      cases hi : insertStores s.mem key v upd lo no <;> rw [hi] at h <;> cases h
    | some _ => rw [hw] at h; cases h
  | remove key =>
    unfold step at h
    cases hw : s.writer with
    | none =>
      rw [hw] at h; dsimp only at h
      cases hi : removeStores s.mem key <;> rw [hi] at h <;> cases h
    | some _ => rw [hw] at h; cases h
  | write =>
    unfold step at h
    cases hw : s.writer with
    | none => rw [hw] at h; cases h
    | some p =>
      obtain ⟨ss, out⟩ := p
      rw [hw] at h
      cases ss <;> cases h
  | call r' q' =>
    unfold step at h ⊢
    dsimp only at h ⊢
    split at h
    · cases h; exact Function.update_self _ _ _
    · cases h
  | read r' =>
    rcases read_event s r' with ⟨_, h1⟩ | ⟨x, h1, h2⟩
    · rw [h1] at h; cases h
    · rw [h2] at h; cases h

theorem start_step (m : Mem V) (q : Query) : readStep m q .start = (.root m.count, none) := by
  cases q <;> rfl

theorem idle_step (m : Mem V) (q : Query) : readStep m q .idle = (.idle, none) := by
  cases q <;> rfl

/-- A property that every step of an attempt keeps holds when the lookup returns. -/
theorem lookup {f : Nat → G V} (hist : Hist f) (hf : ∀ t, (f t).mem = (run s0 sched t).mem)
    {r : Nat} {q : Query} {i b : Nat} {res : Option (W × Val V)}
    (hl : Lookup (event s0 sched) r q i b res) {Inv : Nat → Nat → Pc V → Prop}
    (hroot : ∀ a t w, Inv a t (.root w))
    (hmono : ∀ a t t' pc, t ≤ t' → Inv a t pc → Inv a t' pc)
    (hstep : ∀ a t pc, Win f a b → i < a → a ≤ t → t ≤ b → Inv a t pc →
      (readStep (f t).mem q pc).2 = none → (readStep (f t).mem q pc).1 ≠ .start →
      Inv a t (readStep (f t).mem q pc).1) :
    ∃ a w, i < a ∧ a ≤ b ∧ Inv a b (.check w res) := by
  obtain ⟨hib, hcall, hret, hno⟩ := hl
  have main : ∀ t, i < t → t ≤ b → ((run s0 sched t).readers r).1 = q ∧
      (((run s0 sched t).readers r).2 = .start ∨
        ∃ w a, ((run s0 sched t).readers r).2.wrs = some w ∧ i < a ∧ a ≤ t ∧
          w = (f a).mem.count ∧
          ((f b).mem.count < w + 16 → Inv a t ((run s0 sched t).readers r).2)) := by
    intro t
    induction t with
    | zero => intro h; omega
    | succ t ih =>
      intro h1 h2
      rcases Nat.lt_or_ge i t with h | h
      · obtain ⟨hq, hpc⟩ := ih h (by omega)
        have same : (run s0 sched (t + 1)).readers r = (run s0 sched t).readers r →
            ((run s0 sched (t + 1)).readers r).1 = q ∧
            (((run s0 sched (t + 1)).readers r).2 = .start ∨
              ∃ w a, ((run s0 sched (t + 1)).readers r).2.wrs = some w ∧ i < a ∧ a ≤ t + 1 ∧
                w = (f a).mem.count ∧
                ((f b).mem.count < w + 16 → Inv a (t + 1) ((run s0 sched (t + 1)).readers r).2)) := by
          intro e
          rw [e]
          refine ⟨hq, ?_⟩
          rcases hpc with hpc | ⟨w, a, h3, h4, h5, h6, h7⟩
          · exact .inl hpc
          · exact .inr ⟨w, a, h3, h4, by omega, h6, fun h => hmono _ _ _ _ (Nat.le_succ t) (h7 h)⟩
        rcases reader_step (run s0 sched t) (sched t) r with h3 | h3 | ⟨h3, _⟩
        · exact same h3
        · have hrun : (run s0 sched (t + 1)).readers r =
              (q, (readStep (f t).mem q ((run s0 sched t).readers r).2).1) := by
            show (step (run s0 sched t) (sched t)).1.readers r = _
            rw [h3, hf t, ← hq]
            exact Function.update_self _ _ _
          have hnr : (readStep (f t).mem q ((run s0 sched t).readers r).2).2 = none := by
            rcases read_event (run s0 sched t) r with ⟨h4, _⟩ | ⟨x, _, h4⟩
            · rw [hf t, ← hq]; exact h4
            · refine absurd ?_ (hno t h (by omega) x)
              show (step (run s0 sched t) (sched t)).2 = _
              rw [h3]; exact h4
          rw [hrun]
          refine ⟨rfl, ?_⟩
          dsimp only
          rcases hpc with hpc | ⟨w, a, h4, h5, h6, h7, h8⟩
          · rw [hpc, start_step]
            exact .inr ⟨(f t).mem.count, t, rfl, h, Nat.le_succ t, rfl, fun _ => hroot _ _ _⟩
          · rcases wrs_step (f t).mem q h4 hnr with h9 | h9
            · exact .inl h9
            · refine .inr ⟨w, a, h9, h5, by omega, h7, fun hc => ?_⟩
              refine hmono _ _ _ _ (Nat.le_succ t) (hstep a t _ ⟨hist, by omega⟩ h5 h6 (by omega)
                (h8 hc) hnr ?_)
              intro e; rw [e] at h9; cases h9
        · exfalso
          rw [h3] at hpc
          rcases hpc with hpc | ⟨w, a, h4, _⟩
          · cases hpc
          · cases h4
      · have : t = i := by omega
        subst this
        have : (run s0 sched (t + 1)).readers r = (q, .start) := call_event hcall
        rw [this]
        exact ⟨rfl, .inl rfl⟩
  obtain ⟨hq, hpc⟩ := main b hib (Nat.le_refl _)
  have h1 := ret_event hret
  rw [hq, ← hf b] at h1
  obtain ⟨w, h2, h3⟩ := ret_check h1
  rw [h2] at hpc
  rcases hpc with hpc | ⟨w', a, h4, h5, h6, _, h8⟩
  · cases hpc
  · cases h4
    exact ⟨a, w, h5, h6, h8 h3⟩

variable {x0 : Gh V} (h0 : WOk s0 x0)
include h0

theorem get_atomic : GetAtomic (event s0 sched) (mapAt s0 sched) := by
  intro r key i j res hl
  have hf := labels_mem s0 x0 h0 sched
  obtain ⟨a, w, h1, h2, s, h3, h4, h5⟩ := lookup (labels_hist s0 x0 h0 sched) hf hl
    (Inv := fun a t pc => GInv (labels s0 x0 h0 sched) a j t key pc)
    (fun _ _ _ => trivial) (fun _ _ _ _ h hi => hi.mono h)
    (fun _ _ _ w _ h1 h2 hi hr hs => hi.step w h1 h2 hr hs)
  refine ⟨s, by omega, h4, ?_⟩
  rw [h5, hf s]; rfl

theorem find_inv {r : Nat} {q : W} {i j : Nat} {res : Option (W × Val V)}
    (hl : Lookup (event s0 sched) r (.findLe q) i j res) (c : W) :
    ∃ a w, i < a ∧ a ≤ j ∧ FInv (labels s0 x0 h0 sched) a j j q c (.check w res) :=
  lookup (labels_hist s0 x0 h0 sched) (labels_mem s0 x0 h0 sched) hl
    (Inv := fun a t pc => FInv (labels s0 x0 h0 sched) a j t q c pc)
    (fun _ _ _ => trivial) (fun _ _ _ _ h hi => hi.mono h)
    (fun _ _ _ w _ h1 h2 hi hr hs => hi.step w h1 h2 hr hs)

theorem find_sound : FindSound (event s0 sched) (mapAt s0 sched) := by
  intro r q i j k x hl
  have hf := labels_mem s0 x0 h0 sched
  obtain ⟨a, w, h1, h2, h3, _⟩ := find_inv h0 hl q
  obtain ⟨s, v, h4, h5, h6, h7, h8, _⟩ := h3 k x rfl
  rw [hf s] at h7
  exact ⟨s, v, by omega, h5, h6, h7, h8⟩

theorem find_stable : FindStable (event s0 sched) (mapAt s0 sched) := by
  intro r q i j res c hl hcq hst
  have hf := labels_mem s0 x0 h0 sched
  obtain ⟨a, w, h1, h2, h3, h4⟩ := find_inv h0 hl c
  have hs : St (labels s0 x0 h0 sched) a j q c := by
    refine ⟨hcq, fun s h5 h6 => ?_⟩
    rw [hf s]
    exact hst s (by omega) h6
  cases res with
  | none => exact absurd rfl (h4 hs)
  | some p =>
    obtain ⟨k, x⟩ := p
    obtain ⟨s, v, h5, h6, h7, h8, _, h9⟩ := h3 k x rfl
    have := h9 hs
    subst this
    rw [hf s] at h8
    exact ⟨s, v, by omega, h6, h8, by rw [h7]⟩

end look

/-! ## The new tree -/

/-- The labels of a new tree. -/
def newGh (nodes : Nat → Node) (leaves : Nat → Leaf V) : Gh V :=
  ⟨⟨.new nodes leaves, fun _ => .off, fun _ => .off⟩, .remove 0#64, false⟩

theorem new_ok (nodes : Nat → Node) (leaves : Nat → Leaf V) :
    WOk (Sys.init nodes leaves) (newGh nodes leaves) := by
  refine WOk.mk_none rfl rfl rfl ⟨⟨trivial, ?_, ?_, ?_, ?_, ?_⟩, ?_, [], [], ?_, (fun n h => by cases h), (fun n h => by cases h)⟩
  · intro n h; cases h
  · intro n h; cases h
  · intro n h; cases h
  · intro n h; cases h
  · intro n h; cases h
  · intro n h; cases h
  · exact {
      nodupN := List.nodup_nil
      chainN := trivial
      offN := fun n h => by cases h
      nodupL := List.nodup_nil
      chainL := trivial
      offL := fun n h => by cases h
      pendN := fun i n _ h => by cases h
      pendL := fun i n _ h => by cases h
      freshN := fun _ _ => rfl
      freshL := fun _ _ => rfl }

theorem new_map (nodes : Nat → Node) (leaves : Nat → Leaf V) (sched : Nat → Act V) :
    mapAt (Sys.init nodes leaves) sched 0 = Verif.Critnib.Spec.empty := by
  funext K
  exact abs_miss (new_ok nodes leaves).gi (p := .null) (on_root _ _) (fun h => h)

end Verif.Critnib.Conc
