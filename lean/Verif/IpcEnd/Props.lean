import Verif.IpcEnd.Spec
/-! # C84: exported handles are returned -/
namespace Verif.IpcEnd

theorem upd_eq {α : Type} (f : Nat → α) (a : Nat) (x : α) : upd f a x a = x := by simp [upd]
theorem upd_ne {α : Type} (f : Nat → α) {a b : Nat} (x : α) (h : b ≠ a) : upd f a x b = f b := by simp [upd, h]

/-- Blocks are those of the cache, each for one base and with one upstream handle of its own. -/
structure Core (s : St) : Prop where
  blk : ∀ b v, s.cache b = some v → ∃ u, s.heap v = some (some u) ∧ s.out u = true
  one : ∀ b b' v, s.cache b = some v → s.cache b' = some v → b = b'
  used : ∀ v, s.heap v ≠ none → ∃ b, s.cache b = some v
  own : ∀ u, s.out u = true → ∃ v, s.heap v = some (some u)
  uni : ∀ v v' u, s.heap v = some (some u) → s.heap v' = some (some u) → v = v'

theorem Core.init : Core init :=
  ⟨(fun _ _ h => by cases h), (fun _ _ _ h => by cases h), (fun _ h => absurd rfl h), (fun _ h => by cases h),
    (fun _ _ _ h => by cases h)⟩

theorem Core.regs {s : St} (h : Core s) (r : Nat → Option Nat) : Core { s with regs := r } :=
  ⟨h.blk, h.one, h.used, h.own, h.uni⟩

/-- An export. -/
theorem getHandle_spec {s : St} (h : Core s) (b : Nat) {a : Ans} (ha : Honest s a) :
    ∃ s' r, getHandle s b a = some (s', r) ∧ Core s' ∧ s'.regs = s.regs ∧
      (∀ b', b' ≠ b → s'.cache b' = s.cache b') ∧
      (∀ u, r = some u ↔ ∃ v, s'.cache b = some v ∧ s'.heap v = some (some u)) := by
  unfold getHandle
  cases hc : s.cache b with
  | some v =>
    obtain ⟨u, hu, ho⟩ := h.blk b v hc
    dsimp only
    rw [hu]
    refine ⟨s, some u, rfl, h, rfl, fun _ _ => rfl, fun u' => ?_⟩
    constructor
    · intro e; cases e; exact ⟨v, hc, hu⟩
    · rintro ⟨v', e1, e2⟩
      rw [hc] at e1; cases e1
      rw [hu] at e2; cases e2; rfl
  | none =>
    have hno : ∀ u : Nat, (none : Option Nat) = some u ↔ ∃ v, s.cache b = some v ∧ s.heap v = some (some u) := by
      intro u
      constructor
      · intro e; cases e
      · rintro ⟨v, e, _⟩; rw [hc] at e; cases e
    dsimp only
    by_cases g1 : a.size = false
    · rw [if_pos g1]
      exact ⟨s, none, rfl, h, rfl, fun _ _ => rfl, hno⟩
    rw [if_neg g1]
    cases g2 : a.block with
    | none => exact ⟨s, none, rfl, h, rfl, fun _ _ => rfl, hno⟩
    | some v =>
      have hv : s.heap v = none := ha.1 v g2
      have hnv : ∀ b', s.cache b' ≠ some v := by
        intro b' e
        obtain ⟨u, hu, _⟩ := h.blk b' v e
        rw [hv] at hu; cases hu
      have hback : ∀ x, upd (upd s.heap v x) v none = s.heap := by
        intro x; funext w
        by_cases e : w = v
        · subst e; rw [upd_eq, hv]
        · rw [upd_ne _ _ e, upd_ne _ _ e]
      dsimp only
      cases g3 : a.handle with
      | none =>
        dsimp only [gfree]
        rw [upd_eq]
        dsimp only [Option.map]
        rw [hback]
        exact ⟨s, none, rfl, h, rfl, fun _ _ => rfl, hno⟩
      | some u =>
        have hu : s.out u = false := ha.2 u g3
        have hnu : ∀ w, s.heap w ≠ some (some u) := by
          intro w e
          obtain ⟨b', hb'⟩ := h.used w (by rw [e]; simp)
          obtain ⟨u', e1, e2⟩ := h.blk b' w hb'
          rw [e] at e1; cases e1
          rw [hu] at e2; cases e2
        have hh : upd (upd s.heap v (some none)) v (some (some u)) = upd s.heap v (some (some u)) := by
          funext w
          by_cases e : w = v
          · subst e; rw [upd_eq, upd_eq]
          · rw [upd_ne _ _ e, upd_ne _ _ e, upd_ne _ _ e]
        dsimp only
        rw [hh]
        by_cases g4 : a.node = true
        · rw [if_pos g4]
          refine ⟨_, _, rfl, ⟨?_, ?_, ?_, ?_, ?_⟩, rfl, fun b' hb' => upd_ne _ _ hb', ?_⟩
          · intro b' w e
            dsimp only at e ⊢
            by_cases eb : b' = b
            · subst eb; rw [upd_eq] at e; cases e
              exact ⟨u, upd_eq _ _ _, upd_eq _ _ _⟩
            · rw [upd_ne _ _ eb] at e
              obtain ⟨u', e1, e2⟩ := h.blk b' w e
              have ew : w ≠ v := fun e' => hnv b' (e' ▸ e)
              have eu : u' ≠ u := fun e' => hnu w (e' ▸ e1)
              exact ⟨u', by rw [upd_ne _ _ ew]; exact e1, by rw [upd_ne _ _ eu]; exact e2⟩
          · intro b1 b2 w e1 e2
            dsimp only at e1 e2
            by_cases c1 : b1 = b
            · by_cases c2 : b2 = b
              · rw [c1, c2]
              · rw [c1, upd_eq] at e1; cases e1
                rw [upd_ne _ _ c2] at e2
                exact absurd e2 (hnv b2)
            · rw [upd_ne _ _ c1] at e1
              by_cases c2 : b2 = b
              · rw [c2, upd_eq] at e2; cases e2
                exact absurd e1 (hnv b1)
              · rw [upd_ne _ _ c2] at e2
                exact h.one b1 b2 w e1 e2
          · intro w e
            dsimp only at e ⊢
            by_cases ew : w = v
            · exact ⟨b, by rw [ew, upd_eq]⟩
            · rw [upd_ne _ _ ew] at e
              obtain ⟨b', hb'⟩ := h.used w e
              refine ⟨b', ?_⟩
              have : b' ≠ b := fun e' => by rw [e', hc] at hb'; cases hb'
              rw [upd_ne _ _ this]; exact hb'
          · intro u' e
            dsimp only at e ⊢
            by_cases eu : u' = u
            · exact ⟨v, by rw [eu, upd_eq]⟩
            · rw [upd_ne _ _ eu] at e
              obtain ⟨w, hw⟩ := h.own u' e
              have : w ≠ v := fun e' => by rw [e', hv] at hw; cases hw
              exact ⟨w, by rw [upd_ne _ _ this]; exact hw⟩
          · intro w w' u' e e'
            dsimp only at e e'
            by_cases c1 : w = v
            · by_cases c2 : w' = v
              · rw [c1, c2]
              · rw [c1, upd_eq] at e; cases e
                rw [upd_ne _ _ c2] at e'
                exact absurd e' (hnu w')
            · rw [upd_ne _ _ c1] at e
              by_cases c2 : w' = v
              · rw [c2, upd_eq] at e'; cases e'
                exact absurd e (hnu w)
              · rw [upd_ne _ _ c2] at e'
                exact h.uni w w' u' e e'
          · intro u'
            dsimp only
            rw [upd_eq]
            constructor
            · intro e; cases e; exact ⟨v, rfl, upd_eq _ _ _⟩
            · rintro ⟨w, e1, e2⟩
              cases e1
              rw [upd_eq] at e2; cases e2; rfl
        · rw [if_neg g4]
          dsimp only [putUp]
          rw [upd_eq]
          dsimp only
          rw [if_pos (upd_eq _ _ _)]
          dsimp only [gfree]
          rw [upd_eq]
          dsimp only [Option.map]
          have ho : upd (upd s.out u true) u false = s.out := by
            funext w
            by_cases e : w = u
            · subst e; rw [upd_eq, hu]
            · rw [upd_ne _ _ e, upd_ne _ _ e]
          rw [hback, ho]
          exact ⟨s, none, rfl, h, rfl, fun _ _ => rfl, hno⟩

/-- A free: the region is gone, or is there again if upstream refuses, and its handle is put back. -/
theorem free_spec {s : St} (h : Core s) (b sz : Nat) (ok again : Bool) :
    ∃ s', free s b sz ok again = some s' ∧ Core s' ∧ s'.cache = upd s.cache b none ∧
      ∀ b', b' ≠ b → s'.regs b' = s.regs b' := by
  have key : ∃ s2 : St, dropHandle { s with regs := upd s.regs b none } b = some s2 ∧ Core s2 ∧
      s2.cache = upd s.cache b none ∧ s2.regs = upd s.regs b none := by
    unfold dropHandle
    dsimp only
    cases hc : s.cache b with
    | none =>
      refine ⟨_, rfl, h.regs _, ?_, rfl⟩
      funext w
      by_cases e : w = b
      · subst e; rw [upd_eq]; exact hc
      · rw [upd_ne _ _ e]
    | some v =>
      obtain ⟨u, hu, ho⟩ := h.blk b v hc
      dsimp only [putUp]
      rw [hu]
      dsimp only
      rw [if_pos ho]
      dsimp only [gfree]
      rw [hu]
      refine ⟨_, rfl, ⟨?_, ?_, ?_, ?_, ?_⟩, rfl, rfl⟩
      · intro b' w e
        dsimp only at e ⊢
        by_cases eb : b' = b
        · subst eb; rw [upd_eq] at e; cases e
        · rw [upd_ne _ _ eb] at e
          obtain ⟨u', e1, e2⟩ := h.blk b' w e
          have ew : w ≠ v := fun e' => eb (h.one b' b v (e' ▸ e) hc)
          have eu : u' ≠ u := fun e' => ew (h.uni w v u (e' ▸ e1) hu)
          exact ⟨u', by rw [upd_ne _ _ ew]; exact e1, by rw [upd_ne _ _ eu]; exact e2⟩
      · intro b1 b2 w e1 e2
        dsimp only at e1 e2
        by_cases c1 : b1 = b
        · rw [c1, upd_eq] at e1; cases e1
        · by_cases c2 : b2 = b
          · rw [c2, upd_eq] at e2; cases e2
          · rw [upd_ne _ _ c1] at e1
            rw [upd_ne _ _ c2] at e2
            exact h.one b1 b2 w e1 e2
      · intro w e
        dsimp only at e ⊢
        have ew : w ≠ v := fun e' => e (by rw [e', upd_eq])
        rw [upd_ne _ _ ew] at e
        obtain ⟨b', hb'⟩ := h.used w e
        have : b' ≠ b := fun e' => by rw [e', hc] at hb'; cases hb'; exact ew rfl
        exact ⟨b', by rw [upd_ne _ _ this]; exact hb'⟩
      · intro u' e
        dsimp only at e ⊢
        have eu : u' ≠ u := fun e' => by rw [e', upd_eq] at e; cases e
        rw [upd_ne _ _ eu] at e
        obtain ⟨w, hw⟩ := h.own u' e
        have : w ≠ v := fun e' => by rw [e', hu] at hw; cases hw; exact eu rfl
        exact ⟨w, by rw [upd_ne _ _ this]; exact hw⟩
      · intro w w' u' e e'
        dsimp only at e e'
        have c1 : w ≠ v := fun e' => by rw [e', upd_eq] at e; cases e
        have c2 : w' ≠ v := fun e'' => by rw [e'', upd_eq] at e'; cases e'
        rw [upd_ne _ _ c1] at e
        rw [upd_ne _ _ c2] at e'
        exact h.uni w w' u' e e'
  obtain ⟨s2, k1, k2, k3, k4⟩ := key
  have hr : ∀ b', b' ≠ b → s2.regs b' = s.regs b' := fun b' hb' => by rw [k4, upd_ne _ _ hb']
  unfold free
  by_cases hq : ok = false ∧ (s.regs b).isSome = true ∧ again = true
  · refine ⟨{ s2 with regs := upd s2.regs b (some sz) }, ?_, k2.regs _, k3, ?_⟩
    · rw [k1]; simp only [Option.map_some, if_pos hq]
    · intro b' hb'
      dsimp only
      rw [upd_ne _ _ hb']; exact hr b' hb'
  · refine ⟨s2, ?_, k2, k3, hr⟩
    rw [k1]; simp only [Option.map_some, if_neg hq]

/-- Every call is well defined and keeps the invariant. -/
theorem core_run {s : St} (h : Core s) {c : Call} (hc : c.Fair s) : ∃ s', c.run s = some s' ∧ Core s' := by
  cases c with
  | alloc b sz => exact ⟨_, rfl, h.regs _⟩
  | expo x b a =>
    have : ∃ s' r, exportPtr s x b a = some (s', r) ∧ Core s' := by
      unfold exportPtr
      split
      · exact ⟨s, none, rfl, h⟩
      · split
        · obtain ⟨s', r, e1, e2, _⟩ := getHandle_spec h b hc
          exact ⟨s', r, e1, e2⟩
        · exact ⟨s, none, rfl, h⟩
    obtain ⟨s', r, e1, e2⟩ := this
    exact ⟨s', by simp only [Call.run, e1, Option.map_some], e2⟩
  | free b sz ok again =>
    obtain ⟨s', e1, e2, _⟩ := free_spec h b sz ok again
    exact ⟨s', e1, e2⟩
  | split b first =>
    refine ⟨_, rfl, ?_⟩
    unfold split
    split
    · exact h
    · split
      · exact h.regs _
      · exact h
  | merge lo hi =>
    refine ⟨_, rfl, ?_⟩
    unfold merge
    split
    · split
      · exact h.regs _
      · exact h
    · exact h

theorem Any.core {s : St} (h : Any s) : Core s := by
  induction h with
  | init => exact Core.init
  | step _ hf hr ih =>
    obtain ⟨s', e1, e2⟩ := core_run ih hf
    rw [e1] at hr; cases hr
    exact e2

/-- Cached bases are bases of regions, as long as no exported region is merged away. -/
theorem Reach.regs {s : St} (h : Reach s) : Any s ∧ ∀ b v, s.cache b = some v → ∃ sz, s.regs b = some sz := by
  induction h with
  | init => exact ⟨.init, fun _ _ h => by cases h⟩
  | @step s s' c _ hf hm hr ih =>
    refine ⟨.step ih.1 hf hr, ?_⟩
    have hcore := ih.1.core
    have ih := ih.2
    cases c with
    | alloc b sz =>
      cases hr
      intro b' v hv
      by_cases e : b' = b
      · exact ⟨sz, by dsimp only [alloc]; rw [e, upd_eq]⟩
      · obtain ⟨z, hz⟩ := ih b' v hv
        exact ⟨z, by dsimp only [alloc]; rw [upd_ne _ _ e]; exact hz⟩
    | expo x b a =>
      simp only [Call.run] at hr
      unfold exportPtr at hr
      cases hb : s.regs b with
      | none => rw [hb] at hr; cases hr; exact ih
      | some sz =>
        rw [hb] at hr
        dsimp only at hr
        split at hr
        · obtain ⟨s2, r, e1, _, e3, e4, _⟩ := getHandle_spec hcore b hf
          rw [e1] at hr; cases hr
          intro b' v hv
          dsimp only at hv ⊢
          rw [e3]
          by_cases e : b' = b
          · exact ⟨sz, by rw [e]; exact hb⟩
          · rw [e4 b' e] at hv; exact ih b' v hv
        · cases hr; exact ih
    | free b sz ok again =>
      obtain ⟨s2, e1, _, e3, e4⟩ := free_spec hcore b sz ok again
      simp only [Call.run, e1, Option.some.injEq] at hr
      subst hr
      intro b' v hv
      rw [e3] at hv
      have e : b' ≠ b := fun e => by rw [e, upd_eq] at hv; cases hv
      rw [upd_ne _ _ e] at hv
      rw [e4 b' e]
      exact ih b' v hv
    | split b first =>
      cases hr
      intro b' v hv
      unfold split at hv ⊢
      cases hb : s.regs b with
      | none => rw [hb] at hv; exact ih b' v hv
      | some sz =>
        rw [hb] at hv
        dsimp only at hv ⊢
        split at hv
        · rename_i hc
          rw [if_pos hc]
          dsimp only at hv ⊢
          by_cases c1 : b' = b + first
          · exact ⟨_, by rw [c1, upd_eq]⟩
          · rw [upd_ne _ _ c1]
            by_cases c2 : b' = b
            · exact ⟨_, by rw [c2, upd_eq]⟩
            · rw [upd_ne _ _ c2]; exact ih b' v hv
        · rename_i hc
          rw [if_neg hc]
          exact ih b' v hv
    | merge lo hi =>
      cases hr
      intro b' v hv
      have hm : s.cache hi = none := hm
      unfold merge at hv ⊢
      cases hl : s.regs lo with
      | none => rw [hl] at hv; exact ih b' v hv
      | some sl =>
        cases hh : s.regs hi with
        | none => rw [hl, hh] at hv; exact ih b' v hv
        | some sh =>
          rw [hl, hh] at hv
          dsimp only at hv ⊢
          split at hv
          · rename_i hc
            rw [if_pos hc]
            dsimp only at hv ⊢
            have c1 : b' ≠ hi := fun e => by rw [e, hm] at hv; cases hv
            rw [upd_ne _ _ c1]
            by_cases c2 : b' = lo
            · exact ⟨_, by rw [c2, upd_eq]⟩
            · rw [upd_ne _ _ c2]; exact ih b' v hv
          · rename_i hc
            rw [if_neg hc]
            exact ih b' v hv

/-- C84: whatever happens to a pool, with any arguments and refusals, also with any merges: no block that is not in use is read
or freed, and no upstream handle is put back that is not out. -/
theorem C84_defined {s : St} (h : Any s) {c : Call} (hc : c.Fair s) : ∃ s', c.run s = some s' := by
  obtain ⟨s', e, _⟩ := core_run h.core hc
  exact ⟨s', e⟩

/-- C84: an export that succeeds returns an upstream handle that is out, and a second export of the same allocation returns the
same one, whatever it is answered. -/
theorem C84_export {s s' : St} (h : Any s) {x b u : Nat} {a : Ans} (ha : Honest s a)
    (he : exportPtr s x b a = some (s', some u)) :
    s'.out u = true ∧ ∀ a', Honest s' a' → exportPtr s' x b a' = some (s', some u) := by
  unfold exportPtr at he
  cases hb : s.regs b with
  | none => rw [hb] at he; cases he
  | some sz =>
    rw [hb] at he
    dsimp only at he
    split at he
    · rename_i hx
      obtain ⟨s2, r, e1, e2, e3, e4, e5⟩ := getHandle_spec h.core b ha
      rw [e1] at he; cases he
      obtain ⟨v, k1, k2⟩ := (e5 u).1 rfl
      obtain ⟨u', k3, k4⟩ := e2.blk b v k1
      rw [k2] at k3; cases k3
      refine ⟨k4, fun a' _ => ?_⟩
      unfold exportPtr
      rw [e3, hb]
      dsimp only
      rw [if_pos hx]
      unfold getHandle
      rw [k1]
      dsimp only
      rw [k2]
    · cases he

/-- C84: in histories in which no region with an exported handle is merged into the one below it: every upstream handle that is
out is that of a region the pool still has, no two regions share one, and blocks in use and handles that are out correspond.
Missing: merges of exported regions, see `C84_merge_violated`. -/
theorem C84_handles_partial {s : St} (h : Reach s) :
    ∃ f : Nat → Nat, (∀ u, s.out u = true → ∃ sz, s.regs (f u) = some sz) ∧
      (∀ u u', s.out u = true → s.out u' = true → f u = f u' → u = u') ∧
      ∀ v, s.heap v ≠ none → ∃ u, s.out u = true ∧ s.heap v = some (some u) := by
  have hc := h.regs.1.core
  have hex : ∀ u, ∃ b, s.out u = true → ∃ v, s.cache b = some v ∧ s.heap v = some (some u) := by
    intro u
    by_cases ho : s.out u = true
    · obtain ⟨v, hv⟩ := hc.own u ho
      obtain ⟨b, hb⟩ := hc.used v (by rw [hv]; simp)
      exact ⟨b, fun _ => ⟨v, hb, hv⟩⟩
    · exact ⟨0, fun h => absurd h ho⟩
  obtain ⟨f, hf⟩ := Classical.axiomOfChoice hex
  refine ⟨f, ?_, ?_, ?_⟩
  · intro u hu
    obtain ⟨v, h1, _⟩ := hf u hu
    exact h.regs.2 _ v h1
  · intro u u' hu hu' e
    obtain ⟨v, h1, h2⟩ := hf u hu
    obtain ⟨v', h3, h4⟩ := hf u' hu'
    rw [e, h3] at h1; cases h1
    rw [h2] at h4; cases h4; rfl
  · intro v hv
    obtain ⟨b, hb⟩ := hc.used v hv
    obtain ⟨u, h1, h2⟩ := hc.blk b v hb
    exact ⟨u, h2, h1⟩

/-- C84: if such a pool has freed all its regions, destroying it leaves no upstream handle and no block. Missing: regions that are
left (`C84_destroy_violated`) and merges of exported regions (`C84_merge_violated`). -/
theorem C84_end_partial {s : St} (h : Reach s) (he : ∀ b, s.regs b = none) : Nothing (finalize s) := by
  obtain ⟨f, h1, _, h3⟩ := C84_handles_partial h
  have ho : ∀ u, s.out u = false := by
    intro u
    cases e : s.out u with
    | false => rfl
    | true =>
      obtain ⟨sz, hz⟩ := h1 u e
      rw [he] at hz; cases hz
  refine ⟨ho, fun v => ?_⟩
  cases e : s.heap v with
  | none => exact e
  | some x =>
    obtain ⟨u, h4, _⟩ := h3 v (by rw [e]; simp)
    rw [ho u] at h4; cases h4

/-- C84: freeing a region puts its handle back, also if the upstream provider then refuses to free the memory. -/
theorem C84_free {s s' : St} (h : Any s) {b sz x u : Nat} {a : Ans} {s0 : St} (ha : Honest s a)
    (he : exportPtr s x b a = some (s0, some u)) {ok again : Bool} (hf : free s0 b sz ok again = some s') : s'.out u = false := by
  have hcore : Any s0 := .step (c := .expo x b a) h ha (by simp only [Call.run, he, Option.map_some])
  obtain ⟨k1, k2⟩ := C84_export h ha he
  -- the handle is the one in the cache for b
  have hcache : ∃ v, s0.cache b = some v ∧ s0.heap v = some (some u) := by
    unfold exportPtr at he
    cases hb : s.regs b with
    | none => rw [hb] at he; cases he
    | some z =>
      rw [hb] at he
      dsimp only at he
      split at he
      · obtain ⟨s2, r, e1, _, _, _, e5⟩ := getHandle_spec h.core b ha
        rw [e1] at he; cases he
        exact (e5 u).1 rfl
      · cases he
  obtain ⟨v, hv, hu⟩ := hcache
  obtain ⟨s2, e1, e2, e3, _⟩ := free_spec hcore.core b sz ok again
  rw [hf] at e1; cases e1
  cases ho : s'.out u with
  | false => rfl
  | true =>
    exfalso
    obtain ⟨w, hw⟩ := e2.own u ho
    unfold free at hf
    simp only [dropHandle, hv, putUp, hu, k1, if_true, gfree, Option.map_some, Option.some.injEq] at hf
    rw [← hf] at ho
    split at ho
    · simp [upd] at ho
    · simp [upd] at ho

end Verif.IpcEnd
