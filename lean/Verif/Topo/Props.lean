import Verif.Topo.Spec
import Mathlib.Data.List.Infix
import Mathlib.Data.List.Nodup
/-!
# The topology and the attributes of memory targets: C81
-/
namespace Verif.Topo

/-! ## Attributes -/

theorem byOs_some {hw : Hw} {id : Nat} {n : Node} (h : byOs hw id = some n) : IsNode hw id n :=
  ⟨List.mem_of_find?_eq_some h, by have := List.find?_some h; simpa using this⟩

theorem byOs_none {hw : Hw} {id : Nat} (h : byOs hw id = none) (n : Node) : ¬ IsNode hw id n := by
  rintro ⟨h1, h2⟩
  have := List.find?_eq_none.1 h n h1
  simp [h2] at this

theorem Distinct.one {hw : Hw} (hd : Distinct hw) {id : Nat} {n n' : Node} (h : IsNode hw id n) (h' : IsNode hw id n') :
    n = n' := List.inj_on_of_nodup_map hd h.1 h'.1 (h.2.trans h'.2.symm)

/-- **C81**: the capacity of a target is the memory of the node with its number; for a number without node, or with a null
pointer, the call fails and writes nothing. -/
theorem C81_capacity (hw : Hw) (hd : Distinct hw) (id : Nat) (r : Res) (v : Option Nat)
    (h : capacity (some hw) (some id) true = (r, v)) :
    (∀ n c, IsNode hw id n → n.mem = some c → r = .ok ∧ v = some c) ∧
      ((∀ n, IsNode hw id n → n.mem = none) → r = .invalidArgument ∧ v = none) := by
  unfold capacity at h
  dsimp only at h
  split at h
  · rename_i e
    cases h
    exact ⟨fun n c hn _ => (byOs_none e n hn).elim, fun _ => ⟨rfl, rfl⟩⟩
  · rename_i n e
    split at h
    · rename_i em
      cases h
      refine ⟨fun n' c hn hc => ?_, fun _ => ⟨rfl, rfl⟩⟩
      rw [hd.one (byOs_some e) hn, hc] at em
      cases em
    · rename_i c em
      cases h
      refine ⟨fun n' c' hn hc => ?_, fun hn => ?_⟩
      · rw [hd.one (byOs_some e) hn, hc] at em
        cases em
        exact ⟨rfl, rfl⟩
      · rw [hn n (byOs_some e)] at em
        cases em

/-- **C81**: null pointers are refused, and without a topology nothing is reported. -/
theorem C81_null (hw : Option Hw) (src dst : Option Nat) (a : Attr) (out : Bool) :
    ((src = none ∨ dst = none ∨ out = false) → attrOf hw src dst a out = (.invalidArgument, none)) ∧
      ((src = none ∨ out = false) → capacity hw src out = (.invalidArgument, none)) ∧
      (∀ s d, attrOf none (some s) (some d) a true = (.notSupported, none) ∧
        capacity none (some s) true = (.notSupported, none)) := by
  refine ⟨?_, ?_, fun _ _ => ⟨rfl, rfl⟩⟩
  · rintro (h | h | h) <;> subst h
    · rfl
    · cases src <;> rfl
    · cases src <;> cases dst <;> rfl
  · rintro (h | h) <;> subst h
    · rfl
    · cases src <;> rfl

theorem near_iff (s d : Node) : intersects s.cpus d.cpus = true ↔ Near s d := by
  simp [intersects, Near]

theorem worst_spec (a : Attr) : Worst a (worst a) := by cases a <;> rfl

theorem same_some {hw : Hw} (hs : SameNumbers hw) {i : Nat} {n : Node} (h : byLogical hw i = some n) : IsNode hw i n :=
  ⟨List.mem_of_getElem? h, hs i n h⟩

theorem same_none {hw : Hw} (hs : SameNumbers hw) {i : Nat} (h : byLogical hw i = none) (n : Node) : ¬ IsNode hw i n := by
  rintro ⟨h1, h2⟩
  obtain ⟨j, hj⟩ := List.getElem?_of_mem h1
  have := hs j n hj
  rw [← h2, this] at h
  rw [byLogical, hj] at h
  cases h

/-- **C81**: the bandwidth and the latency between two targets are those that hwloc has for the processors of the first node
and the memory of the second, the worst value if no processor is near both, and an error if hwloc has none or a node does not
exist; if the physical numbers of the nodes are their logical numbers. (Missing: all other machines, see
`C81_numbers_violated`.) -/
theorem C81_attribute_partial (hw : Hw) (hs : SameNumbers hw) (a : Attr) (src dst : Nat) :
    Right hw a src dst (attrOf (some hw) (some src) (some dst) a true) := by
  unfold attrOf query
  dsimp only
  split
  · rename_i e
    exact .noSource (same_none hs e)
  · rename_i s es
    split
    · rename_i e
      exact .noTarget (same_none hs e)
    · rename_i d ed
      have h1 := same_some hs es
      have h2 := same_some hs ed
      split
      · rename_i hn
        refine .far h1 h2 ?_ (worst_spec a)
        rw [← near_iff]
        simpa using hn
      · rename_i hn
        have hn : Near s d := (near_iff s d).1 (by simpa using hn)
        split
        · rename_i einval ev
          cases einval
          · exact .error h1 h2 hn ev
          · exact .einval h1 h2 hn ev
        · rename_i v ev
          exact .value h1 h2 hn ev

/-- **C81** fails on every machine on which the physical number of some node is not its logical number: for some values of the
attributes, the answer about some existing node and itself is wrong. -/
theorem C81_numbers_violated (nodes : List Node) (hd : (nodes.map Node.os).Nodup) (hc : ∀ n ∈ nodes, n.cpus ≠ []) (i : Nat)
    (n : Node) (hi : nodes[i]? = some n) (hn : n.os ≠ i) :
    ∃ value, ∀ a, ¬ Right ⟨nodes, value⟩ a n.os n.os (attrOf (some ⟨nodes, value⟩) (some n.os) (some n.os) a true) := by
  have hdis : ∀ value, Distinct ⟨nodes, value⟩ := fun _ => hd
  have hmem : n ∈ nodes := List.mem_of_getElem? hi
  have hnear : ∀ m ∈ nodes, Near m m := by
    intro m hm
    cases e : m.cpus with
    | nil => exact (hc m hm e).elim
    | cons c t => exact ⟨c, by rw [e]; simp, by rw [e]; simp⟩
  refine ⟨fun _ _ m => .inl m.os, fun a => ?_⟩
  generalize hhw : (⟨nodes, fun _ _ m => .inl m.os⟩ : Hw) = hw
  have hN : hw.nodes = nodes := by rw [← hhw]
  have hV : ∀ b cpus m, hw.value b cpus m = .inl m.os := by rw [← hhw]; intros; rfl
  have hD : Distinct hw := by rw [← hhw]; exact hdis _
  have hnode : IsNode hw n.os n := ⟨by rw [hN]; exact hmem, rfl⟩
  have right : ∀ r, Right hw a n.os n.os r → r = (.ok, some n.os) := by
    intro r hr
    cases hr with
    | value h1 h2 _ hv =>
      rw [hV] at hv
      cases hv
      rw [h2.2]
    | far h1 h2 h3 _ =>
      rw [hD.one h1 hnode, hD.one h2 hnode] at h3
      exact (h3 (hnear n hmem)).elim
    | einval h1 h2 _ hv => rw [hV] at hv; cases hv
    | error h1 h2 _ hv => rw [hV] at hv; cases hv
    | noSource h => exact (h n hnode).elim
    | noTarget h => exact (h n hnode).elim
  intro hr
  have hr := right _ hr
  unfold attrOf query at hr
  dsimp only at hr
  split at hr
  · cases hr
  · rename_i s es
    dsimp only at hr
    have hsm : s ∈ nodes := by rw [← hN]; exact List.mem_of_getElem? es
    rw [(near_iff s s).2 (hnear s hsm), hV] at hr
    simp only [Bool.not_true, Bool.false_eq_true, if_false, Prod.mk.injEq, true_and, Option.some.injEq] at hr
    have e : s = n := List.inj_on_of_nodup_map hd hsm hmem hr
    rw [byLogical, hN, e] at es
    obtain ⟨h1, h2⟩ := List.getElem?_eq_some_iff.1 es
    obtain ⟨h3, h4⟩ := List.getElem?_eq_some_iff.1 hi
    exact hn ((List.Nodup.getElem_inj_iff (List.Nodup.of_map _ hd)).1 (h2.trans h4.symm))

/-! ## The topology -/

/-- What holds between two events: the pointer is a topology that is there, and the only one; or there is none, and the pointer
is one that was destroyed (`stale`) or null. -/
structure Inv (s : St) (idle : Bool) : Prop where
  fresh : ∀ t, s.next ≤ t → s.live t = false
  up : s.once = true → ∀ t, s.live t = true ↔ s.ptr = some t
  down : s.once = false → ∀ t, s.live t = false
  notIdle : idle = false → s.once = false → s.ptr = none
  known : ∀ t, s.ptr = some t → t < s.next

theorem Inv.init : Inv St.init false := by
  refine ⟨fun _ _ => rfl, fun h => ?_, fun _ _ => rfl, fun _ _ => rfl, fun t h => ?_⟩ <;> simp [St.init] at h

theorem Inv.use {s : St} {b : Bool} (h : Inv s b) (i l : Bool) :
    ∃ s' r, Verif.Topo.use s i l = some (s', r) ∧ Inv s' false ∧ s'.ptr = r ∧ s'.once = true ∧
      (s.once = true → s' = s) ∧ (s.once = false → ((i && l) = true ↔ r.isSome = true)) := by
  by_cases ho : s.once = true
  · refine ⟨s, s.ptr, ?_, ⟨h.fresh, h.up, h.down, (fun _ h' => by rw [ho] at h'; cases h'), h.known⟩, rfl, ho, fun _ => rfl,
      (fun h' => by rw [ho] at h'; cases h')⟩
    unfold Verif.Topo.use get
    rw [if_pos ho, Option.bind_some]
    dsimp only
    split
    · rename_i e; rw [e]
    · rename_i t e
      rw [if_pos ((h.up ho t).2 e), e]
  · have ho : s.once = false := by simpa using ho
    have hl := h.down ho
    cases i with
    | false =>
      refine ⟨{ s with once := true, ptr := none }, none, ?_, ⟨h.fresh, fun _ t => ?_, (fun h' => by cases h'), (fun _ h' => by cases h'),
        (fun t e => by cases e)⟩, rfl, rfl, (fun h' => by rw [ho] at h'; cases h'), fun _ => by simp⟩
      · simp [Verif.Topo.use, get, ho, create]
      · simp [hl t]
    | true =>
      cases l with
      | false =>
        refine ⟨{ s with once := true, ptr := none, live := upd (upd s.live s.next true) s.next false, next := s.next + 1 }, none, ?_,
          ⟨fun t ht => ?_, fun _ t => ?_, (fun h' => by cases h'), (fun _ h' => by cases h'), (fun t e => by cases e)⟩, rfl, rfl,
          (fun h' => by rw [ho] at h'; cases h'), fun _ => by simp⟩
        · simp [Verif.Topo.use, get, ho, create, hwDestroy, upd]
        · simp [upd, hl t]
        · simp [upd, hl t]
      | true =>
        refine ⟨{ s with once := true, ptr := some s.next, live := upd s.live s.next true, next := s.next + 1 }, some s.next, ?_,
          ⟨fun t ht => ?_, fun _ t => ?_, (fun h' => by cases h'), (fun _ h' => by cases h'), fun t e => ?_⟩, rfl, rfl,
          (fun h' => by rw [ho] at h'; cases h'), fun _ => by simp⟩
        · simp [Verif.Topo.use, get, ho, create, upd]
        · dsimp only at ht ⊢
          rw [upd, if_neg (by omega), hl t]
        · dsimp only [upd]
          by_cases e : t = s.next
          · subst e; simp
          · rw [if_neg e, hl t]
            simp [Ne.symm e]
        · dsimp only at e ⊢
          cases e
          omega

theorem Inv.destroy {s : St} (h : Inv s false) :
    ∃ s', Verif.Topo.destroy s = some s' ∧ Inv s' true ∧ ∀ t, s'.live t = false := by
  unfold Verif.Topo.destroy
  cases e : s.ptr with
  | none =>
    have hl : ∀ t, s.live t = false := by
      intro t
      cases ho : s.once with
      | false => exact h.down ho t
      | true =>
        have := h.up ho t
        rw [e] at this
        simpa using this
    exact ⟨s, rfl, ⟨h.fresh, h.up, h.down, (fun h' => by cases h'), h.known⟩, hl⟩
  | some t =>
    have ho : s.once = true := by
      by_contra hn
      have := h.notIdle rfl (by simpa using hn)
      rw [e] at this
      cases this
    have hup := h.up ho
    have hlive : s.live t = true := (hup t).2 e
    have hl : ∀ u, upd s.live t false u = false := by
      intro u
      unfold upd
      split
      · rfl
      · rename_i hne
        have := hup u
        rw [e] at this
        by_contra hc
        exact hne (by have := this.1 (by simpa using hc); simp_all)
    refine ⟨{ s with live := upd s.live t false, once := false }, ?_, ⟨fun u _ => hl u, (fun h' => by cases h'), fun _ => hl,
      (fun h' => by cases h'), h.known⟩, hl⟩
    dsimp only
    rw [hwDestroy, if_pos hlive]
    rfl

theorem run_append (s : St) (as bs : List Ev) : run s (as ++ bs) = (run s as).bind fun s => run s bs := by
  induction as generalizing s with
  | nil => rfl
  | cons e as ih =>
    cases e with
    | use i l =>
      simp only [List.cons_append, run]
      cases use s i l with
      | none => rfl
      | some r => simp [ih]
    | shutdown =>
      simp only [List.cons_append, run]
      cases destroy s with
      | none => rfl
      | some r => simp [ih]

/-- The state after a history, by its last event. -/
theorem run_inv (es : List Ev) (h : NoIdleRound es) : ∃ s, run St.init es = some s ∧ Inv s (es.getLast? == some .shutdown) ∧
    (es.getLast? = some .shutdown → ∀ t, s.live t = false) := by
  induction es using List.reverseRecOn with
  | nil => exact ⟨St.init, rfl, Inv.init, fun h => by simp at h⟩
  | append_singleton es e ih =>
    obtain ⟨s, h1, h2, h3⟩ := ih fun hi => h (hi.trans (List.prefix_append es [e]).isInfix)
    rw [run_append, h1, Option.bind_some]
    cases e with
    | use i l =>
      obtain ⟨s', r, h4, h5, _⟩ := h2.use i l
      refine ⟨s', by simp [run, h4], ?_, fun h => by simp at h⟩
      have e : ((es ++ [Ev.use i l]).getLast? == some .shutdown) = false := by
        rw [List.getLast?_concat]
        rfl
      rw [e]
      exact h5
    | shutdown =>
      have hne : (es.getLast? == some Ev.shutdown) = false := by
        by_contra hc
        have hc : es.getLast? = some .shutdown := by simpa using hc
        obtain ⟨ds, hds⟩ := List.getLast?_eq_some_iff.1 hc
        exact h ⟨ds, [], by rw [hds]; simp⟩
      rw [hne] at h2
      obtain ⟨s', h4, h5, h6⟩ := h2.destroy
      refine ⟨s', by simp [run, h4], ?_, fun _ => h6⟩
      simpa using h5

/-- **C81**: whatever hwloc answers, no topology is used or destroyed that is not there, at most one is there at a time, and
none is there after a shut-down; if something needs the topology between any two shut-downs. (Missing: shut-downs without,
see `C81_idle_violated`.) -/
theorem C81_topology_partial (es : List Ev) (h : NoIdleRound es) : ∃ s, run St.init es = some s ∧
    (∀ t u, s.live t = true → s.live u = true → t = u) ∧ (es.getLast? = some .shutdown → ∀ t, s.live t = false) := by
  obtain ⟨s, h1, h2, h3⟩ := run_inv es h
  refine ⟨s, h1, fun t u ht hu => ?_, h3⟩
  cases ho : s.once with
  | false => rw [h2.down ho t] at ht; cases ht
  | true =>
    have e1 := (h2.up ho t).1 ht
    have e2 := (h2.up ho u).1 hu
    rw [e1] at e2
    exact Option.some.inj e2

/-- **C81**: in one round all functions see the same topology: it is loaded once. -/
theorem C81_once (es : List Ev) (h : NoIdleRound es) (i l i' l' : Bool) (s s1 s2 : St) (r1 r2 : Option Nat)
    (hs : run St.init es = some s) (h1 : use s i l = some (s1, r1)) (h2 : use s1 i' l' = some (s2, r2)) :
    r1 = r2 ∧ s2 = s1 := by
  obtain ⟨s0, e0, hi, _⟩ := run_inv es h
  rw [hs] at e0
  cases e0
  obtain ⟨s1', r1', e1, hi1, hp1, ho1, _⟩ := hi.use i l
  rw [h1] at e1
  cases e1
  obtain ⟨s2', r2', e2, _, hp2, _, hsame, _⟩ := hi1.use i' l'
  rw [h2] at e2
  cases e2
  have := hsame ho1
  subst this
  exact ⟨by rw [← hp1, ← hp2], rfl⟩

/-- **C81** fails if a round in which the topology was loaded is followed by one that does not need it: the second shut-down
destroys the same topology again. -/
theorem C81_idle_violated (us : List (Bool × Bool)) (post : List Ev) :
    run St.init ([.use true true] ++ us.map (fun u => .use u.1 u.2) ++ [.shutdown, .shutdown] ++ post) = none := by
  have huse : run St.init ([.use true true] ++ us.map (fun u => .use u.1 u.2)) =
      some ⟨some 0, true, upd (fun _ => false) 0 true, 1⟩ := by
    induction us using List.reverseRecOn with
    | nil => rfl
    | append_singleton us u ih =>
      rw [List.map_append, ← List.append_assoc, run_append, ih]
      rfl
  rw [List.append_assoc, run_append, huse]
  rfl

/-- **C81** fails after a failure: if the topology could not be loaded once, for whatever reason, it is not loaded in any later
round. -/
theorem C81_retry_violated (i l : Bool) (hf : (i && l) = false) (es : List Ev) (i' l' : Bool) :
    ∃ s, run St.init (.use i l :: es) = some s ∧ use s i' l' = some (s, none) := by
  have key : ∀ (es : List Ev) (s : St), s.once = true → s.ptr = none →
      ∃ s', run s es = some s' ∧ use s' i' l' = some (s', none) := by
    intro es
    induction es with
    | nil =>
      intro s h1 h2
      exact ⟨s, rfl, by simp [use, get, h1, h2]⟩
    | cons e es ih =>
      intro s h1 h2
      cases e with
      | use a b =>
        have : use s a b = some (s, none) := by simp [use, get, h1, h2]
        rw [run, this, Option.bind_some]
        exact ih s h1 h2
      | shutdown =>
        have : destroy s = some s := by simp [destroy, h2]
        rw [run, this, Option.bind_some]
        exact ih s h1 h2
  obtain ⟨s', r, h1, _, hp, ho, _, hr⟩ := Inv.init.use i l
  rw [run, h1, Option.bind_some]
  refine key es s' ho ?_
  rw [hp]
  have := hr rfl
  cases r with
  | none => rfl
  | some t => simp [hf] at this

/-! ## Cases -/

/-- Two nodes with processors 0, 1 and 2, and a node without processors of its own near 2. -/
def demo : Hw := ⟨[⟨0, some 100, [0, 1]⟩, ⟨1, some 200, [2]⟩, ⟨2, none, [2]⟩],
  fun a cpus n => if n.os = 2 then .inr true else .inl (if a = .bandwidth then 10 * cpus.length else 7)⟩

theorem demo_same : SameNumbers demo := by
  intro i n h
  match i with
  | 0 => cases h; rfl
  | 1 => cases h; rfl
  | 2 => cases h; rfl
  | _ + 3 => cases h

example : capacity (some demo) (some 1) true = (.ok, some 200) ∧ capacity (some demo) (some 2) true = (.invalidArgument, none) ∧
    attrOf (some demo) (some 0) (some 0) .bandwidth true = (.ok, some 20) ∧
    attrOf (some demo) (some 0) (some 1) .latency true = (.ok, some 18446744073709551615) ∧
    attrOf (some demo) (some 1) (some 2) .latency true = (.notSupported, none) ∧
    attrOf (some demo) (some 1) (some 3) .latency true = (.invalidArgument, none) ∧ Distinct demo := by
  unfold Distinct
  decide

/-- A machine whose nodes have the physical numbers 0 and 8: the second cannot be asked for. -/
example : ∃ value, ¬ Right ⟨[⟨0, some 1, [0]⟩, ⟨8, some 1, [1]⟩], value⟩ .bandwidth 8 8
    (attrOf (some ⟨[⟨0, some 1, [0]⟩, ⟨8, some 1, [1]⟩], value⟩) (some 8) (some 8) .bandwidth true) := by
  obtain ⟨v, h⟩ := C81_numbers_violated [⟨0, some 1, [0]⟩, ⟨8, some 1, [1]⟩] (by decide) (by decide) 1 ⟨8, some 1, [1]⟩ rfl
    (by decide)
  exact ⟨v, h .bandwidth⟩

/-- Two rounds that need the topology, the second without success. -/
example : NoIdleRound [.use true true, .use true true, .shutdown, .use true false, .shutdown] := by
  unfold NoIdleRound
  decide

/-- Two rounds, the second without a need for the topology. -/
example : run St.init [.use true true, .shutdown, .shutdown] = none := C81_idle_violated [] []

end Verif.Topo
