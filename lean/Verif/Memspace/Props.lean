import Verif.Memspace.Inv
/-!
# Memspaces behave as ordered sets (C36)

`Unmoved w m st`: the memspaces other than `m` stand for the same targets in `st` as in `w`.
-/
namespace Verif.Memspace

def Unmoved (w : World) (m : Nat) (st : St) : Prop :=
  ∀ m' nodes vals, m' ≠ m → w.spaces m' = some nodes → Shows w.st nodes vals → Shows st nodes vals

theorem unmoved_same {w : World} {m : Nat} {st : St} (h : Same w.st st) : Unmoved w m st := by
  intro m' nodes vals _ _ hs
  exact shows_congr hs (fun n _ => by rw [h.live])

theorem unmoved_frame {w : World} (hi : Inv w) {m : Nat} {nodes : List Nat} (hm : w.spaces m = some nodes) {st : St}
    (h : ∀ x, w.st.live x ≠ none → x ∉ nodes → st.live x = w.st.live x) : Unmoved w m st := by
  intro m' nodes' vals hne hm' hs
  apply shows_congr hs
  intro n hn
  apply h n ((hi.sound.owner n).2 ⟨m', nodes', hm', hn⟩)
  intro hn'
  exact hne (hi.sound.unique n m' m nodes' nodes hm' hm hn hn')

/-- C36. After every history, every memspace is a set of targets of one type, its targets exist, and no target object
belongs to two memspaces or to none. -/
theorem C36_sound {qsort : List (Nat × Nat) → List (Nat × Nat)} (hq : SortOk qsort) {w : World}
    (hr : Reach qsort w) : Sound w := (inv_reach hq hr).sound

/-- C36. Adding a target: an equal target or one of another type is refused; otherwise only a failing allocation can make
the call fail; success appends the target, failure changes nothing; other memspaces never change. -/
theorem C36_add {qsort : List (Nat × Nat) → List (Nat × Nat)} (hq : SortOk qsort) {w : World}
    (hr : Reach qsort w) {m h : Nat} {nodes : List Nat} {vals : List Target} {t : Target}
    (hm : w.spaces m = some nodes) (hs : Shows w.st nodes vals) (ht : w.st.live h = some t) :
    ∃ r nodes' st, add w.st nodes h = some (r, nodes', st) ∧
      (r = .success → Shows st nodes' (vals ++ [t]) ∧ t ∉ vals ∧ ∀ v ∈ vals, v.kind = t.kind) ∧
      (r ≠ .success → nodes' = nodes ∧ Shows st nodes vals) ∧
      ((t ∈ vals ∨ ∃ v ∈ vals, v.kind ≠ t.kind) → r = .invalid) ∧
      (t ∉ vals → (∀ v ∈ vals, v.kind = t.kind) → r = .success ∨ r = .oom) ∧
      (t ∉ vals → (∀ v ∈ vals, v.kind = t.kind) → w.st.mem = [] → r = .success) ∧
      Unmoved w m st := by
  have hi := inv_reach hq hr
  obtain ⟨r, nodes', st, e1, e2, e3, e4, e5⟩ := add_eff hs ht
  refine ⟨r, nodes', st, e1, ?_, ?_, ?_, fun h1 h2 => e4 ⟨h1, h2⟩, fun h1 h2 => e5 ⟨h1, h2⟩, ?_⟩
  · intro hr
    rcases e2 with ⟨h1, _⟩ | ⟨_, h1, c, rfl, h2⟩
    · exact absurd hr h1
    · exact ⟨(added_shows h2 hi.bounded hs).1, h1.1, h1.2⟩
  · intro hr
    rcases e2 with ⟨_, rfl, h2⟩ | ⟨h1, _⟩
    · exact ⟨rfl, shows_congr hs (fun n _ => by rw [h2.live])⟩
    · exact absurd h1 hr
  · intro hc
    apply e3
    rintro ⟨h1, h2⟩
    rcases hc with hc | ⟨v, hv, hc⟩
    · exact h1 hc
    · exact hc (h2 v hv)
  · rcases e2 with ⟨_, _, h2⟩ | ⟨_, _, c, _, h2⟩
    · exact unmoved_same h2
    · apply unmoved_frame hi hm
      intro x hx _
      rw [h2.live, if_neg]
      rintro rfl
      exact hx (hi.bounded x (by rw [h2.eq]; exact Nat.le_refl _))

theorem erase_split {vb va : List Target} {t : Target} (h : t ∉ vb) : (vb ++ t :: va).erase t = vb ++ va := by
  rw [List.erase_append_right _ h, List.erase_cons_head]

/-- C36. Removing a target: one that is not in the memspace is refused; success deletes that target and keeps the order of
the others, failure changes nothing; other memspaces never change. Missing for the full claim: that the call succeeds
whenever no allocation fails holds only if another target remains; see `C36_removeLast_violated`. -/
theorem C36_remove_partial {qsort : List (Nat × Nat) → List (Nat × Nat)} (hq : SortOk qsort) {w : World}
    (hr : Reach qsort w) {m h : Nat} {nodes : List Nat} {vals : List Target} {t : Target}
    (hm : w.spaces m = some nodes) (hs : Shows w.st nodes vals) (ht : w.st.live h = some t) :
    ∃ r nodes' st, remove w.st nodes h = some (r, nodes', st) ∧
      (r = .success → t ∈ vals ∧ Shows st nodes' (vals.erase t)) ∧
      (r ≠ .success → nodes' = nodes ∧ Shows st nodes vals) ∧
      (t ∉ vals → r = .invalid) ∧
      (t ∈ vals → r = .success ∨ r = .oom) ∧
      (t ∈ vals → w.st.mem = [] → 1 < vals.length → r = .success) ∧
      Unmoved w m st := by
  have hi := inv_reach hq hr
  obtain ⟨hnd, _⟩ := hi.sound.isSet m nodes hm
  obtain ⟨r, nodes', st, e1, e2, e3, e4, e5, _⟩ := remove_eff hs ht
  refine ⟨r, nodes', st, e1, ?_, ?_, e3, e4, fun h1 h2 h3 => (e5 h1 h2 h3).1, ?_⟩
  · intro hr
    rcases e2 with ⟨h1, _⟩ | ⟨_, b, x, a, vb, va, h1, rfl, h3, h4, h5, h6⟩
    · exact absurd hr h1
    · subst h1 h3
      obtain ⟨g1, g2, g3⟩ := shows_split hs h5
      have hxb : x ∉ b ++ a := (List.nodup_cons.1 (List.nodup_middle.1 hnd)).1
      refine ⟨by simp, ?_⟩
      rw [erase_split h4]
      apply shows_congr (st := w.st)
      · unfold Shows
        rw [List.map_append, List.map_append, g1, g2]
      · intro n hn
        rw [h6.live, if_neg]
        rintro rfl
        exact hxb hn
  · intro hr
    rcases e2 with ⟨_, rfl, h2⟩ | ⟨h1, _⟩
    · exact ⟨rfl, shows_congr hs (fun n _ => by rw [h2.live])⟩
    · exact absurd h1 hr
  · rcases e2 with ⟨_, _, h2⟩ | ⟨_, b, x, a, vb, va, h1, _, _, _, _, h6⟩
    · exact unmoved_same h2
    · apply unmoved_frame hi hm
      intro y _ hy
      rw [h6.live, if_neg]
      rintro rfl
      apply hy
      rw [h1]
      simp

/-- C36. The full claim for removing is false: the only target of a memspace can never be removed. -/
theorem C36_removeLast_violated {st : St} {h : Nat} {nodes : List Nat} {t : Target}
    (hs : Shows st nodes [t]) (ht : st.live h = some t) :
    ∃ st', remove st nodes h = some (.oom, nodes, st') := by
  obtain ⟨r, nodes', st', e1, e2, e3, e4, e5, e6⟩ := remove_eff hs ht
  have hne := e6 rfl
  have hoom : r = .oom := by
    rcases e4 (by simp) with h | h
    · exact absurd h hne
    · exact h
  rcases e2 with ⟨_, rfl, h2⟩ | ⟨h1, _⟩
  · rw [hoom] at e1
    exact ⟨st', e1⟩
  · exact absurd h1 hne

/-- C36. Filtering with a filter whose verdict `g` depends on the target. Whenever the call returns: success means that
exactly the accepted targets are left, in their order; a failure of the filter (a negative verdict) is reported as such,
and every failure leaves the memspace as it was. Other memspaces never change. If every verdict is defined, at least one
target is accepted and no allocation fails, the call succeeds; if a verdict is negative it returns. Missing for the full
claim: the call does not always return, see `C36_filterAll_violated` and `C36_filterMemory_violated`. -/
theorem C36_filter_partial {qsort : List (Nat × Nat) → List (Nat × Nat)} (hq : SortOk qsort) {w : World}
    (hr : Reach qsort w) {m : Nat} {nodes : List Nat} {vals : List Target} {f : Nat → Int} {g : Target → Int}
    (hm : w.spaces m = some nodes) (hs : Shows w.st nodes vals)
    (hf : ∀ n ∈ nodes, ∀ v, w.st.live n = some v → f n = g v) :
    (∀ r nodes' st, userFilter w.st nodes f = some (r, nodes', st) →
      (r = .success → Shows st nodes' (vals.filter fun v => decide (g v ≠ 0)) ∧ ∀ v ∈ vals, 0 ≤ g v) ∧
      (r ≠ .success → nodes' = nodes ∧ Shows st nodes vals) ∧
      (r = .userSpecific → ∃ v ∈ vals, g v < 0) ∧
      (r = .success ∨ r = .userSpecific ∨ r = .oom) ∧
      Unmoved w m st) ∧
    ((∃ v ∈ vals, g v < 0) → userFilter w.st nodes f ≠ none ∧
      (w.st.mem = [] → ∃ x, userFilter w.st nodes f = some (.userSpecific, x))) ∧
    ((∀ v ∈ vals, 0 ≤ g v) → (∃ v ∈ vals, g v ≠ 0) → w.st.mem = [] →
      ∃ x, userFilter w.st nodes f = some (.success, x)) := by
  have hi := inv_reach hq hr
  obtain ⟨hnd, vals', hs', hv⟩ := hi.sound.isSet m nodes hm
  have : vals' = vals := by
    have h : vals'.map some = vals.map some := hs'.symm.trans hs
    exact List.map_injective_iff.2 (fun a b hab => Option.some.inj hab) h
  subst this
  have hall : ∀ P : Int → Prop, (∀ v ∈ vals', P (g v)) ↔ ∀ n ∈ nodes, P (f n) := by
    intro P
    constructor
    · intro h n hn
      obtain ⟨v, hv, e⟩ := shows_mem hs hn
      rw [hf n hn v e]
      exact h v hv
    · intro h v hv
      obtain ⟨n, hn, e⟩ := (shows_iff_mem hs).1 hv
      rw [← hf n hn v e]
      exact h n hn
  have hex : ∀ P : Int → Prop, (∃ v ∈ vals', P (g v)) ↔ ∃ n ∈ nodes, P (f n) := by
    intro P
    constructor
    · rintro ⟨v, hv, h⟩
      obtain ⟨n, hn, e⟩ := (shows_iff_mem hs).1 hv
      exact ⟨n, hn, by rw [hf n hn v e]; exact h⟩
    · rintro ⟨n, hn, h⟩
      obtain ⟨v, hv, e⟩ := shows_mem hs hn
      exact ⟨v, hv, by rw [← hf n hn v e]; exact h⟩
  rw [hall (fun x => 0 ≤ x), hex (fun x => x < 0), hex (fun x => x ≠ 0)]
  unfold userFilter
  rcases filterHelper_eff hs hv.1 f with ⟨e1, e2, e3⟩ | ⟨st', e1, e2, e3, e4, e5⟩ | ⟨r', st', e1, e2, e3⟩
  · rw [e1]
    refine ⟨(fun _ _ _ h => by cases h), ?_, ?_⟩
    · rintro ⟨n, hn, h⟩
      have := e2 n hn
      omega
    · rintro _ ⟨n, hn, h⟩ hmem
      rcases e3 with e3 | e3
      · exact absurd hmem e3
      · exact absurd (e3 n hn) h
  · rw [e1]
    refine ⟨?_, ?_, fun _ _ _ => ⟨_, rfl⟩⟩
    · intro r nodes' st h
      cases h
      refine ⟨fun _ => ⟨?_, e2⟩, fun h => absurd rfl h, (fun h => by cases h), Or.inl rfl, ?_⟩
      · apply shows_congr (st := w.st)
        · apply shows_filter hs
          intro n hn v hv
          rw [hf n hn v hv]
        · intro n hn
          rw [e4, if_neg]
          rintro ⟨_, h0⟩
          have := (List.mem_filter.1 hn).2
          simp [h0] at this
      · apply unmoved_frame hi hm
        intro x _ hx
        rw [e4, if_neg (fun h => hx h.1)]
    · rintro ⟨n, hn, h⟩
      have := e2 n hn
      omega
  · rw [e1]
    have hsh : Shows st' nodes vals' := shows_congr hs (fun n _ => by rw [e2.live])
    rcases e3 with ⟨rfl, e3⟩ | ⟨⟨e, he, rfl⟩, e3⟩
    · refine ⟨?_, ?_, ?_⟩
      · intro r nodes' st h
        cases h
        exact ⟨(fun h => by cases h), fun _ => ⟨rfl, hsh⟩, (fun h => by cases h), Or.inr (Or.inr rfl), unmoved_same e2⟩
      · rintro ⟨n, hn, h⟩
        refine ⟨by simp, ?_⟩
        intro hmem
        exfalso
        rcases e3 with e3 | e3 | ⟨_, e3⟩
        · exact e3 hmem
        · rw [e3] at hn; cases hn
        · have := e3 n hn; omega
      · rintro _ ⟨n, hn, h⟩ hmem
        exfalso
        rcases e3 with e3 | e3 | ⟨_, e3⟩
        · exact e3 hmem
        · rw [e3] at hn; cases hn
        · exact h (e3 n hn)
    · refine ⟨?_, ?_, ?_⟩
      · intro r nodes' st h
        cases h
        exact ⟨(fun h => by cases h), fun _ => ⟨rfl, hsh⟩, (fun _ => e3), Or.inr (Or.inl rfl),
          unmoved_same e2⟩
      · intro _
        exact ⟨by simp, fun _ => ⟨_, rfl⟩⟩
      · intro h
        exfalso
        obtain ⟨n, hn, e3⟩ := e3
        have := h n hn
        omega

/-- C36. The full claim for filtering is false: if the filter rejects all targets of a memspace with two targets or more,
and no allocation fails, the call uses targets it has destroyed. -/
theorem C36_filterAll_violated {qsort : List (Nat × Nat) → List (Nat × Nat)} (hq : SortOk qsort) {w : World}
    (hr : Reach qsort w) {m : Nat} {nodes : List Nat} (hm : w.spaces m = some nodes) (h2 : 2 ≤ nodes.length)
    (hmem : w.st.mem = []) : userFilter w.st nodes (fun _ => 0) = none := by
  have hi := inv_reach hq hr
  obtain ⟨hnd, vals, hs, hv⟩ := hi.sound.isSet m nodes hm
  unfold userFilter
  rcases filterHelper_eff hs hv.1 (fun _ => 0) with ⟨e1, _⟩ | ⟨st', e1, e2, ⟨n, hn, h⟩, _⟩ | ⟨r', st', e1, e2, e3⟩
  · rw [e1]
  · exact absurd rfl h
  · exfalso
    rcases e3 with ⟨_, e3 | e3 | ⟨e3, _⟩⟩ | ⟨_, n, _, e3⟩
    · exact e3 hmem
    · rw [e3] at h2; simp at h2
    · omega
    · omega

/-- C36. Copying a memspace: the copy has the same targets in the same order and everything else is unchanged; a failing
call changes nothing; a copy of a memspace that is not empty fails only if an allocation fails. -/
theorem C36_clone_partial {qsort : List (Nat × Nat) → List (Nat × Nat)} (hq : SortOk qsort) {w : World}
    (hr : Reach qsort w) {nodes : List Nat} {vals : List Target} (hs : Shows w.st nodes vals) :
    ∃ r st, cloneSpace w.st nodes = some (r, st) ∧
      (∀ d, r = some d → Shows st d vals ∧ ∀ x ∈ d, w.st.live x = none) ∧
      (∀ x, w.st.live x ≠ none → st.live x = w.st.live x) ∧
      (r = none → st.live = w.st.live) ∧
      (w.st.mem = [] → vals ≠ [] → r ≠ none) := by
  have hi := inv_reach hq hr
  obtain ⟨r, st, e1, e2⟩ := cloneSpace_eff hi.bounded hs
  refine ⟨r, st, e1, ?_, ?_, ?_, ?_⟩
  · rintro d rfl
    rcases e2 with ⟨h, _⟩ | ⟨d', h, hg⟩
    · cases h
    · cases h
      exact ⟨hg.shows, fun x hx => hi.bounded x (hg.ge hx).1⟩
  · intro x hx
    rcases e2 with ⟨_, h⟩ | ⟨d', _, hg⟩
    · rw [h.live]
    · exact hg.old x (fun hc => hx (hi.bounded x (hg.ge hc).1))
  · rintro rfl
    rcases e2 with ⟨_, h⟩ | ⟨d', h, hg⟩
    · exact h.live
    · cases h
  · intro hmem hne
    have hlen : nodes.length ≠ 0 := by
      rw [shows_length hs]
      simpa using hne
    have a1 : alloc w.st 1 = (true, w.st) := by simp [alloc, hmem]
    have a2 : alloc w.st nodes.length = (true, w.st) := by simp [alloc, hmem, hlen]
    unfold cloneSpace at e1
    simp only [a1, a2] at e1
    exact cloneAll_mem e1 hmem

/-- C36. The full claim for copying is false: an empty memspace cannot be copied. -/
theorem C36_cloneEmpty_violated (st : St) : ∃ st', cloneSpace st [] = some (none, st') := by
  unfold cloneSpace
  simp only
  split
  · exact ⟨_, rfl⟩
  · simp [alloc]

/-- C36. Destroying a memspace destroys its targets and nothing else, and never uses a destroyed target. -/
theorem C36_destroy {qsort : List (Nat × Nat) → List (Nat × Nat)} (hq : SortOk qsort) {w : World}
    (hr : Reach qsort w) {m : Nat} {nodes : List Nat} (hm : w.spaces m = some nodes) :
    ∃ st, destroyAll w.st nodes = some st ∧ (∀ x ∈ nodes, st.live x = none) ∧ Unmoved w m st := by
  have hi := inv_reach hq hr
  obtain ⟨hnd, vals, hs, hv⟩ := hi.sound.isSet m nodes hm
  obtain ⟨st', e1, e2, e3⟩ := destroyAll_eff (st := w.st) hnd (by
    intro x hx
    exact (hi.sound.owner x).2 ⟨m, nodes, hm, hx⟩)
  refine ⟨st', e1, ?_, ?_⟩
  · intro x hx
    rw [e3, if_pos hx]
  · apply unmoved_frame hi hm
    intro x _ hx
    rw [e3, if_neg hx]

/-- C36. When all memspaces have been destroyed, no target is left. -/
theorem C36_noLeak {qsort : List (Nat × Nat) → List (Nat × Nat)} (hq : SortOk qsort) {w : World}
    (hr : Reach qsort w) (h : ∀ m, w.spaces m = none) : ∀ x, w.st.live x = none := by
  intro x
  by_contra hc
  obtain ⟨m, nodes, hm, _⟩ := ((C36_sound hq hr).owner x).1 hc
  rw [h] at hm
  cases hm

/-- C36. A memspace made from a list of different NUMA nodes has these targets in this order. -/
theorem C36_fromNuma {st : St} {ids d : List Nat} {st' : St} (h : fromNuma st ids = some (some d, st')) :
    Shows st' d (ids.map (Target.mk 0)) := by
  rcases fromNuma_eff st ids with e | ⟨_, e, _⟩ | ⟨_, _, e, hg⟩
  · rw [e] at h; cases h
  · rw [e] at h; cases h
  · rw [e] at h
    cases h
    exact hg.shows

/-- C36. That every memspace is a set is false for lists of NUMA nodes with a repetition: they are accepted as they are. -/
theorem C36_fromNumaTwice_violated : ∃ st d st', fromNuma st [5, 5] = some (some d, st') ∧
    Shows st' d [⟨0, 5⟩, ⟨0, 5⟩] := by
  exact ⟨⟨fun _ => none, 0, []⟩, _, _, rfl, rfl⟩

/-- C36. Making a memspace from NUMA nodes: if the second target cannot be made, the call reads the array it has freed. -/
theorem C36_fromNumaMemory_violated : ∃ st, fromNuma st [1, 2] = none :=
  ⟨⟨fun _ => none, 0, [true, true, true, true, false]⟩, rfl⟩

/-- A memspace of three NUMA nodes, and what memory is left. -/
def demo (mem : List Bool) : World :=
  ⟨⟨fun x => if x = 2 then some ⟨0, 9⟩ else if x = 1 then some ⟨0, 8⟩ else if x = 0 then some ⟨0, 7⟩ else none, 3, mem⟩,
    fun m => if m = 0 then some [0, 1, 2] else none⟩

/-- The demo memspace is reachable. -/
theorem demo_reach {qsort : List (Nat × Nat) → List (Nat × Nat)} (mem : List Bool) : Reach qsort (demo mem) := by
  have h := Reach.fromNuma (qsort := qsort) (m := 0) (ids := [7, 8, 9]) (nodes := [0, 1, 2]) (st := (demo mem).st)
    (Reach.init (mem := true :: true :: true :: true :: true :: true :: true :: true :: mem)) rfl (by decide) rfl
  exact h

/-- C36. The full claim for filtering is false: if memory runs out after the first removal, the call uses a target it has
destroyed. -/
theorem C36_filterMemory_violated {qsort : List (Nat × Nat) → List (Nat × Nat)} :
    ∃ w nodes f, Reach qsort w ∧ w.spaces 0 = some nodes ∧ (∃ n ∈ nodes, f n = 1) ∧ userFilter w.st nodes f = none := by
  refine ⟨demo [true, true, false], [0, 1, 2], fun n => if n = 2 then 1 else 0, demo_reach _, rfl, ⟨2, by simp, rfl⟩, rfl⟩

/-- The hypotheses of the theorems above are met, and the calls return. -/
example {qsort : List (Nat × Nat) → List (Nat × Nat)} : Reach qsort (demo []) ∧ (demo []).spaces 0 = some [0, 1, 2] ∧
    Shows (demo []).st [0, 1, 2] [⟨0, 7⟩, ⟨0, 8⟩, ⟨0, 9⟩] ∧ (demo []).st.live 1 = some ⟨0, 8⟩ ∧
    (remove (demo []).st [0, 1, 2] 1).map (fun r => (r.1, r.2.1)) = some (.success, [0, 2]) ∧
    (add (demo []).st [0, 1, 2] 1).map (fun r => (r.1, r.2.1)) = some (.invalid, [0, 1, 2]) ∧
    (userFilter (demo []).st [0, 1, 2] (fun n => n)).map (fun r => (r.1, r.2.1)) = some (.success, [1, 2]) ∧
    (cloneSpace (demo []).st [0, 1, 2]).map (·.1) = some (some [3, 4, 5]) :=
  ⟨demo_reach _, rfl, rfl, rfl, by decide, by decide, by decide, by decide⟩

example : ∃ qsort, SortOk qsort :=
  ⟨fun l => l.mergeSort (fun a b => decide (b.1 ≤ a.1)), fun l =>
    ⟨List.mergeSort_perm _ _, by
      have := List.pairwise_mergeSort (le := fun (a b : Nat × Nat) => decide (b.1 ≤ a.1))
        (by intro a b c; simp; omega) (by intro a b; simp; omega) l
      simpa using this⟩⟩

end Verif.Memspace
