import Verif.Memspace.Props
import Verif.Memspace.BestSpec
/-!
# Predefined memspaces (C37, C50) and the ready-made filters (C36)
-/
namespace Verif.Memspace

theorem bandwidthLoop_eff {bw : Nat → Option Nat} {ns : List Nat} {bn best r : Nat}
    (h : bandwidthLoop bw ns bn best = some r) :
    (r = bn ∧ ∀ x ∈ ns, ∃ v, bw x = some v ∧ v ≤ best) ∨
    (r ∈ ns ∧ ∃ v, bw r = some v ∧ best < v ∧ ∀ x ∈ ns, ∃ u, bw x = some u ∧ u ≤ v) := by
  induction ns generalizing bn best with
  | nil =>
    cases h
    exact Or.inl ⟨rfl, by simp⟩
  | cons n ns ih =>
    unfold bandwidthLoop at h
    cases hb : bw n with
    | none => rw [hb] at h; cases h
    | some b =>
      rw [hb] at h
      simp only at h
      by_cases hlt : best < b
      · rw [if_pos hlt] at h
        right
        rcases ih h with ⟨rfl, h2⟩ | ⟨h1, v, h2, h3, h4⟩
        · refine ⟨by simp, b, hb, hlt, ?_⟩
          intro x hx
          rcases List.mem_cons.1 hx with rfl | hx
          · exact ⟨b, hb, Nat.le_refl _⟩
          · exact h2 x hx
        · refine ⟨by simp [h1], v, h2, by omega, ?_⟩
          intro x hx
          rcases List.mem_cons.1 hx with rfl | hx
          · exact ⟨b, hb, by omega⟩
          · exact h4 x hx
      · rw [if_neg hlt] at h
        rcases ih h with ⟨rfl, h2⟩ | ⟨h1, v, h2, h3, h4⟩
        · refine Or.inl ⟨rfl, ?_⟩
          intro x hx
          rcases List.mem_cons.1 hx with rfl | hx
          · exact ⟨b, hb, by omega⟩
          · exact h2 x hx
        · refine Or.inr ⟨by simp [h1], v, h2, h3, ?_⟩
          intro x hx
          rcases List.mem_cons.1 hx with rfl | hx
          · exact ⟨b, hb, by omega⟩
          · exact h4 x hx

theorem bandwidthLoop_none {bw : Nat → Option Nat} {ns : List Nat} {bn best : Nat}
    (h : bandwidthLoop bw ns bn best = none) : ∃ x ∈ ns, bw x = none := by
  induction ns generalizing bn best with
  | nil => cases h
  | cons n ns ih =>
    unfold bandwidthLoop at h
    cases hb : bw n with
    | none => exact ⟨n, by simp, hb⟩
    | some b =>
      rw [hb] at h
      simp only at h
      split at h
      · obtain ⟨x, hx, e⟩ := ih h
        exact ⟨x, by simp [hx], e⟩
      · obtain ⟨x, hx, e⟩ := ih h
        exact ⟨x, by simp [hx], e⟩

theorem latencyLoop_eff {lat : Nat → Option Nat} {ns : List Nat} {bn best r : Nat}
    (h : latencyLoop lat ns bn best = some r) :
    (r = bn ∧ ∀ x ∈ ns, ∃ v, lat x = some v ∧ best ≤ v) ∨
    (r ∈ ns ∧ ∃ v, lat r = some v ∧ v < best ∧ ∀ x ∈ ns, ∃ u, lat x = some u ∧ v ≤ u) := by
  induction ns generalizing bn best with
  | nil =>
    cases h
    exact Or.inl ⟨rfl, by simp⟩
  | cons n ns ih =>
    unfold latencyLoop at h
    cases hb : lat n with
    | none => rw [hb] at h; cases h
    | some b =>
      rw [hb] at h
      simp only at h
      by_cases hlt : b < best
      · rw [if_pos hlt] at h
        right
        rcases ih h with ⟨rfl, h2⟩ | ⟨h1, v, h2, h3, h4⟩
        · refine ⟨by simp, b, hb, hlt, ?_⟩
          intro x hx
          rcases List.mem_cons.1 hx with rfl | hx
          · exact ⟨b, hb, Nat.le_refl _⟩
          · exact h2 x hx
        · refine ⟨by simp [h1], v, h2, by omega, ?_⟩
          intro x hx
          rcases List.mem_cons.1 hx with rfl | hx
          · exact ⟨b, hb, by omega⟩
          · exact h4 x hx
      · rw [if_neg hlt] at h
        rcases ih h with ⟨rfl, h2⟩ | ⟨h1, v, h2, h3, h4⟩
        · refine Or.inl ⟨rfl, ?_⟩
          intro x hx
          rcases List.mem_cons.1 hx with rfl | hx
          · exact ⟨b, hb, by omega⟩
          · exact h2 x hx
        · refine Or.inr ⟨by simp [h1], v, h2, h3, ?_⟩
          intro x hx
          rcases List.mem_cons.1 hx with rfl | hx
          · exact ⟨b, hb, by omega⟩
          · exact h4 x hx

theorem latencyLoop_none {lat : Nat → Option Nat} {ns : List Nat} {bn best : Nat}
    (h : latencyLoop lat ns bn best = none) : ∃ x ∈ ns, lat x = none := by
  induction ns generalizing bn best with
  | nil => cases h
  | cons n ns ih =>
    unfold latencyLoop at h
    cases hb : lat n with
    | none => exact ⟨n, by simp, hb⟩
    | some b =>
      rw [hb] at h
      simp only at h
      split at h
      · obtain ⟨x, hx, e⟩ := ih h
        exact ⟨x, by simp [hx], e⟩
      · obtain ⟨x, hx, e⟩ := ih h
        exact ⟨x, by simp [hx], e⟩

theorem bestBandwidth_eff {bw : Nat → Nat → Option Nat} {nodes : List Nat} {i r : Nat}
    (h : bestBandwidth bw nodes i = some r) :
    r ∈ nodes ∧ ∃ v, bw i r = some v ∧ ∀ x ∈ nodes, ∃ u, bw i x = some u ∧ u ≤ v := by
  cases nodes with
  | nil => cases h
  | cons n ns =>
    rcases bandwidthLoop_eff (show bandwidthLoop (bw i) (n :: ns) n 0 = some r from h) with ⟨rfl, h2⟩ | ⟨h1, v, h2, _, h4⟩
    · obtain ⟨v, h3, h4⟩ := h2 r (by simp)
      refine ⟨by simp, v, h3, ?_⟩
      intro x hx
      obtain ⟨u, h5, h6⟩ := h2 x hx
      exact ⟨u, h5, by omega⟩
    · exact ⟨h1, v, h2, h4⟩

theorem bestLatency_eff {lat : Nat → Nat → Option Nat} {nodes : List Nat} {i r : Nat}
    (hb : ∀ x ∈ nodes, ∀ v, lat i x = some v → v < 2 ^ 64)
    (h : bestLatency lat nodes i = some r) :
    r ∈ nodes ∧ ∃ v, lat i r = some v ∧ ∀ x ∈ nodes, ∃ u, lat i x = some u ∧ v ≤ u := by
  cases nodes with
  | nil => cases h
  | cons n ns =>
    rcases latencyLoop_eff (show latencyLoop (lat i) (n :: ns) n (2 ^ 64 - 1) = some r from h) with
      ⟨rfl, h2⟩ | ⟨h1, v, h2, _, h4⟩
    · obtain ⟨v, h3, h4⟩ := h2 r (by simp)
      refine ⟨by simp, v, h3, ?_⟩
      intro x hx
      obtain ⟨u, h5, h6⟩ := h2 x hx
      have := hb r (by simp) v h3
      exact ⟨u, h5, by omega⟩
    · exact ⟨h1, v, h2, h4⟩

/-- What `umfMemspaceFilter` makes of a choice of one target for each initiator. -/
theorem chosen_eff {w : World} (hi : Inv w) {m : Nat} {nodes : List Nat} {vals : List Target} {getTarget : Nat → Option Nat}
    {Best : Target → Target → Prop} (hm : w.spaces m = some nodes) (hs : Shows w.st nodes vals)
    (hbest : ∀ i ∈ nodes, ∀ r, getTarget i = some r → r ∈ nodes ∧
      ∀ x y, w.st.live i = some x → w.st.live r = some y → Best x y) :
    ∃ r st, bestFilter w.st nodes getTarget = some (r, st) ∧
      (∀ x, w.st.live x ≠ none → st.live x = w.st.live x) ∧
      (r = none → st.live = w.st.live ∧ (w.st.mem ≠ [] ∨ nodes = [] ∨ ∃ n ∈ nodes, getTarget n = none)) ∧
      (∀ d, r = some d → (∀ x ∈ d, w.st.live x = none) ∧ ∃ vs, Shows st d vs ∧ vs.Nodup ∧
        (∀ y ∈ vs, y ∈ vals ∧ ∃ x ∈ vals, Best x y) ∧ ∀ x ∈ vals, ∃ y ∈ vs, Best x y) := by
  obtain ⟨hnd, vals', hs', hv⟩ := hi.sound.isSet m nodes hm
  have : vals' = vals := by
    have h : vals'.map some = vals.map some := hs'.symm.trans hs
    exact List.map_injective_iff.2 (fun a b hab => Option.some.inj hab) h
  subst this
  obtain ⟨r, st, e1, e2⟩ := bestFilter_eff (nodes := nodes) (getTarget := getTarget) hi.bounded (by
    intro n hn t ht
    exact (hi.sound.owner t).2 ⟨m, nodes, hm, (hbest n hn t ht).1⟩)
  refine ⟨r, st, e1, ?_, ?_, ?_⟩
  · intro x hx
    rcases e2 with ⟨_, h, _⟩ | ⟨d, l, vs, _, _, _, _, _, hg⟩
    · rw [h.live]
    · exact hg.old x (fun hc => hx (hi.bounded x (hg.ge hc).1))
  · rintro rfl
    rcases e2 with ⟨_, h, h'⟩ | ⟨d, l, vs, h, _⟩
    · exact ⟨h.live, h'⟩
    · cases h
  · rintro d rfl
    rcases e2 with ⟨h, _⟩ | ⟨d', l, vs, h, h1, h2, h3, h4, hg⟩
    · cases h
    · cases h
      refine ⟨fun x hx => hi.bounded x (hg.ge hx).1, vs, hg.shows, ?_, ?_, ?_⟩
      · exact (shows_sub_set hs hv h2 (fun x hx => by
          obtain ⟨n, hn, ht⟩ := (h3 x).1 hx
          exact (hbest n hn x ht).1) h4).1
      · intro y hy
        obtain ⟨t, ht, e⟩ := (shows_iff_mem h4).1 hy
        obtain ⟨n, hn, hg⟩ := (h3 t).1 ht
        obtain ⟨x, hx, e'⟩ := shows_mem hs hn
        obtain ⟨b1, b2⟩ := hbest n hn t hg
        exact ⟨(shows_iff_mem hs).2 ⟨t, b1, e⟩, x, hx, b2 x y e' e⟩
      · intro x hx
        obtain ⟨n, hn, e⟩ := (shows_iff_mem hs).1 hx
        obtain ⟨t, ht⟩ := Option.ne_none_iff_exists'.1 (h1 n hn)
        have htl := (h3 t).2 ⟨n, hn, ht⟩
        obtain ⟨y, hy, e'⟩ := shows_mem h4 htl
        exact ⟨y, hy, (hbest n hn t ht).2 x y e e'⟩

/-- C37. The memspace of highest bandwidth: no target twice; every target in it is a best one for some initiator; every
initiator has one of its best targets in it. The call fails only if a bandwidth is unknown, an allocation fails or there
are no targets, and changes nothing then; it never changes the memspace it started from. Missing for the full claim: of
several best targets only the first is taken, see `C37_ties_violated`; without ties the memspace is exact, see
`C37_bandwidth_noTies`. -/
theorem C37_bandwidth_partial {qsort : List (Nat × Nat) → List (Nat × Nat)} (hq : SortOk qsort) {w : World}
    (hr : Reach qsort w) {m : Nat} {nodes : List Nat} {vals : List Target} {bw : Nat → Nat → Option Nat}
    {score : Target → Target → Option Nat} (hm : w.spaces m = some nodes) (hs : Shows w.st nodes vals)
    (hbw : Reads w.st nodes bw score) :
    ∃ r st, bestFilter w.st nodes (bestBandwidth bw nodes) = some (r, st) ∧
      (∀ x, w.st.live x ≠ none → st.live x = w.st.live x) ∧
      (r = none → st.live = w.st.live ∧ (w.st.mem ≠ [] ∨ vals = [] ∨ ∃ x ∈ vals, ∃ y ∈ vals, score x y = none)) ∧
      (∀ d, r = some d → (∀ x ∈ d, w.st.live x = none) ∧ ∃ vs, Shows st d vs ∧ vs.Nodup ∧
        (∀ y ∈ vs, ∃ x ∈ vals, Highest vals score x y) ∧ ∀ x ∈ vals, ∃ y ∈ vs, Highest vals score x y) := by
  have hi := inv_reach hq hr
  obtain ⟨r, st, e1, e2, e3, e4⟩ := chosen_eff (Best := Highest vals score)
      (getTarget := bestBandwidth bw nodes) hi hm hs (by
    intro i hin r hr
    obtain ⟨h1, v, h2, h3⟩ := bestBandwidth_eff hr
    refine ⟨h1, ?_⟩
    intro x y hx hy
    refine ⟨(shows_iff_mem hs).2 ⟨r, h1, hy⟩, v, by rw [← hbw i hin r h1 x y hx hy]; exact h2, ?_⟩
    intro z hz
    obtain ⟨n, hn, hnz⟩ := (shows_iff_mem hs).1 hz
    rw [← hbw i hin n hn x z hx hnz]
    exact h3 n hn)
  refine ⟨r, st, e1, e2, ?_, ?_⟩
  · intro hr
    obtain ⟨h1, h2⟩ := e3 hr
    refine ⟨h1, ?_⟩
    rcases h2 with h2 | h2 | ⟨i, hin, h2⟩
    · exact Or.inl h2
    · right; left
      have := shows_length hs
      rw [h2] at this
      exact List.length_eq_zero_iff.1 this.symm
    · right; right
      cases hn : nodes with
      | nil => rw [hn] at hin; cases hin
      | cons n ns =>
        rw [hn] at h2
        obtain ⟨y, hy, hy'⟩ := bandwidthLoop_none (show bandwidthLoop (bw i) (n :: ns) n 0 = none from h2)
        rw [← hn] at hy
        obtain ⟨vx, hvx, ex⟩ := shows_mem hs hin
        obtain ⟨vy, hvy, ey⟩ := shows_mem hs hy
        exact ⟨vx, hvx, vy, hvy, by rw [← hbw i hin y hy vx vy ex ey]; exact hy'⟩
  · intro d hd
    obtain ⟨h1, vs, h2, h3, h4, h5⟩ := e4 d hd
    exact ⟨h1, vs, h2, h3, fun y hy => (h4 y hy).2, h5⟩

/-- C37. If every initiator has only one best target, the memspace of highest bandwidth has exactly the targets that are
best for some initiator. -/
theorem C37_bandwidth_noTies {qsort : List (Nat × Nat) → List (Nat × Nat)} (hq : SortOk qsort) {w : World}
    (hr : Reach qsort w) {m : Nat} {nodes : List Nat} {vals : List Target} {bw : Nat → Nat → Option Nat}
    {score : Target → Target → Option Nat} (hm : w.spaces m = some nodes) (hs : Shows w.st nodes vals)
    (hbw : Reads w.st nodes bw score)
    (hu : ∀ x ∈ vals, ∀ y z, Highest vals score x y → Highest vals score x z → y = z) {d : List Nat} {st : St}
    (h : bestFilter w.st nodes (bestBandwidth bw nodes) = some (some d, st)) :
    ∃ vs, Shows st d vs ∧ vs.Nodup ∧ ∀ y, y ∈ vs ↔ ∃ x ∈ vals, Highest vals score x y := by
  obtain ⟨r, st', e1, e2, e3, e4⟩ := C37_bandwidth_partial hq hr hm hs hbw
  rw [h] at e1
  cases e1
  obtain ⟨_, vs, h2, h3, h4, h5⟩ := e4 d rfl
  refine ⟨vs, h2, h3, fun y => ⟨h4 y, ?_⟩⟩
  rintro ⟨x, hx, hxy⟩
  obtain ⟨z, hz, hxz⟩ := h5 x hx
  rw [hu x hx y z hxy hxz]
  exact hz

/-- C37. The memspace of lowest latency, in the same way; latencies are 64-bit numbers. -/
theorem C37_latency_partial {qsort : List (Nat × Nat) → List (Nat × Nat)} (hq : SortOk qsort) {w : World}
    (hr : Reach qsort w) {m : Nat} {nodes : List Nat} {vals : List Target} {lat : Nat → Nat → Option Nat}
    {score : Target → Target → Option Nat} (hm : w.spaces m = some nodes) (hs : Shows w.st nodes vals)
    (hlat : Reads w.st nodes lat score) (h64 : ∀ x ∈ vals, ∀ y ∈ vals, ∀ v, score x y = some v → v < 2 ^ 64) :
    ∃ r st, bestFilter w.st nodes (bestLatency lat nodes) = some (r, st) ∧
      (∀ x, w.st.live x ≠ none → st.live x = w.st.live x) ∧
      (r = none → st.live = w.st.live ∧ (w.st.mem ≠ [] ∨ vals = [] ∨ ∃ x ∈ vals, ∃ y ∈ vals, score x y = none)) ∧
      (∀ d, r = some d → (∀ x ∈ d, w.st.live x = none) ∧ ∃ vs, Shows st d vs ∧ vs.Nodup ∧
        (∀ y ∈ vs, ∃ x ∈ vals, Lowest vals score x y) ∧ ∀ x ∈ vals, ∃ y ∈ vs, Lowest vals score x y) := by
  have hi := inv_reach hq hr
  obtain ⟨r, st, e1, e2, e3, e4⟩ := chosen_eff (Best := Lowest vals score)
      (getTarget := bestLatency lat nodes) hi hm hs (by
    intro i hin r hr
    obtain ⟨x0, hx0, ex0⟩ := shows_mem hs hin
    obtain ⟨h1, v, h2, h3⟩ := bestLatency_eff (by
      intro n hn v hv
      obtain ⟨y, hy, ey⟩ := shows_mem hs hn
      rw [hlat i hin n hn x0 y ex0 ey] at hv
      exact h64 x0 hx0 y hy v hv) hr
    refine ⟨h1, ?_⟩
    intro x y hx hy
    refine ⟨(shows_iff_mem hs).2 ⟨r, h1, hy⟩, v, by rw [← hlat i hin r h1 x y hx hy]; exact h2, ?_⟩
    intro z hz
    obtain ⟨n, hn, hnz⟩ := (shows_iff_mem hs).1 hz
    rw [← hlat i hin n hn x z hx hnz]
    exact h3 n hn)
  refine ⟨r, st, e1, e2, ?_, ?_⟩
  · intro hr
    obtain ⟨h1, h2⟩ := e3 hr
    refine ⟨h1, ?_⟩
    rcases h2 with h2 | h2 | ⟨i, hin, h2⟩
    · exact Or.inl h2
    · right; left
      have := shows_length hs
      rw [h2] at this
      exact List.length_eq_zero_iff.1 this.symm
    · right; right
      cases hn : nodes with
      | nil => rw [hn] at hin; cases hin
      | cons n ns =>
        rw [hn] at h2
        obtain ⟨y, hy, hy'⟩ := latencyLoop_none (show latencyLoop (lat i) (n :: ns) n (2 ^ 64 - 1) = none from h2)
        rw [← hn] at hy
        obtain ⟨vx, hvx, ex⟩ := shows_mem hs hin
        obtain ⟨vy, hvy, ey⟩ := shows_mem hs hy
        exact ⟨vx, hvx, vy, hvy, by rw [← hlat i hin y hy vx vy ex ey]; exact hy'⟩
  · intro d hd
    obtain ⟨h1, vs, h2, h3, h4, h5⟩ := e4 d hd
    exact ⟨h1, vs, h2, h3, fun y hy => (h4 y hy).2, h5⟩

/-- C37. The full claim is false: with the same bandwidth everywhere, all three targets are best for every initiator, but
only the first is in the memspace. -/
theorem C37_ties_violated {qsort : List (Nat × Nat) → List (Nat × Nat)} :
    ∃ (w : World) (nodes : List Nat) (vals : List Target) (d : List Nat) (st : St), Reach qsort w ∧
      w.spaces 0 = some nodes ∧ Shows w.st nodes vals ∧
      bestFilter w.st nodes (bestBandwidth (fun _ _ => some 10) nodes) = some (some d, st) ∧
      Shows st d [⟨0, 7⟩] ∧ Highest vals (fun _ _ => some 10) ⟨0, 7⟩ ⟨0, 8⟩ ∧ (⟨0, 7⟩ : Target) ∈ vals := by
  refine ⟨demo [], [0, 1, 2], [⟨0, 7⟩, ⟨0, 8⟩, ⟨0, 9⟩], [3], _, demo_reach _, rfl, rfl, rfl, rfl, ?_, by simp⟩
  exact ⟨by simp, 10, rfl, fun z _ => ⟨10, rfl, Nat.le_refl _⟩⟩

theorem shows_perm {st : St} {a b : List Nat} {va vb : List Target} (ha : Shows st a va) (hb : Shows st b vb)
    (h : a.Perm b) : va.Perm vb := by
  have : (va.map some).Perm (vb.map some) := by
    rw [← ha, ← hb]
    exact h.map _
  exact (List.map_perm_map_iff (fun a b hab => Option.some.inj hab)).1 this

theorem shows_pairwise {st : St} {a : List Nat} {va : List Target} (ha : Shows st a va) {R : Nat → Nat → Prop}
    {S : Target → Target → Prop} (h : a.Pairwise R)
    (hrs : ∀ x ∈ a, ∀ y ∈ a, ∀ u v, st.live x = some u → st.live y = some v → R x y → S u v) : va.Pairwise S := by
  induction a generalizing va with
  | nil =>
    cases va with
    | nil => exact List.Pairwise.nil
    | cons v vs => simp [Shows] at ha
  | cons n ns ih =>
    cases va with
    | nil => simp [Shows] at ha
    | cons v vs =>
      simp only [Shows, List.map_cons, List.cons.injEq] at ha
      rw [List.pairwise_cons] at h ⊢
      refine ⟨?_, ih ha.2 h.2 (fun x hx y hy => hrs x (by simp [hx]) y (by simp [hy]))⟩
      intro u hu
      obtain ⟨m, hm, e⟩ := (shows_iff_mem (vals := vs) ha.2).1 hu
      exact hrs n (by simp) m (by simp [hm]) v u ha.1 e (h.1 m hm)

/-- C37. The memspace of highest capacity has the targets of the memspace of all host memory, in descending order of
capacity, and making it changes no other memspace. -/
theorem C37_capacity {qsort : List (Nat × Nat) → List (Nat × Nat)} (hq : SortOk qsort) {w : World}
    (hr : Reach qsort w) {nodes d : List Nat} {vals : List Target} {capacity : Target → Option Nat} {st : St}
    (hs : Shows w.st nodes vals)
    (h : highestCapacity qsort (fun st n => (st.live n).bind capacity) w.st nodes = some (some d, st)) :
    (∃ vs, Shows st d vs ∧ vs.Perm vals ∧
      vs.Pairwise fun a b => ∃ x y, capacity a = some x ∧ capacity b = some y ∧ y ≤ x) ∧
    ∀ x, w.st.live x ≠ none → st.live x = w.st.live x := by
  have hi := inv_reach hq hr
  obtain ⟨r, st1, e1, e2⟩ := cloneSpace_eff hi.bounded hs
  unfold highestCapacity at h
  rw [e1] at h
  rcases e2 with ⟨rfl, _⟩ | ⟨c, rfl, hg⟩
  · cases h
  · obtain ⟨r', n', st2, f1, f2, f3⟩ := sortDesc_eff hq st1 c (fun n => (st1.live n).bind capacity)
    simp only [f1] at h
    split at h
    · rename_i hsucc
      cases h
      rcases f3 with ⟨f3, _⟩ | ⟨_, f4, f5⟩
      · exact absurd hsucc f3
      · have hsc : Shows st c vals := shows_congr hg.shows (fun n _ => by rw [f2.live])
        obtain ⟨vs, hvs⟩ := shows_sub (st := st) (l := d) (by
          intro x hx
          rw [f2.live]
          exact hg.alive (f4.mem_iff.1 hx))
        refine ⟨⟨vs, hvs, shows_perm hvs hsc f4, ?_⟩, ?_⟩
        · apply shows_pairwise hvs f5
          rintro x _ y _ u v hu hv ⟨p, q, hp, hq, hle⟩
          rw [f2.live] at hu hv
          simp only [hu, hv, Option.bind_some] at hp hq
          exact ⟨p, q, hp, hq, hle⟩
        · intro x hx
          rw [f2.live]
          exact hg.old x (fun hc => hx (hi.bounded x (hg.ge hc).1))
    · cases h

/-- C37. A failing call is not clean: if memory runs out when the copy is sorted, the copy is leaked. -/
theorem C37_capacityLeak_violated {qsort : List (Nat × Nat) → List (Nat × Nat)} {cap : St → Nat → Option Nat} :
    ∃ w nodes st, Reach qsort w ∧ w.spaces 0 = some nodes ∧ highestCapacity qsort cap w.st nodes = some (none, st) ∧
      w.st.live 3 = none ∧ st.live 3 = some ⟨0, 7⟩ :=
  ⟨demo [true, true, true, true, true, true, true, true, false], [0, 1, 2], _, demo_reach _, rfl, rfl, rfl, rfl⟩

/-- C36. `umfMemspaceFilterById` keeps exactly the targets with one of the numbers given. -/
theorem C36_filterById_partial {qsort : List (Nat × Nat) → List (Nat × Nat)} (hq : SortOk qsort) {w : World}
    (hr : Reach qsort w) {m : Nat} {nodes ids : List Nat} {vals : List Target}
    (hm : w.spaces m = some nodes) (hs : Shows w.st nodes vals) :
    (∀ r nodes' st, filterById w.st nodes ids = some (r, nodes', st) →
      (r = .success → Shows st nodes' (vals.filter fun v => decide (v.id ∈ ids))) ∧
      (r ≠ .success → nodes' = nodes ∧ Shows st nodes vals) ∧ Unmoved w m st) ∧
    ((∃ v ∈ vals, v.id ∈ ids) → w.st.mem = [] → ∃ x, filterById w.st nodes ids = some (.success, x)) := by
  have hpos : ∀ n, 0 ≤ byId w.st ids n := by
    intro n
    unfold byId
    split
    · split <;> omega
    · omega
  have hf : ∀ n ∈ nodes, ∀ v, w.st.live n = some v → byId w.st ids n = if v.id ∈ ids then 1 else 0 := by
    intro n _ v hv
    unfold byId
    rw [hv]
  obtain ⟨h1, h2, h3⟩ := C36_filter_partial hq hr (g := fun v => if v.id ∈ ids then 1 else 0) hm hs hf
  have key : ids ≠ [] → filterById w.st nodes ids = userFilter w.st nodes (byId w.st ids) := by
    intro hne
    have hi := inv_reach hq hr
    obtain ⟨_, vals', hs', hv'⟩ := hi.sound.isSet m nodes hm
    unfold filterById userFilter
    rw [if_neg hne]
    rcases filterHelper_eff hs' hv'.1 (byId w.st ids) with ⟨e1, _⟩ | ⟨st', e1, _⟩ | ⟨r', st', e1, _, e3⟩
    · rw [e1]
    · rw [e1]
    · rw [e1]
      rcases e3 with ⟨rfl, _⟩ | ⟨_, n, _, e3⟩
      · rfl
      · exact absurd (hpos n) (by omega)
  have hfil : ∀ v : Target, decide ((if v.id ∈ ids then (1 : Int) else 0) ≠ 0) = decide (v.id ∈ ids) := by
    intro v
    by_cases hv : v.id ∈ ids <;> simp [hv]
  constructor
  · intro r nodes' st h
    by_cases hne : ids = []
    · unfold filterById at h
      rw [if_pos hne] at h
      cases h
      exact ⟨(fun h => by cases h), fun _ => ⟨rfl, hs⟩, unmoved_same (Same.refl _)⟩
    · rw [key hne] at h
      obtain ⟨g1, g2, _, _, g5⟩ := h1 r nodes' st h
      refine ⟨?_, g2, g5⟩
      intro hr
      have := (g1 hr).1
      simpa only [hfil] using this
  · rintro ⟨v, hv, hvi⟩ hmem
    have hne : ids ≠ [] := by
      rintro rfl
      cases hvi
    rw [key hne]
    apply h3 _ ⟨v, hv, by simp [hvi]⟩ hmem
    intro u _
    split <;> omega

/-- C36. `umfMemspaceFilterByCapacity` keeps exactly the targets with at least the capacity given; the capacities must be
known. -/
theorem C36_filterByCapacity_partial {qsort : List (Nat × Nat) → List (Nat × Nat)} (hq : SortOk qsort) {w : World}
    (hr : Reach qsort w) {m : Nat} {nodes : List Nat} {vals : List Target} {capacity : Target → Nat} {c : Int}
    (hm : w.spaces m = some nodes) (hs : Shows w.st nodes vals) :
    (∀ r nodes' st, filterByCapacity w.st nodes (fun t => .inl (capacity t)) c = some (r, nodes', st) →
      (r = .success → 0 ≤ c ∧ Shows st nodes' (vals.filter fun v => decide (c ≤ capacity v))) ∧
      (r ≠ .success → nodes' = nodes ∧ Shows st nodes vals) ∧ Unmoved w m st) ∧
    (0 ≤ c → (∃ v ∈ vals, c ≤ capacity v) → w.st.mem = [] →
      ∃ x, filterByCapacity w.st nodes (fun t => .inl (capacity t)) c = some (.success, x)) := by
  have hpos : ∀ n, 0 ≤ byCapacity w.st (fun t => .inl (capacity t)) c.toNat n := by
    intro n
    unfold byCapacity
    split
    · simp only
      split <;> omega
    · omega
  have hf : ∀ n ∈ nodes, ∀ v, w.st.live n = some v →
      byCapacity w.st (fun t => .inl (capacity t)) c.toNat n = if c.toNat ≤ capacity v then 1 else 0 := by
    intro n _ v hv
    unfold byCapacity
    rw [hv]
  obtain ⟨h1, h2, h3⟩ := C36_filter_partial hq hr (g := fun v => if c.toNat ≤ capacity v then 1 else 0) hm hs hf
  have key : 0 ≤ c → filterByCapacity w.st nodes (fun t => .inl (capacity t)) c =
      userFilter w.st nodes (byCapacity w.st (fun t => .inl (capacity t)) c.toNat) := by
    intro hne
    have hi := inv_reach hq hr
    obtain ⟨_, vals', hs', hv'⟩ := hi.sound.isSet m nodes hm
    unfold filterByCapacity userFilter
    rw [if_neg (by omega)]
    rcases filterHelper_eff hs' hv'.1 (byCapacity w.st (fun t => .inl (capacity t)) c.toNat) with
      ⟨e1, _⟩ | ⟨st', e1, _⟩ | ⟨r', st', e1, _, e3⟩
    · rw [e1]
    · rw [e1]
    · rw [e1]
      rcases e3 with ⟨rfl, _⟩ | ⟨_, n, _, e3⟩
      · rfl
      · exact absurd (hpos n) (by omega)
  constructor
  · intro r nodes' st h
    by_cases hne : c < 0
    · unfold filterByCapacity at h
      rw [if_pos hne] at h
      cases h
      exact ⟨(fun h => by cases h), fun _ => ⟨rfl, hs⟩, unmoved_same (Same.refl _)⟩
    · have hfil : ∀ v : Target, decide ((if c.toNat ≤ capacity v then (1 : Int) else 0) ≠ 0) = decide (c ≤ capacity v) := by
        intro v
        by_cases hv : c.toNat ≤ capacity v
        · have : c ≤ capacity v := by omega
          simp [hv, this]
        · have : ¬ c ≤ capacity v := by omega
          simp only [if_neg hv, this]
          simp
      rw [key (by omega)] at h
      obtain ⟨g1, g2, _, _, g5⟩ := h1 r nodes' st h
      refine ⟨?_, g2, g5⟩
      intro hr
      have := (g1 hr).1
      simp only [hfil] at this
      exact ⟨by omega, this⟩
  · rintro hc ⟨v, hv, hvi⟩ hmem
    rw [key hc]
    apply h3 _ ⟨v, hv, by
      have : c.toNat ≤ capacity v := by omega
      simp [this]⟩ hmem
    intro u _
    split <;> omega

/-- One call; `destroy` is the function `umfTearDown` calls for this memspace. -/
def Single.step (destroy : Single → Single) (s : Single) : SingleOp → Single
  | .get made => s.get made
  | .tearDown => destroy s

/-- C50, for the memspaces of all host memory, of highest capacity and of highest bandwidth: after any history, a request
after a shut-down that found the memspace created creates it anew, and later requests give the same memspace. Missing: the
lowest latency memspace, see `C50_latency_violated`; a memspace that could not be created is never tried again, see
`C50_retry_violated`. -/
theorem C50_again_partial (ops : List SingleOp) (made : Option Nat) (more : List (Option Nat)) :
    let s := ops.foldl (Single.step Single.destroy) Single.init
    s.val ≠ none →
      ((s.destroy.get made).val = made ∧
        ∀ o ∈ more.scanl (fun t m => t.get m) (s.destroy.get made), o.val = made) := by
  intro s hs
  obtain ⟨v, hv⟩ := Option.ne_none_iff_exists'.1 hs
  have h1 : s.destroy = ⟨false, none⟩ := by
    unfold Single.destroy
    rw [hv]
  have h2 : (s.destroy.get made) = ⟨true, made⟩ := by
    rw [h1]; rfl
  refine ⟨by rw [h2], ?_⟩
  rw [h2]
  clear h2
  induction more with
  | nil => simp
  | cons a l ih =>
    rw [List.scanl_cons]
    intro o ho
    rcases List.mem_cons.1 ho with rfl | ho
    · rfl
    · exact ih o ho

/-- C50. The lowest latency memspace is gone for good after a shut-down. -/
theorem C50_latency_violated (ops : List SingleOp) (made : Option Nat) :
    let s := ops.foldl (Single.step Single.destroyLatency) Single.init
    s.val ≠ none → (s.destroyLatency.get made).val = none := by
  intro s hs
  have hran : ∀ (ops : List SingleOp) (t : Single), (t.val ≠ none → t.ran = true) →
      ((ops.foldl (Single.step Single.destroyLatency) t).val ≠ none →
        (ops.foldl (Single.step Single.destroyLatency) t).ran = true) := by
    intro ops
    induction ops with
    | nil => intro t h; exact h
    | cons o ops ih =>
      intro t h
      apply ih
      cases o with
      | get m =>
        simp only [Single.step, Single.get]
        split
        · exact h
        · simp
      | tearDown =>
        simp only [Single.step, Single.destroyLatency]
        split
        · simp
        · exact h
  have hr := hran ops Single.init (by simp [Single.init]) hs
  obtain ⟨v, hv⟩ := Option.ne_none_iff_exists'.1 hs
  unfold Single.destroyLatency
  rw [hv]
  unfold Single.get
  have hr' : s.ran = true := hr
  simp [hr']

/-- C50. A memspace that could not be created is never tried again, even after the library is shut down and started
again. -/
theorem C50_retry_violated : ∃ s : Single, s = Single.init.get none ∧ ∀ made, (s.destroy.get made).val = none :=
  ⟨_, rfl, fun _ => rfl⟩

/-- The hypotheses of C37 and C50 are met. -/
example {qsort : List (Nat × Nat) → List (Nat × Nat)} : Reach qsort (demo []) ∧ (demo []).spaces 0 = some [0, 1, 2] ∧
    Reads (demo []).st [0, 1, 2] (fun i n => some (i + 2 * n)) (fun x y => some (x.id - 7 + 2 * (y.id - 7))) ∧
    (bestFilter (demo []).st [0, 1, 2] (bestBandwidth (fun i n => some (i + 2 * n)) [0, 1, 2])).map (·.1) =
      some (some [3]) ∧
    (bestFilter (demo []).st [0, 1, 2] (bestLatency (fun i n => some (if i = n then 1 else 2)) [0, 1, 2])).map (·.1) =
      some (some [3, 4, 5]) := by
  refine ⟨demo_reach _, rfl, ?_, by decide, by decide⟩
  intro i hi n hn x y hx hy
  simp only [List.mem_cons, List.not_mem_nil, or_false] at hi hn
  rcases hi with rfl | rfl | rfl <;> rcases hn with rfl | rfl | rfl <;> (cases hx; cases hy; rfl)

example : ([SingleOp.get (some 4)].foldl (Single.step Single.destroy) Single.init).val ≠ none := by decide

end Verif.Memspace
