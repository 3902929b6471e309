import Verif.Memspace.Lemmas
import Mathlib.Data.List.Perm.Subperm
/-!
# Lemmas for memspaces: filters, sorting, and the invariant
-/
namespace Verif.Memspace

theorem shows_length {st : St} {nodes : List Nat} {vals : List Target} (hs : Shows st nodes vals) :
    nodes.length = vals.length := by
  have := congrArg List.length hs
  simpa using this

theorem shows_filter {st : St} {nodes : List Nat} {vals : List Target} (hs : Shows st nodes vals)
    (p : Nat → Bool) (q : Target → Bool) (h : ∀ n ∈ nodes, ∀ v, st.live n = some v → p n = q v) :
    Shows st (nodes.filter p) (vals.filter q) := by
  induction nodes generalizing vals with
  | nil =>
    cases vals with
    | nil => rfl
    | cons v vs => simp [Shows] at hs
  | cons n ns ih =>
    cases vals with
    | nil => simp [Shows] at hs
    | cons v vs =>
      simp only [Shows, List.map_cons, List.cons.injEq] at hs
      have ih := ih (vals := vs) hs.2 (fun m hm => h m (by simp [hm]))
      have hp := h n (by simp) v hs.1
      simp only [List.filter_cons, hp]
      split
      · simp only [Shows, List.map_cons, hs.1]
        rw [show (ns.filter p).map st.live = (vs.filter q).map some from ih]
      · exact ih

theorem shows_congr {st st' : St} {nodes : List Nat} {vals : List Target} (hs : Shows st nodes vals)
    (h : ∀ n ∈ nodes, st'.live n = st.live n) : Shows st' nodes vals := by
  unfold Shows at *
  rw [← hs]
  exact List.map_congr_left h

theorem shows_inj {st : St} {nodes : List Nat} {vals : List Target} (hs : Shows st nodes vals) (hv : vals.Nodup)
    {x y : Nat} (hx : x ∈ nodes) (hy : y ∈ nodes) (h : st.live x = st.live y) : x = y := by
  induction nodes generalizing vals with
  | nil => cases hx
  | cons n ns ih =>
    cases vals with
    | nil => simp [Shows] at hs
    | cons v vs =>
      simp only [Shows, List.map_cons, List.cons.injEq] at hs
      obtain ⟨hv1, hv2⟩ := List.nodup_cons.1 hv
      rcases List.mem_cons.1 hx with rfl | hx' <;> rcases List.mem_cons.1 hy with rfl | hy'
      · rfl
      · obtain ⟨w, hw, e⟩ := shows_mem (vals := vs) hs.2 hy'
        rw [← h, hs.1] at e
        cases e
        exact absurd hw hv1
      · obtain ⟨w, hw, e⟩ := shows_mem (vals := vs) hs.2 hx'
        rw [h, hs.1] at e
        cases e
        exact absurd hw hv1
      · exact ih hs.2 hv2 hx' hy'

theorem filter_ne_split {b a : List Nat} {x : Nat} (hn : (b ++ x :: a).Nodup) :
    (b ++ x :: a).filter (fun n => decide (n ≠ x)) = b ++ a := by
  rw [List.nodup_append, List.nodup_cons] at hn
  rw [List.filter_append, List.filter_cons]
  simp only [ne_eq, not_true, decide_false, Bool.false_eq_true, if_false]
  congr 1
  · apply List.filter_eq_self.2
    intro y hy
    have := hn.2.2 y hy x (by simp)
    simpa using this
  · apply List.filter_eq_self.2
    intro y hy
    have : y ≠ x := by rintro rfl; exact hn.2.1.1 hy
    simpa using this

theorem remove_own {st : St} {nodes : List Nat} {vals : List Target} (hs : Shows st nodes vals) (hn : nodes.Nodup)
    (hv : vals.Nodup) {h : Nat} (hh : h ∈ nodes) :
    ∃ r nodes' st', remove st nodes h = some (r, nodes', st') ∧
      ((r = .oom ∧ nodes' = nodes ∧ Same st st') ∨
       (r = .success ∧ nodes' = nodes.filter (fun n => decide (n ≠ h)) ∧ Dropped st st' h)) ∧
      (st.mem = [] → 1 < nodes.length → r = .success ∧ st'.mem = []) ∧
      (nodes.length = 1 → r ≠ .success) := by
  obtain ⟨t, htm, ht⟩ := shows_mem hs hh
  obtain ⟨r, nodes', st', e1, e2, e3, e4, e5, e6⟩ := remove_eff hs ht
  refine ⟨r, nodes', st', e1, ?_, ?_, ?_⟩
  · rcases e2 with ⟨h1, h2, h3⟩ | ⟨h1, b, x, a, vb, va, h2, h3, h4, h5, h6, h7⟩
    · left
      refine ⟨?_, h2, h3⟩
      rcases e4 htm with h | h
      · exact absurd h h1
      · exact h
    · right
      have hx : st.live x = some t := by
        subst h2 h4
        exact (shows_split hs h6).2.2
      have : x = h := shows_inj hs hv (by rw [h2]; simp) hh (by rw [hx, ht])
      subst this
      refine ⟨h1, ?_, h7⟩
      rw [h3, h2, filter_ne_split (by rw [← h2]; exact hn)]
  · intro hm hl
    rw [shows_length hs] at hl
    exact e5 htm hm hl
  · intro hl
    rw [shows_length hs] at hl
    exact e6 hl

theorem Dropped.shows {st st' : St} {h : Nat} (hd : Dropped st st' h) {nodes : List Nat} {vals : List Target}
    (hs : Shows st nodes vals) (hv : vals.Nodup) {t : Target} (hh : h ∈ nodes) (ht : st.live h = some t) :
    Shows st' (nodes.filter fun n => decide (n ≠ h)) (vals.filter fun v => decide (v ≠ t)) := by
  apply shows_congr (st := st)
  · apply shows_filter hs
    intro n hn v hnv
    by_cases hnh : n = h
    · subst hnh
      rw [ht] at hnv
      cases hnv
      simp
    · have : v ≠ t := by
        rintro rfl
        exact hnh (shows_inj hs hv hn hh (by rw [hnv, ht]))
      simp [hnh, this]
  · intro n hn
    rw [hd.live, if_neg]
    simpa using (List.mem_filter.1 hn).2

theorem reAdd_dead {r : Res} {st : St} {nodes : List Nat} {h : Nat} {t : List Nat} (hn : nodes ≠ [])
    (hd : st.live h = none) : reAdd r st nodes (h :: t) = none := by
  cases nodes with
  | nil => exact absurd rfl hn
  | cons n ns =>
    have : addCheck st h (n :: ns) = none := by
      unfold addCheck
      have hc : compare st n h = none := by
        unfold compare
        rw [hd]
        cases st.live n <;> rfl
      rw [hc]
    unfold reAdd add
    rw [this]

theorem filter_filter_cons (nodes : List Nat) (h : Nat) (t : List Nat) :
    (nodes.filter fun n => decide (n ≠ h)).filter (fun n => decide (n ∉ t)) =
      nodes.filter fun n => decide (n ∉ h :: t) := by
  rw [List.filter_filter]
  apply List.filter_congr
  intro x _
  by_cases h1 : x = h <;> by_cases h2 : x ∈ t <;> simp [h1, h2]

theorem filter_ne_length {nodes : List Nat} {h : Nat} (hn : nodes.Nodup) (hh : h ∈ nodes) :
    (nodes.filter fun n => decide (n ≠ h)).length + 1 = nodes.length := by
  obtain ⟨b, a, rfl⟩ := List.append_of_mem hh
  rw [filter_ne_split hn]
  simp
  omega

/-- The outcome of removing the rejected targets: all removed, or nothing changed, or undefined behaviour. -/
theorem removeAll_eff {st : St} {nodes : List Nat} {vals : List Target} (hs : Shows st nodes vals) (hn : nodes.Nodup)
    (hv : vals.Nodup) {done todo : List Nat} (ht : todo.Nodup) (hsub : ∀ x ∈ todo, x ∈ nodes)
    (hd : ∀ x ∈ done, st.live x = none) :
    (removeAll st nodes done todo = none ∧ (todo.length = nodes.length ∨ st.mem ≠ []) ∧ todo ≠ []) ∨
    (∃ st', removeAll st nodes done todo = some (.success, nodes.filter (fun n => decide (n ∉ todo)), st') ∧
      (∀ x, st'.live x = if x ∈ todo then none else st.live x) ∧ st'.next = st.next ∧
      (todo.length < nodes.length ∨ todo = [])) ∨
    (∃ st', removeAll st nodes done todo = some (.oom, nodes, st') ∧ Same st st' ∧ done = [] ∧
      (nodes.length = 1 ∨ st.mem ≠ []) ∧ todo ≠ []) := by
  induction todo generalizing st nodes vals done with
  | nil =>
    right; left
    refine ⟨st, ?_, by simp, rfl, Or.inr rfl⟩
    unfold removeAll
    simp
  | cons h t ih =>
    obtain ⟨ht1, ht2⟩ := List.nodup_cons.1 ht
    have hh := hsub h (by simp)
    obtain ⟨v, hvm, hlv⟩ := shows_mem hs hh
    obtain ⟨r, nodes', st', e1, e2, e3, e4⟩ := remove_own hs hn hv hh
    have hlen := filter_ne_length hn hh
    have hle : (h :: t).length ≤ nodes.length := by
      exact ((List.subperm_of_subset ht hsub).length_le)
    rcases e2 with ⟨rfl, rfl, e5⟩ | ⟨rfl, rfl, e5⟩
    · have hr : removeAll st nodes' done (h :: t) = reAdd .oom st' nodes' done := by
        rw [removeAll, e1]
      have hcase : nodes'.length = 1 ∨ st.mem ≠ [] := by
        by_cases hl : 1 < nodes'.length
        · right
          intro hm
          have := (e3 hm hl).1
          cases this
        · left; omega
      cases done with
      | nil =>
        right; right
        exact ⟨st', by rw [hr]; rfl, e5, rfl, hcase, by simp⟩
      | cons d ds =>
        left
        refine ⟨?_, ?_, by simp⟩
        · rw [hr]
          apply reAdd_dead
          · intro hc
            rw [hc] at hh
            cases hh
          · rw [e5.live]
            exact hd d (by simp)
        · rcases hcase with hc | hc
          · left
            have : 1 ≤ (h :: t).length := by simp
            omega
          · exact Or.inr hc
    · have hr : removeAll st nodes done (h :: t) = removeAll st' (nodes.filter fun n => decide (n ≠ h)) (done ++ [h]) t := by
        rw [removeAll, e1]
      rw [hr]
      have hsub' : ∀ x ∈ t, x ∈ nodes.filter fun n => decide (n ≠ h) := by
        intro x hx
        have : x ≠ h := by rintro rfl; exact ht1 hx
        simp [this, hsub x (by simp [hx])]
      have hsh := e5.shows hs hv hh hlv
      rcases ih hsh (hn.filter _) (hv.filter _) (done := done ++ [h]) ht2 hsub' (by
          intro x hx
          rw [e5.live]
          split
          · rfl
          · rename_i hne
            rcases List.mem_append.1 hx with hx | hx
            · exact hd x hx
            · exact absurd (List.mem_singleton.1 hx) hne) with ⟨g1, g2, g3⟩ | ⟨st2, g1, g2, g3, g4⟩ | ⟨st2, g1, g2, g3, _⟩
      · left
        refine ⟨g1, ?_, by simp⟩
        rcases g2 with g2 | g2
        · left
          rw [List.length_cons, g2]
          exact hlen
        · by_cases hl : 1 < nodes.length
          · right
            intro hm
            exact g2 (e3 hm hl).2
          · left
            have : 1 ≤ (h :: t).length := by simp
            omega
      · right; left
        refine ⟨st2, by rw [g1, filter_filter_cons], ?_, by rw [g3, e5.next], ?_⟩
        · intro x
          rw [g2, e5.live]
          by_cases h1 : x = h
          · simp [h1]
          · by_cases h2 : x ∈ t <;> simp [h1, h2]
        · left
          rcases g4 with g4 | g4
          · simp only [List.length_cons]; omega
          · subst g4
            by_contra hc
            have : nodes.length = 1 := by simp at hc; omega
            exact e4 this rfl
      · simp at g3

theorem nodup_of_shows {st : St} {nodes : List Nat} {vals : List Target} (hs : Shows st nodes vals) (hv : vals.Nodup) :
    nodes.Nodup := by
  induction nodes generalizing vals with
  | nil => exact List.nodup_nil
  | cons n ns ih =>
    cases vals with
    | nil => simp [Shows] at hs
    | cons v vs =>
      simp only [Shows, List.map_cons, List.cons.injEq] at hs
      obtain ⟨hv1, hv2⟩ := List.nodup_cons.1 hv
      refine List.nodup_cons.2 ⟨fun hc => ?_, ih hs.2 hv2⟩
      obtain ⟨w, hw, e⟩ := shows_mem (vals := vs) hs.2 hc
      rw [hs.1] at e
      cases e
      exact hv1 hw

/-- The three outcomes of a filter. -/
theorem filterHelper_eff {st : St} {nodes : List Nat} {vals : List Target} (hs : Shows st nodes vals)
    (hv : vals.Nodup) (f : Nat → Int) :
    (filterHelper st nodes f = none ∧ (∀ n ∈ nodes, 0 ≤ f n) ∧ (st.mem ≠ [] ∨ ∀ n ∈ nodes, f n = 0)) ∨
    (∃ st', filterHelper st nodes f = some (.inr .success, nodes.filter (fun n => decide (f n ≠ 0)), st') ∧
      (∀ n ∈ nodes, 0 ≤ f n) ∧ (∃ n ∈ nodes, f n ≠ 0) ∧
      (∀ x, st'.live x = if x ∈ nodes ∧ f x = 0 then none else st.live x) ∧ st'.next = st.next) ∨
    (∃ r st', filterHelper st nodes f = some (r, nodes, st') ∧ Same st st' ∧
      ((r = .inr .oom ∧ (st.mem ≠ [] ∨ nodes = [] ∨ (nodes.length = 1 ∧ ∀ n ∈ nodes, f n = 0))) ∨
       ((∃ e, e < 0 ∧ r = .inl e) ∧ ∃ n ∈ nodes, f n < 0))) := by
  unfold filterHelper
  simp only
  by_cases ha : (alloc st nodes.length).1 = false
  · rw [if_pos ha]
    right; right
    refine ⟨_, _, rfl, same_alloc _ _, Or.inl ⟨rfl, ?_⟩⟩
    unfold alloc at ha
    by_cases hl : nodes.length = 0
    · right; left; exact List.length_eq_zero_iff.1 hl
    · left
      intro hm
      rw [if_neg hl, hm] at ha
      cases ha
  · rw [if_neg ha]
    have hne : nodes ≠ [] := by
      rintro rfl
      simp [alloc] at ha
    have hmem : (alloc st nodes.length).2.mem ≠ [] → st.mem ≠ [] := by
      intro h hm
      apply h
      unfold alloc
      split
      · exact hm
      · rw [hm]; exact hm
    rcases collect_eff f nodes with ⟨h1, e, he, h2⟩ | ⟨h1, h2⟩
    · rw [h2]
      right; right
      exact ⟨_, _, rfl, same_alloc _ _, Or.inr ⟨⟨e, he, rfl⟩, h1⟩⟩
    · rw [h2]
      simp only
      have hn := nodup_of_shows hs hv
      have hall : (nodes.filter fun n => decide (f n = 0)).length = nodes.length → ∀ n ∈ nodes, f n = 0 := by
        intro hl n hn
        have := List.length_filter_eq_length_iff.1 hl n hn
        simpa using this
      have hex : (nodes.filter fun n => decide (f n = 0)).length < nodes.length → ∃ n ∈ nodes, f n ≠ 0 := by
        intro hl
        by_contra hc
        have : ∀ n ∈ nodes, f n = 0 := by
          intro n hn
          by_contra hne
          exact hc ⟨n, hn, hne⟩
        have : (nodes.filter fun n => decide (f n = 0)) = nodes := List.filter_eq_self.2 (by simpa using this)
        rw [this] at hl
        omega
      rcases removeAll_eff (st := (alloc st nodes.length).2) (shows_congr hs (by simp)) hn hv (done := [])
          (todo := nodes.filter fun n => decide (f n = 0)) (hn.filter _) (fun x hx => (List.mem_filter.1 hx).1)
          (by simp) with ⟨g1, g2, g3⟩ | ⟨st', g1, g2, g3, g4⟩ | ⟨st', g1, g2, _, g4, g5⟩
      · left
        rw [g1]
        refine ⟨rfl, h1, ?_⟩
        rcases g2 with g2 | g2
        · exact Or.inr (hall g2)
        · exact Or.inl (hmem g2)
      · right; left
        rw [g1]
        refine ⟨st', ?_, h1, ?_, ?_, by rw [g3]; simp⟩
        · simp only [Option.some.injEq, Prod.mk.injEq, true_and, and_true]
          apply List.filter_congr
          intro x hx
          by_cases hf : f x = 0 <;> simp [hf, hx]
        · rcases g4 with g4 | g4
          · exact hex g4
          · apply hex
            rw [g4]
            exact List.length_pos_iff.2 hne
        · intro x
          rw [g2]
          simp [List.mem_filter]
      · right; right
        rw [g1]
        refine ⟨_, st', rfl, (same_alloc _ _).trans g2, Or.inl ⟨rfl, ?_⟩⟩
        rcases g4 with g4 | g4
        · by_cases hx : ∀ n ∈ nodes, f n = 0
          · exact Or.inr (Or.inr ⟨g4, hx⟩)
          · exfalso
            apply hx
            apply hall
            have : 0 < (nodes.filter fun n => decide (f n = 0)).length := List.length_pos_iff.2 g5
            have := List.length_filter_le (fun n => decide (f n = 0)) nodes
            omega
        · exact Or.inl (hmem g4)

theorem properties_eff (getP : Nat → Option Nat) (nodes : List Nat) :
    ((∃ n ∈ nodes, getP n = none) ∧ properties getP nodes = none) ∨
    ∃ l, properties getP nodes = some l ∧ l.map (·.2) = nodes ∧ ∀ e ∈ l, getP e.2 = some e.1 := by
  induction nodes with
  | nil => exact Or.inr ⟨[], rfl, rfl, by simp⟩
  | cons n ns ih =>
    unfold properties
    cases hp : getP n with
    | none => exact Or.inl ⟨⟨n, by simp, hp⟩, rfl⟩
    | some p =>
      rcases ih with ⟨⟨m, h1, h2⟩, h3⟩ | ⟨l, h1, h2, h3⟩
      · rw [h3]
        exact Or.inl ⟨⟨m, by simp [h1], h2⟩, rfl⟩
      · rw [h1]
        refine Or.inr ⟨_, rfl, by simp [h2], ?_⟩
        intro e he
        rcases List.mem_cons.1 he with rfl | he
        · exact hp
        · exact h3 e he

theorem sortDesc_eff {qsort : List (Nat × Nat) → List (Nat × Nat)} (hq : SortOk qsort) (st : St) (nodes : List Nat)
    (getP : Nat → Option Nat) :
    ∃ r nodes' st', sortDesc qsort st nodes getP = (r, nodes', st') ∧ Same st st' ∧
      ((r ≠ .success ∧ nodes' = nodes) ∨
       (r = .success ∧ nodes'.Perm nodes ∧
        nodes'.Pairwise fun a b => ∃ x y, getP a = some x ∧ getP b = some y ∧ y ≤ x)) := by
  unfold sortDesc
  simp only
  split
  · exact ⟨_, _, _, rfl, same_alloc _ _, Or.inl ⟨by simp, rfl⟩⟩
  · rcases properties_eff getP nodes with ⟨_, h⟩ | ⟨l, h1, h2, h3⟩
    · rw [h]
      exact ⟨_, _, _, rfl, same_alloc _ _, Or.inl ⟨by simp, rfl⟩⟩
    · rw [h1]
      obtain ⟨hp, hw⟩ := hq l
      refine ⟨_, _, _, rfl, same_alloc _ _, Or.inr ⟨rfl, ?_, ?_⟩⟩
      · have := hp.map (·.2)
        rw [h2] at this
        exact this
      · rw [List.pairwise_map]
        refine hw.imp_of_mem ?_
        intro a b ha hb hab
        exact ⟨a.1, b.1, h3 a (hp.mem_iff.1 ha), h3 b (hp.mem_iff.1 hb), hab⟩

theorem bestLoop_eff (getTarget : Nat → Option Nat) (nodes best : List Nat) (hb : best.Nodup) :
    (bestLoop getTarget nodes best = none ∧ ∃ n ∈ nodes, getTarget n = none) ∨
    ∃ l, bestLoop getTarget nodes best = some l ∧ (∀ n ∈ nodes, getTarget n ≠ none) ∧ l.Nodup ∧
      ∀ x, x ∈ l ↔ x ∈ best ∨ ∃ n ∈ nodes, getTarget n = some x := by
  induction nodes generalizing best with
  | nil => exact Or.inr ⟨best, rfl, by simp, hb, by simp⟩
  | cons n ns ih =>
    unfold bestLoop
    cases hg : getTarget n with
    | none => exact Or.inl ⟨rfl, n, by simp, hg⟩
    | some t =>
      have hb' : (if t ∈ best then best else best ++ [t]).Nodup := by
        split
        · exact hb
        · rename_i hc
          rw [List.nodup_append]
          refine ⟨hb, by simp, ?_⟩
          intro a ha b hb' hab
          rw [List.mem_singleton.1 hb'] at hab
          rw [hab] at ha
          exact hc ha
      have hm : ∀ x, x ∈ (if t ∈ best then best else best ++ [t]) ↔ x ∈ best ∨ x = t := by
        intro x
        split
        · rename_i hc
          constructor
          · exact Or.inl
          · rintro (h | rfl)
            · exact h
            · exact hc
        · simp
      rcases ih _ hb' with ⟨h1, m, h2, h3⟩ | ⟨l, h1, h2, h3, h4⟩
      · exact Or.inl ⟨h1, m, by simp [h2], h3⟩
      · refine Or.inr ⟨l, h1, ?_, h3, ?_⟩
        · intro m hm'
          rcases List.mem_cons.1 hm' with rfl | hm'
          · rw [hg]; simp
          · exact h2 m hm'
        · intro x
          rw [h4, hm]
          constructor
          · rintro ((h | rfl) | ⟨m, h5, h6⟩)
            · exact Or.inl h
            · exact Or.inr ⟨n, by simp, hg⟩
            · exact Or.inr ⟨m, by simp [h5], h6⟩
          · rintro (h | ⟨m, h5, h6⟩)
            · exact Or.inl (Or.inl h)
            · rcases List.mem_cons.1 h5 with rfl | h5
              · rw [hg] at h6
                cases h6
                exact Or.inl (Or.inr rfl)
              · exact Or.inr ⟨m, h5, h6⟩

theorem shows_sub {st : St} {l : List Nat} (h : ∀ x ∈ l, st.live x ≠ none) : ∃ vals, Shows st l vals := by
  induction l with
  | nil => exact ⟨[], rfl⟩
  | cons a l ih =>
    obtain ⟨vs, hvs⟩ := ih (fun x hx => h x (by simp [hx]))
    obtain ⟨v, hv⟩ := Option.ne_none_iff_exists'.1 (h a (by simp))
    refine ⟨v :: vs, ?_⟩
    simp only [Shows, List.map_cons, hv]
    rw [show l.map st.live = vs.map some from hvs]

theorem shows_iff_mem {st : St} {nodes : List Nat} {vals : List Target} (hs : Shows st nodes vals) {v : Target} :
    v ∈ vals ↔ ∃ n ∈ nodes, st.live n = some v := by
  constructor
  · intro hv
    have : some v ∈ vals.map some := List.mem_map_of_mem hv
    rw [← hs] at this
    exact List.mem_map.1 this
  · rintro ⟨n, hn, h⟩
    obtain ⟨w, hw, e⟩ := shows_mem hs hn
    rw [h] at e
    cases e
    exact hw

theorem shows_sub_set {st : St} {nodes l : List Nat} {vals vs : List Target} (hs : Shows st nodes vals) (hv : IsSet vals)
    (hl : l.Nodup) (hsub : ∀ x ∈ l, x ∈ nodes) (hvs : Shows st l vs) : IsSet vs := by
  constructor
  · have : (vs.map some).Nodup := by
      rw [← hvs]
      apply List.Nodup.map_on _ hl
      intro x hx y hy hxy
      exact shows_inj hs hv.1 (hsub x hx) (hsub y hy) hxy
    exact this.of_map
  · intro a ha b hb
    obtain ⟨n, hn, h1⟩ := (shows_iff_mem hvs).1 ha
    obtain ⟨m, hm, h2⟩ := (shows_iff_mem hvs).1 hb
    exact hv.2 a ((shows_iff_mem hs).2 ⟨n, hsub n hn, h1⟩) b ((shows_iff_mem hs).2 ⟨m, hsub m hm, h2⟩)

theorem bestFilter_eff {st : St} {nodes : List Nat} (hb : Bounded st) {getTarget : Nat → Option Nat}
    (hg : ∀ n ∈ nodes, ∀ t, getTarget n = some t → st.live t ≠ none) :
    ∃ r st', bestFilter st nodes getTarget = some (r, st') ∧
      ((r = none ∧ Same st st' ∧ (st.mem ≠ [] ∨ nodes = [] ∨ ∃ n ∈ nodes, getTarget n = none)) ∨
       ∃ d l vs, r = some d ∧ (∀ n ∈ nodes, getTarget n ≠ none) ∧ l.Nodup ∧
        (∀ x, x ∈ l ↔ ∃ n ∈ nodes, getTarget n = some x) ∧ Shows st l vs ∧ Grown st st' d vs) := by
  have hmem : ∀ (s : St) n, s.mem = [] → (alloc s n).2.mem = [] := by
    intro s n hm
    unfold alloc
    split
    · exact hm
    · rw [hm]; exact hm
  have hal : ∀ (s : St) n, s.mem = [] → n ≠ 0 → (alloc s n).1 = true := by
    intro s n hm hn
    unfold alloc
    rw [if_neg hn, hm]
  unfold bestFilter
  simp only
  by_cases ha : (alloc st nodes.length).1 = false
  · rw [if_pos ha]
    refine ⟨_, _, rfl, Or.inl ⟨rfl, same_alloc _ _, ?_⟩⟩
    by_cases hm : st.mem = []
    · by_cases hl : nodes.length = 0
      · exact Or.inr (Or.inl (List.length_eq_zero_iff.1 hl))
      · rw [hal st _ hm hl] at ha; cases ha
    · exact Or.inl hm
  · rw [if_neg ha]
    have hne : nodes ≠ [] := by
      rintro rfl
      simp [alloc] at ha
    rcases bestLoop_eff getTarget nodes [] List.nodup_nil with ⟨h1, h2⟩ | ⟨l, h1, h2, h3, h4⟩
    · rw [h1]
      exact ⟨_, _, rfl, Or.inl ⟨rfl, same_alloc _ _, Or.inr (Or.inr h2)⟩⟩
    · rw [h1]
      simp only
      have hsb := (same_alloc st nodes.length).trans (same_alloc (alloc st nodes.length).2 1)
      by_cases hb1 : (alloc (alloc st nodes.length).2 1).1 = false
      · rw [if_pos hb1]
        refine ⟨_, _, rfl, Or.inl ⟨rfl, hsb, Or.inl ?_⟩⟩
        intro hm
        rw [hal _ _ (hmem _ _ hm) (by simp)] at hb1
        cases hb1
      · rw [if_neg hb1]
        have hsc := hsb.trans (same_alloc (alloc (alloc st nodes.length).2 1).2 l.length)
        have h4' : ∀ x, x ∈ l ↔ ∃ n ∈ nodes, getTarget n = some x := by
          intro x; rw [h4]; simp
        have hlne : l ≠ [] := by
          obtain ⟨n, hn⟩ := List.exists_mem_of_ne_nil _ hne
          obtain ⟨t, ht⟩ := Option.ne_none_iff_exists'.1 (h2 n hn)
          have : t ∈ l := (h4' t).2 ⟨n, hn, ht⟩
          exact List.ne_nil_of_mem this
        by_cases hc1 : (alloc (alloc (alloc st nodes.length).2 1).2 l.length).1 = false
        · rw [if_pos hc1]
          refine ⟨_, _, rfl, Or.inl ⟨rfl, hsc, Or.inl ?_⟩⟩
          intro hm
          rw [hal _ _ (hmem _ _ (hmem _ _ hm)) (by simpa using hlne)] at hc1
          cases hc1
        · rw [if_neg hc1]
          obtain ⟨vs, hvs⟩ := shows_sub (st := st) (l := l) (by
            intro x hx
            obtain ⟨n, hn, ht⟩ := (h4' x).1 hx
            exact hg n hn x ht)
          obtain ⟨r, st', e1, e2⟩ := cloneAll_eff (st0 := (alloc (alloc (alloc st nodes.length).2 1).2 l.length).2) (l := l)
            (hsc.bounded hb) (Grown.nil _) (vs := vs) (by rw [hsc.live]; exact hvs)
          refine ⟨r, st', e1, ?_⟩
          rcases e2 with ⟨g1, g2⟩ | ⟨d, g1, g2⟩
          · refine Or.inl ⟨g1, hsc.trans g2, Or.inl ?_⟩
            intro hm
            exact cloneAll_mem e1 (hmem _ _ (hmem _ _ (hmem _ _ hm))) g1
          · refine Or.inr ⟨d, l, vs, g1, h2, h3, h4', hvs, ?_⟩
            simp only [List.nil_append] at g2
            exact g2.same (by simp) (by simp)

theorem numaLoop_eff {st0 st : St} {ids done : List Nat} {vals : List Target} (hg : Grown st0 st done vals) :
    ((numaLoop st ids done).1 = true ∧
      Grown st0 (numaLoop st ids done).2.2 (numaLoop st ids done).2.1 (vals ++ ids.map (Target.mk 0))) ∨
    ((numaLoop st ids done).1 = false ∧ ∃ vs, Grown st0 (numaLoop st ids done).2.2 (numaLoop st ids done).2.1 vs) := by
  induction ids generalizing st done vals with
  | nil =>
    left
    simpa [numaLoop] using hg
  | cons i is ih =>
    rcases create_eff st ⟨0, i⟩ with ⟨h1, h2, h3⟩ | ⟨c, h1, h2⟩
    · right
      have : numaLoop st (i :: is) done = (false, done, (create st ⟨0, i⟩).2) := by
        rw [numaLoop]
        rw [h1]
      rw [this]
      refine ⟨rfl, vals, hg.isDone, by rw [h3]; exact hg.next, ?_, ?_⟩
      · intro x hx
        rw [h2]
        exact hg.old x hx
      · unfold Shows
        simp only [h2]
        exact hg.shows
    · have : numaLoop st (i :: is) done = numaLoop (create st ⟨0, i⟩).2 is (done ++ [c]) := by
        rw [numaLoop]
        rw [h1]
      rw [this]
      rcases ih (hg.step h2) with h | h
      · left
        simpa using h
      · exact Or.inr h

theorem fromNuma_eff (st : St) (ids : List Nat) :
    (fromNuma st ids = none) ∨
    (∃ st', fromNuma st ids = some (none, st') ∧ Same st st') ∨
    (∃ d st', fromNuma st ids = some (some d, st') ∧ Grown st st' d (ids.map (Target.mk 0))) := by
  unfold fromNuma
  split
  · exact Or.inr (Or.inl ⟨_, rfl, Same.refl _⟩)
  · simp only
    split
    · exact Or.inr (Or.inl ⟨_, rfl, same_alloc _ _⟩)
    · split
      · exact Or.inr (Or.inl ⟨_, rfl, (same_alloc _ _).trans (same_alloc _ _)⟩)
      · rcases numaLoop_eff (ids := ids) (Grown.nil (alloc (alloc st 1).2 ids.length).2) with ⟨h1, h2⟩ | ⟨h1, vs, h2⟩
        · rw [if_pos h1]
          refine Or.inr (Or.inr ⟨_, _, rfl, ?_⟩)
          simp only [List.nil_append] at h2
          exact h2.same (by simp) (by simp)
        · rw [if_neg (by simp [h1])]
          split
          · rename_i hnil
            refine Or.inr (Or.inl ⟨_, rfl, ?_⟩)
            rw [hnil] at h2
            refine ((same_alloc st 1).trans (same_alloc _ ids.length)).trans ⟨?_, ?_⟩
            · funext x
              exact h2.old x (by simp)
            · rw [h2.next]; simp
          · exact Or.inl rfl

end Verif.Memspace
