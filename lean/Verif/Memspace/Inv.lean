import Verif.Memspace.Effects
/-!
# Memspaces: the invariant of all histories
-/
namespace Verif.Memspace

structure Inv (w : World) : Prop where
  sound : Sound w
  bounded : Bounded w.st

/-- What a call does to the memspace it works on, and that it does nothing else. -/
structure Change (w : World) (st' : St) (old new : List Nat) : Prop where
  frame : ∀ x, x ∉ old → x ∉ new → st'.live x = w.st.live x
  fresh : ∀ x ∈ new, x ∉ old → w.st.live x = none
  gone : ∀ x ∈ old, x ∉ new → st'.live x = none
  good : new.Nodup ∧ ∃ vals, Shows st' new vals ∧ IsSet vals
  bounded : Bounded st'

theorem Inv.set {w : World} (hi : Inv w) {m : Nat} {st' : St} {o : Option (List Nat)}
    (hc : Change w st' ((w.spaces m).getD []) (o.getD [])) : Inv (w.set st' m o) := by
  have hother : ∀ m' nodes, m' ≠ m → w.spaces m' = some nodes → ∀ x ∈ nodes,
      x ∉ (w.spaces m).getD [] ∧ x ∉ o.getD [] := by
    intro m' nodes hne hm x hx
    have h1 : x ∉ (w.spaces m).getD [] := by
      intro hx'
      cases hs : w.spaces m with
      | none => rw [hs] at hx'; cases hx'
      | some l =>
        rw [hs] at hx'
        exact hne (hi.sound.unique x m' m nodes l hm hs hx hx')
    refine ⟨h1, fun hx' => ?_⟩
    exact (hi.sound.owner x).2 ⟨m', nodes, hm, hx⟩ (hc.fresh x hx' h1)
  have hnew : ∀ x ∈ o.getD [], st'.live x ≠ none := by
    intro x hx
    obtain ⟨vals, hs, _⟩ := hc.good.2
    obtain ⟨v, _, hv⟩ := shows_mem hs hx
    rw [hv]; simp
  refine ⟨⟨?_, ?_, ?_⟩, hc.bounded⟩
  · intro m' nodes hm
    simp only [World.set] at hm ⊢
    by_cases he : m' = m
    · rw [if_pos he] at hm
      have := hc.good
      rw [hm] at this
      exact this
    · rw [if_neg he] at hm
      obtain ⟨h1, vals, h2, h3⟩ := hi.sound.isSet m' nodes hm
      refine ⟨h1, vals, shows_congr h2 ?_, h3⟩
      intro n hn
      obtain ⟨h4, h5⟩ := hother m' nodes he hm n hn
      exact hc.frame n h4 h5
  · intro h
    simp only [World.set]
    constructor
    · intro hl
      by_cases h1 : h ∈ o.getD []
      · cases ho : o with
        | none => rw [ho] at h1; cases h1
        | some l =>
          rw [ho] at h1
          exact ⟨m, l, by simp, h1⟩
      · by_cases h2 : h ∈ (w.spaces m).getD []
        · exact absurd (hc.gone h h2 h1) hl
        · rw [hc.frame h h2 h1] at hl
          obtain ⟨m', nodes, h3, h4⟩ := (hi.sound.owner h).1 hl
          have : m' ≠ m := by
            rintro rfl
            rw [h3] at h2
            exact h2 h4
          exact ⟨m', nodes, by rw [if_neg this]; exact h3, h4⟩
    · rintro ⟨m', nodes, hm, hn⟩
      by_cases he : m' = m
      · rw [if_pos he] at hm
        apply hnew
        rw [hm]
        exact hn
      · rw [if_neg he] at hm
        obtain ⟨h4, h5⟩ := hother m' nodes he hm h hn
        rw [hc.frame h h4 h5]
        exact (hi.sound.owner h).2 ⟨m', nodes, hm, hn⟩
  · intro h m1 m2 n1 n2 e1 e2 h1 h2
    simp only [World.set] at e1 e2
    by_cases he1 : m1 = m <;> by_cases he2 : m2 = m
    · rw [he1, he2]
    · rw [if_pos he1] at e1
      rw [if_neg he2] at e2
      exfalso
      apply (hother m2 n2 he2 e2 h h2).2
      rw [e1]
      exact h1
    · rw [if_neg he1] at e1
      rw [if_pos he2] at e2
      exfalso
      apply (hother m1 n1 he1 e1 h h1).2
      rw [e2]
      exact h2
    · rw [if_neg he1] at e1
      rw [if_neg he2] at e2
      exact hi.sound.unique h m1 m2 n1 n2 e1 e2 h1 h2

theorem Inv.same {w : World} (hi : Inv w) {st' : St} (hs : Same w.st st') : Inv ⟨st', w.spaces⟩ := by
  refine ⟨⟨?_, ?_, ?_⟩, hs.bounded hi.bounded⟩
  · intro m nodes hm
    obtain ⟨h1, vals, h2, h3⟩ := hi.sound.isSet m nodes hm
    exact ⟨h1, vals, shows_congr h2 (fun n _ => by rw [hs.live]), h3⟩
  · intro h
    rw [hs.live]
    exact hi.sound.owner h
  · exact hi.sound.unique

theorem set_self (w : World) (st' : St) {m : Nat} {nodes : List Nat} (hm : w.spaces m = some nodes) :
    w.set st' m (some nodes) = ⟨st', w.spaces⟩ := by
  unfold World.set
  congr 1
  funext x
  split
  · rename_i h
    rw [h, hm]
  · rfl

theorem Inv.unchanged {w : World} (hi : Inv w) {st' : St} {m : Nat} {nodes : List Nat} (hm : w.spaces m = some nodes)
    (hs : Same w.st st') : Inv (w.set st' m (some nodes)) := by
  rw [set_self w st' hm]
  exact hi.same hs

theorem change_grown {w : World} (hi : Inv w) {st' : St} {d : List Nat} {vals : List Target}
    (hg : Grown w.st st' d vals) (hv : IsSet vals) : Change w st' [] d :=
  ⟨fun x _ hx => hg.old x hx, fun x hx _ => hi.bounded x (hg.ge hx).1, (fun x hx => by cases hx),
    ⟨hg.nodup, vals, hg.shows, hv⟩, hg.bounded hi.bounded⟩

theorem isSet_numa {ids : List Nat} (h : ids.Nodup) : IsSet (ids.map (Target.mk 0)) := by
  constructor
  · apply List.Nodup.map _ h
    intro a b hab
    simpa using hab
  · intro a ha b hb
    obtain ⟨x, _, rfl⟩ := List.mem_map.1 ha
    obtain ⟨y, _, rfl⟩ := List.mem_map.1 hb
    rfl

theorem added_shows {st st' : St} {c : Nat} {t : Target} (ha : Added st st' c t) (hb : Bounded st) {nodes : List Nat}
    {vals : List Target} (hs : Shows st nodes vals) : Shows st' (nodes ++ [c]) (vals ++ [t]) ∧ c ∉ nodes := by
  have hc : c ∉ nodes := by
    intro hc
    obtain ⟨v, _, hv⟩ := shows_mem hs hc
    rw [hb c (by rw [ha.eq]; exact Nat.le_refl _)] at hv
    cases hv
  refine ⟨?_, hc⟩
  unfold Shows
  rw [List.map_append, List.map_append, List.map_cons, ha.live, if_pos rfl]
  congr 1
  rw [← hs]
  apply List.map_congr_left
  intro x hx
  rw [ha.live, if_neg]
  rintro rfl
  exact hc hx

theorem isSet_add {vals : List Target} {t : Target} (hv : IsSet vals)
    (h : t ∉ vals ∧ ∀ v ∈ vals, v.kind = t.kind) : IsSet (vals ++ [t]) := by
  constructor
  · rw [List.nodup_append]
    refine ⟨hv.1, by simp, ?_⟩
    intro a ha b hb hab
    rw [List.mem_singleton.1 hb] at hab
    rw [hab] at ha
    exact h.1 ha
  · intro a ha b hb
    rcases List.mem_append.1 ha with ha | ha <;> rcases List.mem_append.1 hb with hb | hb
    · exact hv.2 a ha b hb
    · rw [List.mem_singleton.1 hb]; exact h.2 a ha
    · rw [List.mem_singleton.1 ha]; exact (h.2 b hb).symm
    · rw [List.mem_singleton.1 ha, List.mem_singleton.1 hb]

theorem isSet_sub {vals vs : List Target} (hv : IsSet vals) (h : vs.Sublist vals) : IsSet vs :=
  ⟨hv.1.sublist h, fun a ha b hb => hv.2 a (h.subset ha) b (h.subset hb)⟩

theorem inv_reach {qsort : List (Nat × Nat) → List (Nat × Nat)} (hq : SortOk qsort) {w : World}
    (hr : Reach qsort w) : Inv w := by
  induction hr with
  | init =>
    refine ⟨⟨?_, ?_, ?_⟩, ?_⟩
    · intro m nodes h; cases h
    · intro h; simp
    · intro h m m' n n' e; cases e
    · intro x _; rfl
  | @new w m _ hm ha ih =>
    have hi := ih.same (same_alloc w.st 1)
    apply ih.set
    rw [hm]
    exact ⟨fun x _ _ => by simp, (fun x hx => by cases hx), (fun x hx => by cases hx),
      ⟨List.nodup_nil, [], rfl, List.nodup_nil, by simp⟩, hi.bounded⟩
  | newFail _ _ ih => exact ih.same (same_alloc _ _)
  | @fromNuma w m ids nodes st _ hm hn he ih =>
    apply ih.set
    rw [hm]
    rcases fromNuma_eff w.st ids with h | ⟨st', h, _⟩ | ⟨d, st', h, hg⟩
    · rw [h] at he; cases he
    · rw [h] at he; cases he
    · rw [h] at he
      cases he
      exact change_grown ih hg (isSet_numa hn)
  | @fromNumaFail w ids st _ he ih =>
    rcases fromNuma_eff w.st ids with h | ⟨st', h, hs⟩ | ⟨d, st', h, hg⟩
    · rw [h] at he; cases he
    · rw [h] at he
      cases he
      exact ih.same hs
    · rw [h] at he; cases he
  | @clone w m nodes m' nodes' st _ hm hm' he ih =>
    obtain ⟨hnd, vals, hs, hv⟩ := ih.sound.isSet m nodes hm
    obtain ⟨r, st', e1, e2⟩ := cloneSpace_eff ih.bounded hs
    rw [e1] at he
    cases he
    apply ih.set
    rw [hm']
    rcases e2 with ⟨h, _⟩ | ⟨d, h, hg⟩
    · cases h
    · cases h
      exact change_grown ih hg hv
  | @cloneFail w m nodes st _ hm he ih =>
    obtain ⟨hnd, vals, hs, hv⟩ := ih.sound.isSet m nodes hm
    obtain ⟨r, st', e1, e2⟩ := cloneSpace_eff ih.bounded hs
    rw [e1] at he
    cases he
    rcases e2 with ⟨_, h⟩ | ⟨d, h, hg⟩
    · exact ih.same h
    · cases h
  | @best w m nodes m' nodes' st getTarget _ hm hm' hg he ih =>
    obtain ⟨hnd, vals, hs, hv⟩ := ih.sound.isSet m nodes hm
    obtain ⟨r, st', e1, e2⟩ := bestFilter_eff (nodes := nodes) (getTarget := getTarget) ih.bounded (by
      intro n hn t ht
      exact (ih.sound.owner t).2 ⟨m, nodes, hm, hg n hn t ht⟩)
    rw [e1] at he
    cases he
    apply ih.set
    rw [hm']
    rcases e2 with ⟨h, _⟩ | ⟨d, l, vs, h, _, h2, h3, h4, h5⟩
    · cases h
    · cases h
      refine change_grown ih h5 (shows_sub_set hs hv h2 ?_ h4)
      intro x hx
      obtain ⟨n, hn, ht⟩ := (h3 x).1 hx
      exact hg n hn x ht
  | @bestFail w m nodes st getTarget _ hm hg he ih =>
    obtain ⟨r, st', e1, e2⟩ := bestFilter_eff (nodes := nodes) (getTarget := getTarget) ih.bounded (by
      intro n hn t ht
      exact (ih.sound.owner t).2 ⟨m, nodes, hm, hg n hn t ht⟩)
    rw [e1] at he
    cases he
    rcases e2 with ⟨_, h, _⟩ | ⟨d, l, vs, h, _⟩
    · exact ih.same h
    · cases h
  | @add w m nodes h r nodes' st _ hm hl he ih =>
    obtain ⟨hnd, vals, hs, hv⟩ := ih.sound.isSet m nodes hm
    obtain ⟨t, ht⟩ := Option.ne_none_iff_exists'.1 hl
    obtain ⟨r', n', st', e1, e2, _⟩ := add_eff hs ht
    rw [e1] at he
    cases he
    rcases e2 with ⟨_, rfl, h2⟩ | ⟨_, h1, c, rfl, h2⟩
    · exact ih.unchanged hm h2
    · apply ih.set
      rw [hm]
      obtain ⟨g1, g2⟩ := added_shows h2 ih.bounded hs
      refine ⟨?_, ?_, ?_, ⟨nodup_of_shows g1 (isSet_add hv h1).1, _, g1, isSet_add hv h1⟩, ?_⟩
      · intro x _ hx
        simp only [Option.getD_some, List.mem_append, List.mem_singleton, not_or] at hx
        rw [h2.live, if_neg hx.2]
      · intro x hx hx'
        simp only [Option.getD_some, List.mem_append, List.mem_singleton] at hx hx'
        rcases hx with hx | rfl
        · exact absurd hx hx'
        · exact ih.bounded x (by rw [h2.eq]; exact Nat.le_refl _)
      · intro x hx hx'
        simp only [Option.getD_some, List.mem_append, List.mem_singleton, not_or] at hx hx'
        exact absurd hx hx'.1
      · intro x hx
        rw [h2.next] at hx
        rw [h2.live, if_neg (by have := h2.eq; omega)]
        exact ih.bounded x (by omega)
  | @remove w m nodes h r nodes' st _ hm hl he ih =>
    obtain ⟨hnd, vals, hs, hv⟩ := ih.sound.isSet m nodes hm
    obtain ⟨t, ht⟩ := Option.ne_none_iff_exists'.1 hl
    obtain ⟨r', n', st', e1, e2, _⟩ := remove_eff hs ht
    rw [e1] at he
    cases he
    rcases e2 with ⟨_, rfl, h2⟩ | ⟨_, b, x, a, vb, va, h1, rfl, h3, h4, h5, h6⟩
    · exact ih.unchanged hm h2
    · apply ih.set
      rw [hm]
      subst h1 h3
      obtain ⟨g1, g2, g3⟩ := shows_split hs h5
      have hxb : x ∉ b ++ a := by
        have := List.nodup_middle.1 hnd
        exact (List.nodup_cons.1 this).1
      have hshow : Shows st (b ++ a) (vb ++ va) := by
        apply shows_congr (st := w.st)
        · unfold Shows
          rw [List.map_append, List.map_append, g1, g2]
        · intro n hn
          rw [h6.live, if_neg]
          rintro rfl
          exact hxb hn
      have hset : IsSet (vb ++ va) := isSet_sub hv (by simp)
      refine ⟨?_, ?_, ?_, ⟨nodup_of_shows hshow hset.1, _, hshow, hset⟩, ?_⟩
      · intro y hy _
        simp only [Option.getD_some, List.mem_append, List.mem_cons, not_or] at hy
        rw [h6.live, if_neg hy.2.1]
      · intro y hy hy'
        simp only [Option.getD_some, List.mem_append, List.mem_cons, not_or] at hy hy'
        rcases hy with hy | hy
        · exact absurd hy hy'.1
        · exact absurd hy hy'.2.2
      · intro y hy hy'
        simp only [Option.getD_some, List.mem_append, List.mem_cons, not_or] at hy hy'
        have : y = x := by
          rcases hy with hy | hy | hy
          · exact absurd hy hy'.1
          · exact hy
          · exact absurd hy hy'.2
        rw [h6.live, if_pos this]
      · intro y hy
        rw [h6.next] at hy
        rw [h6.live]
        split
        · rfl
        · exact ih.bounded y hy
  | @filter w m nodes f r nodes' st _ hm he ih =>
    obtain ⟨hnd, vals, hs, hv⟩ := ih.sound.isSet m nodes hm
    rcases filterHelper_eff hs hv.1 f with ⟨e1, _⟩ | ⟨st', e1, _, _, e2, e3⟩ | ⟨r', st', e1, e2, e3⟩
    · unfold userFilter at he
      rw [e1] at he
      cases he
    · unfold userFilter at he
      rw [e1] at he
      cases he
      apply ih.set
      rw [hm]
      obtain ⟨vs, hvs⟩ := shows_sub (st := st) (l := nodes.filter fun n => decide (f n ≠ 0)) (by
        intro x hx
        obtain ⟨h1, h2⟩ := List.mem_filter.1 hx
        rw [e2, if_neg (fun h => by simp [h.2] at h2)]
        exact (ih.sound.owner x).2 ⟨m, nodes, hm, h1⟩)
      have hvs' : Shows w.st (nodes.filter fun n => decide (f n ≠ 0)) vs := by
        apply shows_congr hvs
        intro x hx
        obtain ⟨h1, h2⟩ := List.mem_filter.1 hx
        rw [e2, if_neg (fun h => by simp [h.2] at h2)]
      refine ⟨?_, ?_, ?_, ⟨hnd.filter _, vs, hvs,
        shows_sub_set hs hv (hnd.filter _) (fun x hx => (List.mem_filter.1 hx).1) hvs'⟩, ?_⟩
      · intro x hx _
        simp only [Option.getD_some] at hx
        rw [e2, if_neg (fun h => hx h.1)]
      · intro x hx hx'
        simp only [Option.getD_some] at hx hx'
        exact absurd (List.mem_filter.1 hx).1 hx'
      · intro x hx hx'
        simp only [Option.getD_some, List.mem_filter, not_and] at hx hx'
        rw [e2, if_pos]
        refine ⟨hx, ?_⟩
        by_contra hc
        exact hx' hx (by simpa using hc)
      · intro x hx
        rw [e3] at hx
        rw [e2]
        split
        · rfl
        · exact ih.bounded x hx
    · unfold userFilter at he
      rw [e1] at he
      have : nodes' = nodes ∧ st = st' := by
        cases r' <;> (cases he; exact ⟨rfl, rfl⟩)
      rw [this.1, this.2]
      exact ih.unchanged hm e2
  | @sort w m nodes getP r nodes' st _ hm he ih =>
    obtain ⟨hnd, vals, hs, hv⟩ := ih.sound.isSet m nodes hm
    obtain ⟨r', n', st', e1, e2, e3⟩ := sortDesc_eff hq w.st nodes getP
    rw [e1] at he
    cases he
    rcases e3 with ⟨_, rfl⟩ | ⟨_, h2, _⟩
    · exact ih.unchanged hm e2
    · apply ih.set
      rw [hm]
      obtain ⟨vs, hvs⟩ := shows_sub (st := w.st) (l := nodes') (by
        intro x hx
        exact (ih.sound.owner x).2 ⟨m, nodes, hm, h2.mem_iff.1 hx⟩)
      refine ⟨fun x _ _ => by rw [e2.live], ?_, ?_, ⟨h2.nodup_iff.2 hnd, vs, shows_congr hvs (fun n _ => by rw [e2.live]),
        shows_sub_set hs hv (h2.nodup_iff.2 hnd) (fun x hx => h2.mem_iff.1 hx) hvs⟩, e2.bounded ih.bounded⟩
      · intro x hx hx'
        exact absurd (h2.mem_iff.1 hx) hx'
      · intro x hx hx'
        exact absurd (h2.mem_iff.2 hx) hx'
  | @destroy w m nodes st _ hm he ih =>
    obtain ⟨hnd, vals, hs, hv⟩ := ih.sound.isSet m nodes hm
    obtain ⟨st', e1, e2, e3⟩ := destroyAll_eff (st := w.st) hnd (by
      intro x hx
      exact (ih.sound.owner x).2 ⟨m, nodes, hm, hx⟩)
    rw [e1] at he
    cases he
    apply ih.set
    rw [hm]
    refine ⟨?_, (fun x hx => by cases hx), ?_, ⟨List.nodup_nil, [], rfl, List.nodup_nil, by simp⟩, ?_⟩
    · intro x hx _
      simp only [Option.getD_some] at hx
      rw [e3, if_neg hx]
    · intro x hx _
      simp only [Option.getD_some] at hx
      rw [e3, if_pos hx]
    · intro x hx
      rw [e2] at hx
      rw [e3]
      split
      · rfl
      · exact ih.bounded x hx

end Verif.Memspace
