import Verif.Memspace.Spec
import Mathlib.Tactic.ByContra
import Mathlib.Data.List.Nodup
/-!
# Lemmas for memspaces: the effect of every function
-/
namespace Verif.Memspace

@[simp] theorem alloc_live (st : St) (n : Nat) : (alloc st n).2.live = st.live := by
  unfold alloc
  split
  · rfl
  · split <;> rfl

@[simp] theorem alloc_next (st : St) (n : Nat) : (alloc st n).2.next = st.next := by
  unfold alloc
  split
  · rfl
  · split <;> rfl

/-- Nothing changed but the supply of memory and handles. -/
structure Same (st st' : St) : Prop where
  live : st'.live = st.live
  next : st.next ≤ st'.next

theorem Same.refl (st : St) : Same st st := ⟨rfl, Nat.le_refl _⟩

theorem Same.trans {a b c : St} (h1 : Same a b) (h2 : Same b c) : Same a c :=
  ⟨h2.live.trans h1.live, Nat.le_trans h1.next h2.next⟩

theorem same_alloc (st : St) (n : Nat) : Same st (alloc st n).2 := ⟨alloc_live st n, Nat.le_of_eq (alloc_next st n).symm⟩

/-- A new object with the value `t`. -/
structure Added (st st' : St) (c : Nat) (t : Target) : Prop where
  eq : c = st.next
  live : ∀ x, st'.live x = if x = c then some t else st.live x
  next : st'.next = st.next + 1

theorem create_eff (st : St) (t : Target) :
    ((create st t).1 = none ∧ (create st t).2.live = st.live ∧ (create st t).2.next = st.next) ∨
    ∃ c, (create st t).1 = some c ∧ Added st (create st t).2 c t := by
  unfold create
  simp only
  split
  · left; simp
  · split
    · left; simp
    · right
      refine ⟨_, rfl, by simp, ?_, by simp [St.put]⟩
      intro x
      simp [St.put]

theorem create_mem {st : St} (hm : st.mem = []) (t : Target) :
    (create st t).1 ≠ none ∧ (create st t).2.mem = [] := by
  have : alloc st 1 = (true, st) := by simp [alloc, hm]
  unfold create
  simp [this, St.put, hm]

theorem clone_mem {st st' : St} {h : Nat} {r : Option Nat} (hc : clone st h = some (r, st')) (hm : st.mem = []) :
    r ≠ none ∧ st'.mem = [] := by
  unfold clone at hc
  split at hc
  · cases hc
  · rename_i t _
    have := create_mem hm t
    rw [Option.some.injEq] at hc
    rw [hc] at this
    exact this

theorem cloneAll_mem {st st' : St} {l done : List Nat} {r : Option (List Nat)}
    (hc : cloneAll st l done = some (r, st')) (hm : st.mem = []) : r ≠ none := by
  induction l generalizing st done with
  | nil =>
    cases hc
    simp
  | cons h t ih =>
    unfold cloneAll at hc
    split at hc
    · cases hc
    · rename_i hcl
      exact ih hc (clone_mem hcl hm).2
    · rename_i hcl
      exact absurd rfl (clone_mem hcl hm).1

theorem clone_eff {st : St} {h : Nat} {t : Target} (hl : st.live h = some t) :
    ∃ r st', clone st h = some (r, st') ∧
      ((r = none ∧ st'.live = st.live ∧ st'.next = st.next) ∨ ∃ c, r = some c ∧ Added st st' c t) := by
  unfold clone
  rw [hl]
  rcases create_eff st t with ⟨h1, h2, h3⟩ | ⟨c, h1, h2⟩
  · exact ⟨_, _, rfl, Or.inl ⟨h1, h2, h3⟩⟩
  · exact ⟨_, _, rfl, Or.inr ⟨c, h1, h2⟩⟩

theorem destroyAll_eff {st : St} {l : List Nat} (hn : l.Nodup) (hl : ∀ x ∈ l, st.live x ≠ none) :
    ∃ st', destroyAll st l = some st' ∧ st'.next = st.next ∧
      ∀ x, st'.live x = if x ∈ l then none else st.live x := by
  induction l generalizing st with
  | nil => exact ⟨st, rfl, rfl, by simp⟩
  | cons h t ih =>
    obtain ⟨hn1, hn2⟩ := List.nodup_cons.1 hn
    obtain ⟨v, hv⟩ := Option.ne_none_iff_exists'.1 (hl h (by simp))
    obtain ⟨st', e1, e2, e3⟩ := ih (st := { st with live := fun x => if x = h then none else st.live x }) hn2 (by
      intro x hx
      have : x ≠ h := by rintro rfl; exact hn1 hx
      simp only [if_neg this]
      exact hl x (by simp [hx]))
    refine ⟨st', ?_, e2, ?_⟩
    · unfold destroyAll destroy
      rw [hv]
      exact e1
    · intro x
      rw [e3]
      by_cases hx : x ∈ t
      · simp [hx]
      · by_cases hh : x = h
        · simp [hh]
        · simp [hx, hh]

theorem destroyAll_none {st : St} {l : List Nat} {x : Nat} (hx : x ∈ l) (hl : st.live x = none) :
    destroyAll st l = none := by
  induction l generalizing st with
  | nil => cases hx
  | cons h t ih =>
    unfold destroyAll
    unfold destroy
    split
    · rfl
    · rename_i st2 hd
      split at hd
      · cases hd
      · cases hd
        rename_i v hv
        rcases List.mem_cons.1 hx with rfl | hx
        · rw [hl] at hv; cases hv
        · apply ih hx
          simp only
          split
          · rfl
          · exact hl

/-- All handles from `st.next` on are free. -/
def Bounded (st : St) : Prop := ∀ x, st.next ≤ x → st.live x = none

theorem Same.bounded {st st' : St} (h : Same st st') (hb : Bounded st) : Bounded st' := by
  intro x hx
  rw [h.live]
  exact hb x (Nat.le_trans h.next hx)

/-- The objects `done` with the values `vals` have been made since `st0`. -/
structure Grown (st0 st : St) (done : List Nat) (vals : List Target) : Prop where
  isDone : done = List.range' st0.next done.length
  next : st.next = st0.next + done.length
  old : ∀ x, x ∉ done → st.live x = st0.live x
  shows : Shows st done vals

theorem Grown.nil (st : St) : Grown st st [] [] := ⟨rfl, rfl, fun _ _ => rfl, rfl⟩

theorem Grown.nodup {st0 st done vals} (h : Grown st0 st done vals) : done.Nodup := by
  rw [h.isDone]
  exact List.nodup_range'

theorem Grown.ge {st0 st done vals} (h : Grown st0 st done vals) {x : Nat} (hx : x ∈ done) :
    st0.next ≤ x ∧ x < st.next := by
  rw [h.isDone, List.mem_range'_1] at hx
  rw [h.next]
  exact hx

theorem Grown.alive {st0 st done vals} (h : Grown st0 st done vals) {x : Nat} (hx : x ∈ done) : st.live x ≠ none := by
  have : st.live x ∈ done.map st.live := List.mem_map_of_mem hx
  rw [h.shows] at this
  obtain ⟨v, _, hv⟩ := List.mem_map.1 this
  rw [← hv]; simp

theorem Grown.bounded {st0 st done vals} (h : Grown st0 st done vals) (hb : Bounded st0) : Bounded st := by
  intro x hx
  have hnx : x ∉ done := fun hc => by have := (h.ge hc).2; omega
  rw [h.old x hnx]
  exact hb x (by have := h.next; omega)

theorem Grown.step {st0 st st' done vals c t} (h : Grown st0 st done vals) (ha : Added st st' c t) :
    Grown st0 st' (done ++ [c]) (vals ++ [t]) := by
  have hc : c = st0.next + done.length := by rw [ha.eq, h.next]
  have hcd : c ∉ done := fun hx => by have := (h.ge hx).2; rw [ha.eq] at this; omega
  refine ⟨?_, ?_, ?_, ?_⟩
  · rw [List.length_append, List.length_singleton, List.range'_concat, ← h.isDone, hc]
    simp
  · rw [ha.next, h.next]; simp; omega
  · intro x hx
    simp only [List.mem_append, List.mem_singleton, not_or] at hx
    rw [ha.live, if_neg hx.2, h.old x hx.1]
  · unfold Shows
    rw [List.map_append, List.map_append, List.map_cons, ha.live, if_pos rfl]
    congr 1
    rw [← h.shows]
    apply List.map_congr_left
    intro x hx
    rw [ha.live, if_neg]
    rintro rfl
    exact hcd hx

theorem Grown.same {st0 st1 st done vals} (h : Grown st1 st done vals) (hs : st1.live = st0.live)
    (hn : st1.next = st0.next) : Grown st0 st done vals :=
  ⟨by rw [← hn]; exact h.isDone, by rw [← hn]; exact h.next, fun x hx => by rw [← hs]; exact h.old x hx, h.shows⟩

theorem cloneAll_eff {st0 st : St} {l done : List Nat} {vals vs : List Target} (hb : Bounded st0)
    (hg : Grown st0 st done vals) (hl : l.map st0.live = vs.map some) :
    ∃ r st', cloneAll st l done = some (r, st') ∧
      ((r = none ∧ Same st0 st') ∨ ∃ d, r = some d ∧ Grown st0 st' d (vals ++ vs)) := by
  induction l generalizing st done vals vs with
  | nil =>
    cases vs with
    | nil => exact ⟨_, _, rfl, Or.inr ⟨done, rfl, by simpa using hg⟩⟩
    | cons v vs => simp at hl
  | cons h t ih =>
    cases vs with
    | nil => simp at hl
    | cons v vs =>
      simp only [List.map_cons, List.cons.injEq] at hl
      have hh : h ∉ done := fun hc => by
        have := (hg.ge hc).1
        rw [hb h this] at hl
        cases hl.1
      obtain ⟨r, st1, e1, e2⟩ := clone_eff (st := st) (h := h) (t := v) (by rw [hg.old h hh, hl.1])
      unfold cloneAll
      rw [e1]
      rcases e2 with ⟨rfl, e3, e4⟩ | ⟨c, rfl, e3⟩
      · obtain ⟨st2, f1, f2, f3⟩ := destroyAll_eff (st := st1) (l := done.reverse)
          (List.nodup_reverse.2 hg.nodup) (fun x hx => by rw [e3]; exact hg.alive (by simpa using hx))
        simp only [f1]
        refine ⟨_, _, rfl, Or.inl ⟨rfl, ?_, ?_⟩⟩
        · funext x
          rw [f3, e3]
          by_cases hx : x ∈ done
          · rw [if_pos (by simpa using hx), hb x (hg.ge hx).1]
          · rw [if_neg (by simpa using hx), hg.old x hx]
        · rw [f2, e4, hg.next]; omega
      · obtain ⟨r, st2, g1, g2⟩ := ih (hg.step e3) hl.2
        refine ⟨r, st2, g1, ?_⟩
        simpa using g2

theorem cloneSpace_eff {st : St} {nodes : List Nat} {vals : List Target} (hb : Bounded st)
    (hs : Shows st nodes vals) :
    ∃ r st', cloneSpace st nodes = some (r, st') ∧
      ((r = none ∧ Same st st') ∨ ∃ d, r = some d ∧ Grown st st' d vals) := by
  unfold cloneSpace
  simp only
  split
  · exact ⟨_, _, rfl, Or.inl ⟨rfl, same_alloc _ _⟩⟩
  · split
    · exact ⟨_, _, rfl, Or.inl ⟨rfl, (same_alloc _ _).trans (same_alloc _ _)⟩⟩
    · have hsm := (same_alloc st 1).trans (same_alloc (alloc st 1).2 nodes.length)
      obtain ⟨r, st', e1, e2⟩ := cloneAll_eff (st0 := (alloc (alloc st 1).2 nodes.length).2) (l := nodes)
        (hsm.bounded hb) (Grown.nil _) (vs := vals) (by rw [hsm.live]; exact hs)
      refine ⟨r, st', e1, ?_⟩
      rcases e2 with ⟨h1, h2⟩ | ⟨d, h1, h2⟩
      · exact Or.inl ⟨h1, hsm.trans h2⟩
      · refine Or.inr ⟨d, h1, ?_⟩
        simp only [List.nil_append] at h2
        exact h2.same (by simp) (by simp)

theorem shows_mem {st : St} {nodes : List Nat} {vals : List Target} (hs : Shows st nodes vals) {n : Nat}
    (hn : n ∈ nodes) : ∃ v ∈ vals, st.live n = some v := by
  have : st.live n ∈ nodes.map st.live := List.mem_map_of_mem hn
  rw [hs] at this
  obtain ⟨v, hv, e⟩ := List.mem_map.1 this
  exact ⟨v, hv, e.symm⟩

theorem addCheck_eff {st : St} {nodes : List Nat} {vals : List Target} (hs : Shows st nodes vals) {h : Nat}
    {t : Target} (ht : st.live h = some t) :
    addCheck st h nodes = some (decide (t ∉ vals ∧ ∀ v ∈ vals, v.kind = t.kind)) := by
  induction nodes generalizing vals with
  | nil =>
    cases vals with
    | nil => simp [addCheck]
    | cons v vs => simp [Shows] at hs
  | cons n ns ih =>
    cases vals with
    | nil => simp [Shows] at hs
    | cons v vs =>
      simp only [Shows, List.map_cons, List.cons.injEq] at hs
      have ih := ih (vals := vs) hs.2
      unfold addCheck compare
      rw [hs.1, ht]
      simp only
      obtain ⟨vk, vi⟩ := v
      obtain ⟨tk, ti⟩ := t
      by_cases hk : vk = tk
      · by_cases hi : vi = ti
        · subst hk hi
          simp
        · have hne : ¬ ti = vi := fun h => hi h.symm
          simp [hk, hi, ih, hne]
      · simp [hk]

theorem add_eff {st : St} {nodes : List Nat} {vals : List Target} (hs : Shows st nodes vals) {h : Nat}
    {t : Target} (ht : st.live h = some t) :
    ∃ r nodes' st', add st nodes h = some (r, nodes', st') ∧
      ((r ≠ .success ∧ nodes' = nodes ∧ Same st st') ∨
       (r = .success ∧ (t ∉ vals ∧ ∀ v ∈ vals, v.kind = t.kind) ∧ ∃ c, nodes' = nodes ++ [c] ∧ Added st st' c t)) ∧
      (¬ (t ∉ vals ∧ ∀ v ∈ vals, v.kind = t.kind) → r = .invalid) ∧
      ((t ∉ vals ∧ ∀ v ∈ vals, v.kind = t.kind) → r = .success ∨ r = .oom) ∧
      ((t ∉ vals ∧ ∀ v ∈ vals, v.kind = t.kind) → st.mem = [] → r = .success) := by
  unfold add
  rw [addCheck_eff hs ht]
  by_cases hc : t ∉ vals ∧ ∀ v ∈ vals, v.kind = t.kind
  · rw [decide_eq_true hc]
    simp only
    by_cases ha : (alloc st (nodes.length + 1)).1 = false
    · rw [if_pos ha]
      refine ⟨_, _, _, rfl, Or.inl ⟨by simp, rfl, same_alloc _ _⟩, fun h => absurd hc h, fun _ => Or.inr rfl, ?_⟩
      intro _ hm
      simp [alloc, hm] at ha
    · rw [if_neg ha]
      obtain ⟨r, st1, e1, e2⟩ := clone_eff (st := (alloc st (nodes.length + 1)).2) (h := h) (t := t) (by simp [ht])
      rw [e1]
      rcases e2 with ⟨rfl, e3, e4⟩ | ⟨c, rfl, e3⟩
      · refine ⟨_, _, _, rfl, Or.inl ⟨by simp, rfl, ⟨by rw [e3]; simp, by rw [e4]; simp⟩⟩, fun h => absurd hc h,
          fun _ => Or.inr rfl, ?_⟩
        intro _ hm
        exfalso
        have hal : alloc st (nodes.length + 1) = (true, st) := by simp [alloc, hm]
        rw [hal] at e1
        simp [clone, ht, create, alloc, hm] at e1
      · refine ⟨_, _, _, rfl, Or.inr ⟨rfl, hc, c, rfl, ⟨by rw [e3.eq]; simp, ?_, by rw [e3.next]; simp⟩⟩,
          fun h => absurd hc h, fun _ => Or.inl rfl, fun _ _ => rfl⟩
        intro x
        rw [e3.live]
        simp
  · rw [decide_eq_false hc]
    exact ⟨_, _, _, rfl, Or.inl ⟨by simp, rfl, Same.refl _⟩, fun _ => rfl, fun h => absurd h hc, fun h => absurd h hc⟩

theorem find_eff {st : St} {nodes : List Nat} {vals : List Target} (hs : Shows st nodes vals) {h : Nat}
    {t : Target} (ht : st.live h = some t) :
    (t ∉ vals → find st h nodes = some none) ∧
    (t ∈ vals → ∃ b x a vb va, find st h nodes = some (some (b, x, a)) ∧ nodes = b ++ x :: a ∧
      vals = vb ++ t :: va ∧ t ∉ vb ∧ b.length = vb.length ∧ st.live x = some t) := by
  induction nodes generalizing vals with
  | nil =>
    cases vals with
    | nil => exact ⟨fun _ => rfl, fun h => by cases h⟩
    | cons v vs => simp [Shows] at hs
  | cons n ns ih =>
    cases vals with
    | nil => simp [Shows] at hs
    | cons v vs =>
      simp only [Shows, List.map_cons, List.cons.injEq] at hs
      obtain ⟨i1, i2⟩ := ih (vals := vs) hs.2
      have hcmp : compare st n h = some (if v.kind ≠ t.kind then -1 else if v.id ≠ t.id then 1 else 0) := by
        unfold compare
        rw [hs.1, ht]
      by_cases hvt : v = t
      · subst hvt
        refine ⟨fun h => absurd (by simp) h, fun _ => ?_⟩
        refine ⟨[], n, ns, [], vs, ?_, rfl, rfl, by simp, rfl, hs.1⟩
        unfold find
        rw [hcmp]
        simp
      · have hne : (if v.kind ≠ t.kind then (-1 : Int) else if v.id ≠ t.id then 1 else 0) ≠ 0 := by
          intro hc
          apply hvt
          obtain ⟨vk, vi⟩ := v
          obtain ⟨tk, ti⟩ := t
          by_cases hk : vk = tk
          · by_cases hi : vi = ti
            · rw [hk, hi]
            · simp [hk, hi] at hc
          · simp [hk] at hc
        constructor
        · intro hm
          simp only [List.mem_cons, not_or] at hm
          unfold find
          rw [hcmp]
          simp only
          rw [if_neg hne, i1 hm.2]
        · intro hm
          have hm' : t ∈ vs := by
            rcases List.mem_cons.1 hm with h | h
            · exact absurd h.symm hvt
            · exact h
          obtain ⟨b, x, a, vb, va, f1, f2, f3, f4, f5, f6⟩ := i2 hm'
          refine ⟨n :: b, x, a, v :: vb, va, ?_, by rw [f2]; rfl, by rw [f3]; rfl, ?_, by simp [f5], f6⟩
          · unfold find
            rw [hcmp]
            simp only
            rw [if_neg hne, f1]
          · simp only [List.mem_cons, not_or]
            exact ⟨fun h => hvt h.symm, f4⟩

theorem shows_split {st : St} {b a : List Nat} {x : Nat} {vb va : List Target} {t : Target}
    (hs : Shows st (b ++ x :: a) (vb ++ t :: va)) (hl : b.length = vb.length) :
    Shows st b vb ∧ Shows st a va ∧ st.live x = some t := by
  unfold Shows at *
  rw [List.map_append, List.map_append, List.map_cons, List.map_cons] at hs
  obtain ⟨h1, h2⟩ := List.append_inj hs (by simp [hl])
  simp only [List.cons.injEq] at h2
  exact ⟨h1, h2.2, h2.1⟩

/-- One object `x` is destroyed. -/
structure Dropped (st st' : St) (x : Nat) : Prop where
  live : ∀ y, st'.live y = if y = x then none else st.live y
  next : st'.next = st.next

theorem remove_eff {st : St} {nodes : List Nat} {vals : List Target} (hs : Shows st nodes vals) {h : Nat}
    {t : Target} (ht : st.live h = some t) :
    ∃ r nodes' st', remove st nodes h = some (r, nodes', st') ∧
      ((r ≠ .success ∧ nodes' = nodes ∧ Same st st') ∨
       (r = .success ∧ ∃ b x a vb va, nodes = b ++ x :: a ∧ nodes' = b ++ a ∧ vals = vb ++ t :: va ∧ t ∉ vb ∧
          b.length = vb.length ∧ Dropped st st' x)) ∧
      (t ∉ vals → r = .invalid) ∧
      (t ∈ vals → r = .success ∨ r = .oom) ∧
      (t ∈ vals → st.mem = [] → 1 < vals.length → r = .success ∧ st'.mem = []) ∧
      (vals.length = 1 → r ≠ .success) := by
  have hlen : nodes.length = vals.length := by
    have := congrArg List.length hs
    simpa using this
  obtain ⟨f1, f2⟩ := find_eff hs ht
  unfold remove
  by_cases hm : t ∈ vals
  · obtain ⟨b, x, a, vb, va, e1, e2, e3, e4, e5, e6⟩ := f2 hm
    rw [e1]
    simp only
    by_cases ha : (alloc st (nodes.length - 1)).1 = false
    · rw [if_pos ha]
      refine ⟨_, _, _, rfl, Or.inl ⟨by simp, rfl, same_alloc _ _⟩, fun h => absurd hm h, fun _ => Or.inr rfl, ?_, ?_⟩
      · intro _ hmem hl
        exfalso
        unfold alloc at ha
        rw [if_neg (by omega), hmem] at ha
        simp at ha
      · simp
    · rw [if_neg ha]
      unfold destroy
      rw [alloc_live, e6]
      refine ⟨_, _, _, rfl, Or.inr ⟨rfl, b, x, a, vb, va, e2, rfl, e3, e4, e5, ⟨?_, by simp⟩⟩, fun h => absurd hm h,
        fun _ => Or.inl rfl, ?_, ?_⟩
      · intro y
        simp
      · intro _ hmem hl
        refine ⟨rfl, ?_⟩
        simp only
        unfold alloc
        rw [if_neg (by omega), hmem]
        exact hmem
      · intro hl _
        apply ha
        unfold alloc
        rw [if_pos (by omega)]
  · rw [f1 hm]
    exact ⟨_, _, _, rfl, Or.inl ⟨by simp, rfl, Same.refl _⟩, fun _ => rfl, fun h => absurd h hm, fun h => absurd h hm,
      by simp⟩

theorem collect_eff (f : Nat → Int) (nodes : List Nat) :
    ((∃ n ∈ nodes, f n < 0) ∧ ∃ e, e < 0 ∧ collect f nodes = .inl e) ∨
    ((∀ n ∈ nodes, 0 ≤ f n) ∧ collect f nodes = .inr (nodes.filter fun n => f n = 0)) := by
  induction nodes with
  | nil => exact Or.inr ⟨by simp, rfl⟩
  | cons n ns ih =>
    unfold collect
    by_cases hn : f n < 0
    · rw [if_pos hn]
      exact Or.inl ⟨⟨n, by simp, hn⟩, f n, hn, rfl⟩
    · rw [if_neg hn]
      rcases ih with ⟨⟨m, hm1, hm2⟩, e, he, h2⟩ | ⟨h1, h2⟩
      · rw [h2]
        exact Or.inl ⟨⟨m, by simp [hm1], hm2⟩, e, he, rfl⟩
      · rw [h2]
        refine Or.inr ⟨?_, ?_⟩
        · intro m hm
          rcases List.mem_cons.1 hm with rfl | hm
          · omega
          · exact h1 m hm
        · simp only [List.filter_cons]
          split <;> simp_all

end Verif.Memspace
