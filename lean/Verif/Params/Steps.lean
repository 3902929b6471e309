import Verif.Params.Lemmas
/-!
# Lemmas for the parameter objects: kinds of steps
-/
namespace Verif.Params

theorem upd_upd {α : Type} (f : Addr → α) (a : Addr) (x y : α) : upd (upd f a x) a y = upd f a y := by
  funext b
  unfold upd
  split <;> rfl

theorem agrees_refl (w : Val) : Agrees w w := by
  cases w <;> simp [Agrees]

theorem no_obj {s : St} (I : Inv s) {h : Addr} {c : Cell} (hc : s.heap h = some c) (ho : Obj c) {h' : Addr} {c' : Cell}
    (hc' : s.heap h' = some c') {p : Addr} (hp : p ∈ ptrs c') : p ≠ h := by
  rintro rfl
  obtain ⟨l, hl⟩ := I.arrs h' c' hc' p hp
  rw [hc] at hl
  cases hl
  exact ho

/-- Fields that are not copies change. -/
theorem Rel.set {s : St} {A A' : Spec} (R : Rel s A) {h : Addr} {c c' : Cell} {w : Val} (ans : List Addr)
    (hc : s.heap h = some c) (ho : Obj c) (ho' : Obj c') (hp : ptrs c' = ptrs c)
    (hv : ∃ v, view ⟨upd s.heap h (some c'), s.user, ans⟩ h = some v ∧ Agrees v w)
    (hA : A'.vals = fun k => if k = h then some w else A.vals k) (hu : A'.user = A.user)
    (hl : ∀ x ∈ A.lent, x ∈ A'.lent)
    (hl' : ∀ o, c' = .ze o → o.residentCount ≠ 0 → o.resident ∈ A'.lent) :
    Rel ⟨upd s.heap h (some c'), s.user, ans⟩ A' := by
  have h0 : h ≠ 0 := by
    rintro rfl
    rw [R.inv.zero] at hc
    cases hc
  obtain ⟨v, hv, hvw⟩ := hv
  have key : ∀ p ∈ ptrs c, p ≠ h := fun p hpm => no_obj R.inv hc ho hc hpm
  refine R.change (h := h) (w := some w) h0 ?_ ?_ ?_ ?_ ?_ ?_ rfl hu ?_ hA hl ?_ ?_
  · intro c2 h2; rw [hc] at h2; cases h2; exact ho
  · intro c2 h2; dsimp only at h2; rw [upd_same] at h2; cases h2; exact ho'
  · dsimp only; rw [upd_same, hc]
    intro p hpm
    have hpm' : p ∈ ptrs c := by rw [← hp]; exact hpm
    refine ⟨key p hpm', Or.inl hpm', ?_⟩
    obtain ⟨l, hl⟩ := R.inv.arrs h c hc p hpm'
    exact ⟨l, by rw [upd_ne _ _ (key p hpm'), hl]⟩
  · dsimp only; rw [upd_same]
    show (ptrs c').Nodup
    rw [hp]; exact R.inv.nodup h c hc
  · dsimp only; rw [upd_same, hc]
    intro p h1 h2
    exact absurd (by show p ∈ ptrs c'; rw [hp]; exact h1) h2
  · intro a ha _ _
    dsimp only; rw [upd_ne _ _ ha]
  · rw [hv]; exact hvw
  · intro o h2 hn; dsimp only at h2; rw [upd_same] at h2; cases h2; exact hl' o rfl hn
  · intro _; rw [hv]; simp

/-- A copy is replaced by a new one. -/
theorem Rel.swap {s : St} {A A' : Spec} (R : Rel s A) {h : Addr} {c c' : Cell} {w : Val} (ans : List Addr)
    (hc : s.heap h = some c) (ho : Obj c) (ho' : Obj c') {old p : Addr} {l : List Nat} (hp0 : p ≠ 0)
    (hp : s.heap p = none) (hold : old = 0 ∨ old ∈ ptrs c)
    (hptrs : ∀ x, x ∈ ptrs c' ↔ x = p ∨ (x ∈ ptrs c ∧ x ≠ old)) (hnd : (ptrs c').Nodup)
    (hv : ∃ v, view ⟨upd (rel (upd s.heap p (some (.arr l))) old) h (some c'), s.user, ans⟩ h = some v ∧ Agrees v w)
    (hA : A'.vals = fun k => if k = h then some w else A.vals k) (hu : A'.user = A.user)
    (hl : ∀ x ∈ A.lent, x ∈ A'.lent)
    (hl' : ∀ o, c' ≠ .ze o) :
    Rel ⟨upd (rel (upd s.heap p (some (.arr l))) old) h (some c'), s.user, ans⟩ A' := by
  have h0 : h ≠ 0 := by
    rintro rfl
    rw [R.inv.zero] at hc
    cases hc
  obtain ⟨v, hv, hvw⟩ := hv
  have key : ∀ p ∈ ptrs c, p ≠ h := fun p hpm => no_obj R.inv hc ho hc hpm
  have hph : p ≠ h := by rintro rfl; rw [hc] at hp; cases hp
  have hpo : p ≠ old := by
    rintro rfl
    rcases hold with h1 | h1
    · exact hp0 h1
    · obtain ⟨l, hl⟩ := R.inv.arrs h c hc p h1
      rw [hp] at hl; cases hl
  have hpc : p ∉ ptrs c := by
    intro h1
    obtain ⟨l, hl⟩ := R.inv.arrs h c hc p h1
    rw [hp] at hl; cases hl
  refine R.change (h := h) (w := some w) h0 ?_ ?_ ?_ ?_ ?_ ?_ rfl hu ?_ hA hl ?_ ?_
  · intro c2 h2; rw [hc] at h2; cases h2; exact ho
  · intro c2 h2; dsimp only at h2; rw [upd_same] at h2; cases h2; exact ho'
  · dsimp only; rw [upd_same, hc]
    intro x hx
    rcases (hptrs x).1 hx with rfl | ⟨h1, h2⟩
    · exact ⟨hph, Or.inr hp, l, by rw [upd_ne _ _ hph, rel_ne _ hpo, upd_same]⟩
    · obtain ⟨l', hl'⟩ := R.inv.arrs h c hc x h1
      refine ⟨key x h1, Or.inl h1, l', ?_⟩
      rw [upd_ne _ _ (key x h1), rel_ne _ h2, upd_ne _ _ (by rintro rfl; exact hpc h1), hl']
  · dsimp only; rw [upd_same]
    exact hnd
  · dsimp only; rw [upd_same, hc]
    intro x h1 h2
    have h3 : x = old := by
      refine Decidable.byContradiction fun hne => ?_
      exact h2 ((hptrs x).2 (Or.inr ⟨h1, hne⟩))
    subst h3
    rw [upd_ne _ _ (key x h1), rel_same _ (mem_ptrs_ne h1)]
  · intro a ha h1 h2
    rw [hc] at h1
    dsimp only at h2 ⊢; rw [upd_same] at h2
    have hap : a ≠ p := by rintro rfl; exact h2 ((hptrs a).2 (Or.inl rfl))
    rw [upd_ne _ _ ha]
    by_cases hao : a = old
    · rcases hold with h3 | h3
      · rw [h3, rel_zero, upd_ne _ _ hap]
      · rw [hao] at h1; exact absurd h3 h1
    · rw [rel_ne _ hao, upd_ne _ _ hap]
  · rw [hv]; exact hvw
  · intro o h2 hn; dsimp only at h2; rw [upd_same] at h2; cases h2; exact absurd rfl (hl' o)
  · intro _; rw [hv]; simp

/-- A copy is given up. -/
theorem Rel.unset {s : St} {A A' : Spec} (R : Rel s A) {h : Addr} {c c' : Cell} {w : Val} (ans : List Addr)
    (hc : s.heap h = some c) (ho : Obj c) (ho' : Obj c') {old : Addr} (hold : old = 0 ∨ old ∈ ptrs c)
    (hptrs : ∀ x, x ∈ ptrs c' ↔ (x ∈ ptrs c ∧ x ≠ old)) (hnd : (ptrs c').Nodup)
    (hv : ∃ v, view ⟨upd (rel s.heap old) h (some c'), s.user, ans⟩ h = some v ∧ Agrees v w)
    (hA : A'.vals = fun k => if k = h then some w else A.vals k) (hu : A'.user = A.user)
    (hl : ∀ x ∈ A.lent, x ∈ A'.lent)
    (hl' : ∀ o, c' ≠ .ze o) :
    Rel ⟨upd (rel s.heap old) h (some c'), s.user, ans⟩ A' := by
  have h0 : h ≠ 0 := by
    rintro rfl
    rw [R.inv.zero] at hc
    cases hc
  obtain ⟨v, hv, hvw⟩ := hv
  have key : ∀ p ∈ ptrs c, p ≠ h := fun p hpm => no_obj R.inv hc ho hc hpm
  refine R.change (h := h) (w := some w) h0 ?_ ?_ ?_ ?_ ?_ ?_ rfl hu ?_ hA hl ?_ ?_
  · intro c2 h2; rw [hc] at h2; cases h2; exact ho
  · intro c2 h2; dsimp only at h2; rw [upd_same] at h2; cases h2; exact ho'
  · dsimp only; rw [upd_same, hc]
    intro x hx
    obtain ⟨h1, h2⟩ := (hptrs x).1 hx
    obtain ⟨l', hl'⟩ := R.inv.arrs h c hc x h1
    refine ⟨key x h1, Or.inl h1, l', ?_⟩
    rw [upd_ne _ _ (key x h1), rel_ne _ h2, hl']
  · dsimp only; rw [upd_same]
    exact hnd
  · dsimp only; rw [upd_same, hc]
    intro x h1 h2
    have h3 : x = old := by
      refine Decidable.byContradiction fun hne => ?_
      exact h2 ((hptrs x).2 ⟨h1, hne⟩)
    subst h3
    rw [upd_ne _ _ (key x h1), rel_same _ (mem_ptrs_ne h1)]
  · intro a ha h1 h2
    rw [hc] at h1
    dsimp only at h2 ⊢; rw [upd_same] at h2
    rw [upd_ne _ _ ha]
    by_cases hao : a = old
    · rcases hold with h3 | h3
      · rw [h3, rel_zero]
      · rw [hao] at h1; exact absurd h3 h1
    · rw [rel_ne _ hao]
  · rw [hv]; exact hvw
  · intro o h2 hn; dsimp only at h2; rw [upd_same] at h2; cases h2; exact absurd rfl (hl' o)
  · intro _; rw [hv]; simp

/-- An object without copies is made. -/
theorem Rel.make {s : St} {A A' : Spec} (R : Rel s A) {h : Addr} {c' : Cell} {w : Val} (ans : List Addr)
    (h0 : h ≠ 0) (hc : s.heap h = none) (ho' : Obj c') (hp : ptrs c' = [])
    (hv : ∃ v, view ⟨upd s.heap h (some c'), s.user, ans⟩ h = some v ∧ Agrees v w)
    (hA : A'.vals = fun k => if k = h then some w else A.vals k) (hu : A'.user = A.user)
    (hl : ∀ x ∈ A.lent, x ∈ A'.lent)
    (hl' : ∀ o, c' = .ze o → o.residentCount = 0) :
    Rel ⟨upd s.heap h (some c'), s.user, ans⟩ A' := by
  obtain ⟨v, hv, hvw⟩ := hv
  refine R.change (h := h) (w := some w) h0 ?_ ?_ ?_ ?_ ?_ ?_ rfl hu ?_ hA hl ?_ ?_
  · intro c2 h2; rw [hc] at h2; cases h2
  · intro c2 h2; dsimp only at h2; rw [upd_same] at h2; cases h2; exact ho'
  · dsimp only; rw [upd_same]
    simp [ptrsO, hp]
  · dsimp only; rw [upd_same]
    simp [ptrsO, hp]
  · rw [hc]; simp [ptrsO]
  · intro a ha _ _
    dsimp only; rw [upd_ne _ _ ha]
  · rw [hv]; exact hvw
  · intro o h2 hn; dsimp only at h2; rw [upd_same] at h2; cases h2; exact absurd (hl' o rfl) hn
  · intro _; rw [hv]; simp

/-- An object with one copy is made. -/
theorem Rel.make1 {s : St} {A A' : Spec} (R : Rel s A) {h p : Addr} {c' : Cell} {l : List Nat} {w : Val} (ans : List Addr)
    (h0 : h ≠ 0) (hc : s.heap h = none) (hp0 : p ≠ 0) (hp : s.heap p = none) (hph : p ≠ h) (ho' : Obj c')
    (hps : ptrs c' = [p])
    (hv : ∃ v, view ⟨upd (upd s.heap p (some (.arr l))) h (some c'), s.user, ans⟩ h = some v ∧ Agrees v w)
    (hA : A'.vals = fun k => if k = h then some w else A.vals k) (hu : A'.user = A.user)
    (hl : ∀ x ∈ A.lent, x ∈ A'.lent)
    (hl' : ∀ o, c' ≠ .ze o) :
    Rel ⟨upd (upd s.heap p (some (.arr l))) h (some c'), s.user, ans⟩ A' := by
  obtain ⟨v, hv, hvw⟩ := hv
  refine R.change (h := h) (w := some w) h0 ?_ ?_ ?_ ?_ ?_ ?_ rfl hu ?_ hA hl ?_ ?_
  · intro c2 h2; rw [hc] at h2; cases h2
  · intro c2 h2; dsimp only at h2; rw [upd_same] at h2; cases h2; exact ho'
  · dsimp only; rw [upd_same]
    intro x hx
    have hx' : x = p := by simpa [ptrsO, hps] using hx
    subst hx'
    exact ⟨hph, Or.inr hp, l, by rw [upd_ne _ _ hph, upd_same]⟩
  · dsimp only; rw [upd_same]
    simp [ptrsO, hps]
  · rw [hc]; simp [ptrsO]
  · intro a ha _ h2
    dsimp only at h2 ⊢; rw [upd_same] at h2
    rw [upd_ne _ _ ha, upd_ne _ _ (by rintro rfl; exact h2 (by simp [ptrsO, hps]))]
  · rw [hv]; exact hvw
  · intro o h2 hn; dsimp only at h2; rw [upd_same] at h2; cases h2; exact absurd rfl (hl' o)
  · intro _; rw [hv]; simp

/-- An object is removed with its copies. -/
theorem Rel.drop {s : St} {A A' : Spec} (R : Rel s A) {h : Addr} {c : Cell} {heap' : Addr → Option Cell} (ans : List Addr)
    (hc : s.heap h = some c) (ho : Obj c) (hh : heap' h = none) (hp : ∀ p ∈ ptrs c, heap' p = none)
    (hrest : ∀ a, a ≠ h → a ∉ ptrs c → heap' a = s.heap a)
    (hA : A'.vals = fun k => if k = h then none else A.vals k) (hu : A'.user = A.user)
    (hl : ∀ x ∈ A.lent, x ∈ A'.lent) :
    Rel ⟨heap', s.user, ans⟩ A' := by
  have h0 : h ≠ 0 := by
    rintro rfl
    rw [R.inv.zero] at hc
    cases hc
  refine R.change (h := h) (w := none) h0 ?_ ?_ ?_ ?_ ?_ ?_ rfl hu ?_ hA hl ?_ ?_
  · intro c2 h2; rw [hc] at h2; cases h2; exact ho
  · intro c2 h2; dsimp only at h2; rw [hh] at h2; cases h2
  · dsimp only; rw [hh]; simp [ptrsO]
  · dsimp only; rw [hh]; simp [ptrsO]
  · dsimp only; rw [hc]; intro p h1 _; exact hp p h1
  · intro a ha h1 _
    rw [hc] at h1
    exact hrest a ha h1
  · have : view ⟨heap', s.user, ans⟩ h = none := by unfold view; dsimp only; rw [hh]
    rw [this]
    trivial
  · intro o h2; dsimp only at h2; rw [hh] at h2; cases h2
  · intro h2; exact absurd hh h2

/-! ## What the user knows about an object -/

theorem Rel.null {s : St} {A : Spec} (R : Rel s A) : A.vals 0 = none := by
  have h1 := R.vals 0
  have h2 : view s 0 = none := by unfold view; rw [R.inv.zero]
  rw [h2] at h1
  cases e : A.vals 0 with
  | none => rfl
  | some v => rw [e] at h1; exact absurd h1 (by simp [Matches])

theorem Rel.view {s : St} {A : Spec} (R : Rel s A) {h : Addr} {w : Val} (hA : A.vals h = some w) :
    ∃ v, view s h = some v ∧ Agrees v w := by
  have h1 := R.vals h
  rw [hA] at h1
  cases e : Params.view s h with
  | none => rw [e] at h1; exact absurd h1 (by simp [Matches])
  | some v => rw [e] at h1; exact ⟨v, rfl, h1⟩

theorem Rel.fresh {s : St} {A : Spec} (R : Rel s A) {h : Addr} (hh : s.heap h = none) : A.vals h = none := by
  have h1 := R.vals h
  have h2 : Params.view s h = none := by unfold Params.view; rw [hh]
  rw [h2] at h1
  cases e : A.vals h with
  | none => rfl
  | some v => rw [e] at h1; exact absurd h1 (by simp [Matches])

theorem Rel.os {s : St} {A : Spec} (R : Rel s A) {h : Addr} {v : OsVal} (hA : A.vals h = some (.os v)) :
    ∃ o, s.heap h = some (.os o) ∧ readStr s o.shmName = some v.shmName ∧
      readArr s o.numaList o.numaLen = some v.numaList ∧
      readArr s o.partitions (o.partitionsLen * 2) = some v.partitions ∧
      v.protection = o.protection ∧ v.visibility = o.visibility ∧ v.numaMode = o.numaMode ∧ v.partSize = o.partSize := by
  obtain ⟨v', hv, ha⟩ := R.view hA
  unfold Params.view at hv
  cases e : s.heap h with
  | none => rw [e] at hv; cases hv
  | some c =>
    rw [e] at hv
    cases c with
    | os o =>
      dsimp only at hv
      cases e1 : readStr s o.shmName with
      | none => rw [e1] at hv; cases hv
      | some a =>
        cases e2 : readArr s o.numaList o.numaLen with
        | none => rw [e1, e2] at hv; cases hv
        | some b =>
          cases e3 : readArr s o.partitions (o.partitionsLen * 2) with
          | none => rw [e1, e2, e3] at hv; cases hv
          | some d =>
            rw [e1, e2, e3] at hv
            cases hv
            cases ha
            exact ⟨o, rfl, e1, e2, e3, rfl, rfl, rfl, rfl⟩
    | file o => dsimp only at hv; split at hv <;> cases hv; cases ha
    | dax o => dsimp only at hv; split at hv <;> cases hv; cases ha
    | ze o => dsimp only at hv; split at hv <;> cases hv; cases ha
    | dj o => dsimp only at hv; split at hv <;> cases hv; exact absurd ha (by simp [Agrees])
    | rawObj => cases hv
    | rawArr n => cases hv
    | arr l => cases hv
    | fixed a b => cases hv; cases ha
    | cu a => cases hv; cases ha
    | scal a b => cases hv; cases ha

theorem Rel.file {s : St} {A : Spec} (R : Rel s A) {h : Addr} {v : FileVal} (hA : A.vals h = some (.file v)) :
    ∃ o, s.heap h = some (.file o) ∧ readStr s o.path = some v.path ∧
      v.protection = o.protection ∧ v.visibility = o.visibility := by
  obtain ⟨v', hv, ha⟩ := R.view hA
  unfold Params.view at hv
  cases e : s.heap h with
  | none => rw [e] at hv; cases hv
  | some c =>
    rw [e] at hv
    cases c with
    | file o =>
      dsimp only at hv
      cases e1 : readStr s o.path with
      | none => rw [e1] at hv; cases hv
      | some a =>
        rw [e1] at hv
        cases hv
        cases ha
        exact ⟨o, rfl, e1, rfl, rfl⟩
    | os o => dsimp only at hv; split at hv <;> cases hv; cases ha
    | dax o => dsimp only at hv; split at hv <;> cases hv; cases ha
    | ze o => dsimp only at hv; split at hv <;> cases hv; cases ha
    | dj o => dsimp only at hv; split at hv <;> cases hv; exact absurd ha (by simp [Agrees])
    | rawObj => cases hv
    | rawArr n => cases hv
    | arr l => cases hv
    | fixed a b => cases hv; cases ha
    | cu a => cases hv; cases ha
    | scal a b => cases hv; cases ha

theorem Rel.dax {s : St} {A : Spec} (R : Rel s A) {h : Addr} {v : DaxVal} (hA : A.vals h = some (.dax v)) :
    ∃ o, s.heap h = some (.dax o) ∧ readStr s o.path = some v.path ∧
      v.protection = o.protection ∧ v.size = o.size := by
  obtain ⟨v', hv, ha⟩ := R.view hA
  unfold Params.view at hv
  cases e : s.heap h with
  | none => rw [e] at hv; cases hv
  | some c =>
    rw [e] at hv
    cases c with
    | dax o =>
      dsimp only at hv
      cases e1 : readStr s o.path with
      | none => rw [e1] at hv; cases hv
      | some a =>
        rw [e1] at hv
        cases hv
        cases ha
        exact ⟨o, rfl, e1, rfl, rfl⟩
    | os o => dsimp only at hv; split at hv <;> cases hv; cases ha
    | file o => dsimp only at hv; split at hv <;> cases hv; cases ha
    | ze o => dsimp only at hv; split at hv <;> cases hv; cases ha
    | dj o => dsimp only at hv; split at hv <;> cases hv; exact absurd ha (by simp [Agrees])
    | rawObj => cases hv
    | rawArr n => cases hv
    | arr l => cases hv
    | fixed a b => cases hv; cases ha
    | cu a => cases hv; cases ha
    | scal a b => cases hv; cases ha

theorem Rel.ze {s : St} {A : Spec} (R : Rel s A) {h : Addr} {v : ZeVal} (hA : A.vals h = some (.ze v)) :
    ∃ o, s.heap h = some (.ze o) ∧ readUser s o.resident o.residentCount = some v.resident ∧
      v.context = o.context ∧ v.device = o.device ∧ v.memoryType = o.memoryType ∧ v.freePolicy = o.freePolicy ∧
      v.ordinal = o.ordinal := by
  obtain ⟨v', hv, ha⟩ := R.view hA
  unfold Params.view at hv
  cases e : s.heap h with
  | none => rw [e] at hv; cases hv
  | some c =>
    rw [e] at hv
    cases c with
    | ze o =>
      dsimp only at hv
      cases e1 : readUser s o.resident o.residentCount with
      | none => rw [e1] at hv; cases hv
      | some a =>
        rw [e1] at hv
        cases hv
        cases ha
        exact ⟨o, rfl, e1, rfl, rfl, rfl, rfl, rfl⟩
    | os o => dsimp only at hv; split at hv <;> cases hv; cases ha
    | file o => dsimp only at hv; split at hv <;> cases hv; cases ha
    | dax o => dsimp only at hv; split at hv <;> cases hv; cases ha
    | dj o => dsimp only at hv; split at hv <;> cases hv; exact absurd ha (by simp [Agrees])
    | rawObj => cases hv
    | rawArr n => cases hv
    | arr l => cases hv
    | fixed a b => cases hv; cases ha
    | cu a => cases hv; cases ha
    | scal a b => cases hv; cases ha

theorem Rel.cell {s : St} {A : Spec} (R : Rel s A) {h : Addr} {w : Val} (hA : A.vals h = some w) :
    (∀ a b, w = .fixed a b → s.heap h = some (.fixed a b)) ∧ (∀ o, w = .cu o → s.heap h = some (.cu o)) ∧
    (∀ a b, w = .scal a b → s.heap h = some (.scal a b)) := by
  obtain ⟨v', hv, ha⟩ := R.view hA
  unfold Params.view at hv
  cases e : s.heap h with
  | none => rw [e] at hv; cases hv
  | some c =>
    rw [e] at hv
    cases c with
    | os o => dsimp only at hv; split at hv <;> cases hv; cases ha; simp
    | file o => dsimp only at hv; split at hv <;> cases hv; cases ha; simp
    | dax o => dsimp only at hv; split at hv <;> cases hv; cases ha; simp
    | ze o => dsimp only at hv; split at hv <;> cases hv; cases ha; simp
    | dj o =>
      dsimp only at hv
      split at hv <;> cases hv
      cases w <;> first | (simp [Agrees] at ha; done) | simp
    | rawObj => cases hv
    | rawArr n => cases hv
    | arr l => cases hv
    | fixed a b => cases hv; cases ha; simp
    | cu a => cases hv; cases ha; simp
    | scal a b => cases hv; cases ha; simp

theorem Rel.dj {s : St} {A : Spec} (R : Rel s A) {h : Addr} {v : DjVal} (hA : A.vals h = some (.dj v)) :
    ∃ o, s.heap h = some (.dj o) ∧ v.slabMinSize = o.slabMinSize ∧ v.maxPoolableSize = o.maxPoolableSize ∧
      v.capacity = o.capacity ∧ v.minBucketSize = o.minBucketSize ∧ v.trace = o.trace ∧ v.limits = o.limits ∧
      (v.name = none ∨ v.name = some (o.name.takeWhile (· ≠ 0))) := by
  obtain ⟨v', hv, ha⟩ := R.view hA
  unfold Params.view at hv
  cases e : s.heap h with
  | none => rw [e] at hv; cases hv
  | some c =>
    rw [e] at hv
    cases c with
    | dj o =>
      dsimp only at hv
      split at hv
      · cases hv
        obtain ⟨h1, h2⟩ := ha
        refine ⟨o, rfl, ?_, ?_, ?_, ?_, ?_, ?_, ?_⟩
        · rw [← h1]
        · rw [← h1]
        · rw [← h1]
        · rw [← h1]
        · rw [← h1]
        · rw [← h1]
        · rcases h2 with h2 | h2
          · exact Or.inl h2
          · exact Or.inr h2.symm
      · cases hv
    | os o => dsimp only at hv; split at hv <;> cases hv; cases ha
    | file o => dsimp only at hv; split at hv <;> cases hv; cases ha
    | dax o => dsimp only at hv; split at hv <;> cases hv; cases ha
    | ze o => dsimp only at hv; split at hv <;> cases hv; cases ha
    | rawObj => cases hv
    | rawArr n => cases hv
    | arr l => cases hv
    | fixed a b => cases hv; cases ha
    | cu a => cases hv; cases ha
    | scal a b => cases hv; cases ha

end Verif.Params
