import Verif.Disjoint.ConcFrame
/-! # Steps that do not change slabs -/
set_option linter.unusedSimpArgs false
namespace Verif.Disjoint.Conc
open Mem

section
variable {c : Cfg} {s s' : St} {home home' : Nat → Home} {t : Nat} {I : Option Nat}

theorem Heap.congr (h : Heap c s) (e1 : s'.objs = s.objs) (e2 : s'.mem = s.mem)
    (e3 : s'.next = s.next) (e4 : s'.known = s.known)
    (e5 : ∀ i, (s'.bk i).avail = (s.bk i).avail ∧ (s'.bk i).unavail = (s.bk i).unavail) :
    Heap c s' := by
  have e6 := fun i => (e5 i).1
  have e7 := fun i => (e5 i).2
  refine ⟨?_, ?_, ?_, ?_, ?_, ?_, ?_, ?_, ?_, ?_, ?_⟩ <;>
    simp only [e1, e2, e3, e4, e6, e7]
  · exact h.memOk
  · exact h.memSep
  · exact h.objLt
  · exact h.obj
  · exact h.objMem
  · exact h.objInj
  · exact h.known
  · exact h.listed
  · exact h.nodup
  · exact h.av
  · exact h.un

theorem OwnOk.congr {a : Own} {hm : Home} (h : OwnOk c s a hm) (e1 : s'.objs = s.objs)
    (e2 : s'.mem = s.mem) (e4 : s'.known = s.known) : OwnOk c s' a hm := by
  cases hm with
  | chunk id k => simpa only [OwnOk, e1, e4] using h
  | direct => simpa only [OwnOk, e1, e2] using h

theorem Owners.congr (h : Owners c s home) (e1 : s'.objs = s.objs) (e2 : s'.mem = s.mem)
    (e3 : s'.tickets = s.tickets) (e4 : s'.known = s.known) (e5 : s'.own = s.own) :
    Owners c s' home := by
  refine ⟨?_, ?_, ?_, ?_, ?_, ?_, ?_, ?_⟩ <;> simp only [e1, e2, e3, e4, e5]
  · exact h.lt
  · intro n a ha
    obtain ⟨h1, h2, h3⟩ := h.ok n a ha
    exact ⟨h1, h2, h3.congr e1 e2 e4⟩
  · exact h.injChunk
  · exact h.injDirect
  · exact h.full
  · exact h.cover
  · exact h.excl
  · exact h.kind

theorem zeros_congr (e1 : s'.objs = s.objs) {i : Nat} (e2 : (s'.bk i).avail = (s.bk i).avail) :
    zeros s' i = zeros s i := by
  unfold zeros
  rw [e2]
  apply countP_congr'
  intro x _
  unfold isEmpty
  rw [e1]

theorem headEmpty_congr (e1 : s'.objs = s.objs) {i : Nat}
    (e2 : (s'.bk i).avail = (s.bk i).avail) : headEmpty s' i = headEmpty s i := by
  unfold headEmpty
  rw [e2]
  cases (s.bk i).avail with
  | nil => rfl
  | cons id l => dsimp only; unfold isEmpty; rw [e1]

/-- A step that touches nothing but buckets. -/
theorem Frame.ofBk (e1 : s'.objs = s.objs) (e2 : s'.next = s.next) (e3 : s'.own = s.own)
    (e4 : s'.known = s.known) (e5 : s'.hist = s.hist) (hp : ∀ u, u ≠ t → s'.pc u = s.pc u)
    (hb : ∀ j, some j ≠ I → s'.bk j = s.bk j) : Frame s s' home home t I := by
  refine ⟨hp, hb, ?_, ?_, ?_, by rw [e2], ?_, fun _ _ => rfl, Or.inl ⟨e4, e5⟩⟩
  · intro j _ id o _; rw [e1]
  · intro id o h _; rw [e1] at h; exact ⟨o, h, rfl⟩
  · intro id o h _; rw [← e1] at h; exact ⟨o, h, rfl, rfl⟩
  · intro u _ tk a h _
    rw [← e3] at h
    exact ⟨a, h, rfl, rfl, fun h1 h2 => ⟨h1, h2⟩, fun h => h⟩

/-- What a thread relies on does not depend on where the threads are or on the shared total. -/
theorem PcOk.pcTotal {p : Pc} {f : Nat → Pc} {T : Nat} (h : PcOk c s home t p) :
    PcOk c { s with total := T, pc := f } home t p := by
  cases p <;> exact h

/-- A step that only changes where the thread is, and the shared total. -/
theorem Inv.pcStep (hI : Inv c s home) {p : Pc} (T : Nat) (hs : sec p = sec (s.pc t))
    (hp : PcOk c s home t p) :
    Inv c { s with total := T, pc := Function.update s.pc t p } home := by
  have hpc : Function.update s.pc t p t = p := Function.update_self ..
  refine hI.next (t := t) (I := sec (s.pc t)) (hI.heap.congr rfl rfl rfl rfl fun _ => ⟨rfl, rfl⟩)
    (hI.owners.congr rfl rfl rfl rfl rfl) hI.bad
    (Frame.ofBk rfl rfl rfl rfl rfl (fun u hu => Function.update_of_ne hu ..) fun _ _ => rfl)
    (Or.inl rfl) ?_ ?_ ?_
  · intro h; dsimp only; rw [hpc, hs, h]
  · intro i hi
    refine ⟨hI.lim i, Or.inr ⟨?_, (hI.lock i t).2 hi⟩⟩
    dsimp only; rw [hpc, hs, hi]
  · dsimp only; rw [hpc]; exact hp.pcTotal

theorem Inv.setPc (hI : Inv c s home) {p : Pc} (hs : sec p = sec (s.pc t))
    (hp : PcOk c s home t p) : Inv c (s.setPc t p) home :=
  hI.pcStep s.total hs hp

theorem Inv.others (hI : Inv c s home) (T : Nat) : Inv c { s with total := T } home := by
  refine ⟨hI.heap.congr rfl rfl rfl rfl fun _ => ⟨rfl, rfl⟩, hI.owners.congr rfl rfl rfl rfl rfl,
    hI.bad, hI.hist, hI.lim, hI.lock, hI.free, fun t => ?_⟩
  exact (hI.pcs t).pcTotal (f := s.pc)

theorem Inv.setUb (hI : Inv c s home) : Inv c { s with ub := true } home := by
  refine ⟨hI.heap.congr rfl rfl rfl rfl fun _ => ⟨rfl, rfl⟩, hI.owners.congr rfl rfl rfl rfl rfl,
    hI.bad, hI.hist, hI.lim, hI.lock, hI.free, fun t => ?_⟩
  have := hI.pcs t
  show PcOk c _ home t (s.pc t)
  revert this
  cases s.pc t <;> exact fun h => h

/-! ## Locks and counters -/

/-- A step of a thread that changes a counter or the lock of bucket `i`. -/
theorem Inv.bkStep (hI : Inv c s home) {i : Nat} {b : Bk} {p : Pc} (T : Nat)
    (hav : b.avail = (s.bk i).avail) (hun : b.unavail = (s.bk i).unavail)
    (hs : sec (s.pc t) = some i ∨ (sec (s.pc t) = none ∧ (s.bk i).lock = none))
    (hs' : (sec p = none ∧ b.lock = none ∧ b.pooled = zeros s i) ∨
      (sec p = some i ∧ b.lock = some t))
    (hlim : b.pooled ≤ maxPooled c i)
    (hp : PcOk c { (s.setBk i b).setPc t p with total := T } home t p) :
    Inv c { (s.setBk i b).setPc t p with total := T } home := by
  have hpc : Function.update s.pc t p t = p := Function.update_self ..
  have hbi : Function.update s.bk i b i = b := Function.update_self ..
  have hlists : ∀ j, ((Function.update s.bk i b) j).avail = (s.bk j).avail ∧
      ((Function.update s.bk i b) j).unavail = (s.bk j).unavail := by
    intro j
    by_cases hj : j = i
    · subst hj; rw [hbi]; exact ⟨hav, hun⟩
    · rw [Function.update_of_ne hj]; exact ⟨rfl, rfl⟩
  refine hI.next (t := t) (I := some i) (hI.heap.congr rfl rfl rfl rfl hlists)
    (hI.owners.congr rfl rfl rfl rfl rfl) hI.bad
    (Frame.ofBk rfl rfl rfl rfl rfl (fun u hu => Function.update_of_ne hu ..) fun j hj =>
      Function.update_of_ne (fun e => hj (by rw [e])) ..) ?_ ?_ ?_ ?_
  · rcases hs with h | ⟨h1, h2⟩
    · exact Or.inl h
    · exact Or.inr ⟨h1, fun j hj => by cases hj; exact h2⟩
  · intro h; cases h
  · intro j hj
    cases hj
    show (Function.update s.bk i b i).pooled ≤ _ ∧ ((sec (Function.update s.pc t p t) = none ∧
      (Function.update s.bk i b i).lock = none ∧ (Function.update s.bk i b i).pooled = _) ∨
      (sec (Function.update s.pc t p t) = some i ∧ (Function.update s.bk i b i).lock = some t))
    rw [hbi, hpc]
    refine ⟨hlim, ?_⟩
    rcases hs' with h | h
    · left
      rw [zeros_congr (s' := { (s.setBk i b).setPc t p with total := T }) (s := s) rfl
          (hlists i).1]
      exact h
    · exact Or.inr h
  · show PcOk c _ home t (Function.update s.pc t p t)
    rw [hpc]; exact hp

/-! ## Users of an allocation -/

/-- A step that changes who uses allocation `tk`. -/
theorem Inv.ownStep (hI : Inv c s home) {tk : Nat} {a b : Own} {p : Pc} (ha : s.own tk = some a)
    (e1 : b.ptr = a.ptr) (e2 : b.size = a.size) (e3 : b.al = a.al)
    (hx : b.freeing ≠ none → b.readers = [])
    (hr : ∀ u, u ≠ t → a.freeing = none → u ∈ a.readers → u ∈ b.readers ∧ b.freeing = none)
    (hfr : ∀ u, u ≠ t → a.freeing = some u → b.freeing = some u)
    (hs : sec (s.pc t) = none) (hs' : sec p = none)
    (hp : PcOk c ((s.setOwn tk (some b)).setPc t p) home t p) :
    Inv c ((s.setOwn tk (some b)).setPc t p) home := by
  have hpc : Function.update s.pc t p t = p := Function.update_self ..
  have hbi : Function.update s.own tk (some b) tk = some b := Function.update_self ..
  have hown : ∀ n x, Function.update s.own tk (some b) n = some x →
      ∃ y, s.own n = some y ∧ x.ptr = y.ptr ∧ x.size = y.size ∧ x.al = y.al := by
    intro n x h
    by_cases hn : n = tk
    · subst hn; rw [hbi] at h; cases h; exact ⟨a, ha, e1, e2, e3⟩
    · rw [Function.update_of_ne hn] at h; exact ⟨x, h, rfl, rfl, rfl⟩
  have hown' : ∀ n y, s.own n = some y →
      ∃ x, Function.update s.own tk (some b) n = some x ∧ x.ptr = y.ptr := by
    intro n y h
    by_cases hn : n = tk
    · subst hn; rw [ha] at h; cases h; exact ⟨b, hbi, e1⟩
    · exact ⟨y, by rw [Function.update_of_ne hn]; exact h, rfl⟩
  have hO := hI.owners
  refine hI.next (t := t) (I := none) (hI.heap.congr rfl rfl rfl rfl fun _ => ⟨rfl, rfl⟩)
    ?_ hI.bad ?_ (Or.inl hs) ?_ ?_ ?_
  · refine ⟨?_, ?_, ?_, ?_, ?_, ?_, ?_, ?_⟩
    · intro n x h
      obtain ⟨y, h1, _⟩ := hown n x h
      exact hO.lt n y h1
    · intro n x h
      obtain ⟨y, h1, h2, h3, h4⟩ := hown n x h
      obtain ⟨g1, g2, g3⟩ := hO.ok n y h1
      refine ⟨by rw [h3]; exact g1, by rw [h4, h2]; exact g2, ?_⟩
      revert g3
      cases home n with
      | chunk id k => intro g3; simp only [OwnOk, h2, h3] at g3 ⊢; exact g3
      | direct => intro g3; simp only [OwnOk, h2, h3] at g3 ⊢; exact g3
    · intro n m x y id k h1 h2
      obtain ⟨x', h3, _⟩ := hown n x h1
      obtain ⟨y', h4, _⟩ := hown m y h2
      exact hO.injChunk n m x' y' id k h3 h4
    · intro n m x y h1 h2 h5 h6 h7
      obtain ⟨x', h3, g1, _⟩ := hown n x h1
      obtain ⟨y', h4, g2, _⟩ := hown m y h2
      exact hO.injDirect n m x' y' h3 h4 h5 h6 (by rw [← g1, ← g2, h7])
    · intro id o k h1 h2
      obtain ⟨n, y, h3, h4⟩ := hO.full id o k h1 h2
      obtain ⟨x, h5, _⟩ := hown' n y h3
      exact ⟨n, x, h5, h4⟩
    · intro q z h
      rcases hO.cover q z h with h | ⟨n, y, h3, h4, h5⟩
      · exact Or.inl h
      · obtain ⟨x, h6, h7⟩ := hown' n y h3
        exact Or.inr ⟨n, x, h6, h4, by rw [h7]; exact h5⟩
    · intro n x h
      by_cases hn : n = tk
      · subst hn
        have : some b = some x := by rw [← hbi]; exact h
        cases this; exact hx
      · have h : Function.update s.own tk (some b) n = some x := h
        rw [Function.update_of_ne hn] at h
        exact hO.excl n x h
    · intro n x h
      obtain ⟨y, h1, h2, h3, h4⟩ := hown n x h
      rw [h3, h4]; exact hO.kind n y h1
  · refine ⟨fun u hu => Function.update_of_ne hu .., fun _ _ => rfl, fun _ _ _ _ _ => Iff.rfl,
      fun id o h _ => ⟨o, h, rfl⟩, fun id o h _ => ⟨o, h, rfl, rfl⟩, Nat.le_refl _, ?_,
      fun _ _ => rfl, Or.inl ⟨rfl, rfl⟩⟩
    intro u hu n x h hor
    show ∃ a', Function.update s.own tk (some b) n = some a' ∧ _
    by_cases hn : n = tk
    · subst hn
      rw [ha] at h; cases h
      exact ⟨b, hbi, e1, e2, fun h1 h2 => hr u hu h2 h1, hfr u hu⟩
    · rw [Function.update_of_ne hn]
      exact ⟨x, h, rfl, rfl, fun h1 h2 => ⟨h1, h2⟩, fun h => h⟩
  · intro _
    show sec (Function.update s.pc t p t) = none
    rw [hpc, hs']
  · intro i hi; cases hi
  · show PcOk c _ home t (Function.update s.pc t p t)
    rw [hpc]; exact hp

end

end Verif.Disjoint.Conc
