import Verif.Disjoint.ConcInv
/-! # What a step of one thread leaves alone -/
set_option linter.unusedSimpArgs false
namespace Verif.Disjoint.Conc
open Mem

/-- A step of thread `t` that touches at most bucket `I`. -/
structure Frame (s s' : St) (home home' : Nat → Home) (t : Nat) (I : Option Nat) : Prop where
  pcs : ∀ u, u ≠ t → s'.pc u = s.pc u
  bk : ∀ j, some j ≠ I → s'.bk j = s.bk j
  obj : ∀ j, some j ≠ I → ∀ id o, o.bkt = j → (s.objs id = some o ↔ s'.objs id = some o)
  objBack : ∀ id o', s'.objs id = some o' → id < s.next → ∃ o, s.objs id = some o ∧ o.base = o'.base
  objFwd : ∀ id o, s.objs id = some o → o.has = true →
    ∃ o', s'.objs id = some o' ∧ o'.base = o.base ∧ o'.bkt = o.bkt
  next : s.next ≤ s'.next
  own : ∀ u, u ≠ t → ∀ tk a, s.own tk = some a → (u ∈ a.readers ∨ a.freeing = some u) →
    ∃ a', s'.own tk = some a' ∧ a'.ptr = a.ptr ∧ a'.size = a.size ∧
      (u ∈ a.readers → a.freeing = none → u ∈ a'.readers ∧ a'.freeing = none) ∧
      (a.freeing = some u → a'.freeing = some u)
  home : ∀ n, n < s.tickets → home' n = home n
  hist : (s'.known = s.known ∧ s'.hist = s.hist) ∨ s'.hist = s.known :: s.hist

theorem countP_congr' {α : Type _} {p q : α → Bool} {l : List α} (h : ∀ x ∈ l, p x = q x) :
    l.countP p = l.countP q := by
  induction l with
  | nil => rfl
  | cons a l ih =>
    rw [List.countP_cons, List.countP_cons, h a (by simp), ih fun x hx => h x (by simp [hx])]

section
variable {c : Cfg} {s s' : St} {home home' : Nat → Home} {t : Nat} {I : Option Nat}

theorem Frame.isEmpty (hf : Frame s s' home home' t I) (hh : Heap c s) {j : Nat}
    (hj : some j ≠ I) {id : Nat} (hid : id ∈ (s.bk j).avail) : isEmpty s' id = isEmpty s id := by
  obtain ⟨o, h1, h2, _⟩ := hh.listed j id (Or.inl hid)
  rw [isEmpty_iff h1, isEmpty_iff ((hf.obj j hj id o h2).1 h1)]

theorem Frame.zeros (hf : Frame s s' home home' t I) (hh : Heap c s) {j : Nat}
    (hj : some j ≠ I) : zeros s' j = zeros s j := by
  unfold Conc.zeros
  rw [hf.bk j hj]
  exact countP_congr' fun id hid => hf.isEmpty hh hj hid

theorem Frame.headEmpty (hf : Frame s s' home home' t I) (hh : Heap c s) {j : Nat}
    (hj : some j ≠ I) : headEmpty s' j = headEmpty s j := by
  unfold Conc.headEmpty
  rw [hf.bk j hj]
  cases h : (s.bk j).avail with
  | nil => rfl
  | cons id l => dsimp only; rw [hf.isEmpty hh hj (by rw [h]; simp)]

theorem Frame.holds (hf : Frame s s' home home' t I) {u tk ptr : Nat} {us : Bool} (hu : u ≠ t)
    (h : Holds s u tk ptr us) : Holds s' u tk ptr us := by
  obtain ⟨a, h1, h2, h3⟩ := h
  cases us with
  | true =>
    obtain ⟨a', g1, g2, g3, g4, g5⟩ := hf.own u hu tk a h1 (Or.inl h3.1)
    exact ⟨a', g1, by rw [g2, h2], g4 h3.1 h3.2⟩
  | false =>
    obtain ⟨a', g1, g2, g3, g4, g5⟩ := hf.own u hu tk a h1 (Or.inr h3)
    exact ⟨a', g1, by rw [g2, h2], g5 h3⟩

theorem Holds.lt {u tk ptr : Nat} {us : Bool} (ho : Owners c s home) (h : Holds s u tk ptr us) :
    tk < s.tickets := by
  obtain ⟨a, h1, _⟩ := h
  exact ho.lt tk a h1

theorem Frame.private (hf : Frame s s' home home' t I) {id i : Nat} (hi : some i ≠ I)
    (h : Private s id i) : Private s' id i := by
  obtain ⟨o, h1, h2, h3, h4, h5, h6⟩ := h
  exact ⟨o, (hf.obj i hi id o h2).1 h1, h2, h3, h4, by rw [hf.bk i hi]; exact h5,
    by rw [hf.bk i hi]; exact h6⟩

theorem Frame.emptied (hf : Frame s s' home home' t I) (hh : Heap c s) {id i : Nat}
    (hi : some i ≠ I) (h : Emptied s id i) : Emptied s' id i := by
  obtain ⟨h1, ⟨o, h2, h3⟩, h4⟩ := h
  obtain ⟨o', g1, g2, _⟩ := hh.listed i id (Or.inl h1)
  rw [h2] at g1; cases g1
  exact ⟨by rw [hf.bk i hi]; exact h1, ⟨o, (hf.obj i hi id o g2).1 h2, h3⟩,
    by rw [hf.bk i hi, hf.zeros hh hi]; exact h4⟩

/-- The maps a lookup may have seen after the step. -/
theorem seen_step (hist : (s'.known = s.known ∧ s'.hist = s.hist) ∨ s'.hist = s.known :: s.hist)
    {t0 : Nat} (h0 : t0 ≤ s.hist.length) {m : Nat → Option Nat} (hm : m ∈ s'.seen t0) :
    m = s'.known ∨ m ∈ s.seen t0 := by
  unfold St.seen at *
  rcases hist with ⟨h1, h2⟩ | h2
  · rw [h1, h2] at hm; exact Or.inr hm
  · rw [h2, List.length_cons, show s.hist.length + 1 - t0 = (s.hist.length - t0) + 1 by omega,
      List.take_succ_cons] at hm
    rcases List.mem_cons.1 hm with h | h
    · exact Or.inl h
    · exact Or.inr h

/-- What the other threads rely on is kept. -/
theorem Frame.pcOk (hI : Inv c s home) (hh : Heap c s') (ho : Owners c s' home')
    (hf : Frame s s' home home' t I) {u : Nat} (hu : u ≠ t)
    (hsec : ∀ j, sec (s.pc u) = some j → some j ≠ I) : PcOk c s' home' u (s.pc u) := by
  have hp := hI.pcs u
  revert hp hsec
  cases s.pc u with
  | idle => intro _ _; trivial
  | direct r => intro _ h; exact h
  | wait i r => intro _ h; exact h
  | get i r =>
    intro hs h
    have hi := hs i rfl
    exact ⟨h.1, by rw [hf.bk i hi, hf.zeros hI.heap hi]; exact h.2⟩
  | make i r =>
    intro hs h
    have hi := hs i rfl
    exact ⟨h.1, by rw [hf.bk i hi, hf.zeros hI.heap hi]; exact h.2.1, by rw [hf.bk i hi]; exact h.2.2⟩
  | reg i r id =>
    intro hs h
    have hi := hs i rfl
    exact ⟨h.1, by rw [hf.bk i hi, hf.zeros hI.heap hi]; exact h.2.1, by rw [hf.bk i hi]; exact h.2.2.1,
      hf.private hi h.2.2.2⟩
  | take i r =>
    intro hs h
    have hi := hs i rfl
    exact ⟨h.1, by rw [hf.bk i hi, hf.zeros hI.heap hi, hf.headEmpty hI.heap hi]; exact h.2.1,
      by rw [hf.bk i hi]; exact h.2.2⟩
  | fin i fr =>
    intro hs h
    have hi := hs i rfl
    show (s'.bk i).pooled = _
    rw [hf.bk i hi, hf.zeros hI.heap hi]; exact h
  | drop id i fr =>
    intro hs h
    have hi := hs i rfl
    exact ⟨by rw [hf.bk i hi, hf.zeros hI.heap hi]; exact h.1, hf.private hi h.2⟩
  | dropObj id i fr =>
    intro hs h
    have hi := hs i rfl
    obtain ⟨h0, o, h1, h2, h3, h4⟩ := h
    exact ⟨by rw [hf.bk i hi, hf.zeros hI.heap hi]; exact h0, o, (hf.obj i hi id o h2).1 h1, h2, h3, h4⟩
  | find tk ptr t0 us =>
    rintro _ ⟨h1, h2, h3⟩
    have hh1 := hf.holds hu h1
    have hlt := h1.lt hI.owners
    refine ⟨hh1, ?_, fun m hm => ?_⟩
    · rcases hf.hist with ⟨_, h⟩ | h
      · rw [h]; exact h2
      · rw [h, List.length_cons]; omega
    · rcases seen_step hf.hist h2 hm with rfl | hm
      · obtain ⟨a, ha, hptr, _⟩ := hh1
        rw [← hptr]
        exact window_now hh ho ha
      · have hw := h3 m hm
        rw [hf.home tk hlt]
        obtain ⟨a, ha, hptr, _⟩ := h1
        have hok := (hI.owners.ok tk a ha).2.2
        revert hw hok
        cases home tk with
        | chunk id k =>
          rintro ⟨o, g1, g2, g3⟩ ⟨o2, g4, g5, _⟩
          rw [g1] at g4; cases g4
          obtain ⟨o', g6, g7, _⟩ := hf.objFwd id o g1 g5
          exact ⟨o', g6, by rw [g7]; exact g2, by rw [g7]; exact g3⟩
        | direct => intro hw _; exact hw
  | read tk ptr id us =>
    rintro _ ⟨h1, h2, h3⟩
    refine ⟨hf.holds hu h1, Nat.lt_of_lt_of_le h2 hf.next, ?_⟩
    rw [hf.home tk (h1.lt hI.owners)]
    revert h3
    cases home tk with
    | chunk id' k => exact fun h => h
    | direct =>
      intro h3 o' ho'
      obtain ⟨o, g1, g2⟩ := hf.objBack id o' ho' h2
      rw [← g2]; exact h3 o g1
  | info tk ptr us =>
    rintro _ ⟨h1, h2⟩
    exact ⟨hf.holds hu h1, by rw [hf.home tk (h1.lt hI.owners)]; exact h2⟩
  | pfree tk ptr z =>
    rintro _ ⟨h1, h2, h3⟩
    have hhm := hf.home tk (h1.lt hI.owners)
    refine ⟨hf.holds hu h1, by rw [hhm]; exact h2, ?_⟩
    obtain ⟨a, ha, hptr, hfr⟩ := h1
    obtain ⟨a', g1, g2, g3, _⟩ := hf.own u hu tk a ha (Or.inr hfr)
    have e1 := (hI.owners.ok tk a ha).2.2
    have e2 := (ho.ok tk a' g1).2.2
    rw [h2] at e1
    rw [hhm, h2] at e2
    rw [← hptr, ← g2, e2.1, g3]
    have := e1.1
    rw [hptr, h3] at this
    exact this.symm
  | fwait tk ptr id i =>
    rintro _ ⟨h1, k, h2, o, h3, h4⟩
    have hhm := hf.home tk (h1.lt hI.owners)
    refine ⟨hf.holds hu h1, k, by rw [hhm]; exact h2, ?_⟩
    obtain ⟨a, ha, hptr, hfr⟩ := h1
    have e1 := (hI.owners.ok tk a ha).2.2
    rw [h2] at e1
    obtain ⟨o2, g4, g5, _⟩ := e1
    rw [h3] at g4; cases g4
    obtain ⟨o', g6, g7, g8⟩ := hf.objFwd id o h3 g5
    exact ⟨o', g6, by rw [g8, h4]⟩
  | chunk tk ptr id i =>
    rintro hs ⟨h0, h1, k, h2, o, h3, h4⟩
    have hi := hs i rfl
    have hhm := hf.home tk (h1.lt hI.owners)
    exact ⟨by rw [hf.bk i hi, hf.zeros hI.heap hi]; exact h0, hf.holds hu h1, k,
      by rw [hhm]; exact h2, o, (hf.obj i hi id o h4).1 h3, h4⟩
  | add id i =>
    intro hs h
    have hi := hs i rfl
    exact ⟨hf.emptied hI.heap hi h.1, by rw [hf.bk i hi]; exact h.2⟩
  | cmp id i prev =>
    intro hs h
    have hi := hs i rfl
    exact ⟨hf.emptied hI.heap hi h.1, by rw [hf.bk i hi]; exact h.2⟩
  | back id i =>
    intro hs h
    exact hf.emptied hI.heap (hs i rfl) h
  | unreg id i =>
    intro hs h
    exact hf.emptied hI.heap (hs i rfl) h

/-- The invariant after a step: what has to be shown. -/
theorem Inv.next (hI : Inv c s home) (hh : Heap c s') (ho : Owners c s' home') (hb : s'.bad = false)
    (hf : Frame s s' home home' t I)
    (hs : sec (s.pc t) = I ∨ (sec (s.pc t) = none ∧ ∀ i, I = some i → (s.bk i).lock = none))
    (hs' : I = none → sec (s'.pc t) = none)
    (hl : ∀ i, I = some i → (s'.bk i).pooled ≤ maxPooled c i ∧
      ((sec (s'.pc t) = none ∧ (s'.bk i).lock = none ∧ (s'.bk i).pooled = Conc.zeros s' i) ∨
        (sec (s'.pc t) = some i ∧ (s'.bk i).lock = some t)))
    (hp : PcOk c s' home' t (s'.pc t)) : Inv c s' home' := by
  -- other threads are not in the bucket
  have hout : ∀ u, u ≠ t → ∀ j, sec (s.pc u) = some j → some j ≠ I := by
    rintro u hu j hj rfl
    rcases hs with h | ⟨_, h⟩
    · exact hu (hI.excl h hj)
    · have := (hI.lock j u).2 hj
      rw [h j rfl] at this
      cases this
  refine ⟨hh, ho, hb, ?_, ?_, ?_, ?_, ?_⟩
  · intro m hm b id hmb
    have hold : id < s.next ∧ ∀ o, s.objs id = some o → o.base = b := by
      have hk : s.known b = some id → id < s.next ∧ ∀ o, s.objs id = some o → o.base = b := by
        intro hk
        obtain ⟨o, h1, h2, _⟩ := hI.heap.known b id hk
        exact ⟨hI.heap.objLt id o h1, fun o2 h3 => by rw [h1] at h3; cases h3; exact h2⟩
      rcases hf.hist with ⟨_, h⟩ | h
      · rw [h] at hm; exact hI.hist m hm b id hmb
      · rw [h] at hm
        rcases List.mem_cons.1 hm with rfl | hm
        · exact hk hmb
        · exact hI.hist m hm b id hmb
    refine ⟨Nat.lt_of_lt_of_le hold.1 hf.next, fun o' ho' => ?_⟩
    obtain ⟨o, g1, g2⟩ := hf.objBack id o' ho' hold.1
    rw [← g2]; exact hold.2 o g1
  · intro i
    by_cases hi : some i = I
    · exact (hl i hi.symm).1
    · rw [hf.bk i hi]; exact hI.lim i
  · intro i u
    by_cases hi : some i = I
    · by_cases hu : u = t
      · subst hu
        rcases (hl i hi.symm).2 with ⟨h1, h2, _⟩ | ⟨h1, h2⟩ <;> simp [h1, h2]
      · rw [hf.pcs u hu]
        constructor
        · intro h
          rcases (hl i hi.symm).2 with ⟨h1, h2, _⟩ | ⟨h1, h2⟩
          · rw [h2] at h; cases h
          · rw [h2] at h; exact absurd (Option.some.inj h).symm hu
        · intro h; exact absurd hi (hout u hu i h)
    · rw [hf.bk i hi, hI.lock i u]
      by_cases hu : u = t
      · subst hu
        constructor
        · intro h
          rcases hs with h' | ⟨h', _⟩
          · rw [h'] at h; exact absurd h.symm hi
          · rw [h'] at h; cases h
        · intro h
          cases hI' : I with
          | none => rw [hs' hI'] at h; cases h
          | some j =>
            rcases (hl j hI').2 with ⟨h1, _⟩ | ⟨h1, _⟩
            · rw [h1] at h; cases h
            · rw [h1] at h; rw [hI'] at hi; exact absurd h.symm hi
      · rw [hf.pcs u hu]
  · intro i hi
    by_cases hi' : some i = I
    · rcases (hl i hi'.symm).2 with ⟨_, _, h⟩ | ⟨_, h⟩
      · exact h
      · rw [h] at hi; cases hi
    · rw [hf.bk i hi'] at hi ⊢
      rw [hf.zeros hI.heap hi']
      exact hI.free i hi
  · intro u
    by_cases hu : u = t
    · subst hu; exact hp
    · rw [hf.pcs u hu]
      exact hf.pcOk hI hh ho hu (hout u hu)

end

end Verif.Disjoint.Conc
