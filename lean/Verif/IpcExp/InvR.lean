import Verif.IpcExp.Inv

/-! # The regions and the calls under way -/
namespace Verif.IpcExp

theorem gfree_frame (s : St) (o : Nat) : (s.gfree o).regs = s.regs ∧ (s.gfree o).pc = s.pc ∧ (s.gfree o).cache = s.cache ∧
    (s.gfree o).ups = s.ups ∧ (s.gfree o).nextId = s.nextId := by
  unfold St.gfree; split <;> simp [St.fail]

theorem uput_frame (s : St) (o : Nat) : (s.uput o).regs = s.regs ∧ (s.uput o).pc = s.pc ∧ (s.uput o).cache = s.cache ∧
    (s.uput o).obj = s.obj ∧ (s.uput o).nextId = s.nextId := by
  unfold St.uput; split
  · split <;> simp [St.fail]
  · simp [St.fail]

theorem fillV_frame (s : St) (v l u : Nat) : (s.fillV v l u).regs = s.regs ∧ (s.fillV v l u).pc = s.pc ∧
    (s.fillV v l u).cache = s.cache ∧ (s.fillV v l u).ups = s.ups := by
  unfold St.fillV; split <;> simp [St.fail]

theorem copyV_frame (s : St) (g : Loc) (v : Nat) : (s.copyV g v).regs = s.regs ∧ (s.copyV g v).pc = s.pc ∧
    (s.copyV g v).cache = s.cache ∧ (s.copyV g v).ups = s.ups ∧ (s.copyV g v).nextId = s.nextId := by
  unfold St.copyV; split
  · split <;> simp [St.fail]
  · simp [St.fail]

theorem find_spec (regs : List (Nat × Nat)) (x b sz : Nat) (h : find regs x = some (b, sz)) :
    (b, sz) ∈ regs ∧ Within x b sz := by
  unfold find at h
  have h1 := List.mem_of_find?_eq_some h
  have h2 := List.find?_some h
  simp at h2
  exact ⟨h1, h2.1, h2.2⟩

theorem InvR.init : InvR St.init := by
  refine ⟨?_, ?_, ?_, ?_, ?_, ?_, ?_⟩ <;> simp [St.init, locOf, outOf, call]

theorem InvR.alloc (s : St) (b sz : Nat) (h : InvR s) (hsz : 0 < sz) (hr : ∀ r ∈ s.regs, Apart b sz r.1 r.2)
    (hf : ∀ t b' sz', call (s.pc t) = .free b' sz' → Apart b sz b' sz') : InvR { s with regs := (b, sz) :: s.regs } := by
  refine ⟨?_, ?_, ?_, h.excl, ?_, ?_, h.ff⟩
  · intro b1 s1 h1
    rcases List.mem_cons.1 h1 with e | e
    · cases e; exact hsz
    · exact h.pos b1 s1 e
  · intro b1 s1 b2 s2 h1 h2 hne
    rcases List.mem_cons.1 h1 with e | e <;> rcases List.mem_cons.1 h2 with e' | e'
    · exact absurd (e.trans e'.symm) hne
    · cases e; exact hr _ e'
    · cases e'; exact (hr _ e).symm
    · exact h.disj b1 s1 b2 s2 e e' hne
  · intro t x b1 s1 hl
    obtain ⟨h1, h2⟩ := h.loc t x b1 s1 hl
    exact ⟨List.mem_cons_of_mem _ h1, h2⟩
  · intro t b1 s1 hp; exact List.mem_cons_of_mem _ (h.f0 t b1 s1 hp)
  · intro t b1 s1 ho
    obtain ⟨h1, h2⟩ := h.out t b1 s1 ho
    refine ⟨h1, fun b' sz' hm => ?_⟩
    rcases List.mem_cons.1 hm with e | e
    · cases e; exact (hf t b1 s1 (outOf_call _ _ _ ho)).symm
    · exact h2 b' sz' e

theorem InvR.ends (s : St) (t : Nat) (p : Pc) (h : InvR s) (hc : call p = .none) : InvR (s.to t p) := by
  have hg : ∀ u x, call ((s.to t p).pc u) = .get x → call (s.pc u) = .get x := by
    intro u x; simp only [St.to, upd]; split
    · rw [hc]; intro e; cases e
    · exact id
  have hf : ∀ u b sz, call ((s.to t p).pc u) = .free b sz → call (s.pc u) = .free b sz := by
    intro u b sz; simp only [St.to, upd]; split
    · rw [hc]; intro e; cases e
    · exact id
  refine ⟨h.pos, h.disj, ?_, ?_, ?_, ?_, ?_⟩
  · intro u x b sz hl
    have h1 := locOf_call _ _ _ _ hl
    simp only [St.to, upd] at hl h1; split at hl
    · rename_i e; rw [if_pos e, hc] at h1; cases h1
    · exact h.loc u x b sz hl
  · intro u f x b sz h1 h2; exact h.excl u f x b sz (hg _ _ h1) (hf _ _ _ h2)
  · intro u b sz hp; simp only [St.to, upd] at hp; split at hp
    · rw [hp] at hc; cases hc
    · exact h.f0 u b sz hp
  · intro u b sz ho
    have h1 := outOf_call _ _ _ ho
    simp only [St.to, upd] at ho h1; split at ho
    · rename_i e; rw [if_pos e, hc] at h1; cases h1
    · exact h.out u b sz ho
  · intro u u' b sz b' sz' hne h1 h2; exact h.ff u u' b sz b' sz' hne (hf _ _ _ h1) (hf _ _ _ h2)

theorem InvR.callGet (s : St) (t x : Nat) (h : InvR s)
    (hf : ∀ u b sz, call (s.pc u) = .free b sz → ¬ Within x b sz) : InvR (s.to t (.lookup x)) := by
  have hff : ∀ u b sz, call ((s.to t (.lookup x)).pc u) = .free b sz → call (s.pc u) = .free b sz := by
    intro u b sz; simp only [St.to, upd]; split
    · intro e; cases e
    · exact id
  refine ⟨h.pos, h.disj, ?_, ?_, ?_, ?_, ?_⟩
  · intro u x b sz hl; simp only [St.to, upd] at hl; split at hl
    · cases hl
    · exact h.loc u x b sz hl
  · intro u f y b sz h1 h2
    have h3 := hff _ _ _ h2
    simp only [St.to, upd] at h1; split at h1
    · cases h1; exact hf f b sz h3
    · exact h.excl u f y b sz h1 h3
  · intro u b sz hp; simp only [St.to, upd] at hp; split at hp
    · cases hp
    · exact h.f0 u b sz hp
  · intro u b sz ho; simp only [St.to, upd] at ho; split at ho
    · cases ho
    · exact h.out u b sz ho
  · intro u u' b sz b' sz' hne h1 h2; exact h.ff u u' b sz b' sz' hne (hff _ _ _ h1) (hff _ _ _ h2)

theorem Apart.symm' {b sz b' sz' : Nat} (h : Apart b sz b' sz') : Apart b' sz' b sz := h.symm

theorem InvR.callFree (s : St) (t b sz : Nat) (h : InvR s) (hr : (b, sz) ∈ s.regs)
    (hg : ∀ u x, call (s.pc u) = .get x → ¬ Within x b sz) (hf : ∀ u sz', call (s.pc u) ≠ .free b sz') :
    InvR (s.to t (.free0 b sz)) := by
  have key : ∀ u b' sz', call (s.pc u) = .free b' sz' → Apart b sz b' sz' := by
    intro u b' sz' hc
    have hne : b' ≠ b := fun e => hf u sz' (e ▸ hc)
    by_cases h0 : s.pc u = .free0 b' sz'
    · exact h.disj b sz b' sz' hr (h.f0 u b' sz' h0) (fun e => hne (by cases e; rfl))
    · have ho : outOf (s.pc u) = some (b', sz') := by
        revert hc h0; cases s.pc u <;> simp [call, outOf]
      exact ((h.out u b' sz' ho).2 b sz hr).symm
  refine ⟨h.pos, h.disj, ?_, ?_, ?_, ?_, ?_⟩
  · intro u x b sz hl; simp only [St.to, upd] at hl; split at hl
    · cases hl
    · exact h.loc u x b sz hl
  · intro u f y b1 s1 h1 h2
    simp only [St.to, upd] at h1 h2; split at h1
    · cases h1
    · split at h2
      · cases h2; exact hg u y h1
      · exact h.excl u f y b1 s1 h1 h2
  · intro u b1 s1 hp; simp only [St.to, upd] at hp; split at hp
    · cases hp; exact hr
    · exact h.f0 u b1 s1 hp
  · intro u b1 s1 ho; simp only [St.to, upd] at ho; split at ho
    · cases ho
    · exact h.out u b1 s1 ho
  · intro u u' b1 s1 b2 s2 hne h1 h2
    simp only [St.to, upd] at h1 h2; split at h1 <;> split at h2
    · rename_i e1 e2; exact absurd (e1.trans e2.symm) hne
    · cases h1; exact key _ _ _ h2
    · cases h2; exact (key _ _ _ h1).symm
    · exact h.ff u u' b1 s1 b2 s2 hne h1 h2

/-- The tracker forgets the region that is freed. -/
theorem InvR.remove (s : St) (t b sz : Nat) (h : InvR s) (hp : s.pc t = .free0 b sz) :
    InvR ({ s with regs := s.regs.filter fun r => decide (r.1 ≠ b) }.to t (.free1 b sz)) := by
  have hin := h.f0 t b sz hp
  have hpos := h.pos b sz hin
  have hct : call (s.pc t) = .free b sz := by rw [hp]; rfl
  have hcall : ∀ u, call (upd s.pc t (.free1 b sz) u) = call (s.pc u) := by
    intro u; unfold upd; split
    · rename_i e; rw [e, hct]; rfl
    · rfl
  have hsub : ∀ r, r ∈ s.regs.filter (fun r => decide (r.1 ≠ b)) → r ∈ s.regs := fun r hr => (List.mem_filter.1 hr).1
  refine ⟨?_, ?_, ?_, ?_, ?_, ?_, ?_⟩
  · intro b1 s1 h1; exact h.pos b1 s1 (hsub _ h1)
  · intro b1 s1 b2 s2 h1 h2; exact h.disj b1 s1 b2 s2 (hsub _ h1) (hsub _ h2)
  · intro u x b1 s1 hl
    simp only [St.to] at hl ⊢
    unfold upd at hl; split at hl
    · cases hl
    · obtain ⟨h1, h2⟩ := h.loc u x b1 s1 hl
      refine ⟨List.mem_filter.2 ⟨h1, ?_⟩, h2⟩
      simp only [ne_eq, decide_eq_true_eq]
      intro e; subst e
      have hex := h.excl u t x b1 sz (locOf_call _ _ _ _ hl) hct
      by_cases hs : s1 = sz
      · subst hs; exact hex h2
      · have := h.disj b1 s1 b1 sz h1 hin (fun e => hs (by cases e; rfl))
        have hp1 := h.pos _ _ h1
        unfold Apart at this; omega
  · intro u f x b1 s1; simp only [St.to]; rw [hcall, hcall]; exact h.excl u f x b1 s1
  · intro u b1 s1 hq
    simp only [St.to] at hq ⊢
    have hq' := hq
    unfold upd at hq; split at hq
    · cases hq
    · rename_i hne
      refine List.mem_filter.2 ⟨h.f0 u b1 s1 hq, ?_⟩
      simp only [ne_eq, decide_eq_true_eq]
      intro e; subst e
      have hp1 := h.pos _ _ (h.f0 u b1 s1 hq)
      have := h.ff u t b1 s1 b1 sz hne (by rw [hq]; rfl) hct
      unfold Apart at this; omega
  · intro u b1 s1 ho
    simp only [St.to] at ho ⊢
    unfold upd at ho; split at ho
    · cases ho
      refine ⟨hpos, fun b' sz' hm => ?_⟩
      obtain ⟨h1, h2⟩ := List.mem_filter.1 hm
      simp only [ne_eq, decide_eq_true_eq] at h2
      exact h.disj b sz b' sz' hin h1 (fun e => h2 (by cases e; rfl))
    · obtain ⟨h1, h2⟩ := h.out u b1 s1 ho
      exact ⟨h1, fun b' sz' hm => h2 b' sz' (hsub _ hm)⟩
  · intro u u' b1 s1 b2 s2; simp only [St.to]; rw [hcall, hcall]; exact h.ff u u' b1 s1 b2 s2

/-- The upstream provider keeps the region, and the tracker gets it back. -/
theorem InvR.readd (s : St) (t b sz c : Nat) (r : Res) (h : InvR s) (hp : s.pc t = .freeAdd b sz c) :
    InvR ({ s with regs := (b, sz) :: s.regs }.to t (.freed b sz r)) := by
  have ho : outOf (s.pc t) = some (b, sz) := by rw [hp]; rfl
  have h1 := InvR.ends s t (.freed b sz r) h rfl
  have h2 := InvR.alloc (s.to t (.freed b sz r)) b sz h1 (h.out t b sz ho).1
    (fun r hr => (h.out t b sz ho).2 r.1 r.2 hr) (by
      intro u b' sz' hu
      simp only [St.to, upd] at hu; split at hu
      · cases hu
      · rename_i hne
        exact (h.ff u t b' sz' b sz hne hu (outOf_call _ _ _ ho)).symm)
  exact h2

theorem InvR.step (s : St) (t : Nat) (a : Ans) (h : InvR s) : InvR (step s t a) := by
  cases hp : s.pc t with
  | idle => simp only [IpcExp.step, hp]; exact h
  | lookup x =>
    simp only [IpcExp.step, hp]
    cases hf : find s.regs x with
    | none => dsimp only; exact h.move s _ t _ rfl rfl (by rw [hp]; rfl) (by simp [locOf]) (by simp [outOf]) (by simp)
    | some r =>
      dsimp only
      refine h.move s _ t _ rfl rfl (by rw [hp]; rfl) ?_ (by simp [outOf]) (by simp)
      intro x' b' sz' e; simp only [locOf, Option.some.injEq, Prod.mk.injEq] at e
      obtain ⟨rfl, rfl, rfl⟩ := e
      exact find_spec _ _ _ _ hf
  | size1 x b sz =>
    have hl := h.loc t x b sz (by rw [hp]; rfl)
    simp only [IpcExp.step, hp]
    cases a with
    | yes n =>
      refine h.move s _ t _ rfl rfl (by rw [hp]; rfl) ?_ (by simp [outOf]) (by simp)
      intro x' b' sz' e; simp only [locOf, Option.some.injEq, Prod.mk.injEq] at e
      obtain ⟨rfl, rfl, rfl⟩ := e; exact hl
    | no c => exact h.move s _ t _ rfl rfl (by rw [hp]; rfl) (by simp [locOf]) (by simp [outOf]) (by simp)
  | alloc1 x b sz room =>
    have hl := h.loc t x b sz (by rw [hp]; rfl)
    simp only [IpcExp.step, hp]
    cases a with
    | yes n =>
      refine h.move s _ t _ rfl rfl (by rw [hp]; rfl) ?_ (by simp [outOf]) (by simp)
      intro x' b' sz' e; simp only [locOf, Option.some.injEq, Prod.mk.injEq] at e
      obtain ⟨rfl, rfl, rfl⟩ := e; exact hl
    | no c => exact h.move s _ t _ rfl rfl (by rw [hp]; rfl) (by simp [locOf]) (by simp [outOf]) (by simp)
  | look g =>
    have hl := h.loc t g.x g.b g.sz (by rw [hp]; rfl)
    simp only [IpcExp.step, hp]
    split
    all_goals
      refine h.move s _ t _ rfl rfl (by rw [hp]; rfl) ?_ (by simp [outOf]) (by simp)
      intro x' b' sz' e; simp only [locOf, Option.some.injEq, Prod.mk.injEq] at e
      obtain ⟨rfl, rfl, rfl⟩ := e; exact hl
  | size2 g =>
    have hl := h.loc t g.x g.b g.sz (by rw [hp]; rfl)
    simp only [IpcExp.step, hp]
    split
    all_goals
      refine h.move s _ t _ rfl rfl (by rw [hp]; rfl) ?_ (by simp [outOf]) (by simp)
      intro x' b' sz' e; simp only [locOf, Option.some.injEq, Prod.mk.injEq] at e
      obtain ⟨rfl, rfl, rfl⟩ := e; exact hl
  | alloc2 g len =>
    have hl := h.loc t g.x g.b g.sz (by rw [hp]; rfl)
    simp only [IpcExp.step, hp]
    split
    all_goals
      refine h.move s _ t _ rfl rfl (by rw [hp]; rfl) ?_ (by simp [outOf]) (by simp)
      intro x' b' sz' e; simp only [locOf, Option.some.injEq, Prod.mk.injEq] at e
      obtain ⟨rfl, rfl, rfl⟩ := e; exact hl
  | upget g v len =>
    have hl := h.loc t g.x g.b g.sz (by rw [hp]; rfl)
    simp only [IpcExp.step, hp]
    split
    all_goals
      refine h.move s _ t _ rfl rfl (by rw [hp]; rfl) ?_ (by simp [outOf]) (by simp)
      intro x' b' sz' e; simp only [locOf, Option.some.injEq, Prod.mk.injEq] at e
      obtain ⟨rfl, rfl, rfl⟩ := e; exact hl
  | fill g v len u =>
    have hl := h.loc t g.x g.b g.sz (by rw [hp]; rfl)
    simp only [IpcExp.step, hp]
    have hfr := fillV_frame s v len u
    refine h.move s _ t (.ins g v) (by simp only [St.to]; exact hfr.1) (by simp only [St.to]; rw [hfr.2.1]) (by rw [hp]; rfl) ?_
      (by simp [outOf]) (by simp)
    intro x' b' sz' e; simp only [locOf, Option.some.injEq, Prod.mk.injEq] at e
    obtain ⟨rfl, rfl, rfl⟩ := e; exact hl
  | ins g v =>
    have hl := h.loc t g.x g.b g.sz (by rw [hp]; rfl)
    simp only [IpcExp.step, hp]
    split
    · refine h.move s _ t _ rfl rfl (by rw [hp]; rfl) ?_ (by simp [outOf]) (by simp)
      intro x' b' sz' e; simp only [locOf, Option.some.injEq, Prod.mk.injEq] at e
      obtain ⟨rfl, rfl, rfl⟩ := e; exact hl
    · split
      all_goals
        refine h.move s _ t _ rfl rfl (by rw [hp]; rfl) ?_ (by simp [outOf]) (by simp)
        intro x' b' sz' e; simp only [locOf, Option.some.injEq, Prod.mk.injEq] at e
        obtain ⟨rfl, rfl, rfl⟩ := e; exact hl
  | put g v full =>
    have hl := h.loc t g.x g.b g.sz (by rw [hp]; rfl)
    simp only [IpcExp.step, hp]
    have hfr := uput_frame s v
    split
    all_goals
      refine h.move s _ t _ (by simp only [St.to]; exact hfr.1) (by simp only [St.to]; rw [hfr.2.1]) (by rw [hp]; rfl) ?_
        (by simp [outOf]) (by simp)
      intro x' b' sz' e; simp only [locOf, Option.some.injEq, Prod.mk.injEq] at e
      obtain ⟨rfl, rfl, rfl⟩ := e; exact hl
  | freeV g v r =>
    have hl := h.loc t g.x g.b g.sz (by rw [hp]; rfl)
    simp only [IpcExp.step, hp]
    have hfr := gfree_frame s v
    split
    all_goals
      refine h.move s _ t _ (by simp only [St.to]; exact hfr.1) (by simp only [St.to]; rw [hfr.2.1]) (by rw [hp]; rfl) ?_
        (by simp [outOf]) (by simp)
      intro x' b' sz' e; simp only [locOf, Option.some.injEq, Prod.mk.injEq] at e
      obtain ⟨rfl, rfl, rfl⟩ := e; exact hl
  | copy g v =>
    simp only [IpcExp.step, hp]
    have hfr := copyV_frame s g v
    exact h.move s _ t (.done g.x (.handle g.d)) (by simp only [St.to]; exact hfr.1) (by simp only [St.to]; rw [hfr.2.1])
      (by rw [hp]; rfl) (by simp [locOf]) (by simp [outOf]) (by simp)
  | freeD g r =>
    simp only [IpcExp.step, hp]
    have hfr := gfree_frame s g.d
    exact h.move s _ t (.done g.x r) (by simp only [St.to]; exact hfr.1) (by simp only [St.to]; rw [hfr.2.1])
      (by rw [hp]; rfl) (by simp [locOf]) (by simp [outOf]) (by simp)
  | done x r => simp only [IpcExp.step, hp]; exact h
  | free0 b sz => simp only [IpcExp.step, hp]; exact h.remove s t b sz hp
  | free1 b sz =>
    simp only [IpcExp.step, hp]
    split
    all_goals
      exact h.move s _ t _ rfl rfl (by rw [hp]; rfl) (by simp [locOf]) (by rw [hp]; simp [outOf]) (by simp)
  | freePut b sz v =>
    simp only [IpcExp.step, hp]
    have hfr := uput_frame s v
    exact h.move s _ t (.freeVal b sz v) (by simp only [St.to]; exact hfr.1) (by simp only [St.to]; rw [hfr.2.1])
      (by rw [hp]; rfl) (by simp [locOf]) (by rw [hp]; simp [outOf]) (by simp)
  | freeVal b sz v =>
    simp only [IpcExp.step, hp]
    have hfr := gfree_frame s v
    exact h.move s _ t (.freeUp b sz) (by simp only [St.to]; exact hfr.1) (by simp only [St.to]; rw [hfr.2.1])
      (by rw [hp]; rfl) (by simp [locOf]) (by rw [hp]; simp [outOf]) (by simp)
  | freeUp b sz =>
    simp only [IpcExp.step, hp]
    split
    · exact h.ends s t _ rfl
    · exact h.move s _ t _ rfl rfl (by rw [hp]; rfl) (by simp [locOf]) (by rw [hp]; simp [outOf]) (by simp)
  | freeAdd b sz c =>
    simp only [IpcExp.step, hp]
    split
    · exact h.readd s t b sz c _ hp
    · exact h.ends s t _ rfl
  | freed b sz r => simp only [IpcExp.step, hp]; exact h

theorem InvR.next (L : Nat) (l : Option Nat) (w w' : World) (h : InvR w.s) (hn : Next L l w w') : InvR w'.s := by
  cases hn with
  | alloc _ b sz hsz hr hf => exact h.alloc _ b sz hsz hr hf
  | callGet _ t x hi hf => exact h.callGet _ t x hf
  | retHandle _ t x d h' hp ho => exact h.ends _ t _ rfl
  | retError _ t x r hp hr => exact h.ends _ t _ rfl
  | callFree _ t b sz hi hr hg hf => exact h.callFree _ t b sz hr hg hf
  | retFree _ t b sz r hp => exact h.ends _ t _ rfl
  | put _ d hd =>
    have hfr := gfree_frame w.s d
    have hpc : (putHandle w.s d).pc = w.s.pc := hfr.2.1
    have hrg : (putHandle w.s d).regs = w.s.regs := hfr.1
    refine ⟨?_, ?_, ?_, ?_, ?_, ?_, ?_⟩ <;> simp only [hpc, hrg]
    · exact h.pos
    · exact h.disj
    · exact h.loc
    · exact h.excl
    · exact h.f0
    · exact h.out
    · exact h.ff
  | step _ t a he => exact h.step _ t a

end Verif.IpcExp
