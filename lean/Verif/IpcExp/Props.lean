import Verif.IpcExp.Granted

/-!
# C79: IPC handles exported from several threads

Any number of threads call `umfGetIPCHandle`, put handles, and free regions, in any interleaving; the upstream provider and the
global allocator may refuse at any time. The rules for callers are those of `Spec.lean`: nobody frees a region while somebody
exports a pointer into it.
-/
namespace Verif.IpcExp

/-- No block of the library is used or freed when it is not in use, none is written past its end, and no upstream handle is put
back twice. -/
theorem C79_defined (L : Nat) (w : World) (h : Reach L w) : w.s.bad = false := by
  obtain ⟨_, own, uo, h2⟩ := h.inv
  exact h2.bad

/-- A call that succeeds returns a handle for the allocation that the pointer lies in, with the offset of the pointer, and with
data that the upstream provider made for this allocation and that was not put back. -/
theorem C79_handle (L : Nat) (w : World) (h : Reach L w) (t x d : Nat) (hp : w.s.pc t = .done x (.handle d)) :
    ∃ k, w.s.obj d = some (.data (some k)) ∧ (k.base, k.size) ∈ w.s.regs ∧ Within x k.base k.size ∧ k.base + k.off = x ∧
      w.s.ups k.prov = some (k.base, k.size) := by
  obtain ⟨h1, own, uo, h2⟩ := h.inv
  have h3 := h2.pcs t
  rw [hp] at h3
  obtain ⟨k, h4, h5, h6, h7, v, c, h8, h9, h10, h11⟩ := h3 d rfl
  refine ⟨k, h4, h5, h6, by rw [h7]; have := h6.1; omega, ?_⟩
  have h12 := (h2.upC k.base c.prov).1 ⟨v, c, h8, h9, rfl⟩
  obtain ⟨sz, h13, h14⟩ := h2.upCv _ _ h12
  rw [h11] at h13
  rw [h13]
  rcases h14 with h14 | ⟨f, h14⟩
  · rw [h1.one _ _ _ _ h14 h5]
  · obtain ⟨h15, h16⟩ := h1.out f _ _ (by rw [h14]; rfl)
    have h17 := h16 _ _ h5; have h18 := h1.pos _ _ h5
    unfold Apart at h17; omega

/-- The handles given for an allocation keep their upstream data until the allocation is freed. -/
theorem C79_kept (L : Nat) (w : World) (h : Reach L w) (x : Nat) (k : Handle) (hg : (x, k) ∈ w.given) :
    (k.base, k.size) ∈ w.s.regs ∧ Within x k.base k.size ∧ k.base + k.off = x ∧ w.s.ups k.prov = some (k.base, k.size) := by
  obtain ⟨h1, own, uo, h2⟩ := h.inv
  obtain ⟨⟨h5, h6, h7, v, c, h8, h9, h10, h11⟩, hf⟩ := h2.giv x k hg
  refine ⟨h5, h6, by rw [h7]; have := h6.1; omega, ?_⟩
  have h12 := (h2.upC k.base c.prov).1 ⟨v, c, h8, h9, rfl⟩
  obtain ⟨sz, h13, h14⟩ := h2.upCv _ _ h12
  rw [h11] at h13
  rw [h13]
  rcases h14 with h14 | ⟨f, h14⟩
  · rw [h1.one _ _ _ _ h14 h5]
  · exact absurd (by rw [h14]; rfl) (hf f sz)

/-- All handles that any threads were given for one allocation have the same id and the same data, and handles for different
allocations have different ids and different data. -/
theorem C79_same (L : Nat) (w : World) (h : Reach L w) (x x' : Nat) (k k' : Handle) (hg : (x, k) ∈ w.given)
    (hg' : (x', k') ∈ w.given) :
    (k.base = k'.base → k.id = k'.id ∧ k.prov = k'.prov ∧ k.size = k'.size) ∧
      (k.base ≠ k'.base → k.id ≠ k'.id ∧ k.prov ≠ k'.prov) := by
  obtain ⟨h1, own, uo, h2⟩ := h.inv
  obtain ⟨⟨h5, h6, h7, v, c, h8, h9, h10, h11⟩, hf⟩ := h2.giv x k hg
  obtain ⟨⟨g5, g6, g7, v', c', g8, g9, g10, g11⟩, gf⟩ := h2.giv x' k' hg'
  constructor
  · intro e
    rw [← e] at g8 g5; rw [h8] at g8; cases g8
    rw [h9] at g9; cases g9
    exact ⟨h10.symm.trans g10, h11.symm.trans g11, h1.one _ _ _ _ h5 g5⟩
  · intro e
    have hv : v ≠ v' := by
      intro e'; subst e'
      have a1 := (h2.cacheOwn _ _).1 h8; have a2 := (h2.cacheOwn _ _).1 g8
      rw [a1] at a2; exact e (Own.cache.inj (Option.some.inj a2))
    refine ⟨?_, ?_⟩
    · rw [← h10, ← g10]; exact h2.idNe v v' c c' h9 g9 hv
    · intro e'
      have a1 := (C79_kept L w h x k hg).2.2.2
      have a2 := (C79_kept L w h x' k' hg').2.2.2
      rw [e'] at a1; rw [a1] at a2; exact e (congrArg Prod.fst (Option.some.inj a2))

/-- When no call is under way, the upstream handles that are out belong to allocations that are not freed, at most one to each,
and the blocks in use are the handles that the callers hold and at most one more for each allocation. -/
theorem C79_released (L : Nat) (w : World) (h : Reach L w) (hi : ∀ t, w.s.pc t = .idle) :
    (∀ u r, w.s.ups u = some r → r ∈ w.s.regs) ∧
    (∀ u u' r, w.s.ups u = some r → w.s.ups u' = some r → u = u') ∧
    (∀ d, d ∈ w.held → ∃ k, w.s.obj d = some (.data k)) ∧
    ∃ f : Nat → Nat, (∀ o, w.s.obj o ≠ none → o ∉ w.held → ∃ sz, (f o, sz) ∈ w.s.regs) ∧
      ∀ o o', w.s.obj o ≠ none → o ∉ w.held → w.s.obj o' ≠ none → o' ∉ w.held → f o = f o' → o = o' := by
  obtain ⟨h1, own, uo, h2⟩ := h.inv
  have hu : ∀ u r, w.s.ups u = some r → uo u = some (.cache r.1) ∧ r ∈ w.s.regs := by
    intro u r hur
    cases e : uo u with
    | none => rw [(h2.upsOwn u).1 e] at hur; cases hur
    | some o =>
      cases o with
      | cache b =>
        obtain ⟨sz, h3, h4⟩ := h2.upCv b u e
        rw [hur] at h3; cases h3
        rcases h4 with h4 | ⟨t, h4⟩
        · exact ⟨rfl, h4⟩
        · rw [hi t] at h4; cases h4
      | val t =>
        have h3 := (h2.upT t u).2 e
        rw [hi t] at h3; simp [UpIs, upLoc] at h3
      | data t => exact absurd e ((h2.upsKind u).2 t)
      | user => exact absurd e (h2.upsKind u).1
  have ho : ∀ o, w.s.obj o ≠ none → o ∉ w.held → ∃ b, own o = some (.cache b) ∧ ∃ sz, (b, sz) ∈ w.s.regs := by
    intro o hne hnh
    cases e : own o with
    | none => exact absurd ((h2.objOwn o).1 e) hne
    | some x =>
      cases x with
      | cache b =>
        have h3 := (h2.cacheOwn b o).2 e
        obtain ⟨c, h4, _⟩ := h2.cacheK b o h3
        obtain ⟨sz, _, h6⟩ := h2.upCv b c.prov ((h2.upC b c.prov).1 ⟨o, c, h3, h4, rfl⟩)
        rcases h6 with h6 | ⟨t, h6⟩
        · exact ⟨b, rfl, sz, h6⟩
        · rw [hi t] at h6; cases h6
      | val t => have := (h2.valOwn t o).2 e; rw [hi t] at this; cases this
      | data t => have := (h2.dataOwn t o).2 e; rw [hi t] at this; cases this
      | user => exact absurd ((h2.userOwn o).2 e) hnh
  refine ⟨fun u r hur => (hu u r hur).2, ?_, fun d hd => h2.userK d ((h2.userOwn d).1 hd), ?_⟩
  · intro u u' r hur hur'
    obtain ⟨v, c, a1, a2, a3⟩ := (h2.upC r.1 u).2 (hu u r hur).1
    obtain ⟨v', c', b1, b2, b3⟩ := (h2.upC r.1 u').2 (hu u' r hur').1
    rw [a1] at b1; cases b1; rw [a2] at b2; cases b2
    exact a3.symm.trans b3
  · refine ⟨fun o => match own o with | some (.cache b) => b | _ => 0, ?_, ?_⟩
    · intro o hne hnh
      obtain ⟨b, h3, sz, h4⟩ := ho o hne hnh
      exact ⟨sz, by dsimp only; rw [h3]; exact h4⟩
    · intro o o' hne hnh hne' hnh' hf
      obtain ⟨b, h3, _⟩ := ho o hne hnh
      obtain ⟨b', h3', _⟩ := ho o' hne' hnh'
      dsimp only at hf
      rw [h3, h3'] at hf
      dsimp only at hf
      subst hf
      have a1 := (h2.cacheOwn _ _).2 h3; have a2 := (h2.cacheOwn _ _).2 h3'
      rw [a1] at a2; cases a2; rfl

/-- Once everything is freed and all handles are put, the library holds no memory for handles, and every handle of the upstream
provider was put back. -/
theorem C79_all_returned (L : Nat) (w : World) (h : Reach L w) (hi : ∀ t, w.s.pc t = .idle) (hr : w.s.regs = [])
    (hh : w.held = []) : (∀ u, w.s.ups u = none) ∧ ∀ o, w.s.obj o = none := by
  obtain ⟨h1, _, _, f, h4, _⟩ := C79_released L w h hi
  rw [hr] at h1 h4
  rw [hh] at h4
  refine ⟨fun u => ?_, fun o => ?_⟩
  · cases e : w.s.ups u with
    | none => rfl
    | some r => exact absurd (h1 u r e) (by simp)
  · cases e : w.s.obj o with
    | none => rfl
    | some x =>
      obtain ⟨sz, h5⟩ := h4 o (by rw [e]; simp) (by simp)
      exact absurd h5 (by simp)

/-- Whatever the other threads do, a call is over after at most 16 steps. -/
theorem C79_bounded (L t : Nat) (w w' : World) (n : Nat) (hr : Reach L w) (h : Run L t w n w') : n ≤ 16 := by
  have h1 := (Run.bound L t w w' n hr h).2
  have h2 := rank_le w.s (w.s.pc t)
  omega

/-- A call that was refused nothing returns a handle: being slower than another thread is no error. -/
theorem C79_granted (L t x : Nat) (w : World) (h : Granted L t x w) (y : Nat) (r : Res) (hp : w.s.pc t = .done y r) :
    y = x ∧ ∃ d, r = .handle d := by
  have := (h.ok).2.2
  rw [hp] at this
  exact this

/-! ## Two threads export one allocation at the same time -/

def envOkB (L : Nat) (s : St) (t : Nat) : Ans → Bool
  | .no _ => true
  | .yes n =>
    match s.pc t with
    | .size1 _ _ _ => n == L
    | .size2 _ => n == L
    | .alloc1 _ _ _ _ => s.obj n == none
    | .alloc2 _ _ => s.obj n == none
    | .upget _ _ _ => s.ups n == none
    | _ => true

theorem envOkB_ok (L : Nat) (s : St) (t : Nat) (a : Ans) (h : envOkB L s t a = true) : EnvOk L s t a := by
  intro n e; subst e
  unfold envOkB at h
  cases hp : s.pc t <;> rw [hp] at h <;> simp_all

def runSt (s : St) : List (Nat × Ans) → St
  | [] => s
  | (t, a) :: l => runSt (step s t a) l

def runOk (L : Nat) (s : St) : List (Nat × Ans) → Bool
  | [] => true
  | (t, a) :: l => envOkB L s t a && runOk L (step s t a) l

theorem Reach.sts (L : Nat) (l : List (Nat × Ans)) : ∀ (w : World), Reach L w → runOk L w.s l = true →
    Reach L { w with s := runSt w.s l } := by
  induction l with
  | nil => intro w h _; exact h
  | cons p l ih =>
    intro w h hb
    obtain ⟨t, a⟩ := p
    simp only [runOk, Bool.and_eq_true] at hb
    exact ih { w with s := step w.s t a } (Reach.next _ _ _ h (Next.step w t a (envOkB_ok _ _ _ _ hb.1))) hb.2

/-- A region of 100 bytes, and two threads that both miss the cache, both get a handle of the upstream provider (7 and 9) and
both try to insert their value. The second one finds the other's value, puts its handle back, frees its value and looks again. -/
def race : List (Nat × Ans) :=
  [(0, .yes 0), (0, .yes 8), (0, .yes 1), (0, .yes 0), (0, .yes 8), (0, .yes 2), (0, .yes 7), (0, .yes 0),
   (1, .yes 0), (1, .yes 8), (1, .yes 3), (1, .yes 0), (1, .yes 8), (1, .yes 4), (1, .yes 9), (1, .yes 0),
   (0, .yes 0), (1, .yes 0), (1, .yes 0), (1, .yes 0), (1, .yes 0), (1, .yes 0), (0, .yes 0)]

def sA : St := { St.init with regs := [(4096, 100)] }
def sB : St := (sA.to 0 (.lookup 4100)).to 1 (.lookup 4190)
def sC : St := runSt sB race
def k0 : Handle := ⟨1, 4096, 100, 4, 7⟩
def k1 : Handle := ⟨1, 4096, 100, 94, 7⟩

def wC : World := ⟨sC, [], []⟩
def wD : World := ⟨(sC.to 1 .idle).to 0 .idle, [(4100, k0), (4190, k1)], [1, 3]⟩
def wE : World := ⟨putHandle (putHandle wD.s 3) 1, wD.given, []⟩
/-- the freeing of the region, with its handle -/
def sF : St := runSt (wE.s.to 0 (.free0 4096 100)) [(0, .yes 0), (0, .yes 0), (0, .yes 0), (0, .yes 0), (0, .yes 0)]
def wF : World := ⟨sF.to 0 .idle, [], []⟩

theorem calls_sA (t : Nat) : call (sA.pc t) = .none := rfl

theorem reach_sB : Reach 8 ⟨sB, [], []⟩ := by
  have h1 : Reach 8 ⟨sA, [], []⟩ := Reach.next _ _ _ Reach.init
    (Next.alloc World.init 4096 100 (by omega) (by simp [World.init, St.init]) (by intro t b sz e; cases e))
  have h2 : Reach 8 ⟨sA.to 0 (.lookup 4100), [], []⟩ := Reach.next _ _ _ h1
    (Next.callGet ⟨sA, [], []⟩ 0 4100 rfl (by intro u b sz e; cases e))
  exact Reach.next _ _ _ h2
    (Next.callGet ⟨sA.to 0 (.lookup 4100), [], []⟩ 1 4190 rfl (by
      intro u b sz e; simp only [St.to, upd] at e; split at e <;> cases e))

theorem reach_wC : Reach 8 wC := Reach.sts 8 race ⟨sB, [], []⟩ reach_sB (by decide +kernel)

theorem reach_wD : Reach 8 wD := by
  have h1 : Reach 8 ⟨sC.to 1 .idle, [(4190, k1)], [3]⟩ := Reach.next wC _ _ reach_wC
    (Next.retHandle wC 1 4190 3 k1 (by decide +kernel) (by decide +kernel))
  exact Reach.next ⟨sC.to 1 .idle, [(4190, k1)], [3]⟩ _ _ h1
    (Next.retHandle ⟨sC.to 1 .idle, [(4190, k1)], [3]⟩ 0 4100 1 k0 (by decide +kernel) (by decide +kernel))

/-- Both threads were given the handle with id 1 and the upstream handle 7; the upstream handle 9 was put back. -/
example : Reach 8 wD ∧ wD.s.bad = false ∧ wD.s.ups 7 = some (4096, 100) ∧ wD.s.ups 9 = none ∧ wD.s.nextId = 2 ∧
    wD.s.obj 4 = none :=
  ⟨reach_wD, by decide +kernel, by decide +kernel, by decide +kernel, by decide +kernel, by decide +kernel⟩

theorem runSt_pc (l : List (Nat × Ans)) (u : Nat) : ∀ s : St, (∀ p ∈ l, p.1 ≠ u) → (runSt s l).pc u = s.pc u := by
  induction l with
  | nil => intro s _; rfl
  | cons p l ih =>
    intro s h
    obtain ⟨t, a⟩ := p
    simp only [runSt]
    rw [ih _ (fun q hq => h q (List.mem_cons_of_mem _ hq))]
    exact step_pc_ne s t u a (fun e => h (t, a) (List.mem_cons_self ..) e.symm)

theorem idle_wD (t : Nat) : wD.s.pc t = .idle := by
  have hm : ∀ p ∈ race, p.1 = 0 ∨ p.1 = 1 := by decide
  by_cases h0 : t = 0
  · subst h0; decide +kernel
  · by_cases h1 : t = 1
    · subst h1; decide +kernel
    · have h2 : sC.pc t = .idle := by
        show (runSt sB race).pc t = .idle
        rw [runSt_pc race t sB (fun p hp => by rcases hm p hp with e | e <;> omega)]
        simp [sB, sA, St.to, upd, h0, h1, St.init]
      simp [wD, St.to, upd, h0, h1, h2]

/-- The hypotheses of `C79_kept`, `C79_same` and `C79_released`. -/
example : Reach 8 wD ∧ (∀ t, wD.s.pc t = .idle) ∧ (4100, k0) ∈ wD.given ∧ (4190, k1) ∈ wD.given ∧ 3 ∈ wD.held :=
  ⟨reach_wD, idle_wD, by decide, by decide, by decide⟩

/-- The hypotheses of `C79_handle`. -/
example : Reach 8 wC ∧ wC.s.pc 1 = .done 4190 (.handle 3) := ⟨reach_wC, by decide +kernel⟩

theorem reach_wF : Reach 8 wF := by
  have h1 : Reach 8 ⟨putHandle wD.s 3, wD.given, [1]⟩ := Reach.next wD _ _ reach_wD (Next.put wD 3 (by decide))
  have h2 : Reach 8 wE := Reach.next ⟨putHandle wD.s 3, wD.given, [1]⟩ _ _ h1
    (Next.put ⟨putHandle wD.s 3, wD.given, [1]⟩ 1 (by decide))
  have hpc : ∀ t, wE.s.pc t = .idle := by
    intro t
    have e1 : (putHandle wD.s 3).pc = wD.s.pc := (gfree_frame wD.s 3).2.1
    have e2 : wE.s.pc = (putHandle wD.s 3).pc := (gfree_frame (putHandle wD.s 3) 1).2.1
    rw [e2, e1]; exact idle_wD t
  have h3 : Reach 8 ⟨wE.s.to 0 (.free0 4096 100), [], []⟩ := Reach.next wE _ _ h2
    (Next.callFree wE 0 4096 100 (hpc 0) (by decide +kernel) (by intro u x e; rw [hpc u] at e; cases e)
      (by intro u sz e; rw [hpc u] at e; cases e))
  have h4 : Reach 8 ⟨sF, [], []⟩ := Reach.sts 8 [(0, .yes 0), (0, .yes 0), (0, .yes 0), (0, .yes 0), (0, .yes 0)]
    ⟨wE.s.to 0 (.free0 4096 100), [], []⟩ h3 (by decide +kernel)
  exact Reach.next ⟨sF, [], []⟩ _ _ h4 (Next.retFree ⟨sF, [], []⟩ 0 4096 100 .ok (by decide +kernel))

/-- The hypotheses of `C79_all_returned`, after the same story: both handles are put and the region is freed. -/
example : Reach 8 wF ∧ wF.s.regs = [] ∧ wF.held = [] ∧ wF.s.pc 0 = .idle ∧ wF.s.ups 7 = none ∧ wF.s.obj 2 = none :=
  ⟨reach_wF, by decide +kernel, rfl, by decide +kernel, by decide +kernel, by decide +kernel⟩

/-- The rule for callers is needed: if thread 1 frees the region between the look into the cache and the copy of thread 0, then
thread 0 reads a value that was freed. -/
theorem C79_rule_needed :
    (runSt ((runSt (sA.to 0 (.lookup 4100)) (race.take 8 ++ [(0, .yes 0)])).to 1 (.free0 4096 100))
      [(1, .yes 0), (1, .yes 0), (1, .yes 0), (1, .yes 0), (0, .yes 0)]).bad = true := by
  decide +kernel

def workB (t : Nat) (s : St) : List (Nat × Ans) → Bool
  | [] => true
  | (u, a) :: l =>
    (u != t || match s.pc t with
      | .idle => false
      | .done _ _ => false
      | .freed _ _ _ => false
      | _ => true) && workB t (step s u a) l

theorem Run.sts (L t : Nat) (w0 : World) (l : List (Nat × Ans)) : ∀ (w : World) (n : Nat), Run L t w0 n w → runOk L w.s l = true →
    workB t w.s l = true → Run L t w0 (n + l.countP fun p => p.1 == t) { w with s := runSt w.s l } := by
  induction l with
  | nil => intro w n h _ _; exact h
  | cons p l ih =>
    intro w n h hb hk
    obtain ⟨u, a⟩ := p
    simp only [runOk, workB, Bool.and_eq_true] at hb hk
    have he := envOkB_ok _ _ _ _ hb.1
    by_cases e : u = t
    · subst e
      have hw : Working (w.s.pc u) := by
        have := hk.1
        cases hp : w.s.pc u <;> rw [hp] at this <;> simp_all [Working]
      have h1 := ih { w with s := step w.s u a } (n + 1) (Run.own _ _ n a h he hw) hb.2 hk.2
      have h2 : n + ((u, a) :: l).countP (fun p => p.1 == u) = n + 1 + l.countP fun p => p.1 == u := by
        rw [List.countP_cons]; simp; omega
      rw [h2]; exact h1
    · have h1 := ih { w with s := step w.s u a } n (Run.other _ _ _ n _ h (Next.step w u a he) (by simpa using e)) hb.2 hk.2
      have h2 : n + ((u, a) :: l).countP (fun p => p.1 == t) = n + l.countP fun p => p.1 == t := by
        rw [List.countP_cons]; simp [e]
      rw [h2]; exact h1

/-- The hypotheses of `C79_bounded`: the second thread of the race makes 13 steps. -/
example : Reach 8 ⟨sB, [], []⟩ ∧ Run 8 1 ⟨sB, [], []⟩ 13 ⟨sC, [], []⟩ :=
  ⟨reach_sB, Run.sts 8 1 ⟨sB, [], []⟩ race ⟨sB, [], []⟩ 0 (Run.nil _) (by decide +kernel) (by decide +kernel)⟩

theorem Granted.sts (L t x : Nat) (l : List (Nat × Ans)) : ∀ (w : World), Granted L t x w → runOk L w.s l = true →
    (∀ p ∈ l, p.1 = t → ∃ n, p.2 = .yes n) → Granted L t x { w with s := runSt w.s l } := by
  induction l with
  | nil => intro w h _ _; exact h
  | cons p l ih =>
    intro w h hb hy
    obtain ⟨u, a⟩ := p
    simp only [runOk, Bool.and_eq_true] at hb
    have he := envOkB_ok _ _ _ _ hb.1
    by_cases e : u = t
    · subst e
      obtain ⟨n, hn⟩ := hy _ (List.mem_cons_self ..) rfl
      dsimp only at hn
      subst hn
      exact ih { w with s := step w.s u (.yes n) } (Granted.own w n h he) hb.2 (fun p hp => hy p (List.mem_cons_of_mem _ hp))
    · exact ih { w with s := step w.s u a } (Granted.other w _ _ h (Next.step w u a he) (by simpa using e)) hb.2
        (fun p hp => hy p (List.mem_cons_of_mem _ hp))

/-- The hypotheses of `C79_granted`: the thread that loses the race is refused nothing, and gets a handle. -/
example : Granted 8 1 4190 ⟨sC, [], []⟩ ∧ sC.pc 1 = .done 4190 (.handle 3) := by
  refine ⟨Granted.sts 8 1 4190 race ⟨sB, [], []⟩ ?_ (by decide +kernel) (by simp [race]), by decide +kernel⟩
  have h1 : Reach 8 ⟨sA, [], []⟩ := Reach.next _ _ _ Reach.init
    (Next.alloc World.init 4096 100 (by omega) (by simp [World.init, St.init]) (by intro t b sz e; cases e))
  have h2 : Reach 8 ⟨sA.to 0 (.lookup 4100), [], []⟩ := Reach.next _ _ _ h1
    (Next.callGet ⟨sA, [], []⟩ 0 4100 rfl (by intro u b sz e; cases e))
  exact Granted.call ⟨sA.to 0 (.lookup 4100), [], []⟩ 4096 100 h2 rfl (List.mem_singleton.2 rfl) ⟨by omega, by omega⟩ (by
    intro u b sz e; simp only [St.to, upd] at e; split at e <;> cases e)

end Verif.IpcExp
