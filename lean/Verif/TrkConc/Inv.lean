import Verif.TrkConc.Core
/-!
# Lemmas for the tracker used by several threads: the invariant
-/
namespace Verif.TrkConc

def Rec.lower (r : Rec) (f : Nat) : Rec := ⟨r.ptr, f, r.pool⟩
def Rec.upper (r : Rec) (f : Nat) : Rec := ⟨r.ptr + f, r.size - f, r.pool⟩
def Rec.join (l h : Rec) : Rec := ⟨l.ptr, l.size + h.size, l.pool⟩

/-- The regions of a thread that are registered. -/
def regs : Op → Pc → List Rec
  | .add r, .fin .success => [r]
  | .add _, _ => []
  | .remove _, .remFree _ => []
  | .remove _, .fin .success => []
  | .remove r, _ => [r]
  | .split r f, .spAlloc _ _ _ _ => [r.lower f]
  | .split r f, .spInsert _ _ _ _ _ => [r.lower f]
  | .split r f, .spDrop _ _ _ _ _ => [r.lower f]
  | .split r f, .spRevert _ _ _ _ => [r.lower f]
  | .split r f, .freeLast _ => [r.lower f, r.upper f]
  | .split r f, .unlock => [r.lower f, r.upper f]
  | .split r f, .fin .success => [r.lower f, r.upper f]
  | .split r _, _ => [r]
  | .merge l h, .mgFreeLow _ _ _ => [l.join h, h]
  | .merge l h, .mgRemove _ _ => [l.join h, h]
  | .merge l h, .freeLast _ => [l.join h]
  | .merge l h, .unlock => [l.join h]
  | .merge l h, .fin .success => [l.join h]
  | .merge l h, _ => [l, h]
  | .look _ _, _ => []

/-- The new entry of a split or merge; a removal has none. -/
def newOf : Op → Addr → List Addr
  | .remove _, _ => []
  | _, x => [x]

/-- The entries of a thread that are in no map. -/
def blocks (op : Op) : Pc → List Addr
  | .addInsert _ _ x => [x]
  | .addDrop x _ => [x]
  | .seekFind x _ _ _ _ => newOf op x
  | .seekLoad x _ _ _ _ _ => newOf op x
  | .seekKids x _ _ _ _ _ => newOf op x
  | .seekMore x _ _ _ _ _ => newOf op x
  | .seekEnd x _ _ _ _ _ => newOf op x
  | .remFree a => [a]
  | .lockWait x => [x]
  | .spSize x _ _ _ => [x]
  | .spUp x _ _ _ => [x]
  | .spPut x _ _ _ => [x]
  | .spAlloc _ _ _ a => [a]
  | .spInsert _ _ _ a y => [a, y]
  | .spDrop _ _ a y _ => [a, y]
  | .spRevert _ _ a _ => [a]
  | .freeLast a => [a]
  | .errUnlock x _ => [x]
  | .errFree x _ => [x]
  | .mgCheck x _ _ _ _ => [x]
  | .mgUp x _ _ _ _ => [x]
  | .mgPut x _ _ _ _ => [x]
  | .mgFreeLow la _ _ => [la]
  | _ => []

/-- What a thread knows. -/
def Loc (l : List (Nat × Addr)) (h : Addr → Info) : Op → Pc → Prop
  | .add _, .start => True
  | .add _, .addFind lvl par => lvl = 0 ∧ par = none
  | .add r, .addLoad lvl par k a => lvl = 0 ∧ par = none ∧ k + (h a).size ≤ r.ptr
  | .add _, .addAlloc lvl par => lvl = 0 ∧ par = none
  | .add r, .addInsert lvl par x => lvl = 0 ∧ par = none ∧ h x = r.info
  | .add _, .addDrop _ res => res = .oom
  | .add r, .fin res => Answered (.add r) res
  | .remove _, .start => True
  | .remove _, .seekFind _ lo lvl par last => lo = none ∧ lvl = 0 ∧ par = none ∧ last = none
  | .remove r, .seekLoad _ lo lvl par k a => lo = none ∧ lvl = 0 ∧ par = none ∧ k = r.ptr ∧ (r.ptr, a) ∈ l
  | .remove r, .seekKids _ lo lvl par k a => lo = none ∧ lvl = 0 ∧ par = none ∧ k = r.ptr ∧ (r.ptr, a) ∈ l
  | .remove r, .seekMore _ lo lvl par k a => lo = none ∧ lvl = 0 ∧ par = none ∧ k = r.ptr ∧ (r.ptr, a) ∈ l
  | .remove r, .seekEnd _ lo lvl par k a => lo = none ∧ lvl = 0 ∧ par = none ∧ k = r.ptr ∧ (r.ptr, a) ∈ l
  | .remove _, .remDelete lvl par => lvl = 0 ∧ par = none
  | .remove _, .remFree _ => True
  | .remove r, .fin res => Answered (.remove r) res
  | .split _ _, .start => True
  | .split r f, .lockWait x => h x = (r.lower f).info
  | .split r f, .seekFind x lo lvl par last => lo = none ∧ lvl = 0 ∧ par = none ∧ last = none ∧ h x = (r.lower f).info
  | .split r f, .seekLoad x lo lvl par k a => lo = none ∧ lvl = 0 ∧ par = none ∧ k = r.ptr ∧ (r.ptr, a) ∈ l ∧ h x = (r.lower f).info
  | .split r f, .seekKids x lo lvl par k a => lo = none ∧ lvl = 0 ∧ par = none ∧ k = r.ptr ∧ (r.ptr, a) ∈ l ∧ h x = (r.lower f).info
  | .split r f, .seekMore x lo lvl par k a => lo = none ∧ lvl = 0 ∧ par = none ∧ k = r.ptr ∧ (r.ptr, a) ∈ l ∧ h x = (r.lower f).info
  | .split r f, .seekEnd x lo lvl par k a => lo = none ∧ lvl = 0 ∧ par = none ∧ k = r.ptr ∧ (r.ptr, a) ∈ l ∧ h x = (r.lower f).info
  | .split r f, .spSize x lvl par a => lvl = 0 ∧ par = none ∧ (r.ptr, a) ∈ l ∧ h x = (r.lower f).info
  | .split r f, .spUp x lvl par a => lvl = 0 ∧ par = none ∧ (r.ptr, a) ∈ l ∧ h x = (r.lower f).info
  | .split r f, .spPut x lvl par a => lvl = 0 ∧ par = none ∧ (r.ptr, a) ∈ l ∧ h x = (r.lower f).info
  | .split r _, .spAlloc x lvl par a => lvl = 0 ∧ par = none ∧ (r.ptr, x) ∈ l ∧ h a = r.info
  | .split r f, .spInsert x lvl par a y => lvl = 0 ∧ par = none ∧ (r.ptr, x) ∈ l ∧ h a = r.info ∧ h y = (r.upper f).info
  | .split r _, .spDrop x lvl a _ res => lvl = 0 ∧ (r.ptr, x) ∈ l ∧ h a = r.info ∧ res = .oom
  | .split r _, .spRevert x lvl a res => lvl = 0 ∧ (r.ptr, x) ∈ l ∧ h a = r.info ∧ res = .oom
  | .split _ _, .freeLast _ => True
  | .split _ _, .unlock => True
  | .split _ _, .errUnlock _ res => res = .oom ∨ res = .upstream
  | .split _ _, .errFree _ res => res = .oom ∨ res = .upstream
  | .split r f, .fin res => Answered (.split r f) res
  | .merge _ _, .start => True
  | .merge p q, .lockWait x => h x = (p.join q).info
  | .merge p q, .seekFind x lo lvl par last => lvl = 0 ∧ par = none ∧ last = none ∧ h x = (p.join q).info ∧
      ∀ e, lo = some e → e.1 = 0 ∧ (p.ptr, e.2) ∈ l
  | .merge p q, .seekLoad x lo lvl par k a => lvl = 0 ∧ par = none ∧ k = target (.merge p q) lo ∧ (k, a) ∈ l ∧ h x = (p.join q).info ∧
      ∀ e, lo = some e → e.1 = 0 ∧ (p.ptr, e.2) ∈ l
  | .merge p q, .seekKids x lo lvl par k a => lvl = 0 ∧ par = none ∧ k = target (.merge p q) lo ∧ (k, a) ∈ l ∧ h x = (p.join q).info ∧
      ∀ e, lo = some e → e.1 = 0 ∧ (p.ptr, e.2) ∈ l
  | .merge p q, .seekMore x lo lvl par k a => lvl = 0 ∧ par = none ∧ k = target (.merge p q) lo ∧ (k, a) ∈ l ∧ h x = (p.join q).info ∧
      ∀ e, lo = some e → e.1 = 0 ∧ (p.ptr, e.2) ∈ l
  | .merge p q, .seekEnd x lo lvl par k a => lvl = 0 ∧ par = none ∧ k = target (.merge p q) lo ∧ (k, a) ∈ l ∧ h x = (p.join q).info ∧
      ∀ e, lo = some e → e.1 = 0 ∧ (p.ptr, e.2) ∈ l
  | .merge p q, .mgCheck x ll la lh ha => ll = 0 ∧ lh = 0 ∧ (p.ptr, la) ∈ l ∧ (q.ptr, ha) ∈ l ∧ h x = (p.join q).info
  | .merge p q, .mgUp x ll la lh ha => ll = 0 ∧ lh = 0 ∧ (p.ptr, la) ∈ l ∧ (q.ptr, ha) ∈ l ∧ h x = (p.join q).info
  | .merge p q, .mgPut x ll la lh ha => ll = 0 ∧ lh = 0 ∧ (p.ptr, la) ∈ l ∧ (q.ptr, ha) ∈ l ∧ h x = (p.join q).info
  | .merge _ q, .mgFreeLow _ lh ha => lh = 0 ∧ (q.ptr, ha) ∈ l
  | .merge _ q, .mgRemove lh ha => lh = 0 ∧ (q.ptr, ha) ∈ l
  | .merge _ _, .freeLast _ => True
  | .merge _ _, .unlock => True
  | .merge _ _, .errUnlock _ res => res = .upstream
  | .merge _ _, .errFree _ res => res = .upstream
  | .merge p q, .fin res => Answered (.merge p q) res
  | .look _ _, .start => True
  | .look _ _, .lkFind lvl top => lvl = 0 ∧ top = none
  | .look r _, .lkLoad lvl _ k a => lvl = 0 ∧ k = r.ptr ∧ (r.ptr, a) ∈ l
  | .look r _, .lkKids lvl k a => lvl = 0 ∧ k = r.ptr ∧ (r.ptr, a) ∈ l
  | .look r _, .lkEnd top => ∃ a, top = some (r.ptr, a) ∧ (r.ptr, a) ∈ l
  | .look r x, .fin res => Answered (.look r x) res
  | _, _ => False

/-- The arguments of an operation fit together. -/
def Op.Fit : Op → Prop
  | .add r => r.Ok
  | .remove r => r.Ok
  | .split r f => r.Ok ∧ 0 < f ∧ f < r.size
  | .merge l h => l.Ok ∧ h.Ok ∧ l.ptr + l.size = h.ptr ∧ l.pool = h.pool
  | .look r x => r.Ok ∧ r.has x

/-- The memory of the regions and operations. -/
structure Geo (live : List Rec) (O : Nat → Option Op) : Prop where
  liveOk : ∀ r ∈ live, r.Ok
  apart : live.Pairwise Apart
  fit : ∀ t op, O t = some op → op.Fit
  spanLive : ∀ t op q, O t = some op → op.span = some q → ∀ r ∈ live, Apart q r
  spans : ∀ t t' op op' q q', t ≠ t' → O t = some op → O t' = some op' → op.span = some q → op'.span = some q' → Apart q q'
  seen : ∀ t r x, O t = some (.look r x) → r ∈ live

def Sys.ops (s : Sys) (t : Nat) : Option Op := (s.thr t).map (·.1)
def Sys.C (s : Sys) (t : Nat) : List Rec := match s.thr t with
  | some (op, pc) => regs op pc
  | none => []
def Sys.B (s : Sys) (t : Nat) : List Addr := match s.thr t with
  | some (op, pc) => blocks op pc
  | none => []

structure Inv (s : Sys) : Prop where
  core : Core (s.st.lv 0) s.st.heap s.st.used s.live s.C s.B
  up : ∀ n, s.st.lv (n + 1) = []
  geo : Geo s.live s.ops
  loc : ∀ t op pc, s.thr t = some (op, pc) → Loc (s.st.lv 0) s.st.heap op pc
  lock : ∀ t, s.st.lock = some t ↔ ∃ op pc, s.thr t = some (op, pc) ∧ inLock op pc = true

theorem inv_init : Inv Sys.init where
  core := by
    refine ⟨?_, ?_, ?_, ?_, ?_, ?_, ?_, ?_, ?_⟩
    · rintro r (h | ⟨t, h⟩) <;> cases h
    · intro e he; cases he
    · intro e he; cases he
    · intro e he; cases he
    · intro e he; cases he
    · intro t a ha; cases ha
    · intro t t' a ha; cases ha
    · intro t; exact List.Pairwise.nil
    · intro a ha; cases ha
  up := fun _ => rfl
  geo := ⟨fun r h => (nomatch h), List.Pairwise.nil, fun t op h => (nomatch h), fun t op q h => (nomatch h),
    fun t t' op op' q q' _ h => (nomatch h), fun t r x h => (nomatch h)⟩
  loc := fun t op pc h => by cases h
  lock := by
    intro t
    constructor
    · intro h; cases h
    · rintro ⟨op, pc, h, _⟩; cases h

/-- The keys a thread may rely on. -/
def KeyOf (op : Op) (k : Nat) : Prop :=
  (∃ q, op.span = some q ∧ q.ptr ≤ k ∧ k < q.ptr + q.size) ∨ ∃ r x, op = .look r x ∧ k = r.ptr

theorem Loc.mono {l l' : List (Nat × Addr)} {h h' : Addr → Info} {op : Op} {pc : Pc} (hf : op.Fit) (hl : Loc l h op pc)
    (h1 : ∀ k a, KeyOf op k → (k, a) ∈ l → (k, a) ∈ l') (h2 : ∀ x ∈ blocks op pc, h' x = h x)
    (h3 : ∀ lvl par k a, pc = .addLoad lvl par k a → (h' a).size = (h a).size) : Loc l' h' op pc := by
  have kp : ∀ q a, op.span = some q → 0 < q.size → (q.ptr, a) ∈ l → (q.ptr, a) ∈ l' := fun q a g1 g2 g3 =>
    h1 _ _ (Or.inl ⟨q, g1, Nat.le_refl _, by omega⟩) g3
  cases op with
  | add r =>
    cases pc <;> first | exact hl | skip
    · obtain ⟨g1, g2, g3⟩ := hl
      exact ⟨g1, g2, by rw [h3 _ _ _ _ rfl]; exact g3⟩
    · obtain ⟨g1, g2, g3⟩ := hl
      exact ⟨g1, g2, by rw [h2 _ (by simp [blocks])]; exact g3⟩
  | remove r =>
    have kr : ∀ a, (r.ptr, a) ∈ l → (r.ptr, a) ∈ l' := fun a => kp r a rfl hf.2.1
    cases pc <;> first
      | exact hl
      | (obtain ⟨g1, g2, g3, g4, g5⟩ := hl; exact ⟨g1, g2, g3, g4, kr _ g5⟩)
  | split r f =>
    have kr : ∀ a, (r.ptr, a) ∈ l → (r.ptr, a) ∈ l' := fun a => kp r a rfl hf.1.2.1
    cases pc <;> first
      | exact hl
      | (obtain ⟨g1, g2, g3, g4, g5, g6⟩ := hl; exact ⟨g1, g2, g3, g4, kr _ g5, by rw [h2 _ (by simp [blocks, newOf])]; exact g6⟩)
      | (obtain ⟨g1, g2, g3, g4, g5⟩ := hl; exact ⟨g1, g2, g3, g4, by rw [h2 _ (by simp [blocks, newOf])]; exact g5⟩)
      | (obtain ⟨g1, g2, g3, g4, g5⟩ := hl
         exact ⟨g1, g2, kr _ g3, by rw [h2 _ (by simp [blocks])]; exact g4, by rw [h2 _ (by simp [blocks])]; exact g5⟩)
      | (obtain ⟨g1, g2, g3, g4⟩ := hl; exact ⟨g1, g2, kr _ g3, by rw [h2 _ (by simp [blocks])]; exact g4⟩)
      | (obtain ⟨g1, g2, g3, g4⟩ := hl; exact ⟨g1, kr _ g2, by rw [h2 _ (by simp [blocks])]; exact g3, g4⟩)
      | (show h' _ = _; rw [h2 _ (by simp [blocks])]; exact hl)
  | merge p q =>
    have kr : ∀ a, (p.ptr, a) ∈ l → (p.ptr, a) ∈ l' := fun a => kp (p.join q) a rfl (by
      have := hf.1.2.1
      simp only [Rec.join]
      omega)
    have kq : ∀ a, (q.ptr, a) ∈ l → (q.ptr, a) ∈ l' := fun a => h1 _ _ (Or.inl ⟨p.join q, rfl, by
      have := hf.2.2.1
      simp only [Rec.join]
      omega, by
      have := hf.2.2.1
      have := hf.2.1.2.1
      simp only [Rec.join]
      omega⟩)
    have kt : ∀ lo a, (target (.merge p q) lo, a) ∈ l → (target (.merge p q) lo, a) ∈ l' := by
      intro lo a
      unfold target
      dsimp only
      split
      · exact kr a
      · exact kq a
    have kl : ∀ lo : Option (Nat × Addr), (∀ e, lo = some e → e.1 = 0 ∧ (p.ptr, e.2) ∈ l) → ∀ e, lo = some e → e.1 = 0 ∧ (p.ptr, e.2) ∈ l' :=
      fun lo g e he => ⟨(g e he).1, kr _ (g e he).2⟩
    cases pc <;> first
      | exact hl
      | (obtain ⟨g1, g2, g3, g4, g5, g6⟩ := hl
         exact ⟨g1, g2, g3, by rw [g3]; exact kt _ _ (g3 ▸ g4), by rw [h2 _ (by simp [blocks, newOf])]; exact g5, kl _ g6⟩)
      | (obtain ⟨g1, g2, g3, g4, g5⟩ := hl
         exact ⟨g1, g2, g3, by rw [h2 _ (by simp [blocks, newOf])]; exact g4, kl _ g5⟩)
      | (obtain ⟨g1, g2, g3, g4, g5⟩ := hl; exact ⟨g1, g2, kr _ g3, kq _ g4, by rw [h2 _ (by simp [blocks])]; exact g5⟩)
      | (obtain ⟨g1, g2⟩ := hl; exact ⟨g1, kq _ g2⟩)
      | (show h' _ = _; rw [h2 _ (by simp [blocks])]; exact hl)
  | look r x =>
    have kr : ∀ a, (r.ptr, a) ∈ l → (r.ptr, a) ∈ l' := fun a => h1 _ _ (Or.inr ⟨r, x, rfl, rfl⟩)
    cases pc <;> first
      | exact hl
      | (obtain ⟨g1, g2, g3⟩ := hl; exact ⟨g1, g2, kr _ g3⟩)
      | (obtain ⟨a, g1, g2⟩ := hl; exact ⟨a, g1, kr _ g2⟩)

end Verif.TrkConc
