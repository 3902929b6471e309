import Verif.IpcExp.InvR

/-! # Who owns the blocks and the upstream handles -/
namespace Verif.IpcExp

inductive Own where
  | cache (b : Nat)
  | val (t : Nat)
  | data (t : Nat)
  | user
deriving DecidableEq

/-- The value of the cache that a thread owns. -/
@[grind] def valOf : Pc → Option Nat
  | .upget _ v _ => some v
  | .fill _ v _ _ => some v
  | .ins _ v => some v
  | .put _ v _ => some v
  | .freeV _ v _ => some v
  | .freePut _ _ v => some v
  | .freeVal _ _ v => some v
  | _ => none

/-- The handle that a thread owns. -/
@[grind] def dataOf : Pc → Option Nat
  | .look g => some g.d
  | .size2 g => some g.d
  | .alloc2 g _ => some g.d
  | .upget g _ _ => some g.d
  | .fill g _ _ _ => some g.d
  | .ins g _ => some g.d
  | .put g _ _ => some g.d
  | .freeV g _ _ => some g.d
  | .copy g _ => some g.d
  | .freeD g _ => some g.d
  | .done _ (.handle d) => some d
  | _ => none

/-- Where a thread keeps the upstream handle that it owns: by itself, or in a value. -/
@[grind] def upLoc : Pc → Option (Nat ⊕ Nat)
  | .fill _ _ _ u => some (.inl u)
  | .ins _ v => some (.inr v)
  | .put _ v _ => some (.inr v)
  | .freePut _ _ v => some (.inr v)
  | _ => none

def UpIs (s : St) (p : Pc) (u : Nat) : Prop :=
  upLoc p = some (.inl u) ∨ ∃ v c, upLoc p = some (.inr v) ∧ s.obj v = some (.val (some c)) ∧ c.prov = u

def Filled (L : Nat) (s : St) (v : Nat) : Prop := ∃ c, s.obj v = some (.val (some c)) ∧ c.len = L

/-- `h` is the handle for the pointer `x`. -/
def Good (s : St) (x : Nat) (h : Handle) : Prop :=
  (h.base, h.size) ∈ s.regs ∧ Within x h.base h.size ∧ h.off = x - h.base ∧
    ∃ v c, s.cache h.base = some v ∧ s.obj v = some (.val (some c)) ∧ c.id = h.id ∧ c.prov = h.prov

def PcO (L : Nat) (s : St) : Pc → Prop
  | .alloc1 _ _ _ room => room = L
  | .look g => g.room = L
  | .size2 g => g.room = L
  | .alloc2 g len => g.room = L ∧ len = L
  | .upget g _ len => g.room = L ∧ len = L
  | .fill g _ len _ => g.room = L ∧ len = L
  | .ins g v => g.room = L ∧ Filled L s v
  | .put g v full => g.room = L ∧ Filled L s v ∧ (full = false → s.cache g.b ≠ none)
  | .freeV g _ r => g.room = L ∧ (r = none → s.cache g.b ≠ none) ∧ ∀ d, r ≠ some (.handle d)
  | .copy g v => g.room = L ∧ s.cache g.b = some v
  | .freeD _ r => ∀ d, r ≠ .handle d
  | .freePut _ _ v => Filled L s v
  | .done x r => ∀ d, r = .handle d → ∃ h, s.obj d = some (.data (some h)) ∧ Good s x h
  | _ => True

theorem PcO_frame (L : Nat) (s s' : St) (p : Pc) (hv : ∀ v, valOf p = some v → s'.obj v = s.obj v)
    (hc : ∀ x b sz, locOf p = some (x, b, sz) → s.cache b ≠ none → s'.cache b = s.cache b)
    (hd : ∀ x d, p = .done x (.handle d) → s'.obj d = s.obj d ∧ ∀ h, Good s x h → Good s' x h)
    (h : PcO L s p) : PcO L s' p := by
  cases p with
  | ins g v => exact ⟨h.1, by unfold Filled; rw [hv v rfl]; exact h.2⟩
  | put g v full =>
    refine ⟨h.1, by unfold Filled; rw [hv v rfl]; exact h.2.1, fun e => ?_⟩
    rw [hc g.x g.b g.sz rfl (h.2.2 e)]; exact h.2.2 e
  | freeV g v r =>
    refine ⟨h.1, fun e => ?_, h.2.2⟩
    rw [hc g.x g.b g.sz rfl (h.2.1 e)]; exact h.2.1 e
  | copy g v =>
    refine ⟨h.1, ?_⟩
    have h2 : s.cache g.b = some v := h.2
    rw [hc g.x g.b g.sz rfl (by rw [h2]; simp)]; exact h2
  | freePut b sz v => show Filled L s' v; unfold Filled; rw [hv v rfl]; exact h
  | done x r =>
    intro d e; subst e
    obtain ⟨h1, h2⟩ := hd x d rfl
    obtain ⟨hh, h3, h4⟩ := h d rfl
    exact ⟨hh, by rw [h1]; exact h3, h2 hh h4⟩
  | _ => exact h

structure InvO (L : Nat) (s : St) (given : List (Nat × Handle)) (held : List Nat) (own uo : Nat → Option Own) : Prop where
  bad : s.bad = false
  objOwn : ∀ o, own o = none ↔ s.obj o = none
  cacheOwn : ∀ b v, s.cache b = some v ↔ own v = some (.cache b)
  valOwn : ∀ t v, valOf (s.pc t) = some v ↔ own v = some (.val t)
  dataOwn : ∀ t d, dataOf (s.pc t) = some d ↔ own d = some (.data t)
  userOwn : ∀ d, d ∈ held ↔ own d = some .user
  nodup : held.Nodup
  cacheK : ∀ b v, s.cache b = some v → Filled L s v
  valK : ∀ t v, own v = some (.val t) → ∃ c, s.obj v = some (.val c)
  dataK : ∀ t d, own d = some (.data t) → ∃ h, s.obj d = some (.data h)
  userK : ∀ d, own d = some .user → ∃ h, s.obj d = some (.data h)
  upsOwn : ∀ u, uo u = none ↔ s.ups u = none
  upsKind : ∀ u, uo u ≠ some .user ∧ ∀ t, uo u ≠ some (.data t)
  upT : ∀ t u, UpIs s (s.pc t) u ↔ uo u = some (.val t)
  upC : ∀ b u, (∃ v c, s.cache b = some v ∧ s.obj v = some (.val (some c)) ∧ c.prov = u) ↔ uo u = some (.cache b)
  upV : ∀ t u x b sz, uo u = some (.val t) → locOf (s.pc t) = some (x, b, sz) → s.ups u = some (b, sz)
  upCv : ∀ b u, uo u = some (.cache b) →
    ∃ sz, s.ups u = some (b, sz) ∧ ((b, sz) ∈ s.regs ∨ ∃ t, s.pc t = .free1 b sz)
  idLe : ∀ o c, s.obj o = some (.val (some c)) → c.id ≤ s.nextId
  idNe : ∀ o o' c c', s.obj o = some (.val (some c)) → s.obj o' = some (.val (some c')) → o ≠ o' → c.id ≠ c'.id
  pcs : ∀ t, PcO L s (s.pc t)
  giv : ∀ x h, (x, h) ∈ given → Good s x h ∧ ∀ f sz, call (s.pc f) ≠ .free h.base sz

/-- A thread moves on, and nothing else changes. -/
theorem InvO.move (L : Nat) (s : St) (given : List (Nat × Handle)) (held : List Nat) (own uo : Nat → Option Own) (t : Nat) (p : Pc)
    (h : InvO L s given held own uo) (hc : ∀ b sz, call p = .free b sz → call (s.pc t) = .free b sz)
    (hv : valOf p = valOf (s.pc t)) (hd : dataOf p = dataOf (s.pc t))
    (hu : upLoc p = upLoc (s.pc t)) (hl : upLoc p ≠ none → locOf p = locOf (s.pc t)) (hp : PcO L s p)
    (h1 : ∀ b sz, s.pc t = .free1 b sz → p = .free1 b sz ∨ s.cache b = none) :
    InvO L (s.to t p) given held own uo := by
  have e1 : ∀ u, valOf ((s.to t p).pc u) = valOf (s.pc u) := by
    intro u; simp only [St.to, upd]; split
    · rename_i e; rw [e]; exact hv
    · rfl
  have e2 : ∀ u, dataOf ((s.to t p).pc u) = dataOf (s.pc u) := by
    intro u; simp only [St.to, upd]; split
    · rename_i e; rw [e]; exact hd
    · rfl
  have e3 : ∀ u, upLoc ((s.to t p).pc u) = upLoc (s.pc u) := by
    intro u; simp only [St.to, upd]; split
    · rename_i e; rw [e]; exact hu
    · rfl
  have eU : ∀ q u, UpIs (s.to t p) ((s.to t p).pc q) u ↔ UpIs s (s.pc q) u := by
    intro q u; unfold UpIs; rw [e3]; rfl
  refine ⟨h.bad, h.objOwn, h.cacheOwn, ?_, ?_, h.userOwn, h.nodup, h.cacheK, h.valK, h.dataK, h.userK, h.upsOwn, h.upsKind,
    ?_, h.upC, ?_, ?_, h.idLe, h.idNe, ?_, ?_⟩
  · intro u v; rw [e1]; exact h.valOwn u v
  · intro u v; rw [e2]; exact h.dataOwn u v
  · intro q u; rw [eU]; exact h.upT q u
  · intro q u x b sz hq hloc
    by_cases e : q = t
    · subst e
      have h2 := (h.upT q u).2 hq
      have h3 : upLoc (s.pc q) ≠ none := by
        unfold UpIs at h2
        rcases h2 with h2 | ⟨v, c, h2, _⟩ <;> rw [h2] <;> simp
      have h4 : locOf p = some (x, b, sz) := by simpa [St.to, upd] using hloc
      exact h.upV q u x b sz hq (by rw [← hl (by rw [hu]; exact h3)]; exact h4)
    · exact h.upV q u x b sz hq (by simpa [St.to, upd, e] using hloc)
  · intro b u hu'
    obtain ⟨sz, h2, h3⟩ := h.upCv b u hu'
    refine ⟨sz, h2, ?_⟩
    rcases h3 with h3 | ⟨q, h3⟩
    · exact Or.inl h3
    · right
      by_cases e : q = t
      · subst e
        rcases h1 b sz h3 with h4 | h4
        · exact ⟨q, by simp [St.to, upd, h4]⟩
        · obtain ⟨v, c, h5, _⟩ := (h.upC b u).2 hu'
          rw [h4] at h5; cases h5
      · exact ⟨q, by simp [St.to, upd, e, h3]⟩
  · intro u; simp only [St.to, upd]; split
    · exact PcO_frame L s _ p (fun _ _ => rfl) (fun _ _ _ _ _ => rfl) (fun _ _ _ => ⟨rfl, fun _ h => h⟩) hp
    · exact PcO_frame L s _ _ (fun _ _ => rfl) (fun _ _ _ _ _ => rfl) (fun _ _ _ => ⟨rfl, fun _ h => h⟩) (h.pcs u)
  · intro x hh hg
    obtain ⟨h2, h3⟩ := h.giv x hh hg
    refine ⟨h2, fun f sz => ?_⟩
    simp only [St.to, upd]; split
    · rename_i e; intro e'; exact h3 t sz (hc _ _ e')
    · exact h3 f sz

end Verif.IpcExp
