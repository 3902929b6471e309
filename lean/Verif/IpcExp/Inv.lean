import Verif.IpcExp.Spec

/-! # The invariants of exporting handles from several threads -/
namespace Verif.IpcExp

def locOf : Pc → Option (Nat × Nat × Nat)
  | .size1 x b sz => some (x, b, sz)
  | .alloc1 x b sz _ => some (x, b, sz)
  | .look g => some (g.x, g.b, g.sz)
  | .size2 g => some (g.x, g.b, g.sz)
  | .alloc2 g _ => some (g.x, g.b, g.sz)
  | .upget g _ _ => some (g.x, g.b, g.sz)
  | .fill g _ _ _ => some (g.x, g.b, g.sz)
  | .ins g _ => some (g.x, g.b, g.sz)
  | .put g _ _ => some (g.x, g.b, g.sz)
  | .freeV g _ _ => some (g.x, g.b, g.sz)
  | .copy g _ => some (g.x, g.b, g.sz)
  | .freeD g _ => some (g.x, g.b, g.sz)
  | _ => none

/-- The region that a freeing has taken out of the tracker. -/
def outOf : Pc → Option (Nat × Nat)
  | .free1 b sz => some (b, sz)
  | .freePut b sz _ => some (b, sz)
  | .freeVal b sz _ => some (b, sz)
  | .freeUp b sz => some (b, sz)
  | .freeAdd b sz _ => some (b, sz)
  | _ => none

structure InvR (s : St) : Prop where
  pos : ∀ b sz, (b, sz) ∈ s.regs → 0 < sz
  disj : ∀ b sz b' sz', (b, sz) ∈ s.regs → (b', sz') ∈ s.regs → (b, sz) ≠ (b', sz') → Apart b sz b' sz'
  loc : ∀ t x b sz, locOf (s.pc t) = some (x, b, sz) → (b, sz) ∈ s.regs ∧ Within x b sz
  excl : ∀ t f x b sz, call (s.pc t) = .get x → call (s.pc f) = .free b sz → ¬ Within x b sz
  f0 : ∀ t b sz, s.pc t = .free0 b sz → (b, sz) ∈ s.regs
  out : ∀ t b sz, outOf (s.pc t) = some (b, sz) → 0 < sz ∧ ∀ b' sz', (b', sz') ∈ s.regs → Apart b sz b' sz'
  ff : ∀ t t' b sz b' sz', t ≠ t' → call (s.pc t) = .free b sz → call (s.pc t') = .free b' sz' → Apart b sz b' sz'

theorem locOf_call (p : Pc) (x b sz : Nat) (h : locOf p = some (x, b, sz)) : call p = .get x := by
  cases p <;> simp_all [locOf, call]

theorem outOf_call (p : Pc) (b sz : Nat) (h : outOf p = some (b, sz)) : call p = .free b sz := by
  cases p <;> simp_all [outOf, call]

theorem out_none_of_get (p : Pc) (x : Nat) (h : call p = .get x) : outOf p = none := by
  cases p <;> simp_all [outOf, call]

/-- A thread moves on in the same call, and the regions stay. -/
theorem InvR.move (s s' : St) (t : Nat) (p : Pc) (h : InvR s) (hr : s'.regs = s.regs) (hp : s'.pc = upd s.pc t p)
    (hc : call p = call (s.pc t))
    (hl : ∀ x b sz, locOf p = some (x, b, sz) → (b, sz) ∈ s.regs ∧ Within x b sz)
    (ho : ∀ b sz, outOf p = some (b, sz) → outOf (s.pc t) = some (b, sz))
    (h0 : ∀ b sz, p ≠ .free0 b sz) : InvR s' := by
  have hcall : ∀ u, call (s'.pc u) = call (s.pc u) := by
    intro u; rw [hp]; unfold upd; split
    · rename_i e; rw [e]; exact hc
    · rfl
  refine ⟨?_, ?_, ?_, ?_, ?_, ?_, ?_⟩
  · rw [hr]; exact h.pos
  · rw [hr]; exact h.disj
  · intro u x b sz hu; rw [hr]; rw [hp] at hu; unfold upd at hu; split at hu
    · exact hl x b sz hu
    · exact h.loc u x b sz hu
  · intro u f x b sz; rw [hcall, hcall]; exact h.excl u f x b sz
  · intro u b sz hu; rw [hr]; rw [hp] at hu; unfold upd at hu; split at hu
    · exact absurd hu (h0 b sz)
    · exact h.f0 u b sz hu
  · intro u b sz hu; rw [hr]; rw [hp] at hu; unfold upd at hu; split at hu
    · exact h.out t b sz (ho b sz hu)
    · exact h.out u b sz hu
  · intro u u' b sz b' sz'; rw [hcall, hcall]; exact h.ff u u' b sz b' sz'

end Verif.IpcExp
