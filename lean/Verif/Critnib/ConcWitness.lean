import Verif.Critnib.ConcSpec
/-! # A run in which `find_le` misses a key that is in the map all the time

Keys `0x10` and `0x11` are in the map. A reader looks for the greatest key up to `0x20`. In
`find_predecessor` it sees that slot 1 of the only node is not empty; then another thread removes
`0x11`; then the reader loads slot 1 a second time, finds it empty, and gives up without looking
at slot 0, where `0x10` is. -/
namespace Verif.Critnib.Conc.Witness
open Verif.Critnib
open Verif.Critnib.Conc.Spec

deriving instance DecidableEq for Spec.Op
deriving instance DecidableEq for Spec.Out
deriving instance DecidableEq for Val
deriving instance DecidableEq for Ev

def nodes0 : Nat → Node := fun _ => ⟨fun _ => .null, 0#64, 0⟩

def leaves0 : Nat → Leaf Nat := fun _ => ⟨0#64, .user 0⟩

def s0 : Sys Nat := Sys.init nodes0 leaves0

/-- Who runs. -/
def acts : List (Act Nat) :=
  [.insert 0x10#64 7 false true true] ++ List.replicate 5 .write ++
  [.insert 0x11#64 8 false true true] ++ List.replicate 26 .write ++
  [.call 0 (.findLe 0x20#64)] ++ List.replicate 19 (.read 0) ++
  [.remove 0x11#64] ++ List.replicate 8 .write ++ List.replicate 3 (.read 0)

def sched (t : Nat) : Act Nat := acts.getD t .write

/-- What callers see. -/
def seen : List (Ev Nat) :=
  [.updCall (.insert 0x10#64 7 false true true)] ++ List.replicate 4 .tau ++
  [.updRet (.inserted .ok)] ++
  [.updCall (.insert 0x11#64 8 false true true)] ++ List.replicate 25 .tau ++
  [.updRet (.inserted .ok)] ++
  [.call 0 (.findLe 0x20#64)] ++ List.replicate 19 .tau ++
  [.updCall (.remove 0x11#64)] ++ List.replicate 7 .tau ++ [.updRet (.value (some 8))] ++
  List.replicate 2 .tau ++ [.ret 0 none]

theorem events : ∀ t, t < 65 → event s0 sched t = seen.getD t .tau := by decide +kernel

abbrev ev := event s0 sched

section
variable {ev : Nat → Ev Nat} {M : Nat → Spec.Map Nat}

/-- After an update, and before the next. -/
theorem resting (h : UpdatesAtomic ev M) {i : Nat} {o : Spec.Out Nat} (hi : ev i = .updRet o)
    {j : Nat} (hj : ∀ t, i < t → t < j → ∀ op, ev t ≠ .updCall op) :
    ∀ t, i ≤ t → t ≤ j → M t = M i := by
  intro t
  induction t with
  | zero => intro h1 _; rw [Nat.le_zero.1 h1]
  | succ t ih =>
    intro h1 h2
    rcases Nat.eq_or_lt_of_le h1 with h3 | h3
    · rw [← h3]
    · rw [← ih (by omega) (by omega)]
      refine h.2.1 t ?_
      rintro ⟨k, op, h4, h5, h6⟩
      rcases Nat.lt_trichotomy k i with h7 | h7 | h7
      · exact h6 i h7 (by omega) o hi
      · rw [h7, hi] at h5; cases h5
      · exact hj k h7 (by omega) op h5

/-- An update that leaves the key alone. -/
theorem kept (h : UpdatesAtomic ev M) {i j : Nat} {op : Spec.Op Nat} {out : Spec.Out Nat}
    (hij : i < j) (hi : ev i = .updCall op) (hj : ev j = .updRet out)
    (hno : ∀ u, i < u → u < j → ∀ o, ev u ≠ .updRet o) {k : W}
    (hk : ∀ m : Spec.Map Nat, Verif.Critnib.Spec.after m op out k = m k) :
    ∀ t, i ≤ t → t ≤ j → M t k = M i k := by
  obtain ⟨s, _, _, _, h4, h5⟩ := h.2.2 i j op out hij hi hj hno
  intro t
  induction t with
  | zero => intro h1 _; rw [Nat.le_zero.1 h1]
  | succ t ih =>
    intro h1 h2
    rcases Nat.eq_or_lt_of_le h1 with h3 | h3
    · rw [← h3]
    · rw [← ih (by omega) (by omega)]
      by_cases he : t = s
      · subst he; rw [h4]; exact hk _
      · rw [h5 t (by omega) (by omega) he]

/-- An update that stores a value for the key. -/
theorem stored (h : UpdatesAtomic ev M) {i j : Nat} {op : Spec.Op Nat} {out : Spec.Out Nat}
    (hij : i < j) (hi : ev i = .updCall op) (hj : ev j = .updRet out)
    (hno : ∀ u, i < u → u < j → ∀ o, ev u ≠ .updRet o) {k : W} {v : Nat}
    (hk : ∀ m : Spec.Map Nat, Verif.Critnib.Spec.after m op out k = some v) : M j k = some v := by
  obtain ⟨s, h1, h2, _, h4, h5⟩ := h.2.2 i j op out hij hi hj hno
  have : ∀ t, s < t → t ≤ j → M t k = some v := by
    intro t
    induction t with
    | zero => intro h6; omega
    | succ t ih =>
      intro h6 h7
      by_cases he : t = s
      · subst he; rw [h4]; exact hk _
      · rw [h5 t (by omega) (by omega) he]; exact ih (by omega) (by omega)
  exact this j h2 (Nat.le_refl _)

end

section
variable {M : Nat → Spec.Map Nat}

theorem not_ret {i j : Nat} (h : ∀ t, t < 65 → i < t → t < j → (seen.getD t .tau : Ev Nat) = .tau)
    (hj : j ≤ 65) : ∀ u, i < u → u < j → ∀ o, ev u ≠ .updRet o := by
  intro u h1 h2 o
  rw [show ev u = _ from events u (by omega), h u (by omega) h1 h2]
  intro e; cases e

/-- `0x10` is in the map from time 5 on. -/
theorem present (h : UpdatesAtomic ev M) : ∀ t, 33 < t → t ≤ 64 → M t 0x10#64 = some 7 := by
  have e0 : ev 0 = .updCall (.insert 0x10#64 7 false true true) := events 0 (by decide)
  have e5 : ev 5 = .updRet (.inserted .ok) := events 5 (by decide)
  have e6 : ev 6 = .updCall (.insert 0x11#64 8 false true true) := events 6 (by decide)
  have e32 : ev 32 = .updRet (.inserted .ok) := events 32 (by decide)
  have e53 : ev 53 = .updCall (.remove 0x11#64) := events 53 (by decide)
  have e61 : ev 61 = .updRet (.value (some 8)) := events 61 (by decide)
  have m5 : M 5 0x10#64 = some 7 :=
    stored h (by decide) e0 e5 (not_ret (by decide +kernel) (by decide)) (fun m => rfl)
  have m6 : M 6 0x10#64 = some 7 := by
    rw [resting h e5 (j := 6) (fun t h1 h2 => by omega) 6 (by decide) (by decide)]; exact m5
  have m32 : M 32 0x10#64 = some 7 := by
    rw [kept h (by decide) e6 e32 (not_ret (by decide +kernel) (by decide)) (fun m => rfl) 32
      (by decide) (by decide)]
    exact m6
  have ma : ∀ t, 32 ≤ t → t ≤ 53 → M t 0x10#64 = some 7 := by
    intro t h1 h2
    rw [resting h e32 (j := 53) ?_ t h1 h2]
    · exact m32
    · intro u h3 h4 op e
      rw [show ev u = _ from events u (by omega)] at e
      have : ∀ u, u < 65 → 32 < u → u < 53 → (seen.getD u .tau : Ev Nat) = .tau ∨
        (seen.getD u .tau : Ev Nat) = .call 0 (.findLe 0x20#64) := by decide +kernel
      rcases this u (by omega) h3 h4 with h5 | h5 <;> rw [h5] at e <;> cases e
  have mb : ∀ t, 53 ≤ t → t ≤ 61 → M t 0x10#64 = some 7 := by
    intro t h1 h2
    rw [kept h (by decide) e53 e61 (not_ret (by decide +kernel) (by decide)) (fun m => rfl) t h1 h2]
    exact ma 53 (by decide) (by decide)
  intro t h1 h2
  rcases Nat.lt_or_ge 53 t with h3 | h3
  · rcases Nat.lt_or_ge 61 t with h4 | h4
    · rw [resting h e61 (j := 64) ?_ t (by omega) h2]
      · exact mb 61 (by decide) (by decide)
      · intro u h5 h6 op e
        rw [show ev u = _ from events u (by omega)] at e
        have : ∀ u, u < 65 → 61 < u → u < 64 → (seen.getD u .tau : Ev Nat) = .tau := by
          decide +kernel
        rw [this u (by omega) h5 h6] at e; cases e
    · exact mb t (by omega) h4
  · exact ma t (by omega) h3

end

theorem looked : Lookup ev 0 (.findLe 0x20#64) 33 64 none := by
  refine ⟨by decide, events 33 (by decide), events 64 (by decide), fun u h1 h2 x e => ?_⟩
  rw [show ev u = _ from events u (by omega)] at e
  have : ∀ u, u < 65 → 33 < u → u < 64 → ∀ x, (seen.getD u .tau : Ev Nat) ≠ .ret 0 x := by
    intro u h
    have : ∀ u, u < 65 → 33 < u → u < 64 → (match (seen.getD u .tau : Ev Nat) with
      | .ret _ _ => false
      | _ => true) = true := by decide +kernel
    intro h1 h2 x e
    have := this u h h1 h2
    rw [e] at this; cases this
  exact this u (by omega) h1 h2 x e

/-! ## A second run: two lookups during a removal -/

def acts2 : List (Act Nat) :=
  [.insert 0x10#64 7 false true true] ++ List.replicate 5 .write ++
  [.insert 0x11#64 8 false true true] ++ List.replicate 26 .write ++
  [.call 0 (.get 0x11#64), .call 1 (.findLe 0x10#64)] ++
  List.replicate 3 (.read 0) ++ List.replicate 3 (.read 1) ++
  [.remove 0x11#64] ++ List.replicate 4 .write ++ List.replicate 10 (.read 0) ++
  List.replicate 10 (.read 1)

def sched2 (t : Nat) : Act Nat := acts2.getD t .write

def seen2 : List (Ev Nat) :=
  [.updCall (.insert 0x10#64 7 false true true)] ++ List.replicate 4 .tau ++
  [.updRet (.inserted .ok)] ++
  [.updCall (.insert 0x11#64 8 false true true)] ++ List.replicate 25 .tau ++
  [.updRet (.inserted .ok)] ++
  [.call 0 (.get 0x11#64), .call 1 (.findLe 0x10#64)] ++ List.replicate 6 .tau ++
  [.updCall (.remove 0x11#64)] ++ List.replicate 6 .tau ++ [.ret 0 none] ++
  List.replicate 12 .tau ++ [.ret 1 (some (0x10#64, .user 7))] ++ List.replicate 7 .tau ++
  [.updRet (.value (some 8))]

theorem events2 : ∀ t, t < 70 → event s0 sched2 t = seen2.getD t .tau := by decide +kernel

theorem looked2 {r : Nat} {q : Query} {i j : Nat} {res : Option (W × Val Nat)} (hj : j < 70)
    (hij : i < j) (h1 : (seen2.getD i .tau : Ev Nat) = .call r q)
    (h2 : (seen2.getD j .tau : Ev Nat) = .ret r res)
    (h3 : ∀ u, u < 70 → i < u → u < j → (match (seen2.getD u .tau : Ev Nat) with
      | .ret r' _ => r' != r
      | _ => true) = true) : Lookup (event s0 sched2) r q i j res := by
  refine ⟨hij, (events2 i (by omega)).trans h1, (events2 j hj).trans h2, fun u h4 h5 x e => ?_⟩
  rw [events2 u (by omega)] at e
  have := h3 u (by omega) h4 h5
  rw [e] at this
  simp at this

theorem not_ret2 {i j : Nat}
    (h : ∀ t, t < 70 → i < t → t < j → (match (seen2.getD t .tau : Ev Nat) with
      | .updRet _ => false
      | _ => true) = true)
    (hj : j ≤ 70) : ∀ u, i < u → u < j → ∀ o, event s0 sched2 u ≠ .updRet o := by
  intro u h1 h2 o e
  rw [events2 u (by omega)] at e
  have := h u (by omega) h1 h2
  rw [e] at this; cases this

/-- `0x10` is in the map during the second lookup. -/
theorem present2 {M : Nat → Spec.Map Nat} (h : UpdatesAtomic (event s0 sched2) M) :
    ∀ t, 34 < t → t ≤ 61 → M t 0x10#64 = some 7 := by
  have e5 : event s0 sched2 5 = .updRet (.inserted .ok) := events2 5 (by decide)
  have e32 : event s0 sched2 32 = .updRet (.inserted .ok) := events2 32 (by decide)
  have m5 : M 5 0x10#64 = some 7 :=
    stored h (by decide) (events2 0 (by decide)) e5 (not_ret2 (by decide +kernel) (by decide))
      (fun m => rfl)
  have m6 : M 6 0x10#64 = some 7 := by
    rw [resting h e5 (j := 6) (fun t h1 h2 => by omega) 6 (by decide) (by decide)]; exact m5
  have m32 : M 32 0x10#64 = some 7 := by
    rw [kept h (by decide) (events2 6 (by decide)) e32 (not_ret2 (by decide +kernel) (by decide))
      (fun m => rfl) 32 (by decide) (by decide)]
    exact m6
  have ma : ∀ t, 32 ≤ t → t ≤ 41 → M t 0x10#64 = some 7 := by
    intro t h1 h2
    rw [resting h e32 (j := 41) ?_ t h1 h2]
    · exact m32
    · intro u h3 h4 op e
      rw [events2 u (by omega)] at e
      have : ∀ u, u < 70 → 32 < u → u < 41 → (match (seen2.getD u .tau : Ev Nat) with
        | .updCall _ => false
        | _ => true) = true := by decide +kernel
      have := this u (by omega) h3 h4
      rw [e] at this; cases this
  intro t h1 h2
  rcases Nat.lt_or_ge 41 t with h3 | h3
  · rw [kept h (by decide) (events2 41 (by decide)) (events2 69 (by decide))
      (not_ret2 (by decide +kernel) (by decide)) (fun m => rfl) t (by omega) (by omega)]
    exact ma 41 (by decide) (by decide)
  · exact ma t (by omega) h3

end Verif.Critnib.Conc.Witness
