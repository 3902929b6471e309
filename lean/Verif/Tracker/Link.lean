import Verif.Tracker.Lemmas
import Verif.Critnib.Props
/-! # The tracker's lookup is the radix tree's

The tracker model keeps a level as a list of entries. Here: if the radix tree of `Verif.Critnib`
holds exactly those entries, the directed lookup the code makes (`critnib_find(.., FIND_LE, ..)`)
returns what the model's `findLe` returns, and insertion and removal of a key change both in the
same way. -/
namespace Verif.Tracker
open Verif.Critnib
open Verif.Critnib.Spec

/-- The map `m` (a radix tree's content) is the level `l`. -/
def Holds (m : Map Entry) (l : List Entry) : Prop :=
  ∀ k e, m k = some e ↔ e ∈ l ∧ e.key = k.toNat

private theorem le_toNat {a b : W} : a ≤ b ↔ a.toNat ≤ b.toNat := BitVec.le_def

/-- Lookup. -/
theorem link_findLe (ops : List (Op Entry)) (m : Map Entry)
    (hm : Explains Spec.empty ops (treeRun .nil ops).2 m) (l : List Entry) (hl : Holds m l)
    (hb : ∀ e ∈ l, e.key < 2 ^ 64) (q : W) :
    Critnib.find q .le (treeRun .nil ops).1 =
      (Tracker.findLe l q.toNat).map fun e => (BitVec.ofNat 64 e.key, e) := by
  have ha := C11_directedLookup ops m hm q .le
  have key : ∀ e ∈ l, m (BitVec.ofNat 64 e.key) = some e := by
    intro e he
    rw [hl]
    refine ⟨he, ?_⟩
    rw [BitVec.toNat_ofNat, Nat.mod_eq_of_lt (hb e he)]
  cases hf : Tracker.findLe l q.toNat with
  | none =>
    have hn := findLe_none hf
    cases hq : Critnib.find q .le (treeRun .nil ops).1 with
    | none => rfl
    | some r =>
      obtain ⟨k, v⟩ := r
      rw [hq] at ha
      obtain ⟨h1, h2, _⟩ := ha
      obtain ⟨h3, h4⟩ := (hl k v).1 h1
      have h5 := hn v h3
      have h6 := le_toNat.1 (show k ≤ q from h2)
      omega
  | some e =>
    obtain ⟨h1, h2, h3⟩ := findLe_some hf
    have hk := key e h1
    have hkn : (BitVec.ofNat 64 e.key).toNat = e.key := by
      rw [BitVec.toNat_ofNat, Nat.mod_eq_of_lt (hb e h1)]
    have hw : Wanted .le q (BitVec.ofNat 64 e.key) := le_toNat.2 (by rw [hkn]; exact h2)
    cases hq : Critnib.find q .le (treeRun .nil ops).1 with
    | none =>
      rw [hq] at ha
      have := ha _ hw
      rw [hk] at this
      cases this
    | some r =>
      obtain ⟨k, v⟩ := r
      rw [hq] at ha
      obtain ⟨g1, g2, g3⟩ := ha
      obtain ⟨g4, g5⟩ := (hl k v).1 g1
      have g6 := (g3 _ (by rw [hk]; simp) hw).1 (Or.inr rfl)
      have g7 := le_toNat.1 g6
      rw [hkn] at g7
      have g8 := h3 v g4 (by rw [g5]; exact le_toNat.1 g2)
      have hkk : k = BitVec.ofNat 64 e.key := by
        apply BitVec.eq_of_toNat_eq
        rw [hkn]
        omega
      rw [hkk, hk] at g1
      injection g1 with g1
      rw [hkk, ← g1]
      rfl

/-- Insertion without replacing (`critnib_insert(.., 0)`, as in `addAtLevel`). -/
theorem link_insert {m : Map Entry} {l : List Entry} (hl : Holds m l) (e : Entry)
    (hb : e.key < 2 ^ 64) (hnew : hasKey l e.key = false) :
    Holds (after m (.insert (BitVec.ofNat 64 e.key) e false true true) (.inserted .ok)) (e :: l) ∧
    Allowed m (.insert (BitVec.ofNat 64 e.key) e false true true) (.inserted .ok) := by
  have hkn : (BitVec.ofNat 64 e.key).toNat = e.key := by
    rw [BitVec.toNat_ofNat, Nat.mod_eq_of_lt hb]
  have hno : ∀ f ∈ l, f.key ≠ e.key := by
    intro f hf hk
    unfold hasKey at hnew
    rw [List.any_eq_false] at hnew
    exact hnew f hf (by simp [hk])
  constructor
  · intro k f
    show (if k = BitVec.ofNat 64 e.key then some e else m k) = some f ↔ _
    by_cases hk : k = BitVec.ofNat 64 e.key
    · rw [if_pos hk]
      constructor
      · intro h; injection h with h; subst h; exact ⟨by simp, by rw [hk, hkn]⟩
      · rintro ⟨h1, h2⟩
        rw [List.mem_cons] at h1
        rcases h1 with rfl | h1
        · rfl
        · exact absurd (by rw [h2, hk, hkn]) (hno f h1)
    · rw [if_neg hk, hl]
      constructor
      · rintro ⟨h1, h2⟩; exact ⟨by simp [h1], h2⟩
      · rintro ⟨h1, h2⟩
        rw [List.mem_cons] at h1
        rcases h1 with rfl | h1
        · exact absurd (BitVec.eq_of_toNat_eq (by rw [hkn, h2])) hk
        · exact ⟨h1, h2⟩
  · refine ⟨rfl, Or.inr ?_⟩
    cases hm : m (BitVec.ofNat 64 e.key) with
    | none => rfl
    | some f =>
      obtain ⟨h1, h2⟩ := (hl _ f).1 hm
      exact absurd (by rw [h2, hkn]) (hno f h1)

/-- Removal (`critnib_remove`, as in `remove`). -/
theorem link_remove {m : Map Entry} {l : List Entry} (hl : Holds m l) (x : Nat) (hb : x < 2 ^ 64)
    (v : Option Entry) :
    Holds (after m (.remove (BitVec.ofNat 64 x)) (.value v)) (l.filter fun e => e.key ≠ x) := by
  have hkn : (BitVec.ofNat 64 x).toNat = x := by
    rw [BitVec.toNat_ofNat, Nat.mod_eq_of_lt hb]
  intro k f
  show (if k = BitVec.ofNat 64 x then none else m k) = some f ↔ _
  rw [List.mem_filter]
  by_cases hk : k = BitVec.ofNat 64 x
  · rw [if_pos hk]
    constructor
    · intro h; cases h
    · rintro ⟨⟨_, h1⟩, h2⟩
      exfalso
      simp only [decide_eq_true_eq] at h1
      exact h1 (by rw [h2, hk, hkn])
  · rw [if_neg hk, hl]
    constructor
    · rintro ⟨h1, h2⟩
      refine ⟨⟨h1, ?_⟩, h2⟩
      simp only [decide_eq_true_eq]
      intro h3
      exact hk (BitVec.eq_of_toNat_eq (by rw [hkn, ← h2, h3]))
    · rintro ⟨⟨h1, _⟩, h2⟩; exact ⟨h1, h2⟩

end Verif.Tracker
