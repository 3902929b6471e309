import Verif.Disjoint.LimitsModel
import Verif.Disjoint.Model
/-!
# C26 for every interleaving

Specification: `keptBytes` is the size of the empty slabs in all buckets of all pools.
-/
namespace Verif.Disjoint.Limits

/-- The size of the empty slabs kept by all pools that share the limit. -/
def keptBytes (s : St) : Nat := (s.bs.map fun b => b.pooled * b.size).sum

/-- One slab of every bucket and the limit fit in a 64-bit counter. -/
def Fits (s : St) : Prop := s.max + (s.bs.map B.size).sum < 2 ^ 64

/-- What a bucket has in the counter for an operation that is not finished. -/
def pend (b : B) : Nat :=
  match b.pc with
  | .added _ => b.size
  | .taken => b.size
  | _ => 0

/-- The part of it that will be accepted. -/
def acc (max : Nat) (b : B) : Nat :=
  match b.pc with
  | .added prev => if prev + b.size ≤ max then b.size else 0
  | _ => 0

def pends (bs : List B) : Nat := (bs.map pend).sum
def accs (max : Nat) (bs : List B) : Nat := (bs.map (acc max)).sum
def kepts (bs : List B) : Nat := (bs.map fun b => b.pooled * b.size).sum
def sizes (bs : List B) : Nat := (bs.map B.size).sum

/-- The invariant. -/
structure Inv (max total : Nat) (bs : List B) (lost : Nat) : Prop where
  total : total = kepts bs + pends bs + lost
  lim : kepts bs + lost + accs max bs ≤ max
  prev : ∀ b ∈ bs, ∀ p, b.pc = .added p → p + b.size < 2 ^ 64
  cap : ∀ b ∈ bs, b.pooled ≤ b.maxPooled
  room : ∀ b ∈ bs, ∀ p, b.pc = .added p → b.pooled + 1 ≤ b.maxPooled

theorem acc_le_pend (max : Nat) (b : B) : acc max b ≤ pend b := by
  unfold acc pend
  cases b.pc <;> simp
  split <;> omega

theorem sum_le {l : List B} {f g : B → Nat} (h : ∀ b, f b ≤ g b) : (l.map f).sum ≤ (l.map g).sum := by
  induction l with
  | nil => simp
  | cons a l ih => have := h a; simp only [List.map_cons, List.sum_cons]; omega

theorem pend_le (b : B) : pend b ≤ b.size := by
  unfold pend
  cases b.pc <;> simp

theorem join_inv {max total bs lost size mp} (h : Inv max total bs lost) :
    Inv max total (bs ++ [⟨size, mp, 0, .idle⟩]) lost := by
  obtain ⟨h1, h2, h3, h4, h5⟩ := h
  refine ⟨?_, ?_, ?_, ?_, ?_⟩
  · simpa [kepts, pends, pend] using h1
  · simpa [kepts, accs, acc] using h2
  · intro b hb p hp
    rcases List.mem_append.1 hb with hb | hb
    · exact h3 b hb p hp
    · simp at hb; subst hb; exact absurd hp (by simp)
  · intro b hb
    rcases List.mem_append.1 hb with hb | hb
    · exact h4 b hb
    · simp at hb; subst hb; simp
  · intro b hb p hp
    rcases List.mem_append.1 hb with hb | hb
    · exact h5 b hb p hp
    · simp at hb; subst hb; exact absurd hp (by simp)

theorem step_inv {max total l1 b l2 lost o t b' d}
    (hf : max + sizes (l1 ++ b :: l2) < 2 ^ 64)
    (h : Inv max total (l1 ++ b :: l2) lost) (hs : step max total b o = some (t, b', d)) :
    Inv max t (l1 ++ b' :: l2) (lost + d) := by
  obtain ⟨h1, h2, h3, h4, h5⟩ := h
  have e : ∀ (f : B → Nat) (x : B), ((l1 ++ x :: l2).map f).sum =
      ((l1 ++ l2).map f).sum + f x := by
    intro f x; simp only [List.map_append, List.map_cons, List.sum_append, List.sum_cons]; omega
  have hpl : pends (l1 ++ l2) ≤ sizes (l1 ++ l2) := sum_le pend_le
  have hap : accs max (l1 ++ l2) ≤ pends (l1 ++ l2) := sum_le (acc_le_pend max)
  have hb : b ∈ l1 ++ b :: l2 := by simp
  have g3 := h3 b hb
  have g4 := h4 b hb
  have g5 := h5 b hb
  have hm : ∀ x ∈ l1 ++ b' :: l2, x = b' ∨ x ∈ l1 ++ b :: l2 := by
    intro x hx
    simp at hx ⊢
    tauto
  unfold kepts pends at h1
  unfold kepts accs at h2
  unfold sizes at hf
  rw [e, e] at h1
  rw [e, e] at h2
  rw [e] at hf
  unfold pends accs sizes at *
  obtain ⟨size, mp, pooled, pc⟩ := b
  simp only at h1 h2 hf g3 g4 g5
  have key : t = kepts (l1 ++ l2) + b'.pooled * b'.size + (((l1 ++ l2).map pend).sum + pend b') + (lost + d) ∧
      kepts (l1 ++ l2) + b'.pooled * b'.size + (lost + d) +
        (((l1 ++ l2).map (acc max)).sum + acc max b') ≤ max ∧
      (∀ p, b'.pc = .added p → p + b'.size < 2 ^ 64) ∧ b'.pooled ≤ b'.maxPooled ∧
      (∀ p, b'.pc = .added p → b'.pooled + 1 ≤ b'.maxPooled) := by
    unfold kepts
    generalize ((l1 ++ l2).map fun b => b.pooled * b.size).sum = K at *
    generalize ((l1 ++ l2).map pend).sum = P at *
    generalize ((l1 ++ l2).map (acc max)).sum = A at *
    generalize ((l1 ++ l2).map B.size).sum = Z at *
    cases o with
    | add =>
      simp only [step] at hs
      split at hs
      · rename_i hc
        obtain ⟨rfl, hc⟩ := hc
        cases hs
        simp only [pend, acc] at h1 h2 ⊢
        have hlt : total + size < 2 ^ 64 := by omega
        rw [Nat.mod_eq_of_lt hlt]
        refine ⟨by omega, ?_, ?_, g4, ?_⟩
        · split <;> omega
        · intro p hp; cases hp; exact hlt
        · intro p hp; exact hc
      · exact absurd hs (by simp)
    | decide =>
      simp only [step] at hs
      split at hs
      · rename_i prev
        have g3' := g3 prev rfl
        have g5' := g5 prev rfl
        rw [Nat.mod_eq_of_lt g3'] at hs
        simp only [pend, acc] at h1 h2
        split at hs
        · rename_i hle
          cases hs
          rw [if_pos hle] at h2
          simp only [pend, acc, Nat.add_mul, Nat.one_mul]
          exact ⟨by omega, by omega, fun p hp => absurd hp (by simp), g5', fun p hp => absurd hp (by simp)⟩
        · rename_i hle
          cases hs
          rw [if_neg hle] at h2
          have : (total + (2 ^ 64 - size)) % 2 ^ 64 = total - size := by omega
          rw [this]
          simp only [pend, acc]
          exact ⟨by omega, by omega, fun p hp => absurd hp (by simp), g4, fun p hp => absurd hp (by simp)⟩
      · exact absurd hs (by simp)
    | take =>
      simp only [step] at hs
      split at hs
      · rename_i hc
        obtain ⟨rfl, hc⟩ := hc
        cases hs
        simp only [pend, acc] at h1 h2 ⊢
        have hmul : pooled * size = (pooled - 1) * size + size := by
          obtain ⟨m, rfl⟩ : ∃ m, pooled = m + 1 := ⟨pooled - 1, by omega⟩
          rw [Nat.add_mul, Nat.one_mul]; simp
        exact ⟨by omega, by omega, fun p hp => absurd hp (by simp), by omega, fun p hp => absurd hp (by simp)⟩
      · exact absurd hs (by simp)
    | sub =>
      simp only [step] at hs
      split at hs
      · rename_i hc
        subst hc
        cases hs
        simp only [pend, acc] at h1 h2 ⊢
        have : (total + (2 ^ 64 - size)) % 2 ^ 64 = total - size := by omega
        rw [this]
        exact ⟨by omega, by omega, fun p hp => absurd hp (by simp), g4, fun p hp => absurd hp (by simp)⟩
      · exact absurd hs (by simp)
    | destroy =>
      simp only [step] at hs
      split at hs
      · rename_i hc
        subst hc
        cases hs
        simp only [pend, acc] at h1 h2 ⊢
        exact ⟨by omega, by omega, fun p hp => absurd hp (by simp), by omega, fun p hp => absurd hp (by simp)⟩
      · exact absurd hs (by simp)
  obtain ⟨k1, k2, k3, k4, k5⟩ := key
  unfold kepts at k1 k2
  refine ⟨?_, ?_, ?_, ?_, ?_⟩
  · unfold kepts pends; rw [e, e]; omega
  · unfold kepts accs; rw [e, e]; omega
  · intro x hx p hp
    rcases hm x hx with rfl | hx
    · exact k3 p hp
    · exact h3 x hx p hp
  · intro x hx
    rcases hm x hx with rfl | hx
    · exact k4
    · exact h4 x hx
  · intro x hx p hp
    rcases hm x hx with rfl | hx
    · exact k5 p hp
    · exact h5 x hx p hp

theorem step_size {max total b o t b' d} (hs : step max total b o = some (t, b', d)) :
    b'.size = b.size := by
  unfold step at hs
  split at hs
  · split at hs
    · cases hs; rfl
    · exact absurd hs (by simp)
  · split at hs
    · split at hs <;> cases hs <;> rfl
    · exact absurd hs (by simp)
  · split at hs
    · cases hs; rfl
    · exact absurd hs (by simp)
  · split at hs
    · cases hs; rfl
    · exact absurd hs (by simp)
  · split at hs
    · cases hs; rfl
    · exact absurd hs (by simp)

theorem run_inv {s t : St} (h : Run s t) (hi : Inv s.max s.total s.bs s.lost)
    (hf : Fits t) : Inv t.max t.total t.bs t.lost ∧ t.max = s.max ∧ s.lost ≤ t.lost := by
  induction h with
  | refl => exact ⟨hi, rfl, Nat.le_refl _⟩
  | op h hs ih =>
    have hz := step_size hs
    have hf' : Fits ⟨_, _, _, _⟩ := hf
    unfold Fits at hf'
    simp only [List.map_append, List.map_cons, List.sum_append, List.sum_cons, hz] at hf'
    obtain ⟨i1, i2, i3⟩ := ih (by
      unfold Fits; simp only [List.map_append, List.map_cons, List.sum_append, List.sum_cons]; exact hf')
    exact ⟨step_inv (by unfold sizes; simp only [List.map_append, List.map_cons, List.sum_append,
        List.sum_cons]; exact hf') i1 hs,
      i2, by simp only at i3 ⊢; omega⟩
  | join size mp h ih =>
    unfold Fits at hf
    simp only [List.map_append, List.sum_append] at hf
    obtain ⟨i1, i2, i3⟩ := ih (by unfold Fits; simp only; omega)
    exact ⟨join_inv i1, i2, i3⟩

theorem create_inv (max : Nat) : Inv max 0 [] 0 :=
  ⟨rfl, Nat.zero_le _, by simp, by simp, by simp⟩

/-- **C26, every interleaving.** Whatever pools share the limit object and however their threads
interleave, the empty slabs all of them keep, together, never exceed the limit, and no bucket has
more than its number. (`Fits`: the 64-bit counter does not wrap.) -/
theorem C26_limit {max : Nat} {t : St} (h : Run (create max) t) (hf : Fits t) :
    keptBytes t ≤ max ∧ ∀ b ∈ t.bs, b.pooled ≤ b.maxPooled := by
  obtain ⟨hi, hm, -⟩ := run_inv h (create_inv max) hf
  refine ⟨?_, hi.cap⟩
  have := hi.lim
  have hm' : t.max = max := hm
  show kepts t.bs ≤ max
  omega

/-- The counter has no drift: when no thread is between two operations and no pool has been
destroyed, it is the size of the kept slabs. -/
theorem C26_counter {max : Nat} {t : St} (h : Run (create max) t) (hf : Fits t)
    (hq : ∀ b ∈ t.bs, b.pc = .idle) (hl : t.lost = 0) : t.total = keptBytes t := by
  obtain ⟨hi, -, -⟩ := run_inv h (create_inv max) hf
  have h1 := hi.total
  have hp : pends t.bs = 0 := by
    unfold pends
    generalize t.bs = l at hq
    induction l with
    | nil => rfl
    | cons b l ih =>
      rw [List.map_cons, List.sum_cons, ih fun b' hb' => hq b' (List.mem_cons_of_mem _ hb')]
      unfold pend
      rw [hq b List.mem_cons_self]
  show t.total = kepts t.bs
  omega

/-- Two buckets, the second addition is rejected and taken back. -/
example : Run (create 100) ⟨100, 124, [⟨64, 1, 0, .added 0⟩, ⟨60, 4, 0, .added 64⟩], 0⟩ ∧
    Run (create 100) ⟨100, 64, [⟨64, 1, 1, .idle⟩, ⟨60, 4, 0, .idle⟩], 0⟩ := by
  have h1 : Run (create 100) ⟨100, 0, [⟨64, 1, 0, .idle⟩, ⟨60, 4, 0, .idle⟩], 0⟩ :=
    Run.join 60 4 (Run.join 64 1 (Run.refl _))
  have h2 := Run.op (l1 := []) (o := .add) h1 rfl
  have h3 := Run.op (l1 := [_]) (l2 := []) (o := .add) h2 rfl
  have h4 := Run.op (l1 := []) (o := .decide) h3 rfl
  have h5 := Run.op (l1 := [_]) (l2 := []) (o := .decide) h4 rfl
  exact ⟨h3, h5⟩

example : Fits ⟨100, 124, [⟨64, 1, 0, .added 0⟩, ⟨60, 4, 0, .added 64⟩], 0⟩ := by
  unfold Fits; decide

/-- **C46** is violated: destroying a pool does not give its share back. Here one pool kept 64
bytes, was destroyed, and the limit of 100 bytes is used up to 64 for ever: another pool that
shares the limit has nothing and cannot keep a single slab of 60 bytes. -/
theorem C46_destroyReturnsShare_violated :
    ∃ t : St, Run (create 100) t ∧ keptBytes t = 0 ∧
      (∃ b ∈ t.bs, b.pc = .idle ∧ b.size = 60 ∧ b.size ≤ t.max ∧ b.pooled < b.maxPooled) ∧
      ∀ t', Run t t' → Fits t' → keptBytes t' ≤ 36 := by
  have h1 : Run (create 100) ⟨100, 0, [⟨64, 1, 0, .idle⟩, ⟨60, 4, 0, .idle⟩], 0⟩ :=
    Run.join 60 4 (Run.join 64 1 (Run.refl _))
  have h2 := Run.op (l1 := []) (o := .add) h1 rfl
  have h3 := Run.op (l1 := []) (o := .decide) h2 rfl
  have h4 : Run (create 100) ⟨100, 64, [⟨64, 1, 0, .gone⟩, ⟨60, 4, 0, .idle⟩], 64⟩ :=
    Run.op (l1 := []) (o := .destroy) h3 rfl
  refine ⟨_, h4, rfl, ⟨⟨60, 4, 0, .idle⟩, by simp, rfl, rfl, by decide, by decide⟩, ?_⟩
  intro t' ht hf
  have hi : Inv 100 64 [⟨64, 1, 0, .gone⟩, ⟨60, 4, 0, .idle⟩] 64 :=
    ⟨rfl, by decide, by simp, by simp, by simp⟩
  obtain ⟨h5, h6, h7⟩ := run_inv ht hi hf
  have := h5.lim
  simp only at h6 h7
  show kepts t'.bs ≤ 36
  have h8 : t'.max = 100 := h6
  have h9 : 64 ≤ t'.lost := h7
  omega

/-- What remains available after pools were destroyed: the limit minus what they had. -/
theorem C46_available_partial {max : Nat} {t : St} (h : Run (create max) t) (hf : Fits t) :
    keptBytes t + t.lost ≤ max := by
  obtain ⟨hi, hm, -⟩ := run_inv h (create_inv max) hf
  have := hi.lim
  have hm' : t.max = max := hm
  show kepts t.bs + t.lost ≤ max
  omega

/-- Without interference the two steps are `bucket_can_pool` of `Verif.Disjoint.Model`. -/
theorem canPool_eq (c : Disjoint.Cfg) (i : Nat) (st : Disjoint.St)
    (hf : st.total + slabSize c i < 2 ^ 64) :
    let b : B := ⟨slabSize c i, maxPooled c i, (st.bk i).pooled, .idle⟩
    (canPool c i st).2 = true ↔
      ∃ t b1, step c.limMax st.total b .add = some (t, b1, 0) ∧
        step c.limMax t b1 .decide =
          some ((canPool c i st).1.total, { b with pooled := ((canPool c i st).1.bk i).pooled }, 0) ∧
        ((canPool c i st).1.bk i).pooled = (st.bk i).pooled + 1 := by
  intro b
  unfold canPool
  by_cases h1 : (st.bk i).pooled + 1 ≤ maxPooled c i
  · by_cases h2 : st.total + slabSize c i ≤ c.limMax
    · simp only [if_pos h1, if_pos h2, true_iff]
      refine ⟨st.total + slabSize c i, { b with pc := .added st.total }, ?_, ?_, by simp [setBk]⟩
      · simp only [step, b]
        rw [if_pos ⟨trivial, h1⟩, Nat.mod_eq_of_lt hf]
      · simp only [step, b]
        rw [Nat.mod_eq_of_lt hf, if_pos h2]
        simp [setBk]
    · simp only [if_pos h1, if_neg h2]
      constructor
      · intro h; exact absurd h (by simp)
      · rintro ⟨t, b1, _, _, h⟩; omega
  · simp only [if_neg h1]
    constructor
    · intro h; exact absurd h (by simp)
    · rintro ⟨t, b1, _, _, h⟩; omega

end Verif.Disjoint.Limits
