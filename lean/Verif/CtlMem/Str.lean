import Verif.CtlMem.Spec
import Verif.Ctl.Lemmas
/-!
# `strtok_r` in a buffer
-/
namespace Verif.CtlMem
open Verif.Ctl (Node Call Field Val QType Index Arg isSpace strtoll)

theorem Same.refl (l : List Char) (lo hi : Nat) : Same l l lo hi := ⟨rfl, fun _ _ => rfl⟩

theorem Same.trans {l l' l'' : List Char} {lo hi : Nat} (h : Same l l' lo hi) (h' : Same l' l'' lo hi) : Same l l'' lo hi :=
  ⟨h'.1.trans h.1, fun i hi => (h'.2 i hi).trans (h.2 i hi)⟩

theorem Same.mono {l l' : List Char} {lo hi lo' hi' : Nat} (h : Same l l' lo hi) (h1 : lo' ≤ lo) (h2 : hi ≤ hi') :
    Same l l' lo' hi' := ⟨h.1, fun i hi => h.2 i (by omega)⟩

theorem holds_iff {l : List Char} {p : Nat} {s : List Char} :
    Holds l p s ↔ nul ∉ s ∧ (∀ i, i < s.length → l[p + i]? = s[i]?) ∧ l[p + s.length]? = some nul := by
  unfold Holds
  refine and_congr_right fun _ => ⟨?_, ?_⟩
  · rintro ⟨rest, h⟩
    refine ⟨fun i hi => ?_, ?_⟩
    · rw [← List.getElem?_drop, h, List.getElem?_append_left hi]
    · rw [← List.getElem?_drop, h, List.getElem?_append_right (Nat.le_refl _), Nat.sub_self]
      rfl
  · rintro ⟨h1, h2⟩
    refine ⟨l.drop (p + s.length + 1), ?_⟩
    apply List.ext_getElem?
    intro i
    rw [List.getElem?_drop]
    rcases Nat.lt_trichotomy i s.length with h | h | h
    · rw [List.getElem?_append_left h]
      exact h1 i h
    · subst h
      rw [List.getElem?_append_right (Nat.le_refl _), Nat.sub_self, h2]
      rfl
    · rw [List.getElem?_append_right (Nat.le_of_lt h)]
      obtain ⟨k, rfl⟩ := Nat.exists_eq_add_of_lt h
      rw [show s.length + k + 1 - s.length = k + 1 by omega, List.getElem?_cons_succ, List.getElem?_drop]
      congr 1
      omega

theorem Holds.frame {l l' : List Char} {p lo hi : Nat} {s : List Char} (h : Holds l p s) (hs : Same l l' lo hi)
    (hd : p + s.length < lo ∨ hi ≤ p) : Holds l' p s := by
  rw [holds_iff] at *
  refine ⟨h.1, fun i hi => ?_, ?_⟩
  · rw [hs.2 _ (by omega)]
    exact h.2.1 i hi
  · rw [hs.2 _ (by omega)]
    exact h.2.2

theorem Holds.cstr {l : List Char} {p : Nat} {s : List Char} (h : Holds l p s) : cstr (l.drop p) = some s := by
  obtain ⟨h1, rest, h2⟩ := h
  rw [h2]
  clear h2
  induction s with
  | nil => simp [CtlMem.cstr]
  | cons c s ih =>
    simp only [List.mem_cons, not_or] at h1
    rw [List.cons_append, CtlMem.cstr, if_neg (fun e => h1.1 e.symm), ih h1.2]
    rfl

theorem holds_dup (s : List Char) (h : nul ∉ s) : Holds (s ++ [nul]) 0 s := ⟨h, [], by simp⟩

theorem Holds.lt {l : List Char} {p : Nat} {s : List Char} (h : Holds l p s) : p + s.length < l.length := by
  have := (holds_iff.1 h).2.2
  rw [List.getElem?_eq_some_iff] at this
  exact this.1

theorem Holds.drop {l : List Char} {p k : Nat} {s : List Char} (h : Holds l p s) (hk : k ≤ s.length) :
    Holds l (p + k) (s.drop k) := by
  obtain ⟨h1, rest, h2⟩ := h
  refine ⟨fun hc => h1 (List.mem_of_mem_drop hc), rest, ?_⟩
  rw [← List.drop_drop, h2, List.drop_append_of_le_length hk]

theorem spn_eq {sep : Char} (hsep : sep ≠ nul) (s rest : List Char) :
    spn sep (s ++ nul :: rest) = some (s.takeWhile (· == sep)).length := by
  induction s with
  | nil => simp [spn, Ne.symm hsep]
  | cons c s ih =>
    by_cases h : c = sep
    · subst h
      simp [spn, ih]
    · simp [spn, h]

theorem cspn_eq {sep : Char} (s rest : List Char) (h0 : nul ∉ s) :
    cspn sep (s ++ nul :: rest) = some (s.takeWhile (· != sep)).length := by
  induction s with
  | nil => simp [cspn]
  | cons c s ih =>
    simp only [List.mem_cons, not_or] at h0
    by_cases h : c = sep
    · subst h
      simp [cspn]
    · simp [cspn, h, Ne.symm h0.1, ih h0.2]

/-- What one call of `strtok_r` does in a buffer. -/
theorem strtokB_spec {l : List Char} {p : Nat} {s : List Char} (h : Holds l p s) {sep : Char} (hsep : sep ≠ nul) :
    (Ctl.strtok sep s = none ∧ ∃ save, strtokB l sep p = some (l, none, save)) ∨
    ∃ o t rest l' save, Ctl.strtok sep s = some (o, t, rest) ∧ strtokB l sep p = some (l', some (p + o), save) ∧
      Holds l' (p + o) t ∧ Holds l' save rest ∧ Same l l' p (p + s.length) ∧ p + o + t.length ≤ save ∧
      save + rest.length = p + s.length ∧ (rest = [] ∨ save = p + o + t.length + 1) := by
  obtain ⟨h0, r, h1⟩ := h
  have hk : spn sep (l.drop p) = some (s.takeWhile (· == sep)).length := by rw [h1, spn_eq hsep]
  generalize hkk : (s.takeWhile (· == sep)).length = k at hk
  have hle : k ≤ s.length := by rw [← hkk]; exact (List.takeWhile_prefix _).length_le
  have hd : l.drop (p + k) = s.drop k ++ nul :: r := by
    rw [← List.drop_drop, h1, List.drop_append_of_le_length hle]
  have hc : l[p + k]? = (s.drop k ++ nul :: r)[0]? := by rw [← hd, List.getElem?_drop, Nat.add_zero]
  have n0 : nul ∉ s.drop k := fun hc => h0 (List.mem_of_mem_drop hc)
  have hp : Ctl.strtok sep s = if s.drop k = [] then none else
      some (k, (s.drop k).takeWhile (· != sep), (s.drop k).drop (((s.drop k).takeWhile (· != sep)).length + 1)) := by
    unfold Ctl.strtok
    rw [hkk]
  have hlen : (s.drop k).length = s.length - k := List.length_drop
  generalize hs' : s.drop k = s' at *
  cases s' with
  | nil =>
    left
    refine ⟨by rw [hp, if_pos rfl], p + k, ?_⟩
    unfold strtokB
    rw [hk]
    simp [hc]
  | cons c s1 =>
    right
    rw [if_neg (by simp)] at hp
    have hcn : c ≠ nul := fun e => n0 (by simp [e])
    have hj : cspn sep (l.drop (p + k)) = some ((c :: s1).takeWhile (· != sep)).length := by
      rw [hd, cspn_eq _ _ n0]
    have hsplit := (List.takeWhile_append_dropWhile (p := (· != sep)) (l := c :: s1)).symm
    generalize ht : (c :: s1).takeWhile (· != sep) = t at *
    have hgoal : ∀ e, l[p + k + t.length]? = some e → strtokB l sep p =
        if e = nul then some (l, some (p + k), p + k + t.length)
        else some (l.set (p + k + t.length) nul, some (p + k), p + k + t.length + 1) := by
      intro e he
      unfold strtokB
      rw [hk]
      simp only [Option.bind_some]
      rw [hc]
      simp only [List.cons_append, List.getElem?_cons_zero, Option.bind_some]
      rw [if_neg hcn, hj]
      simp only [Option.bind_some]
      rw [he]
      rfl
    cases hdw : (c :: s1).dropWhile (· != sep) with
    | nil =>
      rw [hdw, List.append_nil] at hsplit
      have he : l[p + k + t.length]? = some nul := by
        rw [← List.getElem?_drop, hd, hsplit, List.getElem?_append_right (Nat.le_refl _), Nat.sub_self]
        rfl
      have hl : t.length = s.length - k := by rw [← hlen, hsplit]
      have hrest : (c :: s1).drop (t.length + 1) = [] := by
        apply List.drop_eq_nil_of_le
        omega
      rw [hrest] at hp
      refine ⟨k, t, [], l, p + k + t.length, hp, ?_, ?_, ?_, Same.refl _ _ _, Nat.le_refl _, ?_, .inl rfl⟩
      · rw [hgoal _ he, if_pos rfl]
      · exact ⟨hsplit ▸ n0, r, by rw [hd, hsplit]⟩
      · refine ⟨by simp, r, ?_⟩
        rw [← List.drop_drop, hd, hsplit, List.drop_left]
        rfl
      · simp only [List.length_nil]
        omega
    | cons d rest =>
      rw [hdw] at hsplit
      have hdn : d ≠ nul := fun e => n0 (by rw [hsplit, e]; simp)
      have he : l[p + k + t.length]? = some d := by
        rw [← List.getElem?_drop, hd, hsplit, List.append_assoc, List.getElem?_append_right (Nat.le_refl _), Nat.sub_self]
        rfl
      have hl : t.length + rest.length + 1 = s.length - k := by
        rw [← hlen, hsplit]
        simp
        omega
      have hrest : (c :: s1).drop (t.length + 1) = rest := by
        rw [hsplit, ← List.drop_drop, List.drop_left]
        rfl
      rw [hrest] at hp
      have hset : (l.set (p + k + t.length) nul).drop (p + k) = t ++ nul :: (rest ++ nul :: r) := by
        rw [List.drop_set, if_neg (by omega), hd, hsplit, show p + k + t.length - (p + k) = t.length by omega,
          List.append_assoc, List.set_append_right _ _ (Nat.le_refl _), Nat.sub_self]
        rfl
      refine ⟨k, t, rest, l.set (p + k + t.length) nul, p + k + t.length + 1, hp, ?_, ?_, ?_, ?_, by omega, by omega,
        .inr rfl⟩
      · rw [hgoal _ he, if_neg hdn]
      · refine ⟨fun hm => n0 ?_, _, hset⟩
        rw [hsplit]
        exact List.mem_append_left _ hm
      · refine ⟨fun hm => n0 ?_, r, ?_⟩
        · rw [hsplit]
          exact List.mem_append_right _ (List.mem_cons_of_mem _ hm)
        · rw [Nat.add_assoc (p + k), ← List.drop_drop, hset, ← List.drop_drop, List.drop_left]
          rfl
      · refine ⟨by simp, fun i hi => ?_⟩
        rw [List.getElem?_set, if_neg (by omega)]

theorem overwrite_same (l : List Char) (p n : Nat) (f : Nat → Option Char) : Same l (overwrite l p n f) p (p + n) := by
  refine ⟨by simp [overwrite], fun i hi => ?_⟩
  unfold overwrite
  rw [List.getElem?_mapIdx]
  cases l[i]? with
  | none => rfl
  | some c => simp only [Option.map_some]; rw [if_neg (by omega)]

end Verif.CtlMem
