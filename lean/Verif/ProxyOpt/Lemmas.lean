import Verif.Log.Props
import Verif.ProxyOpt.Spec
/-!
# Lemmas for C83
-/
namespace Verif.ProxyOpt

open Verif.Log (IsItem strstr strstr_some strstr_none strstr_first in_item)

theorem digit_iff (c : Char) : ('0' ≤ c ∧ c ≤ '9') ↔ c.isDigit = true := by
  simp only [Char.isDigit, Bool.and_eq_true, decide_eq_true_eq, ge_iff_le, Char.le_def]

theorem digit_small {c : Char} (h : c.isDigit = true) : ¬ c.toNat > 127 := by
  have := ((digit_iff c).2 h).2
  rw [Char.le_def, UInt32.le_iff_toNat_le] at this
  have h9 : ('9' : Char).val.toNat = 57 := rfl
  have : c.toNat ≤ 57 := by rw [← h9]; exact this
  omega

theorem atol_eq {v post : List Char} (hv : ∀ c ∈ v, c.isDigit = true)
    (hp : ∀ c, post.head? = some c → c.isDigit = false) (n : Nat) :
    atolDigits (v ++ post) n = Nat.ofDigitChars 10 v n := by
  induction v generalizing n with
  | nil =>
    cases post with
    | nil => rfl
    | cons c t =>
      have := hp c rfl
      simp only [List.nil_append, atolDigits, digit_iff, this]
      simp
  | cons c v ih =>
    have hc := hv c (by simp)
    simp only [List.cons_append, atolDigits, digit_iff, hc, if_true]
    rw [ih (fun d hd => hv d (List.mem_cons_of_mem _ hd)), Nat.ofDigitChars_cons, Nat.mul_comm]
    rfl

/-- The digits at the beginning of a text. -/
theorem digits_split (l : List Char) : ∃ v post, l = v ++ post ∧ (∀ c ∈ v, c.isDigit = true) ∧
    ∀ c, post.head? = some c → c.isDigit = false := by
  induction l with
  | nil => exact ⟨[], [], rfl, by simp, by simp⟩
  | cons c l ih =>
    by_cases hc : c.isDigit = true
    · obtain ⟨v, post, e, h1, h2⟩ := ih
      refine ⟨c :: v, post, by rw [e]; rfl, ?_, h2⟩
      intro d hd
      rcases List.mem_cons.1 hd with rfl | hd
      · exact hc
      · exact h1 d hd
    · refine ⟨[], c :: l, rfl, by simp, ?_⟩
      intro d hd
      simp only [List.head?_cons, Option.some.injEq] at hd
      subst hd
      simpa using hc

theorem digit_not {v : List Char} (h : ∀ c ∈ v, c.isDigit = true) {d : Char} (hd : d.isDigit = false) : d ∉ v :=
  fun hm => by rw [h d hm] at hd; cases hd

theorem thr_semi {v : List Char} (h : ∀ c ∈ v, c.isDigit = true) : ';' ∉ thrOpt ++ v := by
  rw [List.mem_append, not_or]
  exact ⟨by decide +kernel, digit_not h (by decide)⟩

/-- The text of the threshold option occurs in a documented item only at the beginning. -/
theorem thr_in_doc {var x y : List Char} (hd : Documented var) (h : IsItem var (x ++ thrOpt ++ y)) :
    x = [] ∧ IsDecimal y := by
  have hz : ('z' : Char) ∈ x ++ thrOpt ++ y := by
    simp only [List.mem_append]; left; right; decide +kernel
  rcases hd _ h with e | e | e | ⟨v, hv, e⟩
  · rw [e] at hz; cases hz
  · rw [e] at hz; exact absurd hz (by decide +kernel)
  · rw [e] at hz; exact absurd hz (by decide +kernel)
  · have hx : x = [] := by
      have ht : thrOpt = 's' :: 'i' :: 'z' :: "e.threshold=".toList := by decide +kernel
      cases x with
      | nil => rfl
      | cons c1 x =>
        exfalso
        rw [ht] at e
        cases x with
        | nil => simp at e
        | cons c2 x =>
          simp only [List.cons_append, List.cons.injEq] at e
          cases x with
          | nil => simp at e
          | cons c3 x =>
            simp only [List.cons_append, List.cons.injEq] at e
            have hm : ('z' : Char) ∈ "e.threshold=".toList ++ v := by
              rw [← e.2.2.2]; simp
            rcases List.mem_append.1 hm with hm | hm
            · revert hm; decide +kernel
            · exact digit_not hv.2 (by decide) hm
    subst hx
    simp only [List.nil_append] at e
    exact ⟨rfl, by rw [List.append_cancel_left e]; exact hv⟩

/-- The text of a visibility option occurs in a documented item only if it is the item. -/
theorem disp_in_doc {var x y o : List Char} (hd : Documented var) (ho : o = fdOpt ∨ o = shmOpt)
    (h : IsItem var (x ++ o ++ y)) : x ++ o ++ y = o := by
  have hp : ('p' : Char) ∈ x ++ o ++ y := by
    simp only [List.mem_append]; left; right
    rcases ho with rfl | rfl <;> decide +kernel
  have hi : o <:+: x ++ o ++ y := ⟨x, y, rfl⟩
  rcases hd _ h with e | e | e | ⟨v, hv, e⟩
  · rw [e] at hp; cases hp
  · rw [e] at hi ⊢
    rcases ho with rfl | rfl
    · rfl
    · revert hi; decide +kernel
  · rw [e] at hi ⊢
    rcases ho with rfl | rfl
    · revert hi; decide +kernel
    · rfl
  · rw [e] at hp
    rcases List.mem_append.1 hp with hm | hm
    · exact absurd hm (by decide +kernel)
    · exact absurd hm (digit_not hv.2 (by decide))

theorem hasStr_some (v o : List Char) : hasStr (some v) o = true ↔ ∃ a b, v = a ++ o ++ b := by
  unfold hasStr getStr
  dsimp only
  constructor
  · intro h
    cases e : strstr v o with
    | none => rw [e] at h; cases h
    | some i =>
      obtain ⟨a, b, e1, _⟩ := strstr_some e
      exact ⟨a, b, e1⟩
  · rintro ⟨a, b, e⟩
    cases e' : strstr v o with
    | none => exact absurd e (strstr_none e' a b)
    | some i => rfl

/-- In a documented list, the test for a visibility option is exact. -/
theorem has_disp {var o : List Char} (hd : Documented var) (ho : o = fdOpt ∨ o = shmOpt) :
    hasStr (some var) o = true ↔ IsItem var o := by
  have hs : ';' ∉ o := by rcases ho with rfl | rfl <;> decide +kernel
  rw [hasStr_some]
  constructor
  · rintro ⟨a, b, e⟩
    obtain ⟨pre, x, y, post, _, _, h, _, _⟩ := in_item (a := a) (b := b) hs
    rw [← e] at h
    have := disp_in_doc hd ho h
    rw [this] at h
    exact h
  · rintro ⟨_, pre, post, e, _, _⟩
    exact ⟨pre, post, e⟩

/-- The string handed to `utils_get_size_threshold`, if the option occurs. -/
theorem getStr_some {v s : List Char} (h : getStr (some v) thrOpt = some s) :
    ∃ a b, v = a ++ thrOpt ++ b ∧ s = thrOpt ++ b ∧ strstr v thrOpt = some a.length := by
  unfold getStr at h
  dsimp only at h
  cases e : strstr v thrOpt with
  | none => rw [e] at h; cases h
  | some i =>
    rw [e] at h
    obtain ⟨a, b, e1, e2⟩ := strstr_some e
    refine ⟨a, b, e1, ?_, by rw [e2]⟩
    simp only [Option.map_some, Option.some.injEq] at h
    rw [← h, e1, ← e2, List.append_assoc, List.drop_left]

theorem getStr_none {v : List Char} (h : getStr (some v) thrOpt = none) (a b : List Char) : v ≠ a ++ thrOpt ++ b := by
  unfold getStr at h
  dsimp only at h
  cases e : strstr v thrOpt with
  | none => exact strstr_none e a b
  | some i => rw [e] at h; cases h

theorem sizeThreshold_some (b : List Char) : sizeThreshold (some (thrOpt ++ b)) =
    match b with
    | [] => .ok none
    | c :: t =>
      if c.toNat > 127 then .undef
      else if ¬ c.isDigit = true then .ok none
      else if atolDigits (c :: t) 0 ≥ 2 ^ 63 then .undef
      else .ok (some (atolDigits (c :: t) 0)) := by
  unfold sizeThreshold
  have : (thrOpt ++ b).drop "size.threshold=".length = b := by
    have : "size.threshold=".length = thrOpt.length := by decide +kernel
    rw [this, List.drop_left]
  dsimp only
  rw [this]
  cases b with
  | nil => rfl
  | cons c t => simp only [digit_iff]

/-- What the threshold function does with a number. -/
theorem sizeThreshold_num {v post : List Char} (hv : IsDecimal v)
    (hp : ∀ c, post.head? = some c → c.isDigit = false) (hs : Nat.ofDigitChars 10 v 0 < 2 ^ 63) :
    sizeThreshold (some (thrOpt ++ (v ++ post))) = .ok (some (Nat.ofDigitChars 10 v 0)) := by
  rw [sizeThreshold_some]
  have e := atol_eq hv.2 hp 0
  cases v with
  | nil => exact absurd rfl hv.1
  | cons c v =>
    have hc := hv.2 c (by simp)
    rw [List.cons_append] at e
    simp only [List.cons_append]
    rw [e, if_neg (digit_small hc), if_neg (by simp [hc]), if_neg (by omega)]

theorem semi_head {post : List Char} (h : post = [] ∨ ∃ p, post = ';' :: p) (c : Char) (hc : post.head? = some c) :
    c.isDigit = false := by
  rcases h with rfl | ⟨p, rfl⟩
  · cases hc
  · simp only [List.head?_cons, Option.some.injEq] at hc
    subst hc; decide

/-- Two numbers in front of the same rest. -/
theorem num_unique {v w post qost : List Char} (hv : ∀ c ∈ v, c.isDigit = true) (hw : ∀ c ∈ w, c.isDigit = true)
    (hp : ∀ c, post.head? = some c → c.isDigit = false) (hq : ∀ c, qost.head? = some c → c.isDigit = false)
    (e : v ++ post = w ++ qost) : v = w := by
  induction v generalizing w with
  | nil =>
    cases w with
    | nil => rfl
    | cons c w =>
      have := hp c (by rw [List.nil_append] at e; rw [e]; rfl)
      rw [hw c (by simp)] at this; cases this
  | cons c v ih =>
    cases w with
    | nil =>
      have := hq c (by rw [List.nil_append] at e; rw [← e]; rfl)
      rw [hv c (by simp)] at this; cases this
    | cons d w =>
      simp only [List.cons_append, List.cons.injEq] at e
      rw [e.1, ih (fun c h => hv c (List.mem_cons_of_mem _ h)) (fun c h => hw c (List.mem_cons_of_mem _ h)) e.2]

/-- The first occurrence is in the first item that sets the threshold. -/
theorem first_is_asked {var a b : List Char} {n : Nat} (hd : Documented var) (e : var = a ++ thrOpt ++ b)
    (hf : strstr var thrOpt = some a.length) (hn : Asks var n) :
    ∃ v post, b = v ++ post ∧ IsDecimal v ∧ (post = [] ∨ ∃ p, post = ';' :: p) ∧ n = Nat.ofDigitChars 10 v 0 := by
  obtain ⟨pre, x, y, post, e1, e2, hi, h1, h2⟩ := in_item (a := a) (b := b) (o := thrOpt) (by decide +kernel)
  rw [← e] at hi
  obtain ⟨rfl, hy⟩ := thr_in_doc hd hi
  rw [List.append_nil] at e1
  subst e1
  refine ⟨y, post, e2, hy, h2, ?_⟩
  rcases hn with ⟨_, hn⟩ | ⟨pre0, v, post0, f1, f2, f3, hv, rfl, hn⟩
  · exact absurd hi (by simpa using hn y)
  have hle := strstr_first hf pre0 (v ++ post0) (by rw [f1]; simp)
  have e3 : a ++ (thrOpt ++ y ++ post) = pre0 ++ (thrOpt ++ v ++ post0) := by
    rw [e2] at e
    have := e.symm.trans f1
    simpa using this
  rcases List.append_eq_append_iff.1 e3 with ⟨d, g1, g2⟩ | ⟨d, g1, g2⟩
  · -- the asked item is later, or the same
    cases d with
    | nil =>
      simp only [List.nil_append, List.append_assoc] at g2
      have := num_unique hy.2 hv.2 (semi_head h2) (semi_head f3) (List.append_cancel_left g2)
      rw [this]
    | cons c d =>
      exfalso
      have hlast : ∃ d0, c :: d = d0 ++ [';'] := by
        rcases f2 with rfl | ⟨p, rfl⟩
        · simp at g1
        · rcases List.eq_nil_or_concat (c :: d) with h | ⟨d0, z, h⟩
          · cases h
          · rw [h, List.concat_eq_append, ← List.append_assoc] at g1
            have := List.append_inj_right' g1 rfl
            rw [h, List.concat_eq_append, this]
            exact ⟨d0, rfl⟩
      obtain ⟨d0, hd0⟩ := hlast
      rw [hd0] at g2 g1
      have hns := thr_semi hy.2
      rcases List.append_eq_append_iff.1 g2 with ⟨w, k1, k2⟩ | ⟨w, k1, k2⟩
      · -- the item lies in the first part
        apply hn y
        refine ⟨hns, a, w, by rw [g1, k1]; simp, h1, ?_⟩
        rcases h2 with rfl | ⟨q, rfl⟩
        · have := k2.symm
          simp only [List.append_eq_nil_iff] at this
          exact absurd this.2.1.1 (by decide +kernel)
        · cases w with
          | nil =>
            rw [List.append_nil] at k1
            exact absurd (by rw [← k1]; simp) hns
          | cons c w =>
            simp only [List.cons_append, List.cons.injEq] at k2
            exact Or.inr ⟨w, by rw [k2.1]⟩
      · exact hns (by rw [k1]; simp)
  · cases d with
    | nil =>
      simp only [List.nil_append, List.append_assoc] at g2
      have := num_unique hv.2 hy.2 (semi_head f3) (semi_head h2) (List.append_cancel_left g2)
      rw [this]
    | cons c d =>
      rw [g1] at hle
      simp only [List.length_append, List.length_cons] at hle
      omega

end Verif.ProxyOpt
