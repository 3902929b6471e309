import Verif.Ravl.Model
/-! Helper lemmas for the ravl model. -/
namespace Verif.Ravl
variable {α : Type}

/-- In-order contents left of the hole. -/
def pathPre : Path α → List α
  | [] => []
  | f :: p => pathPre p ++ (match f.slot with
      | .left => [] | .right => foreachOrder f.sibling ++ [f.data])

/-- In-order contents right of the hole. -/
def pathPost : Path α → List α
  | [] => []
  | f :: p => (match f.slot with
      | .left => f.data :: foreachOrder f.sibling | .right => []) ++ pathPost p

theorem toList_plug (f : Frame α) (t : Tree α) :
    foreachOrder (f.plug t) = (match f.slot with
      | .left => [] | .right => foreachOrder f.sibling ++ [f.data]) ++ foreachOrder t ++
      (match f.slot with | .left => f.data :: foreachOrder f.sibling | .right => []) := by
  unfold Frame.plug
  cases f.slot <;> simp [foreachOrder]

theorem toList_zip (t : Tree α) (p : Path α) :
    foreachOrder (zip t p) = pathPre p ++ foreachOrder t ++ pathPost p := by
  induction p generalizing t with
  | nil => simp [zip, pathPre, pathPost]
  | cons f p ih => rw [zip, ih, toList_plug]; simp [pathPre, pathPost]

theorem toList_addRank (t : Tree α) (i : Int) : foreachOrder (t.addRank i) = foreachOrder t := by
  cases t <;> rfl

theorem toList_mapChild (t : Tree α) (s : Slot) (g : Tree α → Tree α)
    (hg : ∀ u, foreachOrder (g u) = foreachOrder u) :
    foreachOrder (t.mapChild s g) = foreachOrder t := by
  cases t <;> cases s <;> simp [Tree.mapChild, foreachOrder, hg]

theorem toList_rotate (n : Tree α) (f : Frame α) :
    foreachOrder (rotate n f) = foreachOrder (f.plug n) := by
  unfold rotate Frame.plug
  cases n <;> cases f.slot <;> simp [foreachOrder]

theorem toList_promoteLoop (n : Tree α) (p : Path α) :
    foreachOrder (zip (promoteLoop n p).1 (promoteLoop n p).2) = foreachOrder (zip n p) := by
  induction p generalizing n with
  | nil => rfl
  | cons f p ih =>
    unfold promoteLoop
    split
    · rw [ih, zip, toList_zip, toList_zip, toList_addRank]
    · rfl

theorem toList_fixup (n : Tree α) (p : Path α) :
    foreachOrder (fixup n p) = foreachOrder (zip n p) := by
  cases p with
  | nil => cases n <;> rfl
  | cons f p =>
    cases n with
    | nil => rfl
    | node l d k r =>
      unfold fixup
      simp only
      split
      · split
        · rw [toList_zip, toList_mapChild _ _ _ (fun u => toList_addRank u _), toList_rotate,
            zip, toList_zip]
        · split
          · rw [toList_zip, toList_mapChild _ _ _ (fun u => toList_addRank u _),
              toList_mapChild _ _ _ (fun u => toList_addRank u _), toList_addRank, toList_rotate,
              toList_plug, toList_rotate, zip, toList_zip, toList_plug f (.node l d k r)]
            congr 2
            unfold Frame.plug
            cases f.slot <;> simp [Slot.opposite, Tree.child, foreachOrder]
          · rfl
      · rfl

theorem toList_balance (n : Tree α) (p : Path α) :
    foreachOrder (balance n p) = pathPre p ++ foreachOrder n ++ pathPost p := by
  unfold balance
  rw [toList_fixup, toList_promoteLoop, toList_zip]

/-- Strictly increasing keys. -/
def Sorted (key : α → Nat) (l : List α) : Prop := l.Pairwise fun a b => key a < key b

theorem Sorted.append_iff (key : α → Nat) (a b : List α) :
    Sorted key (a ++ b) ↔ Sorted key a ∧ Sorted key b ∧ ∀ x ∈ a, ∀ y ∈ b, key x < key y := by
  unfold Sorted; rw [List.pairwise_append]

theorem Sorted.cons_iff (key : α → Nat) (x : α) (l : List α) :
    Sorted key (x :: l) ↔ (∀ y ∈ l, key x < key y) ∧ Sorted key l := by
  unfold Sorted; rw [List.pairwise_cons]

theorem descend_spec (key : α → Nat) (x : α) (t : Tree α) (p : Path α)
    (hs : Sorted key (foreachOrder t))
    (hpre : ∀ y ∈ pathPre p, key y < key x) (hpost : ∀ y ∈ pathPost p, key x < key y) :
    match descend key x t p with
    | none => ∃ y ∈ foreachOrder t, key y = key x
    | some p' => foreachOrder (zip .nil p') = foreachOrder (zip t p) ∧
        (∀ y ∈ pathPre p', key y < key x) ∧ (∀ y ∈ pathPost p', key x < key y) := by
  induction t generalizing p with
  | nil => exact ⟨rfl, hpre, hpost⟩
  | node l d k r ihl ihr =>
    simp only [foreachOrder, Sorted.append_iff, Sorted.cons_iff, List.mem_cons] at hs
    obtain ⟨hl, ⟨hdr, hr⟩, hlr⟩ := hs
    unfold descend
    by_cases h : key x = key d
    · simp only [h, if_true]; exact ⟨d, by simp [foreachOrder], rfl⟩
    · simp only [h, if_false]
      by_cases h2 : key x > key d
      · simp only [h2, if_true]
        have := ihr (⟨.right, d, k, l⟩ :: p) hr
          (by simp only [pathPre, List.mem_append, List.mem_cons, List.not_mem_nil, or_false]
              rintro y (h | h | rfl)
              · exact hpre y h
              · exact Nat.lt_trans (hlr y h d (Or.inl rfl)) h2
              · exact h2)
          (by simpa [pathPost] using hpost)
        split at this
        · rename_i heq; obtain ⟨y, hy, he⟩ := this
          exact ⟨y, by simp [foreachOrder, hy], he⟩
        · rename_i heq; exact this
      · simp only [h2, if_false]
        have h3 : key x < key d := by omega
        have := ihl (⟨.left, d, k, r⟩ :: p) hl (by simpa [pathPre] using hpre)
          (by simp only [pathPost, List.cons_append, List.mem_append, List.mem_cons]
              rintro y (rfl | h | h)
              · exact h3
              · exact Nat.lt_trans h3 (hdr y h)
              · exact hpost y h)
        split at this
        · rename_i heq; obtain ⟨y, hy, he⟩ := this
          exact ⟨y, by simp [foreachOrder, hy], he⟩
        · rename_i heq; exact this

theorem typeMost_left (t : Tree α) : typeMost .left t = (foreachOrder t).head? := by
  induction t with
  | nil => rfl
  | node l d k r ihl _ =>
    simp only [typeMost, foreachOrder, ihl, List.head?_append]
    cases (foreachOrder l).head? <;> rfl

theorem typeMost_right (t : Tree α) : typeMost .right t = (foreachOrder t).getLast? := by
  induction t with
  | nil => rfl
  | node l d k r _ ihr =>
    simp only [typeMost, foreachOrder, ihr, List.getLast?_append, List.getLast?_cons]
    cases (foreachOrder r).getLast? <;> simp

theorem climb_right (p : Path α) : climb .right p = (pathPost p).head? := by
  induction p with
  | nil => rfl
  | cons f p ih =>
    unfold climb pathPost
    cases h : f.slot <;> simp [ih]

theorem climb_left (p : Path α) : climb .left p = (pathPre p).getLast? := by
  induction p with
  | nil => rfl
  | cons f p ih =>
    unfold climb pathPre
    cases h : f.slot <;> simp [ih]

theorem cessor_right (l r : Tree α) (d : α) (k : Int) (p : Path α) :
    cessor .right (.node l d k r) p = (foreachOrder r ++ pathPost p).head? := by
  unfold cessor
  cases r with
  | nil => simp [Tree.child, climb_right, foreachOrder]
  | node rl rd rk rr =>
    simp only [Tree.child, Slot.opposite, typeMost_left, List.head?_append]
    simp [foreachOrder]

theorem cessor_left (l r : Tree α) (d : α) (k : Int) (p : Path α) :
    cessor .left (.node l d k r) p = (pathPre p ++ foreachOrder l).getLast? := by
  unfold cessor
  cases l with
  | nil => simp [Tree.child, climb_left, foreachOrder]
  | node rl rd rk rr =>
    simp only [Tree.child, Slot.opposite, typeMost_right, List.getLast?_append]
    have : (foreachOrder (Tree.node rl rd rk rr)).getLast?.isSome := by simp [foreachOrder]
    cases h : (foreachOrder (Tree.node rl rd rk rr)).getLast? with
    | none => rw [h] at this; cases this
    | some x => rfl

theorem findLoop_equal (key : α → Nat) (q : Nat) (t : Tree α) (p : Path α) 
    (hs : Sorted key (foreachOrder t)) :
    findLoop key q ⟨true, false, false⟩ t p none = (foreachOrder t).find? (fun y => q = key y) := by
  induction t generalizing p with
  | nil => rfl
  | node l d k r ihl ihr =>
    simp only [foreachOrder, Sorted.append_iff, Sorted.cons_iff, List.mem_cons] at hs
    obtain ⟨hl, ⟨hdr, hr⟩, hlr⟩ := hs
    unfold findLoop
    simp only [true_and, Bool.false_eq_true, false_and, if_false, foreachOrder, List.find?_append,
      List.find?_cons]
    split
    · rename_i h
      have : (foreachOrder l).find? (fun y => decide (q = key y)) = none := by
        rw [List.find?_eq_none]; intro y hy; have := hlr y hy d (Or.inl rfl); simp; omega
      rw [this]; simp [h]
    · rename_i h
      simp only [h, decide_false]
      split
      · rename_i h2
        have : (foreachOrder l).find? (fun y => decide (q = key y)) = none := by
          rw [List.find?_eq_none]; intro y hy; have := hlr y hy d (Or.inl rfl); simp; omega
        rw [ihr _ hr, this]; rfl
      · rename_i h2
        have : (foreachOrder r).find? (fun y => decide (q = key y)) = none := by
          rw [List.find?_eq_none]; intro y hy; have := hdr y hy; simp; omega
        rw [ihl _ hl, this]; simp

/-- Search upwards: first element ≥ q (with `eq`) or > q. -/
theorem findLoop_greater (key : α → Nat) (q : Nat) (eq : Bool) (t : Tree α) (p : Path α)
    (r : Option α) (hs : Sorted key (foreachOrder t)) (hr : r = (pathPost p).head?)
    (hpost : ∀ y ∈ pathPost p, q < key y) :
    findLoop key q ⟨eq, true, false⟩ t p r =
      (foreachOrder t ++ pathPost p).find? (fun y => q < key y || (eq && q == key y)) := by
  have hpf : (pathPost p).find? (fun y => q < key y || (eq && q == key y)) = (pathPost p).head? := by
    cases h : pathPost p with
    | nil => rfl
    | cons a as =>
      have := hpost a (by rw [h]; exact List.mem_cons_self)
      simp [this]
  induction t generalizing p r with
  | nil => simp [findLoop, foreachOrder, hpf, hr]
  | node l d k rt ihl ihr =>
    simp only [foreachOrder, Sorted.append_iff, Sorted.cons_iff, List.mem_cons] at hs
    obtain ⟨hl, ⟨hdr, hrt⟩, hlr⟩ := hs
    have hnone : q ≥ key d → ∀ (g : Bool), (foreachOrder l).find? (fun y => q < key y || (g && q == key y)) = none := by
      intro h g; rw [List.find?_eq_none]; intro y hy; have := hlr y hy d (Or.inl rfl); simp; omega
    unfold findLoop
    simp only [foreachOrder]
    by_cases h1 : q = key d
    · cases eq
      · simp only [Bool.false_eq_true, false_and, if_false, h1, Nat.lt_irrefl, and_false, true_and,
          if_true, cessor_right]
        rw [List.append_assoc, List.find?_append, ← h1, hnone (by omega)]
        simp only [List.cons_append, List.find?_cons, h1, Nat.lt_irrefl, decide_false, Bool.false_and,
          Bool.or_false, Option.none_or]
        cases hc : foreachOrder rt ++ pathPost p with
        | nil => rfl
        | cons a as =>
          have : key d < key a := by
            have ha : a ∈ foreachOrder rt ++ pathPost p := by rw [hc]; exact List.mem_cons_self
            rcases List.mem_append.1 ha with h | h
            · exact hdr a h
            · have := hpost a h; omega
          simp [this]
      · simp only [h1, and_self, if_true]
        rw [List.append_assoc, List.find?_append, ← h1, hnone (by omega)]
        simp [h1]
    · simp only [h1, and_false, if_false, true_and, Bool.false_eq_true, false_and]
      by_cases h2 : q < key d
      · simp only [h2, if_true]
        rw [ihl (⟨.left, d, k, rt⟩ :: p) (some d) hl (by simp [pathPost])
          (by simp only [pathPost, List.cons_append, List.mem_cons, List.mem_append]
              rintro y (rfl | h | h)
              · exact h2
              · exact Nat.lt_trans h2 (hdr y h)
              · exact hpost y h)
          (by simp [pathPost, h2])]
        simp [pathPost]
      · simp only [h2, if_false]
        have h3 : q > key d := by omega
        simp only [h3, if_true]
        rw [ihr (⟨.right, d, k, l⟩ :: p) r hrt (by simpa [pathPost] using hr)
          (by simpa [pathPost] using hpost) (by simpa [pathPost] using hpf)]
        rw [List.append_assoc, List.find?_append (xs := foreachOrder l), hnone (by omega)]
        simp [pathPost, h2, h1]

/-- Search downwards: last element ≤ q (with `eq`) or < q. -/
theorem findLoop_less (key : α → Nat) (q : Nat) (eq : Bool) (t : Tree α) (p : Path α)
    (r : Option α) (hs : Sorted key (foreachOrder t)) (hr : r = (pathPre p).getLast?)
    (hpre : ∀ y ∈ pathPre p, key y < q) :
    findLoop key q ⟨eq, false, true⟩ t p r =
      (pathPre p ++ foreachOrder t).reverse.find? (fun y => key y < q || (eq && q == key y)) := by
  have hpf : (pathPre p).reverse.find? (fun y => key y < q || (eq && q == key y))
      = (pathPre p).getLast? := by
    rw [← List.head?_reverse]
    cases h : (pathPre p).reverse with
    | nil => rfl
    | cons a as =>
      have := hpre a (by rw [← List.mem_reverse, h]; exact List.mem_cons_self)
      simp [this]
  induction t generalizing p r with
  | nil => simp only [findLoop, foreachOrder, List.append_nil, hpf, hr]
  | node l d k rt ihl ihr =>
    simp only [foreachOrder, Sorted.append_iff, Sorted.cons_iff, List.mem_cons] at hs
    obtain ⟨hl, ⟨hdr, hrt⟩, hlr⟩ := hs
    have hnone : q ≤ key d → ∀ (g : Bool), (foreachOrder rt).reverse.find? (fun y => key y < q || (g && q == key y)) = none := by
      intro h g; rw [List.find?_eq_none]; intro y hy; rw [List.mem_reverse] at hy
      have := hdr y hy; simp; omega
    have hsplit : (pathPre p ++ (foreachOrder l ++ d :: foreachOrder rt)).reverse
        = (foreachOrder rt).reverse ++ d :: (pathPre p ++ foreachOrder l).reverse := by simp
    unfold findLoop
    simp only [foreachOrder, hsplit]
    by_cases h1 : q = key d
    · cases eq
      · simp only [Bool.false_eq_true, false_and, if_false, h1, Nat.lt_irrefl, and_false, true_and,
          if_true, cessor_left, gt_iff_lt]
        rw [List.find?_append, ← h1, hnone (by omega)]
        simp only [List.find?_cons, h1, Nat.lt_irrefl, decide_false, Bool.false_and,
          Bool.or_false, Option.none_or]
        rw [← List.head?_reverse]
        cases hc : (pathPre p ++ foreachOrder l).reverse with
        | nil => rfl
        | cons a as =>
          have : key a < key d := by
            have ha : a ∈ pathPre p ++ foreachOrder l := by
              rw [← List.mem_reverse, hc]; exact List.mem_cons_self
            rcases List.mem_append.1 ha with h | h
            · have := hpre a h; omega
            · exact hlr a h d (Or.inl rfl)
          simp [this]
      · simp only [h1, and_self, if_true]
        rw [List.find?_append, ← h1, hnone (by omega)]
        simp [h1]
    · simp only [h1, and_false, if_false, true_and, Bool.false_eq_true, false_and]
      by_cases h2 : q > key d
      · simp only [h2, if_true]
        rw [ihr (⟨.right, d, k, l⟩ :: p) (some d) hrt (by simp [pathPre])
          (by simp only [pathPre, List.mem_cons, List.mem_append, List.not_mem_nil, or_false]
              rintro y (h | h | rfl)
              · exact hpre y h
              · exact Nat.lt_trans (hlr y h d (Or.inl rfl)) h2
              · exact h2)
          (by simp only [pathPre, List.reverse_append, List.reverse_cons, List.reverse_nil,
                List.nil_append, List.cons_append, List.find?_cons]
              have : key d < q := h2
              simp [this])]
        simp [pathPre]
      · simp only [h2, if_false]
        rw [ihl (⟨.left, d, k, rt⟩ :: p) r hl (by simpa [pathPre] using hr)
          (by simpa [pathPre] using hpre) (by simpa [pathPre] using hpf)]
        rw [List.find?_append, hnone (by omega)]
        have h4 : ¬ key d < q := by omega
        simp [pathPre, h4, h1]

theorem unlinkLeftmost_spec (t : Tree α) :
    match unlinkLeftmost t with
    | none => t = .nil
    | some (x, t') => foreachOrder t = x :: foreachOrder t' := by
  fun_induction unlinkLeftmost t with
  | case1 => rfl
  | case2 d k r => simp [foreachOrder]
  | case3 ll ld lk lr d k r h ih => rw [h] at ih; cases ih
  | case4 ll ld lk lr d k r x l' h ih =>
    rw [h] at ih
    simp only at ih ⊢
    rw [foreachOrder, ih]; simp [foreachOrder]

theorem toList_removeRoot (l r : Tree α) (d : α) (k : Int) :
    foreachOrder (removeRoot (.node l d k r)) = foreachOrder l ++ foreachOrder r := by
  cases l with
  | nil => cases r <;> simp [removeRoot, foreachOrder]
  | node ll ld lk lr =>
    cases r with
    | nil => simp [removeRoot, foreachOrder]
    | node rl rd rk rr =>
      have := unlinkLeftmost_spec (Tree.node rl rd rk rr)
      unfold removeRoot
      split at this
      · cases this
      · rename_i h; simp only [h]; rw [this]; simp [foreachOrder]

theorem remove_spec (key : α → Nat) (q : Nat) (t : Tree α) (hs : Sorted key (foreachOrder t)) :
    match remove key q t with
    | none => ∀ y ∈ foreachOrder t, key y ≠ q
    | some (x, t') => key x = q ∧ ∃ a b, foreachOrder t = a ++ x :: b ∧ foreachOrder t' = a ++ b := by
  induction t with
  | nil => simp [remove, foreachOrder]
  | node l d k r ihl ihr =>
    simp only [foreachOrder, Sorted.append_iff, Sorted.cons_iff, List.mem_cons] at hs
    obtain ⟨hl, ⟨hdr, hr⟩, hlr⟩ := hs
    unfold remove
    by_cases h1 : q = key d
    · simp only [h1, if_true, true_and]
      exact ⟨foreachOrder l, foreachOrder r, rfl, toList_removeRoot l r d k⟩
    · simp only [h1, if_false]
      by_cases h2 : q > key d
      · simp only [h2, if_true]
        have := ihr hr
        split at this
        · rename_i h; simp only [h]
          intro y hy
          simp only [foreachOrder, List.mem_append, List.mem_cons] at hy
          rcases hy with hy | rfl | hy
          · have := hlr y hy d (Or.inl rfl); omega
          · omega
          · exact this y hy
        · rename_i h; simp only [h]
          obtain ⟨hx, a, b, ha, hb⟩ := this
          refine ⟨hx, foreachOrder l ++ d :: a, b, ?_, ?_⟩
          · simp [foreachOrder, ha]
          · simp [foreachOrder, hb]
      · simp only [h2, if_false]
        have := ihl hl
        split at this
        · rename_i h; simp only [h]
          intro y hy
          simp only [foreachOrder, List.mem_append, List.mem_cons] at hy
          rcases hy with hy | rfl | hy
          · exact this y hy
          · omega
          · have := hdr y hy; omega
        · rename_i h; simp only [h]
          obtain ⟨hx, a, b, ha, hb⟩ := this
          refine ⟨hx, a, b ++ d :: foreachOrder r, ?_, ?_⟩
          · simp [foreachOrder, ha]
          · simp [foreachOrder, hb]

end Verif.Ravl
