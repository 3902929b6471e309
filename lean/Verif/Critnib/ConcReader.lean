import Verif.Critnib.ConcHist
/-! # What holds at each step of a lookup -/
namespace Verif.Critnib.Conc
open Verif.Critnib

variable {V : Type}

/-- `wrs1` of the current attempt. -/
def Pc.wrs : Pc V → Option Nat
  | .idle => Option.none
  | .start => Option.none
  | .root w => some w
  | .walk w _ => some w
  | .shift w _ _ => some w
  | .value w _ _ => some w
  | .check w _ => some w
  | .call w _ _ => some w
  | .path w _ _ _ => some w
  | .follow w _ _ _ => some w
  | .none w _ => some w
  | .pred w _ _ _ => some w
  | .pred2 w _ _ _ => some w
  | .found w _ => some w

theorem wrs_step (m : Mem V) (q : Query) {pc : Pc V} {w : Nat} (h : pc.wrs = some w)
    (hr : (readStep m q pc).2 = none) :
    (readStep m q pc).1 = .start ∨ (readStep m q pc).1.wrs = some w := by
  generalize hx : readStep m q pc = x at *
  unfold readStep at hx
  (repeat' split at hx) <;> subst hx <;> simp_all [Pc.wrs]

/-- Only the last check of `remove_count` returns. -/
theorem ret_check {m : Mem V} {q : Query} {pc : Pc V} {res : Option (W × Val V)}
    (h : (readStep m q pc).2 = some res) : ∃ w, pc = .check w res ∧ m.count < w + 16 := by
  generalize hx : readStep m q pc = x at *
  unfold readStep at hx
  (repeat' split at hx) <;> subst hx <;> simp_all

theorem check_step {m : Mem V} {q : Query} {w : Nat} {res : Option (W × Val V)}
    (h : (readStep m q (.check w res)).2 = none) : (readStep m q (.check w res)).1 = .start := by
  generalize hx : readStep m q (.check w res) = x at *
  simp only [readStep] at hx
  split at hx <;> subst hx
  · rfl
  · cases h

/-! ## `get` -/

section get
variable {f : Nat → G V}

/-- What holds during an attempt of `get K` that began at `a`, if nothing is reused before `b`. -/
def GInv (f : Nat → G V) (a b t : Nat) (K : W) : Pc V → Prop
  | .root _ => True
  | .walk _ p => Good f a b t K p
  | .shift _ n sh => Good f a b t K (.node n) ∧ sh = ((f b).mem.nodes n).shift
  | .value _ l k => k = K ∧ Was f a t (.leaf l) ∧ ((f b).mem.leaves l).key = K
  | .check _ res => ∃ s, a ≤ s ∧ s ≤ t ∧ res = (absMap (f s).mem K).map fun v => (K, .user v)
  | _ => False

theorem GInv.mono {a b t t' : Nat} {K : W} (h : t ≤ t') {pc : Pc V} (hi : GInv f a b t K pc) :
    GInv f a b t' K pc := by
  cases pc with
  | root w => exact trivial
  | walk w p => exact Good.mono h hi
  | shift w n sh => exact ⟨Good.mono h hi.1, hi.2⟩
  | value w l k => exact ⟨hi.1, hi.2.1.mono h, hi.2.2⟩
  | check w res =>
    obtain ⟨s, h1, h2, h3⟩ := hi
    exact ⟨s, h1, Nat.le_trans h2 h, h3⟩
  | _ => exact hi

theorem GInv.step {a b t : Nat} (w : Win f a b) (hat : a ≤ t) (htb : t ≤ b) {K : W} {pc : Pc V}
    (hi : GInv f a b t K pc) (hr : (readStep (f t).mem (.get K) pc).2 = none)
    (hs : (readStep (f t).mem (.get K) pc).1 ≠ .start) :
    GInv f a b t K (readStep (f t).mem (.get K) pc).1 := by
  cases pc with
  | root v => exact .inl ⟨t, hat, Nat.le_refl _, on_root _ _⟩
  | walk v p =>
    have hi : Good f a b t K p := hi
    have hw := hi.was w
    have absent : ¬ Fits (f b).mem K p → GInv f a b t K (.check v none) := by
      intro hf
      obtain ⟨s, h1, h2, h3⟩ := hi.miss w htb hf
      exact ⟨s, h1, h2, by rw [h3]; rfl⟩
    cases p with
    | null => exact absent (fun h => h)
    | leaf l =>
      have hk := w.leafAt htb hw
      show GInv f a b t K (if ((f t).mem.leaves l).key = K then (.value v l K, none)
        else (.check v none, none) : Pc V × Option (Option (W × Val V))).1
      split
      · rename_i h
        exact ⟨rfl, hw, hk.symm.trans h⟩
      · rename_i h
        exact absent (fun e => h (hk.trans e))
    | node n => exact ⟨hi, (w.nodeAt htb hw).2⟩
  | shift v n sh =>
    obtain ⟨h1, rfl⟩ := hi
    exact h1.next w htb
  | value v l k =>
    obtain ⟨rfl, h1, h2⟩ := hi
    obtain ⟨s, x, h3, h4, h5, h6⟩ := w.value htb h1
    rw [h2] at h5
    refine ⟨s, h3, h4, ?_⟩
    rw [h5, h6]; rfl
  | check v res =>
    exact absurd (check_step hr) hs
  | _ => exact hi.elim

end get

/-! ## `find_le` -/

theorem lt_of_prefix {x y : W} {sh : Nat} (h : x.toNat / 2 ^ sh < y.toNat / 2 ^ sh) : x < y := by
  rw [BitVec.lt_def]
  apply Classical.byContradiction
  intro hn
  have := Nat.div_le_div_right (c := 2 ^ sh) (Nat.le_of_not_lt hn)
  omega

theorem prefix_le {x y : W} (sh : Nat) (h : x ≤ y) : x.toNat / 2 ^ sh ≤ y.toNat / 2 ^ sh :=
  Nat.div_le_div_right (BitVec.le_def.1 h)

/-- Keys in a slot are below keys in a slot to the right. -/
theorem slot_lt {m : Mem V} {n : Nat} {i j : Fin 16} {x y : W} (hij : i < j)
    (hx : x.toNat / 2 ^ (m.nodes n).shift = slotPre m n i)
    (hy : y.toNat / 2 ^ (m.nodes n).shift = slotPre m n j) : x < y := by
  refine lt_of_prefix (sh := (m.nodes n).shift) ?_
  rw [hx, hy]
  unfold slotPre
  have : i.val < j.val := hij
  omega

section find
variable {f : Nat → G V}

/-- `c` is in the map from `a` to `b`, and no key above it up to `q`. -/
def St (f : Nat → G V) (a b : Nat) (q c : W) : Prop :=
  c ≤ q ∧ ∀ s, a ≤ s → s ≤ b → absMap (f s).mem c ≠ none ∧
    ∀ k, c < k → k ≤ q → absMap (f s).mem k = none

/-- All keys that may be below `p` are above `c`. -/
def Above (f : Nat → G V) (b : Nat) (c : W) (p : Ptr) : Prop := ∀ k, Fits (f b).mem k p → c < k

/-- The suspended calls: their nodes contain `q`, and what remains is to the left of `q`. -/
def Frames (f : Nat → G V) (a b t : Nat) (q : W) (st : List (Nat × Nat)) : Prop :=
  ∀ e ∈ st, Was f a t (.node e.1) ∧ Fits (f b).mem q (.node e.1) ∧
    e.2 ≤ (idx q ((f b).mem.nodes e.1).shift).val

/-- The suspended calls will come to `c`, and to nothing below `c` before it. -/
def Cov (f : Nat → G V) (a b t : Nat) (c : W) : List (Nat × Nat) → Prop
  | [] => False
  | (n, nib) :: st =>
    (Good f a b t c (.node n) ∧ (idx c ((f b).mem.nodes n).shift).val < nib) ∨
    (Above f b c (.node n) ∧ Cov f a b t c st)

/-- The search of `p`, then of the suspended calls, will come to `c`. -/
def CovP (f : Nat → G V) (a b t : Nat) (c : W) (st : List (Nat × Nat)) (p : Ptr) : Prop :=
  Good f a b t c p ∨ (Above f b c p ∧ Cov f a b t c st)

/-- What holds during an attempt of `find_le q` that began at `a`, if nothing is reused before
`b`. -/
def FInv (f : Nat → G V) (a b t : Nat) (q c : W) : Pc V → Prop
  | .root _ => True
  | .call _ st p => Was f a t p ∧ Frames f a b t q st ∧ (St f a b q c → CovP f a b t c st p)
  | .path _ st n pa => Was f a t (.node n) ∧ Frames f a b t q st ∧
      (St f a b q c → CovP f a b t c st (.node n)) ∧ pa = ((f b).mem.nodes n).path
  | .follow _ st n nib => Was f a t (.node n) ∧ Frames f a b t q st ∧
      (St f a b q c → CovP f a b t c st (.node n)) ∧ Fits (f b).mem q (.node n) ∧
      nib = idx q ((f b).mem.nodes n).shift
  | .none _ st => Frames f a b t q st ∧ (St f a b q c → Cov f a b t c st)
  | .pred _ st n nib => Was f a t (.node n) ∧ Frames f a b t q st ∧
      (∀ k, Fits (f b).mem k (.node n) → k < q) ∧
      (St f a b q c → Good f a b t c (.node n) ∧ idx c ((f b).mem.nodes n).shift ≤ nib)
  | .pred2 _ st n nib => Was f a t (.node n) ∧ Frames f a b t q st ∧
      (∀ k, Fits (f b).mem k (.node n) → k < q) ∧
      (St f a b q c → Good f a b t c (.node n) ∧ idx c ((f b).mem.nodes n).shift = nib)
  | .found _ l => Was f a t (.leaf l) ∧ ((f b).mem.leaves l).key ≤ q ∧
      (St f a b q c → ((f b).mem.leaves l).key = c)
  | .value _ l k => Was f a t (.leaf l) ∧ ((f b).mem.leaves l).key = k ∧ k ≤ q ∧
      (St f a b q c → k = c)
  | .check _ res => (∀ k x, res = some (k, x) → ∃ s v, a ≤ s ∧ s ≤ t ∧ x = .user v ∧
      absMap (f s).mem k = some v ∧ k ≤ q ∧ (St f a b q c → k = c)) ∧
      (St f a b q c → res ≠ Option.none)
  | _ => False

theorem Frames.mono {a b t t' : Nat} {q : W} {st : List (Nat × Nat)} (h : t ≤ t')
    (hi : Frames f a b t q st) : Frames f a b t' q st :=
  fun e he => ⟨(hi e he).1.mono h, (hi e he).2⟩

theorem Cov.mono {a b t t' : Nat} {c : W} (h : t ≤ t') : ∀ {st : List (Nat × Nat)},
    Cov f a b t c st → Cov f a b t' c st
  | [], hi => hi
  | (_, _) :: _, .inl ⟨h1, h2⟩ => .inl ⟨h1.mono h, h2⟩
  | (_, _) :: _, .inr ⟨h1, h2⟩ => .inr ⟨h1, h2.mono h⟩

theorem CovP.mono {a b t t' : Nat} {c : W} (h : t ≤ t') {st : List (Nat × Nat)} {p : Ptr} :
    CovP f a b t c st p → CovP f a b t' c st p
  | .inl h1 => .inl (h1.mono h)
  | .inr ⟨h1, h2⟩ => .inr ⟨h1, h2.mono h⟩

theorem FInv.mono {a b t t' : Nat} {q c : W} (h : t ≤ t') {pc : Pc V} (hi : FInv f a b t q c pc) :
    FInv f a b t' q c pc := by
  cases pc with
  | root w => exact trivial
  | call w st p => exact ⟨hi.1.mono h, hi.2.1.mono h, fun s => (hi.2.2 s).mono h⟩
  | path w st n pa => exact ⟨hi.1.mono h, hi.2.1.mono h, fun s => (hi.2.2.1 s).mono h, hi.2.2.2⟩
  | follow w st n nib => exact ⟨hi.1.mono h, hi.2.1.mono h, fun s => (hi.2.2.1 s).mono h, hi.2.2.2⟩
  | none w st => exact ⟨hi.1.mono h, fun s => (hi.2 s).mono h⟩
  | pred w st n nib =>
    exact ⟨hi.1.mono h, hi.2.1.mono h, hi.2.2.1, fun s => ⟨(hi.2.2.2 s).1.mono h, (hi.2.2.2 s).2⟩⟩
  | pred2 w st n nib =>
    exact ⟨hi.1.mono h, hi.2.1.mono h, hi.2.2.1, fun s => ⟨(hi.2.2.2 s).1.mono h, (hi.2.2.2 s).2⟩⟩
  | found w l => exact ⟨hi.1.mono h, hi.2⟩
  | value w l k => exact ⟨hi.1.mono h, hi.2⟩
  | check w res =>
    refine ⟨fun k x hk => ?_, hi.2⟩
    obtain ⟨s, v, h1, h2, h3⟩ := hi.1 k x hk
    exact ⟨s, v, h1, Nat.le_trans h2 h, h3⟩
  | _ => exact hi

theorem fin_pred : ∀ j x : Fin 16, ¬ j = 0 → x ≤ j → x ≠ j → x ≤ j - 1 := by decide

section step
variable {a b t : Nat} {q c : W}

theorem St.fits (w : Win f a b) (htb : t ≤ b) (hs : St f a b q c) {p : Ptr}
    (hg : Good f a b t c p) : Fits (f b).mem c p := by
  apply Classical.byContradiction
  intro hf
  obtain ⟨s, h1, h2, h3⟩ := hg.miss w htb hf
  exact (hs.2 s h1 (Nat.le_trans h2 htb)).1 h3

/-- Nothing with keys between `c` and `q` is ever in the tree. -/
theorem St.none_between (w : Win f a b) (htb : t ≤ b) (hs : St f a b q c) {p : Ptr}
    (hw : Was f a t p) (hp : p ≠ .null) (h1 : Above f b c p)
    (h2 : ∀ k, Fits (f b).mem k p → k < q) : False := by
  obtain ⟨s, K, v, h3, h4, h5, h6⟩ := w.entry htb hw hp
  have := (hs.2 s h3 (Nat.le_trans h4 htb)).2 K (h1 K h6) (BitVec.le_of_lt (h2 K h6))
  rw [h5] at this; cases this

theorem St.good_null (w : Win f a b) (htb : t ≤ b) (hs : St f a b q c)
    (hg : Good f a b t c .null) : False := hs.fits w htb hg

/-- Keys that fit a child, compared with a key that belongs in another slot. -/
theorem above_child {n : Nat} {i j : Fin 16} {p : Ptr} (hu : Under (f b).mem n j p)
    (hc : Fits (f b).mem c (.node n)) (hi : idx c ((f b).mem.nodes n).shift = i) (hij : i < j) :
    Above f b c p := by
  intro k hk
  have := idx_slot hc
  rw [hi] at this
  exact slot_lt hij this (under_pre hu hk)

theorem below_child {n : Nat} {i j : Fin 16} {p : Ptr} (hu : Under (f b).mem n j p)
    (hc : Fits (f b).mem q (.node n)) (hi : idx q ((f b).mem.nodes n).shift = i) (hij : j < i) :
    ∀ k, Fits (f b).mem k p → k < q := by
  intro k hk
  have := idx_slot hc
  rw [hi] at this
  exact slot_lt hij (under_pre hu hk) this

/-- A non-empty slot of a node left of `q`, not left of `c`'s slot, is `c`'s slot. -/
theorem St.slot_eq (w : Win f a b) (htb : t ≤ b) (hs : St f a b q c) {n : Nat} {j : Fin 16}
    (hg : Good f a b t c (.node n)) (hle : idx c ((f b).mem.nodes n).shift ≤ j)
    (hne : ((f t).mem.nodes n).child j ≠ .null)
    (hb : ∀ k, Fits (f b).mem k (((f t).mem.nodes n).child j) → k < q) :
    idx c ((f b).mem.nodes n).shift = j := by
  rcases Fin.lt_or_eq_of_le hle with h | h
  · obtain ⟨h1, h2⟩ := w.child htb (hg.was w) j
    exact (hs.none_between w htb h1 hne (above_child h2 (hs.fits w htb hg) rfl h) hb).elim
  · exact h

/-- The next step of the search when the slot is `c`'s. -/
theorem good_slot (w : Win f a b) (htb : t ≤ b) {n : Nat} {j : Fin 16}
    (hg : Good f a b t c (.node n)) (hj : idx c ((f b).mem.nodes n).shift = j) :
    Good f a b t c (((f t).mem.nodes n).child j) := by
  have := hg.next w htb
  rw [hj] at this; exact this

theorem FInv.step (w : Win f a b) (hat : a ≤ t) (htb : t ≤ b) {pc : Pc V}
    (hi : FInv f a b t q c pc) (hr : (readStep (f t).mem (.findLe q) pc).2 = Option.none)
    (hs : (readStep (f t).mem (.findLe q) pc).1 ≠ .start) :
    FInv f a b t q c (readStep (f t).mem (.findLe q) pc).1 := by
  cases pc with
  | root v =>
    refine ⟨was_now hat (w.gi t).root, (fun e he => by cases he), fun _ => .inl ?_⟩
    exact .inl ⟨t, hat, Nat.le_refl _, on_root _ _⟩
  | call v st p =>
    obtain ⟨hw, hfr, hc⟩ := hi
    cases p with
    | null =>
      refine ⟨hfr, fun hs => ?_⟩
      rcases hc hs with h | ⟨_, h⟩
      · exact (hs.good_null w htb h).elim
      · exact h
    | leaf l =>
      have hk := w.leafAt htb hw
      show FInv f a b t q c (if ((f t).mem.leaves l).key ≤ q then (.found v l, Option.none)
        else (.none v st, Option.none) : Pc V × Option (Option (W × Val V))).1
      rw [hk]
      split
      · rename_i h
        refine ⟨hw, h, fun hs => ?_⟩
        rcases hc hs with h1 | ⟨h1, _⟩
        · exact hs.fits w htb h1
        · obtain ⟨s, K, x, h3, h4, h5, h6⟩ := w.entry htb hw (by simp)
          have h6' : ((f b).mem.leaves l).key = K := h6
          have := (hs.2 s h3 (Nat.le_trans h4 htb)).2 K (h1 K h6) (h6' ▸ h)
          rw [h5] at this; cases this
      · rename_i h
        refine ⟨hfr, fun hs => ?_⟩
        rcases hc hs with h1 | ⟨_, h1⟩
        · have : ((f b).mem.leaves l).key = c := hs.fits w htb h1
          exact absurd hs.1 (this ▸ h)
        · exact h1
    | node n => exact ⟨hw, hfr, hc, (w.nodeAt htb hw).1⟩
  | path v st n pa =>
    obtain ⟨hw, hfr, hc, rfl⟩ := hi
    show FInv f a b t q c (if outside q ((f b).mem.nodes n).path ((f t).mem.nodes n).shift then
        if ((f b).mem.nodes n).path < q then (.pred v st n 15, Option.none) else (.none v st, Option.none)
      else (.follow v st n (idx q ((f t).mem.nodes n).shift), Option.none) :
        Pc V × Option (Option (W × Val V))).1
    rw [(w.nodeAt htb hw).2]
    by_cases ho : outside q ((f b).mem.nodes n).path ((f b).mem.nodes n).shift = true
    · rw [if_pos ho]
      rw [outside_iff] at ho
      by_cases hlt : ((f b).mem.nodes n).path < q
      · rw [if_pos hlt]
        have hbel : ∀ k, Fits (f b).mem k (.node n) → k < q := by
          intro k hk
          refine lt_of_prefix (sh := ((f b).mem.nodes n).shift + 4) ?_
          have h1 := prefix_le (((f b).mem.nodes n).shift + 4) (BitVec.le_of_lt hlt)
          have h2 : _ = _ := hk
          omega
        refine ⟨hw, hfr, hbel, fun hs => ?_⟩
        rcases hc hs with h1 | ⟨h1, _⟩
        · exact ⟨h1, Fin.le_last _⟩
        · exact (hs.none_between w htb hw (by simp) h1 hbel).elim
      · rw [if_neg hlt]
        refine ⟨hfr, fun hs => ?_⟩
        rcases hc hs with h1 | ⟨_, h1⟩
        · have h2 : _ = _ := hs.fits w htb h1
          have h3 := prefix_le (((f b).mem.nodes n).shift + 4) hs.1
          have h4 := prefix_le (((f b).mem.nodes n).shift + 4) (BitVec.not_lt.1 hlt)
          omega
        · exact h1
    · rw [if_neg ho]
      rw [outside_iff] at ho
      exact ⟨hw, hfr, hc, Classical.byContradiction ho, rfl⟩
  | follow v st n nib =>
    obtain ⟨hw, hfr, hc, hfit, rfl⟩ := hi
    obtain ⟨h1, h2⟩ := w.child htb hw (idx q ((f b).mem.nodes n).shift)
    refine ⟨h1, ?_, fun hs => ?_⟩
    · intro e he
      rcases List.mem_cons.1 he with rfl | he
      · exact ⟨hw, hfit, Nat.le_refl _⟩
      · exact hfr e he
    · rcases hc hs with h3 | ⟨h3, h4⟩
      · have hcf := hs.fits w htb h3
        have hle : idx c ((f b).mem.nodes n).shift ≤ idx q ((f b).mem.nodes n).shift := by
          apply Classical.byContradiction
          intro hn
          have := slot_lt (Fin.not_le.1 hn) (idx_slot hfit) (idx_slot hcf)
          exact absurd hs.1 (BitVec.not_le.2 this)
        rcases Fin.lt_or_eq_of_le hle with h | h
        · exact .inr ⟨above_child h2 hcf rfl h, .inl ⟨h3, h⟩⟩
        · exact .inl (good_slot w htb h3 h)
      · exact .inr ⟨fun k hk => h3 k (fits_child h2 hk).1, .inr ⟨h3, h4⟩⟩
  | none v st =>
    obtain ⟨hfr, hc⟩ := hi
    cases st with
    | nil => exact ⟨(fun k x h => by cases h), fun hs => (hc hs).elim⟩
    | cons e st =>
      obtain ⟨n, k⟩ := e
      obtain ⟨hw, hfit, hk⟩ := hfr _ (List.mem_cons_self ..)
      have hfr' : Frames f a b t q st := fun e he => hfr e (List.mem_cons_of_mem _ he)
      cases k with
      | zero =>
        refine ⟨hfr', fun hs => ?_⟩
        rcases hc hs with ⟨_, h⟩ | ⟨_, h⟩
        · omega
        · exact h
      | succ nib =>
        have hnib : (Fin.ofNat 16 nib) < idx q ((f b).mem.nodes n).shift := by
          show nib % 16 < _
          have := (idx q ((f b).mem.nodes n).shift).isLt
          simp only at hk
          omega
        have hval : (Fin.ofNat 16 nib).val = nib := by
          show nib % 16 = nib
          have := (idx q ((f b).mem.nodes n).shift).isLt
          simp only at hk
          omega
        obtain ⟨h1, h2⟩ := w.child htb hw (Fin.ofNat 16 nib)
        have hbel := below_child h2 hfit rfl hnib
        -- if the slot is not empty, it is the slot of `c`
        have hin : St f a b q c → ((f t).mem.nodes n).child (Fin.ofNat 16 nib) ≠ .null →
            Good f a b t c (((f t).mem.nodes n).child (Fin.ofNat 16 nib)) := by
          intro hs hne
          rcases hc hs with ⟨h3, h4⟩ | ⟨h3, _⟩
          · refine good_slot w htb h3 (hs.slot_eq w htb h3 ?_ hne hbel)
            show (idx c ((f b).mem.nodes n).shift).val ≤ _
            rw [hval]; omega
          · exact (hs.none_between w htb h1 hne (fun k hk => h3 k (fits_child h2 hk).1) hbel).elim
        show FInv f a b t q c (match ((f t).mem.nodes n).child (Fin.ofNat 16 nib) with
          | .null => (.none v ((n, nib) :: st), Option.none)
          | .leaf l => (.found v l, Option.none)
          | .node n' => (.pred v st n' 15, Option.none) : Pc V × Option (Option (W × Val V))).1
        cases hch : ((f t).mem.nodes n).child (Fin.ofNat 16 nib) with
        | null =>
          refine ⟨?_, fun hs => ?_⟩
          · intro e he
            rcases List.mem_cons.1 he with rfl | he
            · exact ⟨hw, hfit, Nat.le_of_succ_le hk⟩
            · exact hfr' e he
          · rcases hc hs with ⟨h3, h4⟩ | h3
            · refine .inl ⟨h3, ?_⟩
              apply Classical.byContradiction
              intro hn
              have heq : idx c ((f b).mem.nodes n).shift = Fin.ofNat 16 nib :=
                Fin.ext (by rw [hval]; omega)
              have := good_slot w htb h3 heq
              rw [hch] at this
              exact hs.good_null w htb this
            · exact .inr h3
        | leaf l =>
          rw [hch] at h1 hbel hin
          exact ⟨h1, BitVec.le_of_lt (hbel _ rfl), fun hs => hs.fits w htb (hin hs (by simp))⟩
        | node n' =>
          rw [hch] at h1 hbel hin
          exact ⟨h1, hfr', hbel, fun hs => ⟨hin hs (by simp), Fin.le_last _⟩⟩
  | pred v st n nib =>
    obtain ⟨hw, hfr, hbel, hc⟩ := hi
    obtain ⟨h1, h2⟩ := w.child htb hw nib
    have hbel' : ∀ k, Fits (f b).mem k (((f t).mem.nodes n).child nib) → k < q :=
      fun k hk => hbel k (fits_child h2 hk).1
    show FInv f a b t q c (match ((f t).mem.nodes n).child nib with
      | .null => if nib = 0 then (.none v st, Option.none) else (.pred v st n (nib - 1), Option.none)
      | _ => (.pred2 v st n nib, Option.none) : Pc V × Option (Option (W × Val V))).1
    have two : ((f t).mem.nodes n).child nib ≠ .null → FInv f a b t q c (.pred2 v st n nib) :=
      fun hne => ⟨hw, hfr, hbel, fun hs => ⟨(hc hs).1, hs.slot_eq w htb (hc hs).1 (hc hs).2 hne hbel'⟩⟩
    cases hch : ((f t).mem.nodes n).child nib with
    | null =>
      have hlt : St f a b q c → idx c ((f b).mem.nodes n).shift ≠ nib := by
        intro hs heq
        have := good_slot w htb (hc hs).1 heq
        rw [hch] at this
        exact hs.good_null w htb this
      dsimp only
      by_cases h0 : nib = 0
      · rw [if_pos h0]
        refine ⟨hfr, fun hs => ?_⟩
        have h3 := (hc hs).2
        rw [h0] at h3
        exact absurd (Fin.le_zero_iff.1 h3) (h0 ▸ hlt hs)
      · rw [if_neg h0]
        refine ⟨hw, hfr, hbel, fun hs => ⟨(hc hs).1, ?_⟩⟩
        have h3 := (hc hs).2
        have h4 := hlt hs
        exact fin_pred _ _ h0 h3 h4
    | leaf l => rw [hch] at two; exact two (by simp)
    | node n' => rw [hch] at two; exact two (by simp)
  | pred2 v st n nib =>
    obtain ⟨hw, hfr, hbel, hc⟩ := hi
    obtain ⟨h1, h2⟩ := w.child htb hw nib
    have hin : St f a b q c → Good f a b t c (((f t).mem.nodes n).child nib) :=
      fun hs => good_slot w htb (hc hs).1 (hc hs).2
    have hbel' : ∀ k, Fits (f b).mem k (((f t).mem.nodes n).child nib) → k < q :=
      fun k hk => hbel k (fits_child h2 hk).1
    show FInv f a b t q c (match ((f t).mem.nodes n).child nib with
      | .null => (.none v st, Option.none)
      | .leaf l => (.found v l, Option.none)
      | .node n' => (.pred v st n' 15, Option.none) : Pc V × Option (Option (W × Val V))).1
    cases hch : ((f t).mem.nodes n).child nib with
    | null =>
      rw [hch] at hin
      exact ⟨hfr, fun hs => (hs.good_null w htb (hin hs)).elim⟩
    | leaf l =>
      rw [hch] at hin h1 hbel'
      exact ⟨h1, BitVec.le_of_lt (hbel' _ rfl), fun hs => hs.fits w htb (hin hs)⟩
    | node n' =>
      rw [hch] at hin h1 hbel'
      exact ⟨h1, hfr, hbel', fun hs => ⟨hin hs, Fin.le_last _⟩⟩
  | found v l =>
    obtain ⟨h1, h2, h3⟩ := hi
    have hk := w.leafAt htb h1
    show FInv f a b t q c (.value v l ((f t).mem.leaves l).key)
    rw [hk]
    exact ⟨h1, rfl, h2, h3⟩
  | value v l k =>
    obtain ⟨h1, rfl, h2, h3⟩ := hi
    obtain ⟨s, x, h4, h5, h6, h7⟩ := w.value htb h1
    refine ⟨fun k y hy => ?_, fun _ h => by cases h⟩
    cases hy
    exact ⟨s, x, h4, h5, h7, h6, h2, h3⟩
  | check v res => exact absurd (check_step hr) hs
  | _ => exact hi.elim

end step
end find

end Verif.Critnib.Conc
