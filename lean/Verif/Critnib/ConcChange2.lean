import Verif.Critnib.ConcChange
/-! # Linking a branch, changing a value, unlinking a leaf, unlinking a node -/
namespace Verif.Critnib.Conc
open Verif.Critnib

variable {V : Type}

/-! ## Linking a branch above a pointer -/

/-- After the node `nn`, with the new leaf `k`, was linked into slot `s`. -/
def G.branch (g : G V) (s : Slot) (nn k : Nat) : G V :=
  ⟨g.mem.store (.slot s (.node nn)), Function.update g.ln nn .live, Function.update g.ll k .live⟩

/-- `nn` is filled as a branch for the leaf `k` above the pointer in `s`. -/
structure BranchOk (g : G V) (s : Slot) (nn k : Nat) : Prop where
  qne : g.mem.load s ≠ .null
  thr : Through g (g.mem.leaves k).key s
  offN : g.ln nn = .off
  offL : g.ll k = .off
  usr : ∃ v, (g.mem.leaves k).val = .user v
  shp : (g.mem.nodes nn).shift ≤ 60 ∧ (g.mem.nodes nn).shift % 4 = 0
  path : (g.mem.nodes nn).path = (g.mem.leaves k).key &&& pathMask (g.mem.nodes nn).shift
  pre : (keyOf g.mem (g.mem.load s)).toNat / 2 ^ ((g.mem.nodes nn).shift + 4) =
    (g.mem.leaves k).key.toNat / 2 ^ ((g.mem.nodes nn).shift + 4)
  new : (g.mem.nodes nn).child (idx (g.mem.leaves k).key (g.mem.nodes nn).shift) = .leaf k
  old : (g.mem.nodes nn).child (idx (keyOf g.mem (g.mem.load s)) (g.mem.nodes nn).shift) =
    g.mem.load s
  other : ∀ i, i ≠ idx (g.mem.leaves k).key (g.mem.nodes nn).shift →
    i ≠ idx (keyOf g.mem (g.mem.load s)) (g.mem.nodes nn).shift →
    (g.mem.nodes nn).child i = .null
  below : ∀ c, g.mem.load s = .node c → (g.mem.nodes c).shift + 4 ≤ (g.mem.nodes nn).shift
  above : ∀ n i, s = .child n i → (g.mem.nodes nn).shift + 4 ≤ (g.mem.nodes n).shift

theorem masked_fits {m : Mem V} {nn : Nat} {K : W}
    (h : (m.nodes nn).path = K &&& pathMask (m.nodes nn).shift) : Fits m K (.node nn) := by
  show _ = _
  rw [h, masked_toNat, Nat.mul_div_cancel _ (Nat.two_pow_pos _)]

section branch
variable {g : G V} {s : Slot} {nn k : Nat}

theorem BranchOk.sne (b : BranchOk g s nn k) (i : Fin 16) : s ≠ .child nn i := fun h => by
  have := b.thr.live nn i h
  rw [b.offN] at this; cases this

theorem BranchOk.fitK (b : BranchOk g s nn k) : Fits g.mem (g.mem.leaves k).key (.node nn) :=
  masked_fits b.path

theorem BranchOk.fitQ (b : BranchOk g s nn k) :
    Fits g.mem (keyOf g.mem (g.mem.load s)) (.node nn) :=
  b.pre.trans b.fitK

theorem BranchOk.underQ (b : BranchOk g s nn k) :
    Under g.mem nn (idx (keyOf g.mem (g.mem.load s)) (g.mem.nodes nn).shift) (g.mem.load s) := by
  have h := idx_slot b.fitQ
  have hb := b.below
  cases hq : g.mem.load s with
  | null => exact trivial
  | leaf l => rw [hq] at h; exact h
  | node c => rw [hq] at h hb; exact ⟨hb c rfl, h⟩

theorem branch_plive {p : Ptr} (h : PLive g p) : PLive (g.branch s nn k) p := by
  cases p with
  | null => exact trivial
  | node n =>
    show Function.update g.ln nn .live n = .live
    by_cases hl : n = nn
    · subst hl; simp
    · rw [Function.update_of_ne hl]; exact h
  | leaf l =>
    show Function.update g.ll k .live l = .live
    by_cases hl : l = k
    · subst hl; simp
    · rw [Function.update_of_ne hl]; exact h

theorem branch_newN : PLive (g.branch s nn k) (.node nn) := by
  show Function.update g.ln nn .live nn = .live
  simp

theorem branch_newL : PLive (g.branch s nn k) (.leaf k) := by
  show Function.update g.ll k .live k = .live
  simp

/-- From the new node the search goes on to the old pointer, for keys that fit it. -/
theorem branch_cont (b : BranchOk g s nn k) {K : W} (hon : On (g.branch s nn k).mem K (.node nn))
    (hf : Fits g.mem K (g.mem.load s)) : On (g.branch s nn k).mem K (g.mem.load s) := by
  have h1 := (fits_child b.underQ hf).2
  have := on_follow hon
  unfold G.branch at this
  rw [slot_child, slot_shift, if_neg (b.sne _), h1, b.old] at this
  exact this

theorem branch_on (hg : GI g) (b : BranchOk g s nn k) (K : W) :
    ∀ p, On g.mem K p → On (g.branch s nn k).mem K p ∨ ¬ Fits g.mem K p := by
  refine on_slot K (fun p => ¬ Fits g.mem K p) ?_ ?_ ?_
  · rintro rfl
    by_cases hf : Fits g.mem K g.mem.root
    · exact .inl (branch_cont b (on_root (g.branch .root nn k).mem K) hf)
    · exact .inr hf
  · rintro n hs h1 h2
    by_cases hf : Fits g.mem K (follow g.mem K (.node n))
    · left
      have hl : g.mem.load s = follow g.mem K (.node n) := by rw [hs]; rfl
      rw [← hl] at hf ⊢
      refine branch_cont b ?_ hf
      have := on_follow h2
      rw [slot_child, slot_shift, if_pos hs] at this
      exact this
    · exact .inr hf
  · intro p ho hf
    right
    have hl := on_live hg ho
    cases p with
    | null => exact hf
    | leaf l => exact hf
    | node n => exact not_fits_child hg hl _ hf

theorem branch_on_new (hg : GI g) (b : BranchOk g s nn k) {K : W} (hf : Fits g.mem K (.node nn)) :
    On (g.branch s nn k).mem K (.node nn) := by
  have hthr := b.thr
  have habove := b.above
  have hon := branch_on hg b K
  have hr := on_root (g.branch s nn k).mem K
  have hff := @on_follow _ (g.branch s nn k).mem K
  have hfk := b.fitK
  clear b
  unfold G.branch at hon hr hff ⊢
  cases s with
  | root => exact hr
  | child n i =>
    have h1 : K.toNat / 2 ^ (g.mem.nodes n).shift = slotPre g.mem n i := by
      rw [← hthr.2]
      exact prefix_mono ((show _ = _ from hf).trans (show _ = _ from hfk).symm) (habove n i rfl)
    obtain ⟨h2, h3⟩ := slot_idx h1
    rcases hon _ (hg.onN n hthr.1 K h2) with h | h
    · have := hff h
      dsimp only at this
      rw [slot_child, slot_shift, h3, if_pos rfl] at this
      exact this
    · exact absurd h2 h

theorem branch_gi (hg : GI g) (b : BranchOk g s nn k) : GI (g.branch s nn k) where
  root := by
    show PLive _ (g.mem.store (.slot s (.node nn))).root
    rw [slot_root]
    split
    · exact branch_newN
    · exact branch_plive hg.root
  kid := by
    intro n hn i
    show PLive _ ((g.mem.store (.slot s (.node nn))).nodes n |>.child i) ∧
      Under (g.mem.store (.slot s (.node nn))) n i ((g.mem.store (.slot s (.node nn))).nodes n |>.child i)
    rw [slot_child, slot_under]
    by_cases hnn : n = nn
    · subst hnn
      rw [if_neg (b.sne i)]
      by_cases h1 : i = idx (keyOf g.mem (g.mem.load s)) (g.mem.nodes n).shift
      · rw [h1, b.old]
        refine ⟨branch_plive ?_, b.underQ⟩
        exact on_live hg (b.thr.on hg)
      · by_cases h2 : i = idx (g.mem.leaves k).key (g.mem.nodes n).shift
        · rw [h2, b.new]
          exact ⟨branch_newL, idx_slot b.fitK⟩
        · rw [b.other i h2 h1]
          exact ⟨trivial, trivial⟩
    · have hn' : g.ln n = .live := by
        have : Function.update g.ln nn .live n = .live := hn
        rwa [Function.update_of_ne hnn] at this
      split
      · rename_i h
        refine ⟨branch_newN, b.above n i h, ?_⟩
        have ht := b.thr
        rw [h] at ht
        rw [← ht.2]
        exact prefix_mono (show _ = _ from b.fitK).symm (b.above n i h)
      · exact ⟨branch_plive (hg.kid n hn' i).1, (hg.kid n hn' i).2⟩
  shp := by
    intro n hn
    show ((g.mem.store (.slot s (.node nn))).nodes n).shift ≤ 60 ∧
      ((g.mem.store (.slot s (.node nn))).nodes n).shift % 4 = 0 ∧
      ((g.mem.store (.slot s (.node nn))).nodes n).path.toNat % 2 ^ (((g.mem.store (.slot s (.node nn))).nodes n).shift + 4) = 0
    rw [slot_shift, slot_path]
    by_cases hnn : n = nn
    · subst hnn
      refine ⟨b.shp.1, b.shp.2, ?_⟩
      rw [b.path, masked_toNat]
      exact Nat.mul_mod_left _ _
    · have hn' : g.ln n = .live := by
        have : Function.update g.ln nn .live n = .live := hn
        rwa [Function.update_of_ne hnn] at this
      exact hg.shp n hn'
  onN := by
    intro n hn K hf
    have hf' : Fits g.mem K (.node n) := (slot_fits _ _ _ _ _).1 hf
    by_cases hnn : n = nn
    · subst hnn
      exact branch_on_new hg b hf'
    · have hn' : g.ln n = .live := by
        have : Function.update g.ln nn .live n = .live := hn
        rwa [Function.update_of_ne hnn] at this
      rcases branch_on hg b K _ (hg.onN n hn' K hf') with h | h
      · exact h
      · exact absurd hf' h
  onL := by
    intro l hl
    show On _ ((g.mem.store (.slot s (.node nn))).leaves l).key _ ∧
      ∃ v, ((g.mem.store (.slot s (.node nn))).leaves l).val = _
    rw [slot_leaves]
    by_cases hk : l = k
    · subst hk
      refine ⟨?_, b.usr⟩
      have := on_follow (branch_on_new hg b b.fitK)
      unfold G.branch at this
      rw [slot_child, slot_shift, if_neg (b.sne _), b.new] at this
      exact this
    · have hl' : g.ll l = .live := by
        have : Function.update g.ll k .live l = .live := hl
        rwa [Function.update_of_ne hk] at this
      refine ⟨?_, (hg.onL l hl').2⟩
      rcases branch_on hg b _ _ (hg.onL l hl').1 with h | h
      · exact h
      · exact absurd rfl h
  ne := by
    intro n hn
    by_cases hnn : n = nn
    · subst hnn
      refine ⟨idx (g.mem.leaves k).key (g.mem.nodes n).shift, ?_⟩
      show ((g.mem.store (.slot s (.node n))).nodes n).child _ ≠ _
      rw [slot_child, if_neg (b.sne _), b.new]
      simp
    · have hn' : g.ln n = .live := by
        have : Function.update g.ln nn .live n = .live := hn
        rwa [Function.update_of_ne hnn] at this
      obtain ⟨i, hi⟩ := hg.ne n hn'
      refine ⟨i, ?_⟩
      show ((g.mem.store (.slot s (.node nn))).nodes n).child i ≠ _
      rw [slot_child]
      split
      · simp
      · exact hi

theorem branch_tr (hg : GI g) (b : BranchOk g s nn k) : Tr g (g.branch s nn k) where
  cnt := by show _ ≤ (g.mem.store _).count; rw [slot_count]; exact Nat.le_refl _
  deadN := by
    intro n c hn _
    have : n ≠ nn := fun e => by rw [e, b.offN] at hn; cases hn
    refine ⟨?_, slot_other _ _ _ fun i hi => by rw [b.thr.live n i hi] at hn; cases hn⟩
    show Function.update g.ln nn .live n = _
    rw [Function.update_of_ne this]; exact hn
  deadL := by
    intro l c hl _
    have : l ≠ k := fun e => by rw [e, b.offL] at hl; cases hl
    refine ⟨?_, congrFun (slot_leaves _ _ _) l⟩
    show Function.update g.ll k .live l = _
    rw [Function.update_of_ne this]; exact hl
  liveN := fun n hn =>
    .inl ⟨branch_plive (p := .node n) hn, slot_path _ _ _ n, slot_shift _ _ _ n⟩
  liveL := fun l hl =>
    .inl ⟨branch_plive (p := .leaf l) hl, congrArg Leaf.key (congrFun (slot_leaves _ _ _) l)⟩
  on := by
    intro K p ho
    rcases branch_on hg b K p ho with h | h
    · exact .inl h
    · exact .inr (.inr (.inl h))

theorem branch_has {v : V} (hv : (g.mem.leaves k).val = .user v) (K : W) (x : V) :
    Has (g.branch s nn k) K x ↔ ((g.mem.leaves k).key = K ∧ x = v) ∨ Has g K x := by
  have hlv : (g.branch s nn k).mem.leaves = g.mem.leaves := slot_leaves _ _ _
  constructor
  · rintro ⟨l, h1, h2, h3⟩
    rw [hlv] at h2 h3
    by_cases hk : l = k
    · subst hk
      rw [hv] at h3
      exact .inl ⟨h2, (Val.user.inj h3).symm⟩
    · have : Function.update g.ll k .live l = .live := h1
      rw [Function.update_of_ne hk] at this
      exact .inr ⟨l, this, h2, h3⟩
  · rintro (⟨h1, rfl⟩ | ⟨l, h1, h2, h3⟩)
    · exact ⟨k, branch_newL, by rw [hlv]; exact h1, by rw [hlv]; exact hv⟩
    · exact ⟨l, branch_plive (p := .leaf l) h1, by rw [hlv]; exact h2, by rw [hlv]; exact h3⟩

end branch

/-! ## Changing the value of a leaf -/

/-- After the value of leaf `l` was changed. -/
def G.setv (g : G V) (l : Nat) (v : V) : G V := ⟨g.mem.store (.val l (.user v)), g.ln, g.ll⟩

section setv
variable {g : G V} {l : Nat} {v : V}

theorem setv_key (x : Nat) : ((g.setv l v).mem.leaves x).key = (g.mem.leaves x).key := by
  by_cases h : x = l
  · subst h; simp [G.setv, Mem.store]
  · simp [G.setv, Mem.store, Function.update_of_ne h]

theorem setv_val (x : Nat) : ((g.setv l v).mem.leaves x).val =
    if x = l then .user v else (g.mem.leaves x).val := by
  by_cases h : x = l
  · subst h; simp [G.setv, Mem.store]
  · simp [G.setv, Mem.store, h]

theorem setv_pos (K : W) (j : Nat) : pos (g.setv l v).mem K j = pos g.mem K j := by
  induction j with
  | zero => rfl
  | succ j ih =>
    show follow _ _ _ = follow _ _ _
    rw [ih]
    cases pos g.mem K j <;> rfl

theorem setv_on {K : W} {p : Ptr} : On (g.setv l v).mem K p ↔ On g.mem K p := by
  constructor
  · rintro ⟨j, hj⟩; exact ⟨j, (setv_pos K j).symm.trans hj⟩
  · rintro ⟨j, hj⟩; exact ⟨j, (setv_pos K j).trans hj⟩

theorem setv_under {n : Nat} {i : Fin 16} {p : Ptr} :
    Under (g.setv l v).mem n i p ↔ Under g.mem n i p := by
  cases p with
  | null => exact Iff.rfl
  | node c => exact Iff.rfl
  | leaf x =>
    show _ = _ ↔ _ = _
    rw [setv_key]; exact Iff.rfl

theorem setv_gi (hg : GI g) : GI (g.setv l v) where
  root := hg.root
  kid := fun n hn i => ⟨(hg.kid n hn i).1, setv_under.2 (hg.kid n hn i).2⟩
  shp := hg.shp
  onN := fun n hn K hf => setv_on.2 (hg.onN n hn K hf)
  onL := by
    intro x hx
    rw [setv_key]
    refine ⟨setv_on.2 (hg.onL x hx).1, ?_⟩
    rw [setv_val]
    split
    · exact ⟨v, rfl⟩
    · exact (hg.onL x hx).2
  ne := hg.ne

theorem setv_tr (hl : g.ll l = .live) : Tr g (g.setv l v) where
  cnt := Nat.le_refl _
  deadN := fun n c hn _ => ⟨hn, rfl⟩
  deadL := by
    intro x c hx _
    refine ⟨hx, ?_⟩
    have : x ≠ l := fun e => by rw [e, hl] at hx; cases hx
    simp [G.setv, Mem.store, Function.update_of_ne this]
  liveN := fun n hn => .inl ⟨hn, rfl, rfl⟩
  liveL := fun x hx => .inl ⟨hx, setv_key x⟩
  on := fun K p ho => .inl (setv_on.2 ho)

theorem setv_has (hg : GI g) (hl : g.ll l = .live) (K : W) (x : V) : Has (g.setv l v) K x ↔
    if (g.mem.leaves l).key = K then x = v else Has g K x := by
  by_cases hK : (g.mem.leaves l).key = K
  · rw [if_pos hK]
    constructor
    · rintro ⟨y, h1, h2, h3⟩
      rw [setv_key] at h2
      have := live_leaf_unique hg hl h1 (hK.trans h2.symm)
      subst this
      rw [setv_val, if_pos rfl] at h3
      exact (Val.user.inj h3).symm
    · rintro rfl
      exact ⟨l, hl, by rw [setv_key]; exact hK, by rw [setv_val, if_pos rfl]⟩
  · rw [if_neg hK]
    constructor
    · rintro ⟨y, h1, h2, h3⟩
      rw [setv_key] at h2
      have : y ≠ l := fun e => hK (e ▸ h2)
      rw [setv_val, if_neg this] at h3
      exact ⟨y, h1, h2, h3⟩
    · rintro ⟨y, h1, h2, h3⟩
      have : y ≠ l := fun e => hK (e ▸ h2)
      exact ⟨y, h1, by rw [setv_key]; exact h2, by rw [setv_val, if_neg this]; exact h3⟩

end setv

/-! ## Unlinking a leaf -/

/-- After leaf `l` was unlinked from slot `s`. -/
def G.cut (g : G V) (s : Slot) (l : Nat) : G V :=
  ⟨g.mem.store (.slot s .null), g.ln, Function.update g.ll l (.dead g.mem.count)⟩

section cut
variable {g : G V} {s : Slot} {l : Nat}

theorem cut_ll (x : Nat) : (g.cut s l).ll x = if x = l then .dead g.mem.count else g.ll x := by
  show Function.update g.ll l _ x = _
  by_cases h : x = l
  · subst h; simp
  · rw [Function.update_of_ne h, if_neg h]

theorem cut_live {x : Nat} (h : (g.cut s l).ll x = .live) : x ≠ l ∧ g.ll x = .live := by
  rw [cut_ll] at h
  split at h
  · cases h
  · rename_i hx; exact ⟨hx, h⟩

theorem cut_plive {p : Ptr} (h : PLive g p) (hp : p ≠ .leaf l) : PLive (g.cut s l) p := by
  cases p with
  | null => exact trivial
  | node n => exact h
  | leaf x =>
    show (g.cut s l).ll x = .live
    rw [cut_ll, if_neg (fun e => hp (by rw [e]))]; exact h

theorem cut_on (hs : g.mem.load s = .leaf l) (K : W) :
    ∀ p, On g.mem K p → On (g.cut s l).mem K p ∨ p = .leaf l := by
  refine on_slot K (· = .leaf l) ?_ ?_ ?_
  · rintro rfl; exact .inr hs
  · rintro n rfl _ _; exact .inr hs
  · rintro p _ rfl; exact .inr rfl

theorem cut_gi (hg : GI g) (hs : g.mem.load s = .leaf l)
    (hsl : ∀ n i, s = .child n i → g.ln n = .live)
    (hne : ∀ n i, s = .child n i → ∃ j, j ≠ i ∧ (g.mem.nodes n).child j ≠ .null) :
    GI (g.cut s l) where
  root := by
    show PLive _ (g.mem.store (.slot s .null)).root
    rw [slot_root]
    split
    · exact trivial
    · rename_i h
      refine cut_plive hg.root fun hr => h ?_
      exact slot_unique hg hsl (s' := .root) (fun _ _ e => by cases e) (by simp) hs hr
  kid := by
    intro n hn i
    show PLive _ ((g.mem.store (.slot s .null)).nodes n |>.child i) ∧
      Under (g.mem.store (.slot s .null)) n i ((g.mem.store (.slot s .null)).nodes n |>.child i)
    rw [slot_child, slot_under]
    split
    · exact ⟨trivial, trivial⟩
    · rename_i h
      refine ⟨cut_plive (hg.kid n hn i).1 fun hr => h ?_, (hg.kid n hn i).2⟩
      exact slot_unique hg hsl (s' := .child n i) (fun _ _ e => by cases e; exact hn) (by simp) hs hr
  shp := by
    intro n hn
    show ((g.mem.store (.slot s .null)).nodes n).shift ≤ 60 ∧
      ((g.mem.store (.slot s .null)).nodes n).shift % 4 = 0 ∧
      ((g.mem.store (.slot s .null)).nodes n).path.toNat % 2 ^ (((g.mem.store (.slot s .null)).nodes n).shift + 4) = 0
    rw [slot_shift, slot_path]
    exact hg.shp n hn
  onN := by
    intro n hn K hf
    rcases cut_on hs K _ (hg.onN n hn K ((slot_fits _ _ _ _ _).1 hf)) with h | h
    · exact h
    · cases h
  onL := by
    intro x hx
    obtain ⟨h1, h2⟩ := cut_live hx
    show On _ ((g.mem.store (.slot s .null)).leaves x).key _ ∧
      ∃ v, ((g.mem.store (.slot s .null)).leaves x).val = _
    rw [slot_leaves]
    refine ⟨?_, (hg.onL x h2).2⟩
    rcases cut_on hs _ _ (hg.onL x h2).1 with h | h
    · exact h
    · cases h; exact absurd rfl h1
  ne := by
    intro n hn
    show ∃ i, ((g.mem.store (.slot s .null)).nodes n).child i ≠ _
    obtain ⟨i, hi⟩ := hg.ne n hn
    by_cases h : s = .child n i
    · obtain ⟨j, hj, hj'⟩ := hne n i h
      refine ⟨j, ?_⟩
      rw [slot_child, if_neg]
      · exact hj'
      · rw [h]; intro e; injection e with _ e; exact hj e.symm
    · exact ⟨i, by rw [slot_child, if_neg h]; exact hi⟩

theorem cut_tr (hs : g.mem.load s = .leaf l) (hl : g.ll l = .live)
    (hsl : ∀ n i, s = .child n i → g.ln n = .live) : Tr g (g.cut s l) where
  cnt := by show _ ≤ (g.mem.store _).count; rw [slot_count]; exact Nat.le_refl _
  deadN := by
    intro n c hn _
    exact ⟨hn, slot_other _ _ _ fun i hi => by rw [hsl n i hi] at hn; cases hn⟩
  deadL := by
    intro x c hx _
    have : x ≠ l := fun e => by rw [e, hl] at hx; cases hx
    refine ⟨?_, congrFun (slot_leaves _ _ _) x⟩
    rw [cut_ll, if_neg this]; exact hx
  liveN := fun n hn => .inl ⟨hn, slot_path _ _ _ n, slot_shift _ _ _ n⟩
  liveL := by
    intro x hx
    by_cases h : x = l
    · right
      refine ⟨?_, congrFun (slot_leaves _ _ _) x⟩
      rw [cut_ll, if_pos h]
      show _ = Lab.dead (g.mem.store _).count
      rw [slot_count]
    · left
      refine ⟨?_, congrArg Leaf.key (congrFun (slot_leaves _ _ _) x)⟩
      rw [cut_ll, if_neg h]; exact hx
  on := by
    intro K p ho
    rcases cut_on hs K p ho with h | h
    · exact .inl h
    · refine .inr (.inr (.inr (.inr ⟨l, h, ?_⟩)))
      rw [cut_ll, if_pos rfl]
      show _ = Lab.dead (g.mem.store _).count
      rw [slot_count]

theorem cut_has (hg : GI g) (hl : g.ll l = .live) (K : W) (x : V) :
    Has (g.cut s l) K x ↔ (g.mem.leaves l).key ≠ K ∧ Has g K x := by
  have hlv : (g.cut s l).mem.leaves = g.mem.leaves := slot_leaves _ _ _
  constructor
  · rintro ⟨y, h1, h2, h3⟩
    obtain ⟨h4, h5⟩ := cut_live h1
    rw [hlv] at h2 h3
    exact ⟨fun e => h4 (live_leaf_unique hg h5 hl (h2.trans e.symm)), y, h5, h2, h3⟩
  · rintro ⟨h0, y, h1, h2, h3⟩
    refine ⟨y, ?_, by rw [hlv]; exact h2, by rw [hlv]; exact h3⟩
    have hy : y ≠ l := by rintro rfl; exact h0 h2
    rw [cut_ll, if_neg hy]; exact h1

end cut

/-! ## Unlinking a node with one child -/

/-- After node `n` in slot `s` was replaced by its child `o`. -/
def G.splice (g : G V) (s : Slot) (n : Nat) (o : Fin 16) : G V :=
  ⟨g.mem.store (.slot s ((g.mem.nodes n).child o)), Function.update g.ln n (.dead g.mem.count), g.ll⟩

section splice
variable {g : G V} {s : Slot} {n : Nat} {o : Fin 16}

theorem splice_ln (x : Nat) :
    (g.splice s n o).ln x = if x = n then .dead g.mem.count else g.ln x := by
  show Function.update g.ln n _ x = _
  by_cases h : x = n
  · subst h; simp
  · rw [Function.update_of_ne h, if_neg h]

theorem splice_live {x : Nat} (h : (g.splice s n o).ln x = .live) : x ≠ n ∧ g.ln x = .live := by
  rw [splice_ln] at h
  split at h
  · cases h
  · rename_i hx; exact ⟨hx, h⟩

theorem splice_plive {p : Ptr} (h : PLive g p) (hp : p ≠ .node n) : PLive (g.splice s n o) p := by
  cases p with
  | null => exact trivial
  | leaf l => exact h
  | node x =>
    show (g.splice s n o).ln x = .live
    rw [splice_ln, if_neg (fun e => hp (by rw [e]))]; exact h

theorem child_ne_self (hg : GI g) (hn : g.ln n = .live) (i : Fin 16) :
    (g.mem.nodes n).child i ≠ .node n := by
  intro h
  have := (hg.kid n hn i).2
  rw [h] at this
  have := this.1
  omega

theorem slot_ne_self (hg : GI g) (hn : g.ln n = .live) (hs : g.mem.load s = .node n) (i : Fin 16) :
    s ≠ .child n i := by
  rintro rfl
  exact child_ne_self hg hn i hs

theorem splice_on (hs : g.mem.load s = .node n)
    (hone : ∀ j, j ≠ o → (g.mem.nodes n).child j = .null) (K : W) :
    ∀ p, On g.mem K p → On (g.splice s n o).mem K p ∨
      (p = .node n ∧ On (g.splice s n o).mem K ((g.mem.nodes n).child o)) ∨ p = .null := by
  refine on_slot K (fun p => (p = .node n ∧ On (g.splice s n o).mem K ((g.mem.nodes n).child o)) ∨
    p = .null) ?_ ?_ ?_
  · rintro rfl
    exact .inr (.inl ⟨hs, on_root (g.splice .root n o).mem K⟩)
  · intro a h h1 h2
    refine .inr (.inl ⟨?_, ?_⟩)
    · rw [h] at hs; exact hs
    · have := on_follow h2
      rw [slot_child, slot_shift, if_pos h] at this
      exact this
  · rintro p ho (⟨rfl, h⟩ | rfl)
    · by_cases hi : idx K (g.mem.nodes n).shift = o
      · left
        show On _ K ((g.mem.nodes n).child (idx K (g.mem.nodes n).shift))
        rw [hi]; exact h
      · exact .inr (.inr (hone _ hi))
    · exact .inr (.inr rfl)

theorem splice_gi (hg : GI g) (hs : g.mem.load s = .node n) (hn : g.ln n = .live)
    (hsl : ∀ a i, s = .child a i → g.ln a = .live)
    (hone : ∀ j, j ≠ o → (g.mem.nodes n).child j = .null)
    (hne : (g.mem.nodes n).child o ≠ .null) : GI (g.splice s n o) where
  root := by
    show PLive _ (g.mem.store (.slot s _)).root
    rw [slot_root]
    split
    · exact splice_plive (hg.kid n hn o).1 (child_ne_self hg hn o)
    · rename_i h
      refine splice_plive hg.root fun hr => h ?_
      exact slot_unique hg hsl (s' := .root) (fun _ _ e => by cases e) (by simp) hs hr
  kid := by
    intro a ha i
    obtain ⟨ha1, ha2⟩ := splice_live ha
    show PLive _ ((g.mem.store (.slot s _)).nodes a |>.child i) ∧
      Under (g.mem.store (.slot s _)) a i ((g.mem.store (.slot s _)).nodes a |>.child i)
    rw [slot_child, slot_under]
    split
    · rename_i h
      refine ⟨splice_plive (hg.kid n hn o).1 (child_ne_self hg hn o), ?_⟩
      have hu := (hg.kid a ha2 i).2
      have hl : (g.mem.nodes a).child i = .node n := by rw [h] at hs; exact hs
      rw [hl] at hu
      have hk := (hg.kid n hn o).2
      have hf := under_pre hu (fits_child hk (keyOf_fits g.mem hne)).1
      revert hk hf hne
      generalize (g.mem.nodes n).child o = q
      intro hne hk hf
      cases q with
      | null => exact absurd rfl hne
      | leaf l => exact hf
      | node c => exact ⟨by have h1 := hk.1; have h2 := hu.1; omega, hf⟩
    · rename_i h
      refine ⟨splice_plive (hg.kid a ha2 i).1 fun hr => h ?_, (hg.kid a ha2 i).2⟩
      exact slot_unique hg hsl (s' := .child a i) (fun _ _ e => by cases e; exact ha2) (by simp) hs hr
  shp := by
    intro a ha
    obtain ⟨ha1, ha2⟩ := splice_live ha
    show ((g.mem.store (.slot s _)).nodes a).shift ≤ 60 ∧
      ((g.mem.store (.slot s _)).nodes a).shift % 4 = 0 ∧
      ((g.mem.store (.slot s _)).nodes a).path.toNat % 2 ^ (((g.mem.store (.slot s _)).nodes a).shift + 4) = 0
    rw [slot_shift, slot_path]
    exact hg.shp a ha2
  onN := by
    intro a ha K hf
    obtain ⟨ha1, ha2⟩ := splice_live ha
    rcases splice_on hs hone K _ (hg.onN a ha2 K ((slot_fits _ _ _ _ _).1 hf)) with h | ⟨h, _⟩ | h
    · exact h
    · cases h; exact absurd rfl ha1
    · cases h
  onL := by
    intro x hx
    show On _ ((g.mem.store (.slot s _)).leaves x).key _ ∧
      ∃ v, ((g.mem.store (.slot s _)).leaves x).val = _
    rw [slot_leaves]
    refine ⟨?_, (hg.onL x hx).2⟩
    rcases splice_on hs hone _ _ (hg.onL x hx).1 with h | ⟨h, _⟩ | h
    · exact h
    · cases h
    · cases h
  ne := by
    intro a ha
    obtain ⟨ha1, ha2⟩ := splice_live ha
    obtain ⟨i, hi⟩ := hg.ne a ha2
    refine ⟨i, ?_⟩
    show ((g.mem.store (.slot s _)).nodes a).child i ≠ _
    rw [slot_child]
    split
    · exact hne
    · exact hi

theorem splice_tr (hg : GI g) (hs : g.mem.load s = .node n) (hn : g.ln n = .live)
    (hsl : ∀ a i, s = .child a i → g.ln a = .live)
    (hone : ∀ j, j ≠ o → (g.mem.nodes n).child j = .null) : Tr g (g.splice s n o) where
  cnt := by show _ ≤ (g.mem.store _).count; rw [slot_count]; exact Nat.le_refl _
  deadN := by
    intro a c ha _
    have : a ≠ n := fun e => by rw [e, hn] at ha; cases ha
    refine ⟨?_, slot_other _ _ _ fun i hi => by rw [hsl a i hi] at ha; cases ha⟩
    rw [splice_ln, if_neg this]; exact ha
  deadL := fun l c hl _ => ⟨hl, congrFun (slot_leaves _ _ _) l⟩
  liveN := by
    intro a ha
    by_cases h : a = n
    · subst h
      right
      refine ⟨?_, slot_other _ _ _ (slot_ne_self hg ha hs), ?_, ?_⟩
      · rw [splice_ln, if_pos rfl]
        show _ = Lab.dead (g.mem.store _).count
        rw [slot_count]
      · intro i
        exact splice_plive (hg.kid a ha i).1 (child_ne_self hg ha i)
      · intro K ho
        by_cases hi : idx K (g.mem.nodes a).shift = o
        · left
          rcases splice_on hs hone K _ ho with h | ⟨_, h⟩ | h
          · have hl := on_live (splice_gi hg hs ha hsl hone ?_) h
            · have : (g.splice s a o).ln a = .live := hl
              exact absurd rfl (splice_live this).1
            · obtain ⟨j, hj⟩ := hg.ne a ha
              by_cases hjo : j = o
              · rw [hjo] at hj; exact hj
              · exact absurd (hone j hjo) hj
          · rw [hi]; exact h
          · cases h
        · exact .inr (hone _ hi)
    · left
      refine ⟨?_, slot_path _ _ _ a, slot_shift _ _ _ a⟩
      rw [splice_ln, if_neg h]; exact ha
  liveL := fun l hl => .inl ⟨hl, congrArg Leaf.key (congrFun (slot_leaves _ _ _) l)⟩
  on := by
    intro K p ho
    rcases splice_on hs hone K p ho with h | ⟨h, _⟩ | h
    · exact .inl h
    · refine .inr (.inr (.inr (.inl ⟨n, h, ?_⟩)))
      rw [splice_ln, if_pos rfl]
      show _ = Lab.dead (g.mem.store _).count
      rw [slot_count]
    · exact .inr (.inl h)

theorem splice_has (K : W) (x : V) : Has (g.splice s n o) K x ↔ Has g K x := by
  have hlv : (g.splice s n o).mem.leaves = g.mem.leaves := slot_leaves _ _ _
  unfold Has
  rw [hlv]
  exact Iff.rfl

end splice

end Verif.Critnib.Conc
