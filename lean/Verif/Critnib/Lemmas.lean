import Verif.Critnib.Bits
/-! # Shape invariant of the radix tree and what each operation does to the stored pairs -/
set_option linter.unusedSimpArgs false
namespace Verif.Critnib
variable {V : Type}

/-- The pair `(k, v)` is stored in the tree. -/
def Has : T V → W → V → Prop
  | .nil, _, _ => False
  | .leaf k' v', k, v => k' = k ∧ v' = v
  | .node _ _ ch, k, v => ∃ i, Has (ch i) k v

/-- The subtree hangs below shift `s` and prefix `c`. -/
def Below (t : T V) (s c : Nat) : Prop :=
  (match t with | .node sh _ _ => sh < s | _ => True) ∧ ∀ k v, Has t k v → k.toNat / 2 ^ s = c

/-- Shape invariant. -/
def WF : T V → Prop
  | .nil => True
  | .leaf _ _ => True
  | .node sh path ch =>
    sh % 4 = 0 ∧ sh ≤ 60 ∧ path.toNat % 2 ^ (sh + 4) = 0 ∧
    (∃ i j, i ≠ j ∧ (ch i).isNil = false ∧ (ch j).isNil = false) ∧
    ∀ i, WF (ch i) ∧ Below (ch i) sh (path.toNat / 2 ^ (sh + 4) * 16 + i.val)

theorem isNil_iff (t : T V) : t.isNil = true ↔ t = .nil := by cases t <;> simp [T.isNil]

theorem exists_has (t : T V) (h : WF t) (hn : t.isNil = false) : ∃ k v, Has t k v := by
  induction t with
  | nil => simp [T.isNil] at hn
  | leaf k v => exact ⟨k, v, rfl, rfl⟩
  | node sh path ch ih =>
    obtain ⟨_, _, _, ⟨i, j, _, hi, _⟩, hc⟩ := h
    obtain ⟨k, v, hk⟩ := ih i (hc i).1 hi
    exact ⟨k, v, i, hk⟩

theorem below_root (t : T V) (h : WF t) : Below t 64 0 := by
  constructor
  · cases t with
    | nil => trivial
    | leaf _ _ => trivial
    | node sh path ch => show sh < 64; have := h.2.1; omega
  · intro k v _; exact Nat.div_eq_of_lt k.isLt

/-- Keys below a node carry its path as prefix. -/
theorem node_prefix {sh : Nat} {path : W} {ch : Fin 16 → T V} (h : WF (.node sh path ch)) {i : Fin 16}
    {k : W} {v : V} (hk : Has (ch i) k v) :
    k.toNat / 2 ^ (sh + 4) = path.toNat / 2 ^ (sh + 4) ∧ idx k sh = i := by
  have h1 := ((h.2.2.2.2 i).2).2 k v hk
  have h2 := prefix_split k.toNat sh
  have hi := i.isLt
  constructor
  · omega
  · apply Fin.ext; rw [idx_val]; omega

theorem child_lt {sh : Nat} {path : W} {ch : Fin 16 → T V} (h : WF (.node sh path ch)) {i j : Fin 16}
    (hij : i < j) {k k' : W} {v v' : V} (hk : Has (ch i) k v) (hk' : Has (ch j) k' v') : k < k' := by
  have h1 := ((h.2.2.2.2 i).2).2 k v hk
  have h2 := ((h.2.2.2.2 j).2).2 k' v' hk'
  have hij' : i.val < j.val := hij
  rw [BitVec.lt_def]
  rcases Nat.lt_or_ge k.toNat k'.toNat with h3 | h3
  · exact h3
  · have := Nat.div_le_div_right (c := 2 ^ sh) h3; omega

/-- One value per key. -/
theorem has_unique (t : T V) (h : WF t) (k : W) (v v' : V) (h1 : Has t k v) (h2 : Has t k v') :
    v = v' := by
  induction t with
  | nil => cases h1
  | leaf k0 v0 => exact h1.2.symm.trans h2.2
  | node sh path ch ih =>
    obtain ⟨i, hi⟩ := h1
    obtain ⟨j, hj⟩ := h2
    have e1 := (node_prefix h hi).2
    have e2 := (node_prefix h hj).2
    have : i = j := e1.symm.trans e2
    subst this
    exact ih i (h.2.2.2.2 i).1 hi hj

/-! ## get, findEq -/

theorem get_iff (key : W) (t : T V) (h : WF t) (v : V) : get key t = some v ↔ Has t key v := by
  induction t with
  | nil => simp [get, Has]
  | leaf k v0 => simp only [get, Has]; split <;> simp_all
  | node sh path ch ih =>
    simp only [get, Has]
    rw [ih _ (h.2.2.2.2 _).1]
    constructor
    · exact fun hk => ⟨_, hk⟩
    · rintro ⟨i, hi⟩
      rw [(node_prefix h hi).2]; exact hi

theorem findEq_get (key : W) (t : T V) : findEq key t = (get key t).map (fun v => (key, v)) := by
  induction t with
  | nil => rfl
  | leaf k v0 =>
    simp only [get, findEq]
    split
    · rename_i h; subst h; rfl
    · rfl
  | node sh path ch ih => simp only [get, findEq]; exact ih _

/-! ## insert -/

theorem setChild_same (ch : Fin 16 → T V) (i : Fin 16) (t : T V) : setChild ch i t i = t := by
  simp [setChild]

theorem setChild_self (ch : Fin 16 → T V) (i : Fin 16) : setChild ch i (ch i) = ch := by
  funext j
  by_cases h : j = i
  · subst h; simp [setChild]
  · simp [setChild, h]

theorem setChild_ne (ch : Fin 16 → T V) {i j : Fin 16} (t : T V) (h : j ≠ i) :
    setChild ch i t j = ch j := by simp [setChild, h]

/-- The path of a node (a leaf's key) agrees with the keys below it down to its own level. -/
theorem branch_spec (key : W) (val : V) (p : W) (n : T V) (hn : WF n) (hnn : n.isNil = false)
    (hne : p ≠ key)
    (hb : Below n (msb64 (p ^^^ key) / 4 * 4) (p.toNat / 2 ^ (msb64 (p ^^^ key) / 4 * 4))) :
    WF (branch key val p n) ∧
    (∀ k v, Has (branch key val p n) k v ↔ (k = key ∧ v = val) ∨ Has n k v) ∧
    (∀ s c, p.toNat / 2 ^ s = c → key.toNat / 2 ^ s = c → Below (branch key val p n) s c) := by
  obtain ⟨h60, h4, hagree, hdiff, hidx, hlt⟩ := branch_shift p key hne
  unfold branch
  simp only
  generalize msb64 (p ^^^ key) / 4 * 4 = sh at *
  have hmask := masked_toNat key sh
  have hpos : 0 < 2 ^ (sh + 4) := Nat.two_pow_pos _
  have hdivmask : (key &&& pathMask sh).toNat / 2 ^ (sh + 4) = key.toNat / 2 ^ (sh + 4) := by
    rw [hmask, Nat.mul_div_cancel _ hpos]
  have hhas : ∀ k v, Has (.node sh (key &&& pathMask sh)
      (setChild (setChild (fun _ => .nil) (idx key sh) (.leaf key val)) (idx p sh) n)) k v ↔
      (k = key ∧ v = val) ∨ Has n k v := by
    intro k v
    simp only [Has]
    constructor
    · rintro ⟨i, hi⟩
      by_cases h1 : i = idx p sh
      · subst h1; rw [setChild_same] at hi; exact Or.inr hi
      · rw [setChild_ne _ _ h1] at hi
        by_cases h2 : i = idx key sh
        · subst h2; rw [setChild_same] at hi; exact Or.inl ⟨hi.1.symm, hi.2.symm⟩
        · rw [setChild_ne _ _ h2] at hi; cases hi
    · rintro (⟨rfl, rfl⟩ | hk)
      · refine ⟨idx k sh, ?_⟩
        rw [setChild_ne _ _ (Ne.symm hidx), setChild_same]; exact ⟨rfl, rfl⟩
      · exact ⟨idx p sh, by rw [setChild_same]; exact hk⟩
  refine ⟨⟨h4, h60, ?_, ?_, ?_⟩, hhas, ?_⟩
  · rw [hmask]; exact Nat.mul_mod_left _ _
  · refine ⟨idx p sh, idx key sh, hidx, ?_, ?_⟩
    · rw [setChild_same]; exact hnn
    · rw [setChild_ne _ _ (Ne.symm hidx), setChild_same]; rfl
  · intro i
    by_cases h1 : i = idx p sh
    · subst h1
      rw [setChild_same]
      refine ⟨hn, hb.1, ?_⟩
      intro k v hk
      have := hb.2 k v hk
      rw [this, hdivmask, ← hagree, idx_val]
      exact prefix_split p.toNat sh
    · rw [setChild_ne _ _ h1]
      by_cases h2 : i = idx key sh
      · subst h2
        rw [setChild_same]
        refine ⟨trivial, trivial, ?_⟩
        rintro k v ⟨rfl, rfl⟩
        rw [hdivmask, idx_val]
        exact prefix_split _ sh
      · rw [setChild_ne _ _ h2]
        exact ⟨trivial, trivial, fun _ _ hk => nomatch hk⟩
  · intro s c hc1 hc2
    have hsh := hlt s (hc1.trans hc2.symm)
    refine ⟨hsh, ?_⟩
    intro k v hk
    rcases (hhas k v).1 hk with ⟨rfl, rfl⟩ | hk
    · exact hc2
    · have := hb.2 k v hk
      rw [← hc1]
      exact prefix_mono this (by omega)

theorem node_path_of_has {sh : Nat} {path : W} {ch : Fin 16 → T V} (h : WF (.node sh path ch))
    {k : W} {v : V} (hk : Has (.node sh path ch) k v) :
    k.toNat / 2 ^ (sh + 4) = path.toNat / 2 ^ (sh + 4) := by
  obtain ⟨i, hi⟩ := hk
  exact (node_prefix h hi).1

theorem masked_eq_iff {sh : Nat} {path key : W} (hp : path.toNat % 2 ^ (sh + 4) = 0) :
    key &&& pathMask sh = path ↔ key.toNat / 2 ^ (sh + 4) = path.toNat / 2 ^ (sh + 4) := by
  have hpos : 0 < 2 ^ (sh + 4) := Nat.two_pow_pos _
  have hpp : path.toNat / 2 ^ (sh + 4) * 2 ^ (sh + 4) = path.toNat :=
    Nat.div_mul_cancel (Nat.dvd_of_mod_eq_zero hp)
  rw [← BitVec.toNat_inj, masked_toNat]
  constructor
  · intro h
    rw [← h, Nat.mul_div_cancel _ hpos]
  · intro h
    rw [h, hpp]

/-- Effect of `insertAt` on the stored pairs, and its answer. -/
def InsSpec (key : W) (val : V) (update nodeOk : Bool) (t t' : T V) (r : InsRes) : Prop :=
  match r with
  | .ok => (∀ k v, Has t' k v ↔ (k = key ∧ v = val) ∨ (k ≠ key ∧ Has t k v)) ∧
      (update = true ∨ ∀ v, ¬ Has t key v)
  | .exist => t' = t ∧ update = false ∧ ∃ v, Has t key v
  | .nomem => t' = t ∧ nodeOk = false ∧ ∀ v, ¬ Has t key v

theorem insertAt_spec (key : W) (val : V) (update nodeOk : Bool) (t : T V) (h : WF t) :
    let r := insertAt key val update nodeOk t
    WF r.1 ∧ InsSpec key val update nodeOk t r.1 r.2 ∧ r.1.isNil = false := by
  intro r
  suffices hh : ∀ s c, s % 4 = 0 → Below t s c → key.toNat / 2 ^ s = c →
      WF r.1 ∧ InsSpec key val update nodeOk t r.1 r.2 ∧ r.1.isNil = false ∧ Below r.1 s c by
    have := hh 64 0 (by omega) (below_root t h) (Nat.div_eq_of_lt key.isLt)
    exact ⟨this.1, this.2.1, this.2.2.1⟩
  show ∀ s c, s % 4 = 0 → Below t s c → key.toNat / 2 ^ s = c →
      WF (insertAt key val update nodeOk t).1 ∧
      InsSpec key val update nodeOk t (insertAt key val update nodeOk t).1
        (insertAt key val update nodeOk t).2 ∧
      (insertAt key val update nodeOk t).1.isNil = false ∧
      Below (insertAt key val update nodeOk t).1 s c
  clear r
  induction t with
  | nil =>
    intro s c _ hb hc
    refine ⟨trivial, ⟨?_, Or.inr (fun v hv => hv)⟩, rfl, trivial, ?_⟩
    · intro k v
      simp only [insertAt, Has]
      constructor
      · rintro ⟨h1, h2⟩; exact Or.inl ⟨h1.symm, h2.symm⟩
      · rintro (⟨h1, h2⟩ | ⟨_, h2⟩)
        · exact ⟨h1.symm, h2.symm⟩
        · cases h2
    · rintro k v ⟨rfl, rfl⟩; exact hc
  | leaf k0 v0 =>
    intro s c hs4 hb hc
    by_cases hk : k0 = key
    · subst hk
      have hx : k0 ^^^ k0 = 0#64 := BitVec.xor_self
      cases update with
      | true =>
        have e : insertAt k0 val true nodeOk (.leaf k0 v0) = (.leaf k0 val, .ok) := by
          simp [insertAt, hx]
        rw [e]
        refine ⟨trivial, ⟨?_, Or.inl rfl⟩, rfl, trivial, ?_⟩
        · intro k v
          simp only [Has]
          constructor
          · rintro ⟨h1, h2⟩; exact Or.inl ⟨h1.symm, h2.symm⟩
          · rintro (⟨h1, h2⟩ | ⟨h1, h2, h3⟩)
            · exact ⟨h1.symm, h2.symm⟩
            · exact absurd h2.symm h1
        · rintro k v ⟨rfl, rfl⟩; exact hc
      | false =>
        have e : insertAt k0 val false nodeOk (.leaf k0 v0) = (.leaf k0 v0, .exist) := by
          simp [insertAt, hx]
        rw [e]
        exact ⟨trivial, ⟨rfl, rfl, v0, rfl, rfl⟩, rfl, hb⟩
    · have hx : ¬ (k0 ^^^ key = 0#64) := by
        intro hx
        apply hk
        have := congrArg BitVec.toNat hx
        rw [BitVec.toNat_xor] at this
        exact BitVec.toNat_inj.1 (xor_eq_zero.1 this)
      cases nodeOk with
      | false =>
        have e : insertAt key val update false (.leaf k0 v0) = (.leaf k0 v0, .nomem) := by
          simp [insertAt, hx]
        rw [e]
        exact ⟨trivial, ⟨rfl, rfl, fun v hv => hk hv.1⟩, rfl, hb⟩
      | true =>
        have e : insertAt key val update true (.leaf k0 v0) =
            (branch key val k0 (.leaf k0 v0), .ok) := by simp [insertAt, hx]
        rw [e]
        have hbs := branch_spec key val k0 (.leaf k0 v0) trivial rfl hk
          ⟨trivial, by rintro k v ⟨rfl, _⟩; rfl⟩
        refine ⟨hbs.1, ⟨?_, Or.inr fun v hv => hk hv.1⟩, rfl,
          hbs.2.2 s c (hb.2 k0 v0 ⟨rfl, rfl⟩) hc⟩
        intro k v
        rw [hbs.2.1]
        constructor
        · rintro (h1 | h1)
          · exact Or.inl h1
          · exact Or.inr ⟨fun e => hk (h1.1.trans e), h1⟩
        · rintro (h1 | h1)
          · exact Or.inl h1
          · exact Or.inr h1.2
  | node sh path ch ih =>
    intro s c hs4 hb hc
    have hsh : sh < s := hb.1
    have h4 := h.1
    by_cases hk : key &&& pathMask sh = path
    · have e : insertAt key val update nodeOk (.node sh path ch) =
          (.node sh path (setChild ch (idx key sh) (insertAt key val update nodeOk (ch (idx key sh))).1),
            (insertAt key val update nodeOk (ch (idx key sh))).2) := by simp [insertAt, hk]
      rw [e]
      have hpre := (masked_eq_iff h.2.2.1).1 hk
      have hci := h.2.2.2.2 (idx key sh)
      have hcpre : key.toNat / 2 ^ sh = path.toNat / 2 ^ (sh + 4) * 16 + (idx key sh).val := by
        rw [idx_val, ← hpre]; exact prefix_split key.toNat sh
      have hi := ih (idx key sh) hci.1 sh _ h4 hci.2 hcpre
      generalize insertAt key val update nodeOk (ch (idx key sh)) = r at hi
      obtain ⟨r1, r2⟩ := r
      obtain ⟨hw, hspec, hnn, hbel⟩ := hi
      -- a key stored elsewhere in the node is not `key`
      have hother : ∀ i v, Has (ch i) key v → i = idx key sh := fun i v hv => (node_prefix h hv).2.symm
      refine ⟨⟨h.1, h.2.1, h.2.2.1, ?_, ?_⟩, ?_, rfl, hsh, ?_⟩
      · obtain ⟨i, j, hij, hni, hnj⟩ := h.2.2.2.1
        refine ⟨i, j, hij, ?_, ?_⟩
        · by_cases h1 : i = idx key sh
          · rw [h1, setChild_same]; exact hnn
          · rw [setChild_ne _ _ h1]; exact hni
        · by_cases h1 : j = idx key sh
          · rw [h1, setChild_same]; exact hnn
          · rw [setChild_ne _ _ h1]; exact hnj
      · intro i
        by_cases h1 : i = idx key sh
        · rw [h1, setChild_same]; exact ⟨hw, hbel⟩
        · rw [setChild_ne _ _ h1]; exact h.2.2.2.2 i
      · cases r2 with
        | ok =>
          refine ⟨?_, ?_⟩
          · intro k v
            constructor
            · rintro ⟨i, hi⟩
              by_cases h1 : i = idx key sh
              · subst h1; rw [setChild_same] at hi
                rcases (hspec.1 k v).1 hi with h2 | h2
                · exact Or.inl h2
                · exact Or.inr ⟨h2.1, _, h2.2⟩
              · rw [setChild_ne _ _ h1] at hi
                refine Or.inr ⟨?_, i, hi⟩
                rintro rfl
                exact h1 (hother i v hi)
            · rintro (h2 | ⟨h2, i, hi⟩)
              · exact ⟨idx key sh, by rw [setChild_same]; exact (hspec.1 k v).2 (Or.inl h2)⟩
              · refine ⟨i, ?_⟩
                by_cases h1 : i = idx key sh
                · subst h1; rw [setChild_same]; exact (hspec.1 k v).2 (Or.inr ⟨h2, hi⟩)
                · rw [setChild_ne _ _ h1]; exact hi
          · rcases hspec.2 with h1 | h1
            · exact Or.inl h1
            · refine Or.inr ?_
              rintro v ⟨i, hi⟩
              rw [hother i v hi] at hi
              exact h1 v hi
        | exist =>
          obtain ⟨h1, h2, v, h3⟩ := hspec
          subst h1
          refine ⟨?_, h2, v, _, h3⟩
          show T.node sh path (setChild ch (idx key sh) (ch (idx key sh))) = _
          rw [setChild_self]
        | nomem =>
          obtain ⟨h1, h2, h3⟩ := hspec
          subst h1
          refine ⟨?_, h2, ?_⟩
          · show T.node sh path (setChild ch (idx key sh) (ch (idx key sh))) = _
            rw [setChild_self]
          · rintro v ⟨i, hi⟩
            rw [hother i v hi] at hi
            exact h3 v hi
      · rintro k v ⟨i, hi⟩
        by_cases h1 : i = idx key sh
        · subst h1
          rw [setChild_same] at hi
          have h5 := hbel.2 k v hi
          rw [← hc]
          exact prefix_mono (h5.trans hcpre.symm) (by omega)
        · rw [setChild_ne _ _ h1] at hi
          exact hb.2 k v ⟨i, hi⟩
    · have hpre : key.toNat / 2 ^ (sh + 4) ≠ path.toNat / 2 ^ (sh + 4) :=
        fun e => hk ((masked_eq_iff h.2.2.1).2 e)
      have habs : ∀ v, ¬ Has (.node sh path ch) key v := fun v hv => hpre (node_path_of_has h hv)
      cases nodeOk with
      | false =>
        have e : insertAt key val update false (.node sh path ch) = (.node sh path ch, .nomem) := by
          simp [insertAt, hk]
        rw [e]
        exact ⟨h, ⟨rfl, rfl, habs⟩, rfl, hb⟩
      | true =>
        have e : insertAt key val update true (.node sh path ch) =
            (branch key val path (.node sh path ch), .ok) := by simp [insertAt, hk]
        rw [e]
        have hne : path ≠ key := by rintro rfl; exact hpre rfl
        obtain ⟨h60, hn4, hagree, _, _, hlt⟩ := branch_shift path key hne
        have hge : sh + 4 ≤ msb64 (path ^^^ key) / 4 * 4 := by
          rcases Nat.lt_or_ge sh (msb64 (path ^^^ key) / 4 * 4) with h1 | h1
          · omega
          · exact absurd (prefix_mono hagree (show _ ≤ sh + 4 by omega)).symm hpre
        have hbs := branch_spec key val path (.node sh path ch) h rfl hne
          ⟨show sh < _ by omega, fun k v hk => prefix_mono (node_path_of_has h hk) hge⟩
        obtain ⟨k0, v0, hk0⟩ := exists_has _ h rfl
        have hpc : path.toNat / 2 ^ s = c := by
          rw [← hb.2 k0 v0 hk0]
          exact (prefix_mono (node_path_of_has h hk0) (by omega)).symm
        refine ⟨hbs.1, ⟨?_, Or.inr habs⟩, rfl, hbs.2.2 s c hpc hc⟩
        intro k v
        rw [hbs.2.1]
        constructor
        · rintro (h1 | h1)
          · exact Or.inl h1
          · exact Or.inr ⟨by rintro rfl; exact habs v h1, h1⟩
        · rintro (h1 | h1)
          · exact Or.inl h1
          · exact Or.inr h1.2

end Verif.Critnib
