import Verif.Critnib.Lemmas
/-! # Removal, ordered search and iteration -/
set_option linter.unusedSimpArgs false
namespace Verif.Critnib
variable {V : Type}

theorem mem_children (ch : Fin 16 → T V) (i : Fin 16) : i ∈ children ch ↔ (ch i).isNil = false := by
  simp [children]

theorem has_not_nil {t : T V} {k : W} {v : V} (h : Has t k v) : t.isNil = false := by
  cases t <;> first | rfl | cases h

/-- Effect of `remove`. -/
def RemSpec (key : W) (t : T V) (s c : Nat) : RemRes V → Prop
  | .notFound => ∀ v, ¬ Has t key v
  | .removed v t' => Has t key v ∧ WF t' ∧ Below t' s c ∧
      (∀ k v', Has t' k v' ↔ k ≠ key ∧ Has t k v') ∧ (t.isLeaf = false → t'.isNil = false)
  | .ub => False

theorem remove_spec (key : W) (t : T V) (h : WF t) (s c : Nat) (hb : Below t s c) :
    RemSpec key t s c (remove key t) := by
  induction t generalizing s c with
  | nil => exact fun v hv => hv
  | leaf k0 v0 =>
    simp only [remove]
    split
    · rename_i hk
      subst hk
      refine ⟨⟨rfl, rfl⟩, trivial, ⟨trivial, fun k v hk => nomatch hk⟩, ?_, by simp [T.isLeaf]⟩
      intro k v
      constructor
      · intro hk; cases hk
      · rintro ⟨h1, h2, _⟩; exact absurd h2.symm h1
    · rename_i hk
      exact fun v hv => hk hv.1
  | node sh path ch ih =>
    have hsh : sh < s := hb.1
    have hci := h.2.2.2.2 (idx key sh)
    have hi := ih (idx key sh) hci.1 sh _ hci.2
    have hother : ∀ i v, Has (ch i) key v → i = idx key sh := fun i v hv => (node_prefix h hv).2.symm
    cases hr : remove key (ch (idx key sh)) with
    | notFound =>
      rw [hr] at hi
      have e : remove key (.node sh path ch) = .notFound := by simp only [remove, hr]
      rw [e]
      rintro v ⟨i, hv⟩
      rw [hother i v hv] at hv
      exact hi v hv
    | ub => rw [hr] at hi; exact hi.elim
    | removed v0 c0 =>
      rw [hr] at hi
      obtain ⟨hh, hw, hbel, hhas, hnn⟩ := hi
      by_cases hl : (ch (idx key sh)).isLeaf = true
      · -- the slot is cleared
        have hleaf : ∀ k v, Has (ch (idx key sh)) k v → k = key := by
          intro k v hk
          cases hc : ch (idx key sh) with
          | nil => rw [hc] at hk; cases hk
          | node _ _ _ => rw [hc] at hl; cases hl
          | leaf k1 v1 =>
            rw [hc] at hk hh
            exact hk.1.symm.trans hh.1
        have hset : ∀ i, i ≠ idx key sh → setChild ch (idx key sh) .nil i = ch i :=
          fun i hi => setChild_ne _ _ hi
        have hmem : ∀ k v i, Has (ch i) k v → k ≠ key → i ≠ idx key sh := by
          rintro k v i hk hne rfl; exact hne (hleaf k v hk)
        cases hch : children (setChild ch (idx key sh) .nil) with
        | nil =>
          exfalso
          obtain ⟨i, j, hij, hni, hnj⟩ := h.2.2.2.1
          have hz : ∀ i, (ch i).isNil = false → i = idx key sh := by
            intro i hi
            apply Classical.byContradiction
            intro hne
            have : i ∈ children (setChild ch (idx key sh) .nil) := by
              rw [mem_children, hset i hne]; exact hi
            rw [hch] at this; cases this
          exact hij ((hz i hni).trans (hz j hnj).symm)
        | cons o rest =>
          cases rest with
          | nil =>
            have e : remove key (.node sh path ch) =
                .removed v0 (setChild ch (idx key sh) .nil o) := by
              simp only [remove, hr, hl, if_true, hch]
            rw [e]
            have hom : o ∈ children (setChild ch (idx key sh) .nil) := by rw [hch]; simp
            have hoi : o ≠ idx key sh := by
              rintro rfl
              rw [mem_children, setChild_same] at hom; cases hom
            have hon : (ch o).isNil = false := by
              rw [mem_children, hset o hoi] at hom; exact hom
            have honly : ∀ i, i ≠ idx key sh → (ch i).isNil = false → i = o := by
              intro i hi hni
              have : i ∈ children (setChild ch (idx key sh) .nil) := by
                rw [mem_children, hset i hi]; exact hni
              rw [hch] at this; simpa using this
            rw [hset o hoi]
            have hco := h.2.2.2.2 o
            refine ⟨⟨_, hh⟩, hco.1, ⟨?_, ?_⟩, ?_, fun _ => hon⟩
            · have := hco.2.1
              revert this
              cases ch o with
              | nil => exact fun _ => trivial
              | leaf _ _ => exact fun _ => trivial
              | node _ _ _ => exact fun h => Nat.lt_trans h hsh
            · intro k v hk; exact hb.2 k v ⟨o, hk⟩
            · intro k v
              constructor
              · intro hk
                refine ⟨?_, o, hk⟩
                rintro rfl
                exact hoi (hother o v hk)
              · rintro ⟨hne, i, hi⟩
                rw [← honly i (hmem k v i hi hne) (has_not_nil hi)]; exact hi
          | cons o2 rest2 =>
            have e : remove key (.node sh path ch) =
                .removed v0 (.node sh path (setChild ch (idx key sh) .nil)) := by
              simp only [remove, hr, hl, if_true, hch]
            rw [e]
            have hnd : (children (setChild ch (idx key sh) .nil)).Nodup :=
              List.Pairwise.filter _ (List.nodup_finRange 16)
            have ho1 : o ∈ children (setChild ch (idx key sh) .nil) := by rw [hch]; simp
            have ho2 : o2 ∈ children (setChild ch (idx key sh) .nil) := by rw [hch]; simp
            rw [hch] at hnd
            have ho12 : o ≠ o2 := by
              rw [List.nodup_cons] at hnd
              rintro rfl
              exact hnd.1 (by simp)
            have hhas' : ∀ k v, Has (.node sh path (setChild ch (idx key sh) .nil)) k v ↔
                k ≠ key ∧ Has (.node sh path ch) k v := by
              intro k v
              constructor
              · rintro ⟨i, hi⟩
                by_cases h1 : i = idx key sh
                · rw [h1, setChild_same] at hi; cases hi
                · rw [hset i h1] at hi
                  refine ⟨?_, i, hi⟩
                  rintro rfl
                  exact h1 (hother i v hi)
              · rintro ⟨hne, i, hi⟩
                exact ⟨i, by rw [hset i (hmem k v i hi hne)]; exact hi⟩
            refine ⟨⟨_, hh⟩, ⟨h.1, h.2.1, h.2.2.1, ⟨o, o2, ho12, ?_, ?_⟩, ?_⟩, ⟨hsh, ?_⟩, hhas',
              fun _ => rfl⟩
            · exact (mem_children _ _).1 ho1
            · exact (mem_children _ _).1 ho2
            · intro i
              by_cases h1 : i = idx key sh
              · rw [h1, setChild_same]
                exact ⟨trivial, trivial, fun _ _ hk => nomatch hk⟩
              · rw [hset i h1]; exact h.2.2.2.2 i
            · intro k v hk; exact hb.2 k v ((hhas' k v).1 hk).2
      · have e : remove key (.node sh path ch) =
            .removed v0 (.node sh path (setChild ch (idx key sh) c0)) := by
          simp only [remove, hr, hl, if_false]; rfl
        rw [e]
        have hc0 := hnn (by simpa using hl)
        have hhas' : ∀ k v, Has (.node sh path (setChild ch (idx key sh) c0)) k v ↔
            k ≠ key ∧ Has (.node sh path ch) k v := by
          intro k v
          constructor
          · rintro ⟨i, hi⟩
            by_cases h1 : i = idx key sh
            · subst h1; rw [setChild_same] at hi
              have := (hhas k v).1 hi
              exact ⟨this.1, _, this.2⟩
            · rw [setChild_ne _ _ h1] at hi
              refine ⟨?_, i, hi⟩
              rintro rfl
              exact h1 (hother i v hi)
          · rintro ⟨hne, i, hi⟩
            refine ⟨i, ?_⟩
            by_cases h1 : i = idx key sh
            · subst h1; rw [setChild_same]; exact (hhas k v).2 ⟨hne, hi⟩
            · rw [setChild_ne _ _ h1]; exact hi
        refine ⟨⟨_, hh⟩, ⟨h.1, h.2.1, h.2.2.1, ?_, ?_⟩, ⟨hsh, ?_⟩, hhas', fun _ => rfl⟩
        · obtain ⟨i, j, hij, hni, hnj⟩ := h.2.2.2.1
          refine ⟨i, j, hij, ?_, ?_⟩
          · by_cases h1 : i = idx key sh
            · rw [h1, setChild_same]; exact hc0
            · rw [setChild_ne _ _ h1]; exact hni
          · by_cases h1 : j = idx key sh
            · rw [h1, setChild_same]; exact hc0
            · rw [setChild_ne _ _ h1]; exact hnj
        · intro i
          by_cases h1 : i = idx key sh
          · rw [h1, setChild_same]; exact ⟨hw, hbel⟩
          · rw [setChild_ne _ _ h1]; exact h.2.2.2.2 i
        · intro k v hk; exact hb.2 k v ((hhas' k v).1 hk).2

/-! ## Extremes -/

/-- First hit in an increasing list. -/
theorem find_first {l : List (Fin 16)} (hl : l.Pairwise (· < ·)) (p : Fin 16 → Bool) :
    match l.find? p with
    | none => ∀ i ∈ l, p i = false
    | some i => i ∈ l ∧ p i = true ∧ ∀ j ∈ l, p j = true → i ≤ j := by
  induction l with
  | nil => simp
  | cons a l ih =>
    rw [List.pairwise_cons] at hl
    simp only [List.find?_cons]
    cases hp : p a with
    | true =>
      refine ⟨by simp, hp, ?_⟩
      intro j hj _
      rw [List.mem_cons] at hj
      rcases hj with rfl | hj
      · exact Fin.le_refl _
      · exact Fin.le_of_lt (hl.1 j hj)
    | false =>
      have := ih hl.2
      simp only
      cases hf : l.find? p with
      | none =>
        rw [hf] at this
        intro i hi
        rw [List.mem_cons] at hi
        rcases hi with rfl | hi
        · exact hp
        · exact this i hi
      | some i =>
        rw [hf] at this
        refine ⟨by simp [this.1], this.2.1, ?_⟩
        intro j hj hpj
        rw [List.mem_cons] at hj
        rcases hj with rfl | hj
        · rw [hp] at hpj; cases hpj
        · exact this.2.2 j hj hpj

/-- First hit in the reverse of an increasing list. -/
theorem find_last {l : List (Fin 16)} (hl : l.Pairwise (· < ·)) (p : Fin 16 → Bool) :
    match l.reverse.find? p with
    | none => ∀ i ∈ l, p i = false
    | some i => i ∈ l ∧ p i = true ∧ ∀ j ∈ l, p j = true → j ≤ i := by
  have hr : l.reverse.Pairwise (· > ·) := by rw [List.pairwise_reverse]; exact hl
  have : ∀ r : List (Fin 16), r.Pairwise (· > ·) →
      match r.find? p with
      | none => ∀ i ∈ r, p i = false
      | some i => i ∈ r ∧ p i = true ∧ ∀ j ∈ r, p j = true → j ≤ i := by
    intro r hr
    induction r with
    | nil => simp
    | cons a r ih =>
      rw [List.pairwise_cons] at hr
      simp only [List.find?_cons]
      cases hp : p a with
      | true =>
        refine ⟨by simp, hp, ?_⟩
        intro j hj _
        rw [List.mem_cons] at hj
        rcases hj with rfl | hj
        · exact Fin.le_refl _
        · exact Fin.le_of_lt (hr.1 j hj)
      | false =>
        have := ih hr.2
        simp only
        cases hf : r.find? p with
        | none =>
          rw [hf] at this
          intro i hi
          rw [List.mem_cons] at hi
          rcases hi with rfl | hi
          · exact hp
          · exact this i hi
        | some i =>
          rw [hf] at this
          refine ⟨by simp [this.1], this.2.1, ?_⟩
          intro j hj hpj
          rw [List.mem_cons] at hj
          rcases hj with rfl | hj
          · rw [hp] at hpj; cases hpj
          · exact this.2.2 j hj hpj
  have h2 := this _ hr
  cases hf : l.reverse.find? p with
  | none =>
    rw [hf] at h2
    exact fun i hi => h2 i (List.mem_reverse.2 hi)
  | some i =>
    rw [hf] at h2
    exact ⟨List.mem_reverse.1 h2.1, h2.2.1, fun j hj => h2.2.2 j (List.mem_reverse.2 hj)⟩

theorem finRange_lt : (List.finRange 16).Pairwise (· < ·) := List.pairwise_lt_finRange 16

/-- `rightmost` is the pair with the largest key. -/
theorem rightmost_spec (t : T V) (h : WF t) (hn : t.isNil = false) :
    ∃ k v, rightmost t = some (k, v) ∧ Has t k v ∧ ∀ k' v', Has t k' v' → k' ≤ k := by
  induction t with
  | nil => cases hn
  | leaf k v => exact ⟨k, v, rfl, ⟨rfl, rfl⟩, fun k' v' hk => by rw [hk.1]; exact BitVec.le_refl _⟩
  | node sh path ch ih =>
    have hf := find_last finRange_lt (fun i => !(ch i).isNil)
    simp only [rightmost]
    cases hr : (List.finRange 16).reverse.find? (fun i => !(ch i).isNil) with
    | none =>
      rw [hr] at hf
      obtain ⟨i, _, _, hi, _⟩ := h.2.2.2.1
      have := hf i (List.mem_finRange i)
      simp [hi] at this
    | some i =>
      rw [hr] at hf
      have hin : (ch i).isNil = false := by simpa using hf.2.1
      obtain ⟨k, v, h1, h2, h3⟩ := ih i (h.2.2.2.2 i).1 hin
      refine ⟨k, v, h1, ⟨i, h2⟩, ?_⟩
      rintro k' v' ⟨j, hj⟩
      have hji := hf.2.2 j (List.mem_finRange j) (by simp [has_not_nil hj])
      rcases Nat.lt_or_ge j.val i.val with hlt | hge
      · exact BitVec.le_of_lt (child_lt h hlt hj h2)
      · have : j = i := Fin.ext (Nat.le_antisymm hji hge)
        subst this; exact h3 k' v' hj

/-- `leftmost` is the pair with the smallest key. -/
theorem leftmost_spec (t : T V) (h : WF t) (hn : t.isNil = false) :
    ∃ k v, leftmost t = some (k, v) ∧ Has t k v ∧ ∀ k' v', Has t k' v' → k ≤ k' := by
  induction t with
  | nil => cases hn
  | leaf k v => exact ⟨k, v, rfl, ⟨rfl, rfl⟩, fun k' v' hk => by rw [hk.1]; exact BitVec.le_refl _⟩
  | node sh path ch ih =>
    have hf := find_first finRange_lt (fun i => !(ch i).isNil)
    simp only [leftmost]
    cases hr : (List.finRange 16).find? (fun i => !(ch i).isNil) with
    | none =>
      rw [hr] at hf
      obtain ⟨i, _, _, hi, _⟩ := h.2.2.2.1
      have := hf i (List.mem_finRange i)
      simp [hi] at this
    | some i =>
      rw [hr] at hf
      have hin : (ch i).isNil = false := by simpa using hf.2.1
      obtain ⟨k, v, h1, h2, h3⟩ := ih i (h.2.2.2.2 i).1 hin
      refine ⟨k, v, h1, ⟨i, h2⟩, ?_⟩
      rintro k' v' ⟨j, hj⟩
      have hji := hf.2.2 j (List.mem_finRange j) (by simp [has_not_nil hj])
      rcases Nat.lt_or_ge i.val j.val with hlt | hge
      · exact BitVec.le_of_lt (child_lt h hlt h2 hj)
      · have : j = i := Fin.ext (Nat.le_antisymm hge hji)
        subst this; exact h3 k' v' hj

/-! ## Ordered search -/

/-- Largest key not above `key`. -/
def LeSpec (key : W) (t : T V) : Option (W × V) → Prop
  | none => ∀ k v, Has t k v → key < k
  | some (k, v) => Has t k v ∧ k ≤ key ∧ ∀ k' v', Has t k' v' → k' ≤ key → k' ≤ k

/-- Smallest key not below `key`. -/
def GeSpec (key : W) (t : T V) : Option (W × V) → Prop
  | none => ∀ k v, Has t k v → k < key
  | some (k, v) => Has t k v ∧ key ≤ k ∧ ∀ k' v', Has t k' v' → key ≤ k' → k ≤ k'

theorem lt_of_prefix {a b s : Nat} (h : a / 2 ^ s < b / 2 ^ s) : a < b := by
  rcases Nat.lt_or_ge a b with h1 | h1
  · exact h1
  · have := Nat.div_le_div_right (c := 2 ^ s) h1; omega

theorem findLe_spec (key : W) (t : T V) (h : WF t) : LeSpec key t (findLe key t) := by
  induction t with
  | nil => exact fun k v hk => nomatch hk
  | leaf k0 v0 =>
    simp only [findLe]
    split
    · rename_i hle
      exact ⟨⟨rfl, rfl⟩, hle, fun k' v' hk _ => by rw [hk.1]; exact BitVec.le_refl _⟩
    · rename_i hle
      rintro k v ⟨rfl, _⟩
      exact BitVec.not_le.1 hle
  | node sh path ch ih =>
    simp only [findLe]
    by_cases hout : outside key path sh = true
    · rw [if_pos hout]
      have hne := (outside_iff key path sh).1 hout
      by_cases hlt : path < key
      · rw [if_pos hlt]
        obtain ⟨k, v, h1, h2, h3⟩ := rightmost_spec (.node sh path ch) h rfl
        rw [h1]
        refine ⟨h2, ?_, fun k' v' hk _ => h3 k' v' hk⟩
        have hp := node_path_of_has h h2
        have hle := Nat.div_le_div_right (c := 2 ^ (sh + 4)) (Nat.le_of_lt (BitVec.lt_def.1 hlt))
        exact BitVec.le_of_lt (BitVec.lt_def.2 (lt_of_prefix (s := sh + 4) (by omega)))
      · rw [if_neg hlt]
        intro k v hk
        have hp := node_path_of_has h hk
        have hle := Nat.div_le_div_right (c := 2 ^ (sh + 4)) (BitVec.le_def.1 (BitVec.not_lt.1 hlt))
        exact BitVec.lt_def.2 (lt_of_prefix (s := sh + 4) (by omega))
    · rw [if_neg hout]
      have hpre : key.toNat / 2 ^ (sh + 4) = path.toNat / 2 ^ (sh + 4) :=
        Classical.byContradiction fun e => hout ((outside_iff key path sh).2 e)
      have hkp : key.toNat / 2 ^ sh = path.toNat / 2 ^ (sh + 4) * 16 + (idx key sh).val := by
        rw [idx_val, ← hpre]; exact prefix_split key.toNat sh
      -- order of the other children relative to `key`
      have hleft : ∀ j k v, j < idx key sh → Has (ch j) k v → k < key := by
        intro j k v hj hk
        have h1 := ((h.2.2.2.2 j).2).2 k v hk
        have hj' : j.val < (idx key sh).val := hj
        exact BitVec.lt_def.2 (lt_of_prefix (s := sh) (by omega))
      have hright : ∀ j k v, idx key sh < j → Has (ch j) k v → key < k := by
        intro j k v hj hk
        have h1 := ((h.2.2.2.2 j).2).2 k v hk
        have hj' : (idx key sh).val < j.val := hj
        exact BitVec.lt_def.2 (lt_of_prefix (s := sh) (by omega))
      have hi := ih (idx key sh) (h.2.2.2.2 _).1
      cases hf : findLe key (ch (idx key sh)) with
      | some r =>
        obtain ⟨k, v⟩ := r
        rw [hf] at hi
        refine ⟨⟨_, hi.1⟩, hi.2.1, ?_⟩
        rintro k' v' ⟨j, hj⟩ hle
        rcases Nat.lt_trichotomy j.val (idx key sh).val with h1 | h1 | h1
        · exact BitVec.le_of_lt (child_lt h h1 hj hi.1)
        · have : j = idx key sh := Fin.ext h1
          subst this; exact hi.2.2 k' v' hj hle
        · exact absurd (hright j k' v' h1 hj) (BitVec.not_lt.2 hle)
      | none =>
        rw [hf] at hi
        have hfl := find_last (l := (List.finRange 16).filter (· < idx key sh))
          (List.Pairwise.filter _ finRange_lt) (fun i => !(ch i).isNil)
        cases hr : ((List.finRange 16).filter (· < idx key sh)).reverse.find?
            (fun i => !(ch i).isNil) with
        | none =>
          rw [hr] at hfl
          rintro k v ⟨j, hj⟩
          rcases Nat.lt_trichotomy j.val (idx key sh).val with h1 | h1 | h1
          · have := hfl j (by simp [List.mem_finRange]; exact h1)
            simp [has_not_nil hj] at this
          · have : j = idx key sh := Fin.ext h1
            subst this; exact hi k v hj
          · exact hright j k v h1 hj
        | some i =>
          rw [hr] at hfl
          obtain ⟨him, hin, hmax⟩ := hfl
          have hilt : i < idx key sh := by
            simp [List.mem_finRange] at him; exact him
          obtain ⟨k, v, h1, h2, h3⟩ := rightmost_spec (ch i) (h.2.2.2.2 i).1 (by simpa using hin)
          simp only [h1]
          refine ⟨⟨i, h2⟩, BitVec.le_of_lt (hleft i k v hilt h2), ?_⟩
          rintro k' v' ⟨j, hj⟩ hle
          rcases Nat.lt_trichotomy j.val (idx key sh).val with h4 | h4 | h4
          · have hji := hmax j (by simp [List.mem_finRange]; exact h4) (by simp [has_not_nil hj])
            rcases Nat.lt_or_ge j.val i.val with h5 | h5
            · exact BitVec.le_of_lt (child_lt h h5 hj h2)
            · have : j = i := Fin.ext (Nat.le_antisymm hji h5)
              subst this; exact h3 k' v' hj
          · have : j = idx key sh := Fin.ext h4
            subst this
            exact absurd (hi k' v' hj) (BitVec.not_lt.2 hle)
          · exact absurd (hright j k' v' h4 hj) (BitVec.not_lt.2 hle)

theorem findGe_spec (key : W) (t : T V) (h : WF t) : GeSpec key t (findGe key t) := by
  induction t with
  | nil => exact fun k v hk => nomatch hk
  | leaf k0 v0 =>
    simp only [findGe]
    split
    · rename_i hle
      exact ⟨⟨rfl, rfl⟩, hle, fun k' v' hk _ => by rw [hk.1]; exact BitVec.le_refl _⟩
    · rename_i hle
      rintro k v ⟨rfl, _⟩
      exact BitVec.not_le.1 hle
  | node sh path ch ih =>
    simp only [findGe]
    have hpm : path.toNat / 2 ^ (sh + 4) * 2 ^ (sh + 4) = path.toNat :=
      Nat.div_mul_cancel (Nat.dvd_of_mod_eq_zero h.2.2.1)
    by_cases hout : outside key path sh = true
    · rw [if_pos hout]
      have hne := (outside_iff key path sh).1 hout
      by_cases hlt : path > key
      · rw [if_pos hlt]
        obtain ⟨k, v, h1, h2, h3⟩ := leftmost_spec (.node sh path ch) h rfl
        rw [h1]
        refine ⟨h2, ?_, fun k' v' hk _ => h3 k' v' hk⟩
        have hp := node_path_of_has h h2
        have hle := Nat.div_le_div_right (c := 2 ^ (sh + 4)) (Nat.le_of_lt (BitVec.lt_def.1 hlt))
        exact BitVec.le_of_lt (BitVec.lt_def.2 (lt_of_prefix (s := sh + 4) (by omega)))
      · rw [if_neg hlt]
        intro k v hk
        have hp := node_path_of_has h hk
        have hle := Nat.div_le_div_right (c := 2 ^ (sh + 4)) (BitVec.le_def.1 (BitVec.not_lt.1 hlt))
        exact BitVec.lt_def.2 (lt_of_prefix (s := sh + 4) (by omega))
    · rw [if_neg hout]
      have hpre : key.toNat / 2 ^ (sh + 4) = path.toNat / 2 ^ (sh + 4) :=
        Classical.byContradiction fun e => hout ((outside_iff key path sh).2 e)
      have hkp : key.toNat / 2 ^ sh = path.toNat / 2 ^ (sh + 4) * 16 + (idx key sh).val := by
        rw [idx_val, ← hpre]; exact prefix_split key.toNat sh
      have hleft : ∀ j k v, j < idx key sh → Has (ch j) k v → k < key := by
        intro j k v hj hk
        have h1 := ((h.2.2.2.2 j).2).2 k v hk
        have hj' : j.val < (idx key sh).val := hj
        exact BitVec.lt_def.2 (lt_of_prefix (s := sh) (by omega))
      have hright : ∀ j k v, idx key sh < j → Has (ch j) k v → key < k := by
        intro j k v hj hk
        have h1 := ((h.2.2.2.2 j).2).2 k v hk
        have hj' : (idx key sh).val < j.val := hj
        exact BitVec.lt_def.2 (lt_of_prefix (s := sh) (by omega))
      have hi := ih (idx key sh) (h.2.2.2.2 _).1
      cases hf : findGe key (ch (idx key sh)) with
      | some r =>
        obtain ⟨k, v⟩ := r
        rw [hf] at hi
        refine ⟨⟨_, hi.1⟩, hi.2.1, ?_⟩
        rintro k' v' ⟨j, hj⟩ hle
        rcases Nat.lt_trichotomy j.val (idx key sh).val with h1 | h1 | h1
        · exact absurd (hleft j k' v' h1 hj) (BitVec.not_lt.2 hle)
        · have : j = idx key sh := Fin.ext h1
          subst this; exact hi.2.2 k' v' hj hle
        · exact BitVec.le_of_lt (child_lt h h1 hi.1 hj)
      | none =>
        rw [hf] at hi
        have hfl := find_first (l := (List.finRange 16).filter (idx key sh < ·))
          (List.Pairwise.filter _ finRange_lt) (fun i => !(ch i).isNil)
        cases hr : ((List.finRange 16).filter (idx key sh < ·)).find?
            (fun i => !(ch i).isNil) with
        | none =>
          rw [hr] at hfl
          rintro k v ⟨j, hj⟩
          rcases Nat.lt_trichotomy j.val (idx key sh).val with h1 | h1 | h1
          · exact hleft j k v h1 hj
          · have : j = idx key sh := Fin.ext h1
            subst this; exact hi k v hj
          · have := hfl j (by simp [List.mem_finRange]; exact h1)
            simp [has_not_nil hj] at this
        | some i =>
          rw [hr] at hfl
          obtain ⟨him, hin, hmax⟩ := hfl
          have hilt : idx key sh < i := by
            simp [List.mem_finRange] at him; exact him
          obtain ⟨k, v, h1, h2, h3⟩ := leftmost_spec (ch i) (h.2.2.2.2 i).1 (by simpa using hin)
          simp only [h1]
          refine ⟨⟨i, h2⟩, BitVec.le_of_lt (hright i k v hilt h2), ?_⟩
          rintro k' v' ⟨j, hj⟩ hle
          rcases Nat.lt_trichotomy j.val (idx key sh).val with h4 | h4 | h4
          · exact absurd (hleft j k' v' h4 hj) (BitVec.not_lt.2 hle)
          · have : j = idx key sh := Fin.ext h4
            subst this
            exact absurd (hi k' v' hj) (BitVec.not_lt.2 hle)
          · have hji := hmax j (by simp [List.mem_finRange]; exact h4) (by simp [has_not_nil hj])
            rcases Nat.lt_or_ge i.val j.val with h5 | h5
            · exact BitVec.le_of_lt (child_lt h h5 h2 hj)
            · have : j = i := Fin.ext (Nat.le_antisymm h5 hji)
              subst this; exact h3 k' v' hj

end Verif.Critnib
