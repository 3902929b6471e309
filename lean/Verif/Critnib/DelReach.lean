import Verif.Critnib.DelLemmas
/-! # Readers only ever hold memory that was handed out -/
namespace Verif.Critnib.Conc
open Verif.Critnib

variable {V : Type}

/-- Handed out, and not the node that is being filled. -/
def VP (E : Option Nat) (m : Mem V) (p : Ptr) : Prop := Spec.Obtained m p ∧ ∀ n, E = some n → p ≠ .node n

/-- All pointers of the tree and of removed nodes lead to such memory. -/
structure Q (E : Option Nat) (m : Mem V) : Prop where
  root : VP E m m.root
  kid : ∀ n, n < m.nextN → E ≠ some n → ∀ i, VP E m ((m.nodes n).child i)

/-- It stays so while stores are made. -/
def AllR (E : Option Nat) (m : Mem V) : List (Store V) → Prop
  | [] => E = none ∧ Q none m
  | a :: ss => Q E m ∧ Spec.Within m a ∧ ∃ E', (∀ p, VP E m p → VP E' (m.store a) p) ∧ AllR E' (m.store a) ss

theorem AllR.q {E : Option Nat} {m : Mem V} {ss : List (Store V)} (h : AllR E m ss) : Q E m := by
  cases ss with
  | nil => obtain ⟨rfl, h⟩ := h; exact h
  | cons a ss => exact h.1

theorem vp_null {E : Option Nat} {m : Mem V} : VP E m .null := ⟨trivial, fun _ _ e => by cases e⟩

theorem ob_mono {m m' : Mem V} (h1 : m.nextN ≤ m'.nextN) (h2 : m.nextL ≤ m'.nextL) {p : Ptr} (h : Spec.Obtained m p) : Spec.Obtained m' p := by
  cases p with
  | null => trivial
  | leaf l => exact Nat.lt_of_lt_of_le h h2
  | node n => exact Nat.lt_of_lt_of_le h h1

theorem vp_mono {E : Option Nat} {m m' : Mem V} (h1 : m.nextN ≤ m'.nextN) (h2 : m.nextL ≤ m'.nextL) {p : Ptr} (h : VP E m p) : VP E m' p :=
  ⟨ob_mono h1 h2 h.1, h.2⟩

theorem store_nextN (m : Mem V) (a : Store V) : m.nextN ≤ (m.store a).nextN := by
  cases a with
  | slot s p => cases s <;> exact Nat.le_refl _
  | hostNode => exact Nat.le_succ _
  | _ => exact Nat.le_refl _

theorem store_nextL (m : Mem V) (a : Store V) : m.nextL ≤ (m.store a).nextL := by
  cases a with
  | slot s p => cases s <;> exact Nat.le_refl _
  | hostLeaf => exact Nat.le_succ _
  | _ => exact Nat.le_refl _

theorem vp_store {E : Option Nat} {m : Mem V} (a : Store V) {p : Ptr} (h : VP E m p) : VP E (m.store a) p :=
  vp_mono (store_nextN m a) (store_nextL m a) h

theorem within_mono {m m' : Mem V} (h1 : m.nextN ≤ m'.nextN) (h2 : m.nextL ≤ m'.nextL) {a : Store V} (h : Spec.Within m a) : Spec.Within m' a := by
  cases a with
  | slot s p =>
    cases s with
    | root => trivial
    | child n i => exact Nat.lt_of_lt_of_le h h1
  | path n w => exact Nat.lt_of_lt_of_le h h1
  | shift n w => exact Nat.lt_of_lt_of_le h h1
  | key n w => exact Nat.lt_of_lt_of_le h h2
  | val n w => exact Nat.lt_of_lt_of_le h h2
  | _ => trivial

/-- Stores that keep the pointers good: only good pointers are stored, no node is asked of the host. The node that is being filled may be
given any pointer. -/
def Keeps (E : Option Nat) (m : Mem V) : Store V → Prop
  | .slot s p => VP E m p ∨ ∃ n i, E = some n ∧ s = .child n i
  | .hostNode => False
  | _ => True

def Simple (E : Option Nat) (m : Mem V) (a : Store V) : Prop := Keeps E m a ∧ Spec.Within m a

theorem Simple.store {E : Option Nat} {m : Mem V} {a b : Store V} (h : Simple E m a) : Simple E (m.store b) a := by
  refine ⟨?_, within_mono (store_nextN m b) (store_nextL m b) h.2⟩
  replace h := h.1
  cases a with
  | slot s p => exact h.imp (vp_store b) id
  | _ => exact h

theorem q_simple {E : Option Nat} {m : Mem V} (hq : Q E m) {a : Store V} (h : Keeps E m a) : Q E (m.store a) := by
  cases a with
  | slot s p =>
    cases s with
    | root =>
      rcases h with h | ⟨_, _, _, e⟩
      · exact ⟨h, hq.kid⟩
      · cases e
    | child n i =>
      refine ⟨hq.root, fun k hk hE j => ?_⟩
      show VP E m ((Function.update m.nodes n _ k).child j)
      by_cases e : k = n
      · subst e
        rw [Function.update_self]
        show VP E m (Function.update (m.nodes k).child i p j)
        by_cases e' : j = i
        · subst e'
          rw [Function.update_self]
          rcases h with h | ⟨n', i', h1, h2⟩
          · exact h
          · cases h2; exact absurd h1 hE
        · rw [Function.update_of_ne e']
          exact hq.kid k hk hE j
      · rw [Function.update_of_ne e]
        exact hq.kid k hk hE j
  | hostNode => exact h.elim
  | path n w =>
    refine ⟨hq.root, fun k hk hE j => ?_⟩
    show VP E m ((Function.update m.nodes n _ k).child j)
    by_cases e : k = n
    · subst e; rw [Function.update_self]; exact hq.kid k hk hE j
    · rw [Function.update_of_ne e]; exact hq.kid k hk hE j
  | shift n w =>
    refine ⟨hq.root, fun k hk hE j => ?_⟩
    show VP E m ((Function.update m.nodes n _ k).child j)
    by_cases e : k = n
    · subst e; rw [Function.update_self]; exact hq.kid k hk hE j
    · rw [Function.update_of_ne e]; exact hq.kid k hk hE j
  | hostLeaf => exact ⟨vp_store .hostLeaf hq.root, fun n hn hE i => vp_store .hostLeaf (hq.kid n hn hE i)⟩
  | _ => exact ⟨hq.root, hq.kid⟩

/-- Simple stores, then others. -/
theorem allR_append {E : Option Nat} {rest : List (Store V)} : ∀ (ss : List (Store V)) (m : Mem V), Q E m → (∀ a ∈ ss, Simple E m a) →
    (Q E (m.stores ss) → AllR E (m.stores ss) rest) → AllR E m (ss ++ rest) := by
  intro ss
  induction ss with
  | nil => intro m hq _ h; exact h hq
  | cons a ss ih =>
    intro m hq hs h
    refine ⟨hq, (hs a (by simp)).2, E, fun p hp => vp_store a hp, ih (m.store a) (q_simple hq (hs a (by simp)).1) (fun b hb => (hs b (by simp [hb])).store) h⟩

theorem allR_simple {ss : List (Store V)} {m : Mem V} (hq : Q none m) (hs : ∀ a ∈ ss, Simple none m a) : AllR none m ss := by
  have := allR_append (rest := []) ss m hq hs fun h => ⟨rfl, h⟩
  simpa using this

/-! ## The writers -/

theorem descend_vp {m : Mem V} (hq : Q none m) {key : W} : ∀ (f : Nat) (s : Slot) (p : Ptr) (s' : Slot) (p' : Ptr), VP none m p → Spec.Within m (Store.slot s .null) →
    descend m key f s p = some (s', p') → VP none m p' ∧ Spec.Within m (Store.slot s' .null) := by
  intro f
  induction f with
  | zero => intro s p s' p' _ _ h; cases h
  | succ f ih =>
    intro s p s' p' hp hs h
    cases p with
    | null => cases h; exact ⟨hp, hs⟩
    | leaf l => cases h; exact ⟨hp, hs⟩
    | node n =>
      unfold descend at h
      split at h
      · exact ih (.child n (idx key (m.nodes n).shift)) _ _ _ (hq.kid n hp.1 (by simp) _) hp.1 h
      · cases h; exact ⟨hp, hs⟩

theorem descendR_vp {m : Mem V} (hq : Q none m) {key : W} : ∀ (f : Nat) (s : Slot) (n : Nat) (s' : Slot) (n' : Nat) (i : Fin 16) (l : Nat), n < m.nextN → Spec.Within m (Store.slot s .null) →
    descendR m key f s n = some (.found s' n' i l) → n' < m.nextN ∧ Spec.Within m (Store.slot s' .null) := by
  intro f
  induction f with
  | zero => intro s n s' n' i l _ _ h; cases h
  | succ f ih =>
    intro s n s' n' i l hn hs h
    unfold descendR at h
    cases hc : (m.nodes n).child (idx key (m.nodes n).shift) with
    | null => rw [hc] at h; cases h
    | leaf l => rw [hc] at h; cases h; exact ⟨hn, hs⟩
    | node k =>
      rw [hc] at h
      have := hq.kid n hn (by simp) (idx key (m.nodes n).shift)
      rw [hc] at this
      exact ih (.child n (idx key (m.nodes n).shift)) _ _ _ _ _ this.1 hn h

theorem vp_of {m : Mem V} {p : Ptr} (h : Spec.Obtained m p) : VP none m p := ⟨h, fun _ e => by cases e⟩

theorem removeEnd_allR {m m0 : Mem V} {ss ss' : List (Store V)} {del : Fin 16} {l : Nat} {r : Option V} (h : removeEnd m ss del l = some (ss', r))
    (hq : Q none m0) (hs : ∀ a ∈ ss, Simple none m0 a) : AllR none m0 ss' := by
  unfold removeEnd at h
  split at h
  · cases h
    refine allR_simple hq fun a ha => ?_
    rcases List.mem_append.1 ha with ha | ha
    · exact hs a ha
    · rw [List.mem_singleton.1 ha]; exact ⟨trivial, trivial⟩
  · cases h

theorem stores_nextN (ss : List (Store V)) : ∀ m : Mem V, m.nextN ≤ (m.stores ss).nextN := by
  induction ss with
  | nil => intro m; exact Nat.le_refl _
  | cons a ss ih => intro m; exact Nat.le_trans (store_nextN m a) (ih _)

theorem q_stores {E : Option Nat} : ∀ (ss : List (Store V)) {m : Mem V}, Q E m → (∀ a ∈ ss, Simple E m a) → Q E (m.stores ss) := by
  intro ss
  induction ss with
  | nil => intro m hq _; exact hq
  | cons a ss ih => intro m hq hs; exact ih (q_simple hq (hs a (by simp)).1) fun b hb => (hs b (by simp [hb])).store

/-- Without requests to the host the same memory is handed out. -/
theorem stores_same : ∀ (ss : List (Store V)) (m : Mem V), (∀ a ∈ ss, a ≠ .hostNode ∧ a ≠ .hostLeaf) → (m.stores ss).nextN = m.nextN ∧ (m.stores ss).nextL = m.nextL := by
  intro ss
  induction ss with
  | nil => intro m _; exact ⟨rfl, rfl⟩
  | cons a ss ih =>
    intro m h
    have h1 := ih (m.store a) fun b hb => h b (by simp [hb])
    have h2 := h a (by simp)
    have : (m.store a).nextN = m.nextN ∧ (m.store a).nextL = m.nextL := by
      cases a with
      | slot s p => cases s <;> exact ⟨rfl, rfl⟩
      | hostNode => exact absurd rfl h2.1
      | hostLeaf => exact absurd rfl h2.2
      | _ => exact ⟨rfl, rfl⟩
    exact ⟨h1.1.trans this.1, h1.2.trans this.2⟩

theorem ob_same {m m' : Mem V} (h : m'.nextN = m.nextN ∧ m'.nextL = m.nextL) {p : Ptr} (hp : Spec.Obtained m' p) : Spec.Obtained m p :=
  ob_mono (Nat.le_of_eq h.1) (Nat.le_of_eq h.2) hp

theorem delNode_vp {g : G V} {X : Option (Fin 16)} {LN LL : List Nat} (rs : Res g X LN LL) : VP none g.mem g.mem.delNode := by
  have := rs.chainN
  cases hd : g.mem.delNode with
  | null => exact vp_null
  | leaf l => rw [hd] at this; cases LN <;> exact this.elim
  | node n =>
    rw [hd] at this
    cases LN with
    | nil => exact this.elim
    | cons y LN =>
      obtain ⟨rfl, -⟩ := this
      exact vp_of (rs.offN n (by simp)).2

theorem remove_allR {g : G V} (hi : Idle g) (hq : Q none g.mem) {key : W} {ss : List (Store V)} {r : Option V}
    (h : removeStores g.mem key = some (ss, r)) : AllR none g.mem ss := by
  obtain ⟨hg, -, LN, LL, rs, -⟩ := hi
  generalize hm : g.mem = m at *
  unfold removeStores at h
  -- the preparation
  have hdN : VP none m m.delNode := hm ▸ delNode_vp rs
  have hpN : ∀ n, m.pendN (delIdx m.count) = some n → n < m.nextN := by
    intro n h
    rw [← hm] at h ⊢
    obtain ⟨c, h1, -⟩ := rs.pendN _ n (by simp) h
    exact Nat.lt_of_not_le fun hle => by rw [rs.freshN n hle] at h1; cases h1
  have hpL : ∀ n, m.pendL (delIdx m.count) = some n → n < m.nextL := by
    intro n h
    rw [← hm] at h ⊢
    obtain ⟨c, h1, -⟩ := rs.pendL _ n (by simp) h
    exact Nat.lt_of_not_le fun hle => by rw [rs.freshL n hle] at h1; cases h1
  generalize hs : ([Store.incCount] ++ freeNode (m.stores [Store.incCount]) (m.pendN (delIdx m.count)) ++
      freeLeaf (m.stores ([Store.incCount] ++ freeNode (m.stores [Store.incCount]) (m.pendN (delIdx m.count)))) (m.pendL (delIdx m.count)) ++
      [Store.pendN (delIdx m.count) none, Store.pendL (delIdx m.count) none]) = ps at h
  have hps : ∀ a ∈ ps, Simple none m a ∧ a ≠ .hostNode ∧ a ≠ .hostLeaf := by
    intro a ha
    rw [← hs] at ha
    simp only [List.mem_append, List.mem_cons, List.not_mem_nil, or_false] at ha
    rcases ha with ((rfl | ha) | ha) | rfl | rfl
    · exact ⟨⟨trivial, trivial⟩, by simp, by simp⟩
    · cases hp : m.pendN (delIdx m.count) with
      | none => rw [hp] at ha; simp [freeNode] at ha
      | some n =>
        rw [hp] at ha
        simp only [freeNode, List.mem_cons, List.not_mem_nil, or_false] at ha
        rcases ha with rfl | rfl
        · exact ⟨⟨.inl hdN, hpN n hp⟩, by simp, by simp⟩
        · exact ⟨⟨trivial, trivial⟩, by simp, by simp⟩
    · cases hp : m.pendL (delIdx m.count) with
      | none => rw [hp] at ha; simp [freeLeaf] at ha
      | some n =>
        rw [hp] at ha
        simp only [freeLeaf, List.mem_cons, List.not_mem_nil, or_false] at ha
        rcases ha with rfl | rfl
        · exact ⟨⟨trivial, hpL n hp⟩, by simp, by simp⟩
        · exact ⟨⟨trivial, trivial⟩, by simp, by simp⟩
    · exact ⟨⟨trivial, trivial⟩, by simp, by simp⟩
    · exact ⟨⟨trivial, trivial⟩, by simp, by simp⟩
  have hq1 : Q none (m.stores ps) := q_stores ps hq fun a ha => (hps a ha).1
  have hsame := stores_same ps m fun a ha => (hps a ha).2
  cases hr : m.root with
  | null => rw [hr] at h; cases h; exact ⟨rfl, hq⟩
  | leaf l =>
    rw [hr] at h
    dsimp only at h
    rw [hs] at h
    split at h
    · refine removeEnd_allR h hq fun a ha => ?_
      rcases List.mem_append.1 ha with ha | ha
      · exact (hps a ha).1
      · rw [List.mem_singleton.1 ha]; exact ⟨.inl vp_null, trivial⟩
    · cases h; exact allR_simple hq fun a ha => (hps a ha).1
  | node n0 =>
    rw [hr] at h
    dsimp only at h
    rw [hs] at h
    have hn0 : n0 < m.nextN := by have := hq.root.1; rw [hr] at this; exact this
    cases hd : descendR (m.stores ps) key depth .root n0 with
    | none => rw [hd] at h; cases h
    | some d =>
      rw [hd] at h
      cases d with
      | missing => cases h; exact allR_simple hq fun a ha => (hps a ha).1
      | found np n i l =>
        dsimp only at h
        obtain ⟨hn, hnp⟩ := descendR_vp hq1 depth .root _ _ _ _ _ (Nat.lt_of_lt_of_le hn0 (stores_nextN ps m)) trivial hd
        replace hn : n < m.nextN := hsame.1 ▸ hn
        replace hnp : Spec.Within m (Store.slot np .null) := within_mono (Nat.le_of_eq hsame.1) (Nat.le_of_eq hsame.2) hnp
        split at h
        · have hps' : ∀ a ∈ ps ++ [Store.slot (.child n i) .null], Simple none m a ∧ a ≠ .hostNode ∧ a ≠ .hostLeaf := by
            intro a ha
            rcases List.mem_append.1 ha with ha | ha
            · exact hps a ha
            · rw [List.mem_singleton.1 ha]; exact ⟨⟨.inl vp_null, hn⟩, by simp, by simp⟩
          have hq2 := q_stores _ hq fun a ha => (hps' a ha).1
          have hsame2 := stores_same _ m fun a ha => (hps' a ha).2
          split at h
          · cases h
          · rename_i o _
            refine removeEnd_allR h hq fun a ha => ?_
            rcases List.mem_append.1 ha with ha | ha
            · exact (hps' a ha).1
            · simp only [List.mem_cons, List.not_mem_nil, or_false] at ha
              rcases ha with rfl | rfl
              · refine ⟨.inl (vp_of (ob_same hsame2 (hq2.kid n ?_ (by simp) o).1)), ?_⟩
                · rw [hsame2.1]; exact hn
                · cases np with
                  | root => trivial
                  | child x y => exact hnp
              · exact ⟨trivial, trivial⟩
          · exact removeEnd_allR h hq fun a ha => (hps' a ha).1
        · cases h; exact allR_simple hq fun a ha => (hps a ha).1

/-- A new node linked into the tree. -/
theorem branch_allR {m : Mem V} (hq : Q none m) {nodeOk : Bool} {nn : Nat} {as : List (Store V)} (hg : allocNode m nodeOk = .got nn as)
    (hd : VP none m m.delNode) (key path : W) (sh : Nat) {kn old : Ptr} (h1 : VP none m kn) (h2 : VP none m old) (s : Slot)
    (hs : Spec.Within m (Store.slot s .null)) :
    AllR none m (as ++ (fillNode nn key path sh kn old ++ [.slot s (.node nn)])) := by
  unfold allocNode at hg
  cases hp : m.delNode with
  | leaf l => rw [hp] at hg; cases hg
  | node n =>
    rw [hp] at hg
    cases hg
    rw [hp] at hd
    refine allR_simple hq fun a ha => ?_
    simp only [fillNode, List.mem_append, List.mem_cons, List.not_mem_nil, or_false, List.mem_map] at ha
    rcases ha with rfl | (⟨i, -, rfl⟩ | rfl | rfl | rfl | rfl) | rfl
    · exact ⟨trivial, trivial⟩
    · exact ⟨.inl vp_null, hd.1⟩
    · exact ⟨.inl h1, hd.1⟩
    · exact ⟨.inl h2, hd.1⟩
    · exact ⟨trivial, hd.1⟩
    · exact ⟨trivial, hd.1⟩
    · refine ⟨.inl hd, ?_⟩
      cases s with
      | root => trivial
      | child x y => exact hs
  | null =>
    rw [hp] at hg
    dsimp only at hg
    split at hg
    · cases hg
      -- the host's node is filled before anyone sees it
      have up : ∀ p, VP none m p → VP (some m.nextN) (m.store .hostNode) p := by
        intro p hp'
        refine ⟨(vp_store (Store.hostNode (V := V)) hp').1, fun n e e' => ?_⟩
        cases e
        rw [e'] at hp'
        exact Nat.lt_irrefl _ hp'.1
      refine ⟨hq, trivial, some m.nextN, up, ?_⟩
      have hq1 : Q (some m.nextN) (m.store .hostNode) := by
        refine ⟨up _ hq.root, fun n hn hE i => up _ (hq.kid n ?_ (by simp) i)⟩
        rcases Nat.lt_or_ge n m.nextN with h | h
        · exact h
        · exact absurd (by rw [show n = m.nextN from Nat.le_antisymm (Nat.le_of_lt_succ hn) h]) hE
      refine allR_append (fillNode m.nextN key path sh kn old) (m.store .hostNode) hq1 (fun a ha => ?_) fun hq2 => ?_
      · simp only [fillNode, List.mem_append, List.mem_cons, List.not_mem_nil, or_false, List.mem_map] at ha
        rcases ha with ⟨i, -, rfl⟩ | rfl | rfl | rfl | rfl
        · exact ⟨.inl vp_null, Nat.lt_succ_self _⟩
        · exact ⟨.inr ⟨_, _, rfl, rfl⟩, Nat.lt_succ_self _⟩
        · exact ⟨.inr ⟨_, _, rfl, rfl⟩, Nat.lt_succ_self _⟩
        · exact ⟨trivial, Nat.lt_succ_self _⟩
        · exact ⟨trivial, Nat.lt_succ_self _⟩
      · obtain ⟨f1, -, -, f4, f5⟩ := fillNode_spec (m.store .hostNode) m.nextN key path sh kn old
        generalize (m.store .hostNode).stores (fillNode m.nextN key path sh kn old) = m2 at *
        have fN : m2.nextN = m.nextN + 1 := by rw [f5]; rfl
        have fL : m2.nextL = m.nextL := by rw [f5]; rfl
        have hv : ∀ p, VP (some m.nextN) m2 p → VP none m2 p := fun p h => vp_of h.1
        have hs2 : Spec.Within m2 (Store.slot s (.node m.nextN)) := by
          cases s with
          | root => trivial
          | child x y =>
            have : x < m.nextN := hs
            show x < m2.nextN
            omega
        refine ⟨hq2, hs2, none, fun p h => vp_store _ (hv p h), rfl, ?_⟩
        have hq3 : Q none m2 := by
          refine ⟨hv _ hq2.root, fun n hn _ i => ?_⟩
          by_cases e : n = m.nextN
          · subst e
            rw [f1]
            split
            · exact vp_mono (by omega) (by omega) h2
            · split
              · exact vp_mono (by omega) (by omega) h1
              · exact vp_null
          · exact hv _ (hq2.kid n hn (fun h => e (by cases h; rfl)) i)
        refine q_simple hq3 (.inl (vp_of ?_))
        show m.nextN < m2.nextN
        omega
    · cases hg

theorem insert_allR {g : G V} (hi : Idle g) (hq : Q none g.mem) {key : W} {v : V} {upd lo no : Bool} {ss : List (Store V)} {r : InsRes}
    (h : insertStores g.mem key v upd lo no = some (ss, r)) : AllR none g.mem ss := by
  obtain ⟨hg, -, LN, LL, rs, -⟩ := hi
  have hdN := delNode_vp rs
  have hkL : ∀ k as, allocLeaf g.mem lo = .got k as → (∀ a ∈ as, Simple none g.mem a) ∧ k < (g.mem.stores as).nextL ∧ (g.mem.stores as).delNode = g.mem.delNode := by
    intro k as ha
    unfold allocLeaf at ha
    have hc := rs.chainL
    cases hp : g.mem.delLeaf with
    | none =>
      rw [hp] at ha
      dsimp only at ha
      split at ha
      · cases ha
        exact ⟨by simp [Simple, Keeps, Spec.Within], Nat.lt_succ_self _, rfl⟩
      · cases ha
    | some n =>
      rw [hp] at ha hc
      dsimp only at ha
      split at ha
      · cases ha
        cases LL with
        | nil => exact hc.elim
        | cons y LL =>
          obtain ⟨rfl, -⟩ := hc
          exact ⟨by simp [Simple, Keeps, Spec.Within], (rs.offL _ (by simp)).2, rfl⟩
      · cases ha
  generalize hm : g.mem = m at *
  unfold insertStores at h
  cases ha : allocLeaf m lo with
  | refused => rw [ha] at h; cases h; exact ⟨rfl, hq⟩
  | wild => rw [ha] at h; cases h
  | got k as =>
    rw [ha] at h
    dsimp only at h
    obtain ⟨k1, k2, k3⟩ := hkL k as ha
    have app : ∀ ts : List (Store V), (Q none (m.stores (as ++ [Store.key k key, Store.val k (.user v)])) →
        AllR none (m.stores (as ++ [Store.key k key, Store.val k (.user v)])) ts) → AllR none m (as ++ [Store.key k key, Store.val k (.user v)] ++ ts) := by
      intro ts ht
      rw [List.append_assoc]
      refine allR_append as m hq k1 fun hq' => allR_append [Store.key k key, Store.val k (.user v)] _ hq' ?_ ?_
      · intro a h
        simp only [List.mem_cons, List.not_mem_nil, or_false] at h
        rcases h with rfl | rfl <;> exact ⟨trivial, k2⟩
      · rw [← stores_append]; exact ht
    have hq1 : Q none (m.stores (as ++ [Store.key k key, Store.val k (.user v)])) := by
      rw [stores_append]
      refine q_stores _ (q_stores as hq k1) fun a h => ?_
      simp only [List.mem_cons, List.not_mem_nil, or_false] at h
      rcases h with rfl | rfl <;> exact ⟨trivial, k2⟩
    have hk : VP none (m.stores (as ++ [Store.key k key, Store.val k (.user v)])) (.leaf k) := by
      refine vp_of ?_
      rw [stores_append]
      exact k2
    have hd1 : VP none (m.stores (as ++ [Store.key k key, Store.val k (.user v)])) (m.stores (as ++ [Store.key k key, Store.val k (.user v)])).delNode := by
      have e : (m.stores (as ++ [Store.key k key, Store.val k (.user v)])).delNode = m.delNode := by
        rw [stores_append]
        exact k3
      rw [e]
      refine vp_of ?_
      have h1 := stores_nextN (as ++ [Store.key k key, Store.val k (.user v)]) m
      cases hp : m.delNode with
      | null => trivial
      | leaf l =>
        have := rs.chainN
        rw [hm, hp] at this
        cases LN <;> exact this.elim
      | node n => rw [hp] at hdN; exact Nat.lt_of_lt_of_le hdN.1 h1
    generalize hss : as ++ [Store.key k key, Store.val k (.user v)] = s0 at *
    have one : ∀ s, Spec.Within (m.stores s0) (Store.slot s .null) → AllR none m (s0 ++ [.slot s (.leaf k)]) := fun s hs =>
      app _ fun hq1 => allR_simple hq1 fun a ha => by
        rw [List.mem_singleton.1 ha]
        refine ⟨.inl hk, ?_⟩
        cases s with
        | root => trivial
        | child x y => exact hs
    have quiet : ∀ ts : List (Store V), (∀ a ∈ ts, Simple none (m.stores s0) a) → AllR none m (s0 ++ ts) := fun ts ht =>
      app ts fun hq1 => allR_simple hq1 ht
    have hkk : k < (m.stores s0).nextL := hk.1
    have hfree : ∀ a ∈ freeLeaf (m.stores s0) (some k), Simple none (m.stores s0) a := by
      intro a h
      simp only [freeLeaf, List.mem_cons, List.not_mem_nil, or_false] at h
      rcases h with rfl | rfl
      · exact ⟨trivial, hkk⟩
      · exact ⟨trivial, trivial⟩
    have full : ∀ s n, VP none (m.stores s0) n → Spec.Within (m.stores s0) (Store.slot s .null) → insertFull (m.stores s0) s0 k key v upd no s n = some (ss, r) → AllR none m ss := by
      intro s n hn hs h
      unfold insertFull at h
      split at h
      · cases n with
        | null => cases h
        | node n => cases h
        | leaf l =>
          dsimp only at h
          split at h
          · cases h
            rw [List.append_assoc]
            refine quiet _ fun a h => ?_
            rcases List.mem_append.1 h with h | h
            · exact hfree a h
            · rw [List.mem_singleton.1 h]; exact ⟨trivial, hn.1⟩
          · cases h
            exact quiet _ hfree
      · cases hal : allocNode (m.stores s0) no with
        | wild => rw [hal] at h; cases h
        | refused =>
          rw [hal] at h
          cases h
          exact quiet _ hfree
        | got nn bs =>
          rw [hal] at h
          cases h
          rw [List.append_assoc, List.append_assoc]
          exact app _ fun hq1 => branch_allR hq1 hal hd1 _ _ _ hk hn _ hs
    have rest : ∀ p, VP none (m.stores s0) p →
        (match descend (m.stores s0) key depth .root p with
          | none => none
          | some (s, .null) => some (s0 ++ [.slot s (.leaf k)], InsRes.ok)
          | some (s, n) => insertFull (m.stores s0) s0 k key v upd no s n) = some (ss, r) → AllR none m ss := by
      intro p hp h
      cases hde : descend (m.stores s0) key depth .root p with
      | none => rw [hde] at h; cases h
      | some x =>
        obtain ⟨s, n⟩ := x
        rw [hde] at h
        have hv := descend_vp hq1 depth .root _ _ _ hp trivial hde
        cases n with
        | null => cases h; exact one s hv.2
        | leaf l => exact full s _ hv.1 hv.2 h
        | node n => exact full s _ hv.1 hv.2 h
    have hroot := hq1.root
    cases hr : (m.stores s0).root with
    | null => rw [hr] at h; cases h; exact one .root trivial
    | leaf l => rw [hr] at h hroot; exact rest _ hroot h
    | node l => rw [hr] at h hroot; exact rest _ hroot h

/-! ## The readers -/

theorem read_vp {E : Option Nat} {m : Mem V} (hq : Q E m) (q : Query) (pc : Pc V) (h : ∀ p ∈ Spec.held pc, VP E m p) :
    ∀ p ∈ Spec.held (readStep m q pc).1, VP E m p := by
  have hk : ∀ n, VP E m (.node n) → ∀ i, VP E m ((m.nodes n).child i) := fun n hn i => hq.kid n hn.1 (fun e => hn.2 n e rfl) i
  cases pc with
  | idle => exact h
  | start => intro p hp; cases hp
  | root w => cases q <;> (intro p hp; cases List.mem_singleton.1 hp; exact hq.root)
  | walk w p =>
    cases p with
    | null => intro p hp; cases hp
    | leaf l =>
      unfold readStep
      dsimp only
      split
      · exact h
      · intro p hp; cases hp
    | node n => exact h
  | shift w n sh =>
    intro p hp
    cases List.mem_singleton.1 hp
    exact hk n (h _ (List.mem_singleton.2 rfl)) _
  | value w l k => intro p hp; cases hp
  | check w res =>
    unfold readStep
    dsimp only
    split <;> (intro p hp; cases hp)
  | call w st p =>
    have h1 : ∀ x ∈ st.map (fun x => Ptr.node x.1), VP E m x := fun x hx => h x (List.mem_cons_of_mem _ hx)
    cases p with
    | null => exact h1
    | leaf l =>
      unfold readStep
      dsimp only
      split
      · intro p hp
        cases List.mem_singleton.1 hp
        exact h _ List.mem_cons_self
      · exact h1
    | node n => exact h
  | path w st n pa =>
    have h1 : ∀ x ∈ st.map (fun x => Ptr.node x.1), VP E m x := fun x hx => h x (List.mem_cons_of_mem _ hx)
    unfold readStep
    dsimp only
    split
    · split
      · exact h
      · exact h1
    · exact h
  | follow w st n nib =>
    intro p hp
    rcases List.mem_cons.1 hp with rfl | hp
    · exact hk n (h _ List.mem_cons_self) _
    · exact h p hp
  | none w st =>
    cases st with
    | nil => intro p hp; cases hp
    | cons x st =>
      obtain ⟨n, k⟩ := x
      have h1 : ∀ x ∈ st.map (fun x => Ptr.node x.1), VP E m x := fun x hx => h x (List.mem_cons_of_mem _ hx)
      cases k with
      | zero => exact h1
      | succ k =>
        have h2 := hk n (h _ List.mem_cons_self) (Fin.ofNat 16 k)
        unfold readStep
        dsimp only
        cases hc : (m.nodes n).child (Fin.ofNat 16 k) with
        | null => exact h
        | leaf l =>
          rw [hc] at h2
          intro p hp
          cases List.mem_singleton.1 hp
          exact h2
        | node n' =>
          rw [hc] at h2
          intro p hp
          rcases List.mem_cons.1 hp with rfl | hp
          · exact h2
          · exact h1 p hp
  | pred w st n nib =>
    have h1 : ∀ x ∈ st.map (fun x => Ptr.node x.1), VP E m x := fun x hx => h x (List.mem_cons_of_mem _ hx)
    unfold readStep
    dsimp only
    split
    · split
      · exact h1
      · exact h
    · exact h
  | pred2 w st n nib =>
    have h1 : ∀ x ∈ st.map (fun x => Ptr.node x.1), VP E m x := fun x hx => h x (List.mem_cons_of_mem _ hx)
    have h2 := hk n (h _ List.mem_cons_self) nib
    unfold readStep
    dsimp only
    cases hc : (m.nodes n).child nib with
    | null => exact h1
    | leaf l =>
      rw [hc] at h2
      intro p hp
      cases List.mem_singleton.1 hp
      exact h2
    | node n' =>
      rw [hc] at h2
      intro p hp
      rcases List.mem_cons.1 hp with rfl | hp
      · exact h2
      · exact h1 p hp
  | found w l => exact h

/-- What a reader does next depends on nothing else than the memory it holds. -/
theorem read_same {m m' : Mem V} (q : Query) (pc : Pc V) (h : Spec.SameAt (Spec.held pc) m m') : readStep m' q pc = readStep m q pc := by
  cases pc with
  | idle => rfl
  | start => unfold readStep; dsimp only; rw [h.count]
  | root w => cases q <;> (unfold readStep; dsimp only; rw [h.root])
  | walk w p =>
    cases p with
    | null => rfl
    | leaf l => unfold readStep; dsimp only; rw [h.leaves l (List.mem_singleton.2 rfl)]
    | node n => unfold readStep; dsimp only; rw [h.nodes n (List.mem_singleton.2 rfl)]
  | shift w n sh => unfold readStep; dsimp only; rw [h.nodes n (List.mem_singleton.2 rfl)]
  | value w l k => unfold readStep; dsimp only; rw [h.leaves l (List.mem_singleton.2 rfl)]
  | check w res => unfold readStep; dsimp only; rw [h.count]
  | call w st p =>
    cases p with
    | null => rfl
    | leaf l => unfold readStep; dsimp only; rw [h.leaves l List.mem_cons_self]
    | node n => unfold readStep; dsimp only; rw [h.nodes n List.mem_cons_self]
  | path w st n pa => unfold readStep; dsimp only; rw [h.nodes n List.mem_cons_self]
  | follow w st n nib => unfold readStep; dsimp only; rw [h.nodes n List.mem_cons_self]
  | none w st =>
    cases st with
    | nil => rfl
    | cons x st =>
      obtain ⟨n, k⟩ := x
      cases k with
      | zero => rfl
      | succ k => unfold readStep; dsimp only; rw [h.nodes n List.mem_cons_self]
  | pred w st n nib => unfold readStep; dsimp only; rw [h.nodes n List.mem_cons_self]
  | pred2 w st n nib => unfold readStep; dsimp only; rw [h.nodes n List.mem_cons_self]
  | found w l => unfold readStep; dsimp only; rw [h.leaves l (List.mem_singleton.2 rfl)]

/-! ## Runs -/

/-- What holds at all times. -/
def RInv (s : Sys V) : Prop := ∃ E, AllR E s.mem ((s.writer.map Prod.fst).getD []) ∧ ∀ r, ∀ p ∈ Spec.held (s.readers r).2, VP E s.mem p

theorem rinv_step {s : Sys V} {x : Gh V} (hw : WOk s x) (h : RInv s) (a : Act V) : RInv (step s a).1 := by
  obtain ⟨E, hall, hrd⟩ := h
  cases a with
  | insert key v upd lo no =>
    unfold step
    cases hwr : s.writer with
    | some p => exact ⟨E, hall, hrd⟩
    | none =>
      rw [hwr] at hall
      obtain ⟨rfl, hq⟩ := hall
      dsimp only
      cases hi : insertStores s.mem key v upd lo no with
      | none => exact ⟨none, ⟨rfl, hq⟩, hrd⟩
      | some p =>
        obtain ⟨ss, r⟩ := p
        rw [← hw.mem] at hi hq
        refine ⟨none, ?_, hrd⟩
        show AllR none s.mem ss
        rw [← hw.mem]
        exact insert_allR (hw.idle hwr) hq hi
  | remove key =>
    unfold step
    cases hwr : s.writer with
    | some p => exact ⟨E, hall, hrd⟩
    | none =>
      rw [hwr] at hall
      obtain ⟨rfl, hq⟩ := hall
      dsimp only
      cases hi : removeStores s.mem key with
      | none => exact ⟨none, ⟨rfl, hq⟩, hrd⟩
      | some p =>
        obtain ⟨ss, r⟩ := p
        rw [← hw.mem] at hi hq
        refine ⟨none, ?_, hrd⟩
        show AllR none s.mem ss
        rw [← hw.mem]
        exact remove_allR (hw.idle hwr) hq hi
  | write =>
    unfold step
    cases hwr : s.writer with
    | none => exact ⟨E, hall, hrd⟩
    | some p =>
      obtain ⟨ss, out⟩ := p
      rw [hwr] at hall
      cases ss with
      | nil => exact ⟨E, hall, hrd⟩
      | cons a ss =>
        obtain ⟨hq, -, E', hmono, hall⟩ := hall
        exact ⟨E', hall, fun r p hp => hmono p (hrd r p hp)⟩
  | call r q =>
    unfold step
    dsimp only
    split
    · refine ⟨E, hall, fun r' => ?_⟩
      show ∀ p ∈ Spec.held (Function.update s.readers r (q, .start) r').2, VP E s.mem p
      by_cases e : r' = r
      · subst e; rw [Function.update_self]; intro p hp; cases hp
      · rw [Function.update_of_ne e]; exact hrd r'
    · exact ⟨E, hall, hrd⟩
  | read r =>
    refine ⟨E, hall, fun r' => ?_⟩
    show ∀ p ∈ Spec.held (Function.update s.readers r _ r').2, VP E s.mem p
    by_cases e : r' = r
    · subst e; rw [Function.update_self]; exact read_vp hall.q _ _ (hrd r')
    · rw [Function.update_of_ne e]; exact hrd r'

theorem rinv_init (nodes : Nat → Node) (leaves : Nat → Leaf V) : RInv (Sys.init nodes leaves) :=
  ⟨none, ⟨rfl, vp_null, fun n hn => absurd hn (Nat.not_lt_zero n)⟩, fun _ p hp => by cases hp⟩

end Verif.Critnib.Conc
