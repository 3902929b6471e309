import Verif.Critnib.DelReach
import Mathlib.Data.List.Nodup
/-! # The memory used is bounded by the number of entries -/
namespace Verif.Critnib.Conc
open Verif.Critnib

variable {V : Type}

/-- Requests to the host. -/
def hL : List (Store V) → Nat
  | [] => 0
  | .hostLeaf :: ss => hL ss + 1
  | _ :: ss => hL ss
def hN : List (Store V) → Nat
  | [] => 0
  | .hostNode :: ss => hN ss + 1
  | _ :: ss => hN ss

theorem stores_hL : ∀ (ss : List (Store V)) (m : Mem V), (m.stores ss).nextL = m.nextL + hL ss := by
  intro ss
  induction ss with
  | nil => intro m; rfl
  | cons a ss ih =>
    intro m
    rw [show m.stores (a :: ss) = (m.store a).stores ss from rfl, ih]
    cases a with
    | slot s p => cases s <;> rfl
    | hostLeaf => simp only [Mem.store, hL]; omega
    | _ => rfl

theorem stores_hN : ∀ (ss : List (Store V)) (m : Mem V), (m.stores ss).nextN = m.nextN + hN ss := by
  intro ss
  induction ss with
  | nil => intro m; rfl
  | cons a ss ih =>
    intro m
    rw [show m.stores (a :: ss) = (m.store a).stores ss from rfl, ih]
    cases a with
    | slot s p => cases s <;> rfl
    | hostNode => simp only [Mem.store, hN]; omega
    | _ => rfl

theorem hL_append (a b : List (Store V)) : hL (a ++ b) = hL a + hL b := by
  induction a with
  | nil => simp [hL]
  | cons x a ih => cases x <;> simp only [List.cons_append, hL, ih] <;> omega

theorem hN_append (a b : List (Store V)) : hN (a ++ b) = hN a + hN b := by
  induction a with
  | nil => simp [hN]
  | cons x a ih => cases x <;> simp only [List.cons_append, hN, ih] <;> omega

theorem h_zero {ss : List (Store V)} (h : ∀ a ∈ ss, a ≠ .hostNode ∧ a ≠ .hostLeaf) : hL ss = 0 ∧ hN ss = 0 := by
  induction ss with
  | nil => exact ⟨rfl, rfl⟩
  | cons a ss ih =>
    have h1 := ih fun b hb => h b (by simp [hb])
    have h2 := h a (by simp)
    cases a with
    | hostNode => exact absurd rfl h2.1
    | hostLeaf => exact absurd rfl h2.2
    | _ => exact h1

theorem fill_zero (n : Nat) (key path : W) (sh : Nat) (kn old : Ptr) : hL (fillNode n key path sh kn old : List (Store V)) = 0 ∧ hN (fillNode n key path sh kn old : List (Store V)) = 0 := by
  refine h_zero fun a ha => ?_
  simp only [fillNode, List.mem_append, List.mem_cons, List.not_mem_nil, or_false, List.mem_map] at ha
  rcases ha with ⟨i, -, rfl⟩ | rfl | rfl | rfl | rfl <;> exact ⟨by simp, by simp⟩

/-- An insertion asks for a leaf (a node) only when there is none in the tree's own list, and for at most one. -/
def Asks (m : Mem V) (ss : List (Store V)) : Prop :=
  (hL ss = 0 ∨ hL ss = 1 ∧ m.delLeaf = none) ∧ (hN ss = 0 ∨ hN ss = 1 ∧ m.delNode = .null)

theorem insert_asks {m : Mem V} {key : W} {v : V} {upd lo no : Bool} {ss : List (Store V)} {r : InsRes}
    (h : insertStores m key v upd lo no = some (ss, r)) : Asks m ss := by
  unfold insertStores at h
  cases ha : allocLeaf m lo with
  | refused => rw [ha] at h; cases h; exact ⟨.inl rfl, .inl rfl⟩
  | wild => rw [ha] at h; cases h
  | got k as =>
    rw [ha] at h
    dsimp only at h
    have has : (hL as = 0 ∨ hL as = 1 ∧ m.delLeaf = none) ∧ hN as = 0 ∧ (m.stores as).delNode = m.delNode := by
      unfold allocLeaf at ha
      split at ha
      · split at ha
        · cases ha; exact ⟨.inr ⟨rfl, by assumption⟩, rfl, rfl⟩
        · cases ha
      · split at ha
        · cases ha; exact ⟨.inl rfl, rfl, rfl⟩
        · cases ha
    have hdn : (m.stores (as ++ [Store.key k key, Store.val k (.user v)])).delNode = m.delNode := by
      rw [stores_append]; exact has.2.2
    generalize hss : as ++ [Store.key k key, Store.val k (.user v)] = s0 at *
    have h0L : hL s0 = 0 ∨ hL s0 = 1 ∧ m.delLeaf = none := by
      rw [← hss, hL_append]; exact has.1
    have h0N : hN s0 = 0 := by rw [← hss, hN_append, has.2.1]; rfl
    have zero : ∀ ts : List (Store V), hL ts = 0 → (hN ts = 0 ∨ hN ts = 1 ∧ m.delNode = .null) → Asks m (s0 ++ ts) := by
      intro ts h1 h2
      unfold Asks
      rw [hL_append, hN_append, h1, h0N, Nat.add_zero, Nat.zero_add]
      exact ⟨h0L, h2⟩
    have full : ∀ s n, insertFull (m.stores s0) s0 k key v upd no s n = some (ss, r) → Asks m ss := by
      intro s n h
      unfold insertFull at h
      split at h
      · cases n with
        | null => cases h
        | node n => cases h
        | leaf l =>
          dsimp only at h
          split at h
          · cases h
            rw [List.append_assoc]
            exact zero _ rfl (.inl rfl)
          · cases h
            exact zero _ rfl (.inl rfl)
      · cases hal : allocNode (m.stores s0) no with
        | wild => rw [hal] at h; cases h
        | refused =>
          rw [hal] at h
          cases h
          exact zero _ rfl (.inl rfl)
        | got nn bs =>
          rw [hal] at h
          cases h
          rw [List.append_assoc, List.append_assoc]
          have hbs : hL bs = 0 ∧ (hN bs = 0 ∨ hN bs = 1 ∧ m.delNode = .null) := by
            unfold allocNode at hal
            rw [hdn] at hal
            split at hal
            · split at hal
              · cases hal; exact ⟨rfl, .inr ⟨rfl, by assumption⟩⟩
              · cases hal
            · cases hal; exact ⟨rfl, .inl rfl⟩
            · cases hal
          obtain ⟨f1, f2⟩ := fill_zero (V := V) nn key (pathOf (m.stores s0) n) (msb64 (pathOf (m.stores s0) n ^^^ key) / 4 * 4) (.leaf k) n
          refine zero _ ?_ ?_
          · rw [hL_append, hL_append, f1, hbs.1]; rfl
          · rw [hN_append, hN_append, f2]; exact hbs.2
    have rest : ∀ p,
        (match descend (m.stores s0) key depth .root p with
          | none => none
          | some (s, .null) => some (s0 ++ [.slot s (.leaf k)], InsRes.ok)
          | some (s, n) => insertFull (m.stores s0) s0 k key v upd no s n) = some (ss, r) → Asks m ss := by
      intro p h
      cases hde : descend (m.stores s0) key depth .root p with
      | none => rw [hde] at h; cases h
      | some x =>
        obtain ⟨s, n⟩ := x
        rw [hde] at h
        cases n with
        | null => cases h; exact zero _ rfl (.inl rfl)
        | leaf l => exact full s _ h
        | node n => exact full s _ h
    cases hr : (m.stores s0).root with
    | null => rw [hr] at h; cases h; exact zero _ rfl (.inl rfl)
    | leaf l => rw [hr] at h; exact rest (.leaf l) h
    | node l => rw [hr] at h; exact rest (.node l) h

theorem removeEnd_asks {m : Mem V} {ss ss' : List (Store V)} {del : Fin 16} {l : Nat} {r : Option V} (h : removeEnd m ss del l = some (ss', r))
    (hs : hL ss = 0 ∧ hN ss = 0) : hL ss' = 0 ∧ hN ss' = 0 := by
  unfold removeEnd at h
  split at h
  · cases h
    rw [hL_append, hN_append, hs.1, hs.2]
    exact ⟨rfl, rfl⟩
  · cases h

theorem remove_asks {m : Mem V} {key : W} {ss : List (Store V)} {r : Option V} (h : removeStores m key = some (ss, r)) : hL ss = 0 ∧ hN ss = 0 := by
  unfold removeStores at h
  generalize hs : ([Store.incCount] ++ freeNode (m.stores [Store.incCount]) (m.pendN (delIdx m.count)) ++
      freeLeaf (m.stores ([Store.incCount] ++ freeNode (m.stores [Store.incCount]) (m.pendN (delIdx m.count)))) (m.pendL (delIdx m.count)) ++
      [Store.pendN (delIdx m.count) none, Store.pendL (delIdx m.count) none]) = ps at h
  have hps : hL ps = 0 ∧ hN ps = 0 := by
    rw [← hs]
    simp only [hL_append, hN_append]
    cases m.pendN (delIdx m.count) <;> cases m.pendL (delIdx m.count) <;> exact ⟨rfl, rfl⟩
  cases hr : m.root with
  | null => rw [hr] at h; cases h; exact ⟨rfl, rfl⟩
  | leaf l =>
    rw [hr] at h
    dsimp only at h
    rw [hs] at h
    split at h
    · refine removeEnd_asks h ?_
      rw [hL_append, hN_append, hps.1, hps.2]
      exact ⟨rfl, rfl⟩
    · cases h; exact hps
  | node n0 =>
    rw [hr] at h
    dsimp only at h
    rw [hs] at h
    split at h
    · cases h
    · cases h; exact hps
    · split at h
      · split at h
        · cases h
        · refine removeEnd_asks h ?_
          simp only [hL_append, hN_append, hps.1, hps.2]
          exact ⟨rfl, rfl⟩
        · refine removeEnd_asks h ?_
          simp only [hL_append, hN_append, hps.1, hps.2]
          exact ⟨rfl, rfl⟩
      · cases h; exact hps

/-! ## Counting -/

/-- The leaves of the tree are at most as many as the keys of the map. -/
theorem leaves_le {g : G V} (hg : GI g) {N : Nat} (hle : Spec.AtMost (absMap g.mem) N) {L : List Nat} (hnd : L.Nodup) (hl : ∀ l ∈ L, g.ll l = .live) :
    L.length ≤ N := by
  have := hle (L.map fun l => (g.mem.leaves l).key) ?_ ?_
  · simpa using this
  · rw [List.nodup_map_iff_inj_on hnd]
    exact fun x hx y hy e => live_leaf_unique hg (hl x hx) (hl y hy) e
  · intro k hk
    obtain ⟨l, h1, rfl⟩ := List.mem_map.1 hk
    obtain ⟨v, hv⟩ := (hg.onL l (hl l h1)).2
    rw [(abs_some hg).2 ⟨l, hl l h1, rfl, hv⟩]
    simp

/-- Two slots of every node lead on, and to different places: there are at most as many nodes as leaves. -/
theorem nodes_le {g : G V} (hg : GI g) (h2 : Two g) {A B : List Nat} (hA : A.Nodup) (hlA : ∀ n ∈ A, g.ln n = .live)
    (allA : ∀ n, g.ln n = .live → n ∈ A) (allB : ∀ l, g.ll l = .live → l ∈ B) : A.length ≤ B.length := by
  classical
  let i : Nat → Fin 16 := fun n => if h : g.ln n = .live then (h2 n h).choose else 0
  let j : Nat → Fin 16 := fun n => if h : g.ln n = .live then (h2 n h).choose_spec.choose else 0
  have hij : ∀ n, g.ln n = .live → i n ≠ j n ∧ (g.mem.nodes n).child (i n) ≠ .null ∧ (g.mem.nodes n).child (j n) ≠ .null := by
    intro n h
    simp only [i, j, dif_pos h]
    exact (h2 n h).choose_spec.choose_spec
  let S : List Slot := A.map (fun n => .child n (i n)) ++ A.map (fun n => .child n (j n))
  have hS : ∀ s ∈ S, ∃ n k, s = .child n k ∧ g.ln n = .live ∧ (g.mem.nodes n).child k ≠ .null := by
    intro s hs
    rcases List.mem_append.1 hs with h | h
    · obtain ⟨n, hn, rfl⟩ := List.mem_map.1 h
      exact ⟨n, _, rfl, hlA n hn, (hij n (hlA n hn)).2.1⟩
    · obtain ⟨n, hn, rfl⟩ := List.mem_map.1 h
      exact ⟨n, _, rfl, hlA n hn, (hij n (hlA n hn)).2.2⟩
  have hSn : S.Nodup := by
    refine List.Nodup.append ?_ ?_ ?_
    · exact (List.nodup_map_iff_inj_on hA).2 fun x _ y _ e => by cases e; rfl
    · exact (List.nodup_map_iff_inj_on hA).2 fun x _ y _ e => by cases e; rfl
    · intro s h1 h2
      obtain ⟨n, hn, rfl⟩ := List.mem_map.1 h1
      obtain ⟨n', hn', e⟩ := List.mem_map.1 h2
      injection e with e1 e2
      subst e1
      exact (hij n' (hlA n' hn')).1 e2.symm
  have hP : (S.map g.mem.load).Nodup := by
    rw [List.nodup_map_iff_inj_on hSn]
    intro s hs s' hs' e
    obtain ⟨n, k, rfl, hn, hne⟩ := hS s hs
    obtain ⟨n', k', rfl, hn', hne'⟩ := hS s' hs'
    exact slot_unique hg (fun _ _ e => by cases e; exact hn) (fun _ _ e => by cases e; exact hn') (p := (g.mem.nodes n).child k) hne rfl e.symm
  have hsub : S.map g.mem.load ⊆ A.map Ptr.node ++ B.map Ptr.leaf := by
    intro p hp
    obtain ⟨s, hs, rfl⟩ := List.mem_map.1 hp
    obtain ⟨n, k, rfl, hn, hne⟩ := hS s hs
    have hl := (hg.kid n hn k).1
    show (g.mem.nodes n).child k ∈ _
    cases hc : (g.mem.nodes n).child k with
    | null => exact absurd hc hne
    | leaf l => rw [hc] at hl; exact List.mem_append_right _ (List.mem_map_of_mem (allB l hl))
    | node c => rw [hc] at hl; exact List.mem_append_left _ (List.mem_map_of_mem (allA c hl))
  have := (List.Nodup.subperm hP hsub).length_le
  simp only [S, List.length_map, List.length_append] at this
  omega

/-- When the list of free leaves is empty there are at most `N + 16` leaves, and so for nodes. -/
theorem bound_idle {g : G V} (hi : Idle g) {N : Nat} (hle : Spec.AtMost (absMap g.mem) N) :
    (g.mem.delLeaf = none → g.mem.nextL ≤ N + 16) ∧ (g.mem.delNode = .null → g.mem.nextN ≤ N + 16) := by
  classical
  obtain ⟨hg, h2, LN, LL, r, fu⟩ := hi
  have hB : ((List.range g.mem.nextL).filter fun l => decide (g.ll l = .live)).length ≤ N :=
    leaves_le hg hle (List.nodup_range.filter _) fun l hl => by simpa using (List.mem_filter.1 hl).2
  have len16 : ∀ f : Fin 16 → Option Nat, ((List.finRange 16).filterMap f).length ≤ 16 := fun f => by
    have := List.length_filterMap_le f (List.finRange 16)
    simpa using this
  constructor
  · intro hd
    have hLL : LL = [] := by
      have := r.chainL
      rw [hd] at this
      cases LL with
      | nil => rfl
      | cons y L => exact this.elim
    subst hLL
    have hsub : List.range g.mem.nextL ⊆ ((List.range g.mem.nextL).filter fun l => decide (g.ll l = .live)) ++ (List.finRange 16).filterMap g.mem.pendL := by
      intro l hl
      rcases fu.L l (List.mem_range.1 hl) with h | h | ⟨i, h⟩ | h
      · exact List.mem_append_left _ (List.mem_filter.2 ⟨hl, by simpa using h⟩)
      · cases h
      · exact List.mem_append_right _ (List.mem_filterMap.2 ⟨i, List.mem_finRange i, h⟩)
      · cases h
    have := (List.Nodup.subperm List.nodup_range hsub).length_le
    rw [List.length_range, List.length_append] at this
    have := len16 g.mem.pendL
    omega
  · intro hd
    have hLN : LN = [] := by
      have := r.chainN
      rw [hd] at this
      cases LN with
      | nil => rfl
      | cons y L => exact this.elim
    subst hLN
    have hsub : List.range g.mem.nextN ⊆ ((List.range g.mem.nextN).filter fun l => decide (g.ln l = .live)) ++ (List.finRange 16).filterMap g.mem.pendN := by
      intro l hl
      rcases fu.N l (List.mem_range.1 hl) with h | h | ⟨i, h⟩ | h
      · exact List.mem_append_left _ (List.mem_filter.2 ⟨hl, by simpa using h⟩)
      · cases h
      · exact List.mem_append_right _ (List.mem_filterMap.2 ⟨i, List.mem_finRange i, h⟩)
      · cases h
    have h3 := nodes_le hg h2 (A := (List.range g.mem.nextN).filter fun l => decide (g.ln l = .live))
      (B := (List.range g.mem.nextL).filter fun l => decide (g.ll l = .live)) (List.nodup_range.filter _)
      (fun l hl => by simpa using (List.mem_filter.1 hl).2)
      (fun n hn => List.mem_filter.2 ⟨List.mem_range.2 (Nat.lt_of_not_le fun hle => by rw [r.freshN n hle] at hn; cases hn), by simpa using hn⟩)
      (fun n hn => List.mem_filter.2 ⟨List.mem_range.2 (Nat.lt_of_not_le fun hle => by rw [r.freshL n hle] at hn; cases hn), by simpa using hn⟩)
    have := (List.Nodup.subperm List.nodup_range hsub).length_le
    rw [List.length_range, List.length_append] at this
    have := len16 g.mem.pendN
    omega

/-! ## Runs -/

/-- With the stores still to be made. -/
def BInv (N : Nat) (s : Sys V) : Prop :=
  s.mem.nextL + hL ((s.writer.map Prod.fst).getD []) ≤ N + 17 ∧ s.mem.nextN + hN ((s.writer.map Prod.fst).getD []) ≤ N + 17

theorem binv_step {N : Nat} {s : Sys V} {x : Gh V} (hw : WOk s x) (hle : Spec.AtMost (absMap s.mem) N) (h : BInv N s) (a : Act V) : BInv N (step s a).1 := by
  cases a with
  | insert key v upd lo no =>
    unfold step
    cases hwr : s.writer with
    | some p => exact h
    | none =>
      unfold BInv at h
      rw [hwr] at h
      dsimp only
      cases hi : insertStores s.mem key v upd lo no with
      | none => exact h
      | some p =>
        obtain ⟨ss, r⟩ := p
        obtain ⟨a1, a2⟩ := insert_asks hi
        have hb := bound_idle (hw.idle hwr) (N := N) (by rw [hw.mem]; exact hle)
        rw [hw.mem] at hb
        have h1 : s.mem.nextL ≤ N + 17 := h.1
        have h2 : s.mem.nextN ≤ N + 17 := h.2
        refine ⟨?_, ?_⟩
        · show s.mem.nextL + hL ss ≤ N + 17
          rcases a1 with e | ⟨e, hd⟩
          · omega
          · have := hb.1 hd; omega
        · show s.mem.nextN + hN ss ≤ N + 17
          rcases a2 with e | ⟨e, hd⟩
          · omega
          · have := hb.2 hd; omega
  | remove key =>
    unfold step
    cases hwr : s.writer with
    | some p => exact h
    | none =>
      unfold BInv at h
      rw [hwr] at h
      dsimp only
      cases hi : removeStores s.mem key with
      | none => exact h
      | some p =>
        obtain ⟨ss, r⟩ := p
        obtain ⟨a1, a2⟩ := remove_asks hi
        refine ⟨?_, ?_⟩
        · show s.mem.nextL + hL ss ≤ N + 17
          rw [a1]; exact h.1
        · show s.mem.nextN + hN ss ≤ N + 17
          rw [a2]; exact h.2
  | write =>
    unfold step
    cases hwr : s.writer with
    | none => exact h
    | some p =>
      obtain ⟨ss, out⟩ := p
      unfold BInv at h
      rw [hwr] at h
      cases ss with
      | nil => exact h
      | cons a ss =>
        have e1 := stores_hL (a :: ss) s.mem
        have e2 := stores_hN (a :: ss) s.mem
        rw [show s.mem.stores (a :: ss) = (s.mem.store a).stores ss from rfl] at e1 e2
        rw [stores_hL] at e1
        rw [stores_hN] at e2
        exact ⟨e1 ▸ h.1, e2 ▸ h.2⟩
  | call r q =>
    unfold step
    dsimp only
    split
    · exact h
    · exact h
  | read r => exact h

end Verif.Critnib.Conc
