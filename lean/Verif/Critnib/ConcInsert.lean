import Verif.Critnib.ConcScript
/-! # The stores of `critnib_insert` -/
namespace Verif.Critnib.Conc
open Verif.Critnib

variable {V : Type}

/-! ## Taking and returning free items -/

theorem allocLeaf_spec {g : G V} {X : Option (Fin 16)} {LN LL EN EL : List Nat} (r : Res g X LN LL)
    (fu : Full g LN LL EN EL) (ok : Bool) :
    (ok = false ∧ allocLeaf g.mem ok = .refused) ∨
    ∃ k as LL', allocLeaf g.mem ok = .got k as ∧ (∀ a ∈ as, Priv g.ln g.ll a) ∧ g.ll k = .off ∧
      k ∉ LL' ∧ Res (g.after as) X LN LL' ∧ k < (g.after as).mem.nextL ∧
      Full (g.after as) LN LL' EN (k :: EL) := by
  unfold allocLeaf
  cases hd : g.mem.delLeaf with
  | none =>
    cases ok with
    | false => exact .inl ⟨rfl, rfl⟩
    | true =>
      refine .inr ⟨g.mem.nextL, [.hostLeaf], LL, rfl, by simp [Priv], r.freshL _ (Nat.le_refl _),
        fun h => absurd (r.offL _ h).2 (Nat.lt_irrefl _), ?_, Nat.lt_succ_self _, fu.N, fun l hl => ?_⟩
      rotate_left
      · rcases Nat.lt_or_eq_of_le (Nat.le_of_lt_succ hl) with h | h
        · exact (fu.L l h).imp_right fun h => h.imp_right fun h => h.imp_right (List.mem_cons_of_mem _)
        · exact .inr (.inr (.inr (by rw [h]; exact List.mem_cons_self)))
      exact ⟨r.nodupN, chainN_congr (m := g.mem) (fun _ _ => rfl) r.chainN, r.offN, r.nodupL, chainL_congr (m := g.mem) (fun _ _ => rfl) r.chainL,
        fun l hl => ⟨(r.offL l hl).1, Nat.lt_succ_of_lt (r.offL l hl).2⟩, r.pendN, r.pendL, r.freshN,
        fun l hl => r.freshL l (Nat.le_of_succ_le hl)⟩
  | some k =>
    have hc := r.chainL
    rw [hd] at hc
    cases LL with
    | nil => exact hc.elim
    | cons x LL' =>
      obtain ⟨rfl, o, h1, h2⟩ := hc
      dsimp only
      rw [h1]
      have hnd := List.nodup_cons.1 r.nodupL
      refine .inr ⟨k, [.delLeaf o], LL', rfl, by simp [Priv], (r.offL k (by simp)).1, hnd.1, ?_,
        (r.offL k (by simp)).2, fu.N, fun l hl => ?_⟩
      rotate_left
      · rcases fu.L l hl with h | h | h | h
        · exact .inl h
        · rcases List.mem_cons.1 h with h | h
          · exact .inr (.inr (.inr (by rw [h]; exact List.mem_cons_self)))
          · exact .inr (.inl h)
        · exact .inr (.inr (.inl h))
        · exact .inr (.inr (.inr (List.mem_cons_of_mem _ h)))
      exact ⟨r.nodupN, chainN_congr (m := g.mem) (fun _ _ => rfl) r.chainN, r.offN, hnd.2, chainL_congr (m := g.mem) (fun _ _ => rfl) h2,
        fun l hl => r.offL l (by simp [hl]), r.pendN, r.pendL, r.freshN, r.freshL⟩

theorem allocNode_spec {g : G V} {X : Option (Fin 16)} {LN LL EN EL : List Nat} (r : Res g X LN LL)
    (fu : Full g LN LL EN EL) (ok : Bool) :
    (ok = false ∧ allocNode g.mem ok = .refused) ∨
    ∃ k as LN', allocNode g.mem ok = .got k as ∧ (∀ a ∈ as, Priv g.ln g.ll a) ∧ g.ln k = .off ∧
      k ∉ LN' ∧ Res (g.after as) X LN' LL ∧ k < (g.after as).mem.nextN ∧
      (g.after as).mem.leaves = g.mem.leaves ∧ (g.after as).mem.nextL = g.mem.nextL ∧
      (g.after as).mem.root = g.mem.root ∧ (g.after as).mem.nodes = g.mem.nodes ∧
      Full (g.after as) LN' LL (k :: EN) EL := by
  unfold allocNode
  cases hd : g.mem.delNode with
  | null =>
    cases ok with
    | false => exact .inl ⟨rfl, rfl⟩
    | true =>
      refine .inr ⟨g.mem.nextN, [.hostNode], LN, rfl, by simp [Priv], r.freshN _ (Nat.le_refl _),
        fun h => absurd (r.offN _ h).2 (Nat.lt_irrefl _), ?_, Nat.lt_succ_self _, rfl, rfl, rfl, rfl, fun l hl => ?_, fu.L⟩
      rotate_left
      · rcases Nat.lt_or_eq_of_le (Nat.le_of_lt_succ hl) with h | h
        · exact (fu.N l h).imp_right fun h => h.imp_right fun h => h.imp_right (List.mem_cons_of_mem _)
        · exact .inr (.inr (.inr (by rw [h]; exact List.mem_cons_self)))
      exact ⟨r.nodupN, chainN_congr (m := g.mem) (fun _ _ => rfl) r.chainN,
        fun l hl => ⟨(r.offN l hl).1, Nat.lt_succ_of_lt (r.offN l hl).2⟩, r.nodupL,
        chainL_congr (m := g.mem) (fun _ _ => rfl) r.chainL, r.offL,
        r.pendN, r.pendL, fun l hl => r.freshN l (Nat.le_of_succ_le hl), r.freshL⟩
  | leaf l =>
    have hc := r.chainN
    rw [hd] at hc
    cases LN <;> exact hc.elim
  | node k =>
    have hc := r.chainN
    rw [hd] at hc
    cases LN with
    | nil => exact hc.elim
    | cons x LN' =>
      obtain ⟨rfl, h2⟩ := hc
      have hnd := List.nodup_cons.1 r.nodupN
      refine .inr ⟨k, [.delNode ((g.mem.nodes k).child 0)], LN', rfl, by simp [Priv],
        (r.offN k (by simp)).1, hnd.1, ?_, (r.offN k (by simp)).2, rfl, rfl, rfl, rfl, fun l hl => ?_, fu.L⟩
      rotate_left
      · rcases fu.N l hl with h | h | h | h
        · exact .inl h
        · rcases List.mem_cons.1 h with h | h
          · exact .inr (.inr (.inr (by rw [h]; exact List.mem_cons_self)))
          · exact .inr (.inl h)
        · exact .inr (.inr (.inl h))
        · exact .inr (.inr (.inr (List.mem_cons_of_mem _ h)))
      exact ⟨hnd.2, chainN_congr (m := g.mem) (fun _ _ => rfl) h2, fun l hl => r.offN l (by simp [hl]),
        r.nodupL, chainL_congr (m := g.mem) (fun _ _ => rfl) r.chainL, r.offL, r.pendN, r.pendL,
        r.freshN, r.freshL⟩

theorem freeLeaf_spec {g : G V} {X : Option (Fin 16)} {LN LL : List Nat} (r : Res g X LN LL)
    {k : Nat} (hk : g.ll k = .off) (hin : k ∉ LL) (hlt : k < g.mem.nextL) :
    (∀ a ∈ freeLeaf g.mem (some k), Priv g.ln g.ll a) ∧
    Res (g.after (freeLeaf g.mem (some k))) X LN (k :: LL) := by
  have hv : ∀ x ∈ LL, ((g.after (freeLeaf g.mem (some k))).mem.leaves x).val = (g.mem.leaves x).val := by
    intro x hx
    have : x ≠ k := fun e => hin (e ▸ hx)
    simp [G.after, freeLeaf, Mem.stores, Mem.store, this]
  refine ⟨by simp [freeLeaf, Priv, hk], ?_⟩
  exact ⟨r.nodupN, chainN_congr (m := g.mem) (fun _ _ => rfl) r.chainN, r.offN, List.nodup_cons.2 ⟨hin, r.nodupL⟩,
    ⟨rfl, g.mem.delLeaf, by simp [G.after, freeLeaf, Mem.stores, Mem.store], chainL_congr hv r.chainL⟩,
    fun l hl => by
      rcases List.mem_cons.1 hl with rfl | hl
      · exact ⟨hk, hlt⟩
      · exact r.offL l hl, r.pendN, r.pendL, r.freshN, r.freshL⟩

theorem freeNode_spec {g : G V} {X : Option (Fin 16)} {LN LL : List Nat} (r : Res g X LN LL)
    {k : Nat} (hk : g.ln k = .off) (hin : k ∉ LN) (hlt : k < g.mem.nextN) :
    (∀ a ∈ freeNode g.mem (some k), Priv g.ln g.ll a) ∧
    Res (g.after (freeNode g.mem (some k))) X (k :: LN) LL := by
  have hv : ∀ x ∈ LN, ((g.after (freeNode g.mem (some k))).mem.nodes x).child 0 =
      (g.mem.nodes x).child 0 := by
    intro x hx
    have : x ≠ k := fun e => hin (e ▸ hx)
    simp [G.after, freeNode, Mem.stores, Mem.store, this]
  refine ⟨by simp [freeNode, Priv, hk], ?_⟩
  refine ⟨List.nodup_cons.2 ⟨hin, r.nodupN⟩, ⟨rfl, ?_⟩, ?_, r.nodupL, chainL_congr (m := g.mem) (fun _ _ => rfl) r.chainL,
    r.offL, r.pendN, r.pendL, r.freshN, r.freshL⟩
  · have : ((g.after (freeNode g.mem (some k))).mem.nodes k).child 0 = g.mem.delNode := by
      simp [G.after, freeNode, Mem.stores, Mem.store]
    rw [this]
    exact chainN_congr hv r.chainN
  · intro l hl
    rcases List.mem_cons.1 hl with rfl | hl
    · exact ⟨hk, hlt⟩
    · exact r.offN l hl

theorem freeLeaf_full {g : G V} {LN LL EN EL : List Nat} {k : Nat} (fu : Full g LN LL EN (k :: EL)) :
    Full (g.after (freeLeaf g.mem (some k))) LN (k :: LL) EN EL := by
  refine fu.keep rfl rfl rfl rfl (fun _ h => .inl h) (fun _ h => .inl h) (fun _ h => h.elim .inl fun h => .inr (.inl h)) ?_
  rintro x (h | h)
  · exact .inl (List.mem_cons_of_mem _ h)
  · rcases List.mem_cons.1 h with h | h
    · exact .inl (by rw [h]; exact List.mem_cons_self)
    · exact .inr (.inl h)

/-- Filling a leaf that is not in the list of free leaves. -/
theorem fillLeaf_res {g : G V} {X : Option (Fin 16)} {LN LL : List Nat} (r : Res g X LN LL)
    {k : Nat} (hin : k ∉ LL) (key : W) (v : V) :
    Res (g.after [.key k key, .val k (.user v)]) X LN LL := by
  refine r.keep rfl rfl rfl rfl rfl rfl rfl (fun x hx => ⟨(r.offN x hx).1, rfl⟩) ?_
    (fun _ _ h => h) (fun _ _ h => h) r.freshN r.freshL
  intro x hx
  have : x ≠ k := fun e => hin (e ▸ hx)
  exact ⟨(r.offL x hx).1, by simp [G.after, Mem.stores, Mem.store, this]⟩

/-! ## Filling a new node -/

theorem null_stores (n : Nat) (l : List (Fin 16)) : ∀ (m : Mem V),
    let m' := m.stores (l.map fun i => .slot (.child n i) .null)
    (∀ j, (m'.nodes n).child j = if j ∈ l then .null else (m.nodes n).child j) ∧
    (∀ x, x ≠ n → m'.nodes x = m.nodes x) ∧ m' = { m with nodes := m'.nodes } := by
  induction l with
  | nil => intro m; simp [Mem.stores]
  | cons i l ih =>
    intro m
    obtain ⟨h1, h2, h3⟩ := ih (m.store (.slot (.child n i) .null))
    refine ⟨?_, ?_, ?_⟩
    · intro j
      rw [List.map_cons, stores_cons, h1 j, slot_child]
      by_cases hj : j ∈ l
      · simp [hj]
      · by_cases hi : i = j
        · simp [hi]
        · have : j ≠ i := fun e => hi e.symm
          simp [hj, hi, this]
    · intro x hx
      rw [List.map_cons, stores_cons, h2 x hx]
      simp [Mem.store, hx]
    · rw [List.map_cons, stores_cons]
      exact h3

theorem fillNode_spec (m : Mem V) (n : Nat) (key path : W) (sh : Nat) (kn old : Ptr) :
    let m' := m.stores (fillNode n key path sh kn old)
    (∀ j, (m'.nodes n).child j = if j = idx path sh then old else if j = idx key sh then kn else .null) ∧
    (m'.nodes n).shift = sh ∧ (m'.nodes n).path = key &&& pathMask sh ∧
    (∀ x, x ≠ n → m'.nodes x = m.nodes x) ∧ m' = { m with nodes := m'.nodes } := by
  intro m'
  obtain ⟨h1, h2, h3⟩ := null_stores n (List.finRange 16) m
  have hm : m' = (m.stores ((List.finRange 16).map fun i => .slot (.child n i) .null)).stores
      [.slot (.child n (idx key sh)) kn, .slot (.child n (idx path sh)) old, .shift n sh,
        .path n (key &&& pathMask sh)] := stores_append _ _ _
  rw [hm]
  generalize hm1 : m.stores ((List.finRange 16).map fun i => .slot (.child n i) .null) = m1 at h1 h2 h3
  refine ⟨?_, by simp [Mem.stores, Mem.store], by simp [Mem.stores, Mem.store], ?_, ?_⟩
  · intro j
    have := h1 j
    rw [if_pos (List.mem_finRange j)] at this
    simp [Mem.stores, Mem.store, Function.update_apply, this]
  · intro x hx
    rw [← h2 x hx]
    simp [Mem.stores, Mem.store, hx]
  · clear h1 h2 hm hm1 m'
    generalize m1.nodes = N at h3
    subst h3
    rfl

theorem fillNode_priv {ln ll : Nat → Lab} (n : Nat) (hn : ln n = .off) (key path : W) (sh : Nat)
    (kn old : Ptr) : ∀ a ∈ (fillNode n key path sh kn old : List (Store V)), Priv ln ll a := by
  intro a ha
  unfold fillNode at ha
  rcases List.mem_append.1 ha with h | h
  · obtain ⟨i, _, rfl⟩ := List.mem_map.1 h
    exact hn
  · simp only [List.mem_cons, List.not_mem_nil, or_false] at h
    rcases h with rfl | rfl | rfl | rfl <;> exact hn

theorem fillNode_res {g : G V} {X : Option (Fin 16)} {LN LL : List Nat} (r : Res g X LN LL)
    {n : Nat} (hin : n ∉ LN) (key path : W) (sh : Nat) (kn old : Ptr) :
    Res (g.after (fillNode n key path sh kn old)) X LN LL := by
  obtain ⟨_, _, _, h4, h5⟩ := fillNode_spec g.mem n key path sh kn old
  have e : (g.after (fillNode n key path sh kn old)).mem = _ := h5
  refine r.keep ?_ ?_ ?_ ?_ ?_ ?_ ?_ ?_ ?_ (fun _ _ h => h) (fun _ _ h => h) r.freshN r.freshL
  · rw [e]
  · rw [e]
  · rw [e]
  · rw [e]
  · rw [e]
  · rw [e]
  · rw [e]
  · intro x hx
    have : x ≠ n := fun e => hin (e ▸ hx)
    exact ⟨(r.offN x hx).1, congrArg (fun y => Node.child y 0) (h4 x this)⟩
  · intro x hx
    exact ⟨(r.offL x hx).1, by rw [e]⟩

end Verif.Critnib.Conc
