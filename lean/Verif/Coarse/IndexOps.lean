import Verif.Coarse.IndexLemmas
/-! # The index of free blocks: the operations -/
set_option linter.unusedSimpArgs false
namespace Verif.Coarse.Index
open Function (update)

/-- Adding to the list of a size whose head exists. `hh`: everything but "no empty list" holds. -/
theorem addTo_rep {x : Idx} {g : List Ent} {k h d e : Nat}
    (sorted : Ravl.Sorted Prod.fst (Ravl.foreachOrder x.tree))
    (heads : ∀ kh ∈ Ravl.foreachOrder x.tree, ∃ hd, x.heads kh.2 = some hd ∧
      Chain x.elems hd 0 (cls kh.1 g))
    (full : ∀ n ∈ g, ∃ h, (n.size, h) ∈ Ravl.foreachOrder x.tree)
    (hsome : ∀ kh ∈ Ravl.foreachOrder x.tree, kh.1 ≠ k → cls kh.1 g ≠ [])
    (inj : ∀ kh ∈ Ravl.foreachOrder x.tree, ∀ kh' ∈ Ravl.foreachOrder x.tree,
      kh.2 = kh'.2 → kh = kh')
    (nodup : (g.map Ent.elem).Nodup) (fl : ∀ n ∈ g, x.fl n.blk = n.elem)
    (fl0 : ∀ d, d ∉ g.map Ent.blk → x.fl d = 0)
    (hk : (k, h) ∈ Ravl.foreachOrder x.tree) (he0 : e ≠ 0) (he : e ∉ g.map Ent.elem)
    (hd : d ∉ g.map Ent.blk) :
    ∃ x', addTo x h d (some e) = some (x', true) ∧ Rep x' (⟨k, e, d⟩ :: g) := by
  obtain ⟨hd0, h1, h2⟩ := heads _ hk
  obtain ⟨m, g1, g2, g3⟩ := h2.relink (v := e) (cls_nodup nodup)
  refine ⟨⟨x.tree, update x.heads h (some e), update m e (some ⟨d, hd0, 0⟩), update x.fl d e⟩,
    ?_, ?_⟩
  · unfold addTo nodeListAdd
    simp only at h1
    simp [h1, g1, he0]
  · have hmem : ∀ k', ∀ n ∈ cls k' g, n.elem ≠ e := by
      intro k' n hn ee
      exact he (by rw [← ee]; exact List.mem_map_of_mem (mem_cls.1 hn).1)
    refine ⟨sorted, ?_, ?_, ?_, inj, ?_, ?_, ?_⟩
    · intro kh hkh
      by_cases hk' : kh.1 = k
      · have : kh = (k, h) := by
          have := sorted_unique sorted (k := k) (h := kh.2) (h' := h) (by rw [← hk']; exact hkh) hk
          exact Prod.ext hk' this
        subst this
        refine ⟨e, upd_eq, ?_⟩
        show Chain _ e 0 (cls k (⟨k, e, d⟩ :: g))
        rw [cls_cons_eq (n := ⟨k, e, d⟩) rfl]
        refine ⟨rfl, he0, hd0, upd_eq, ?_⟩
        exact g2.frame fun n hn => upd_ne (hmem _ n hn)
      · have hne : kh.2 ≠ h := by
          intro ee
          have := inj kh hkh (k, h) hk ee
          exact hk' (congrArg Prod.fst this)
        obtain ⟨hd', j1, j2⟩ := heads kh hkh
        refine ⟨hd', (upd_ne hne).trans j1, ?_⟩
        rw [cls_cons_ne (by exact fun ee => hk' ee.symm)]
        refine j2.frame fun n hn => ?_
        refine (upd_ne (hmem _ n hn)).trans ?_
        apply g3
        intro hin
        obtain ⟨n', hn', ee⟩ := List.mem_map.1 hin
        have a1 := mem_cls.1 hn
        have a2 := mem_cls.1 hn'
        have := List.inj_on_of_nodup_map nodup a2.1 a1.1 ee
        subst this
        exact hk' (a1.2.symm.trans a2.2)
    · intro n hn
      rcases List.mem_cons.1 hn with rfl | hn
      · exact ⟨h, hk⟩
      · exact full n hn
    · intro kh hkh
      by_cases hk' : kh.1 = k
      · rw [cls_cons_eq hk'.symm]; simp
      · rw [cls_cons_ne (by exact fun ee => hk' ee.symm)]; exact hsome kh hkh hk'
    · rw [List.map_cons, List.nodup_cons]; exact ⟨he, nodup⟩
    · intro n hn
      rcases List.mem_cons.1 hn with rfl | hn'
      · exact upd_eq
      · show update x.fl d e n.blk = _
        rw [upd_ne (by rintro rfl; exact hd (List.mem_map_of_mem hn'))]
        exact fl n hn'
    · intro y hy
      rw [List.map_cons, List.mem_cons, not_or] at hy
      exact (upd_ne hy.1).trans (fl0 y hy.2)

theorem add_rep {x : Idx} {g : List Ent} (hr : Rep x g) {size d h e : Nat}
    (hh : ∀ kh ∈ Ravl.foreachOrder x.tree, kh.2 ≠ h) (he0 : e ≠ 0) (he : e ∉ g.map Ent.elem)
    (hd : d ∉ g.map Ent.blk) :
    ∃ x', add x size d (some h) true (some e) = some (x', true) ∧ Rep x' (⟨size, e, d⟩ :: g) := by
  unfold add
  rw [find_eq hr]
  cases hf : (Ravl.foreachOrder x.tree).find? (fun y => decide (size = y.1)) with
  | some kh =>
    have h1 := List.find?_some hf
    have h2 := List.mem_of_find?_eq_some hf
    simp only [decide_eq_true_eq] at h1
    subst h1
    exact addTo_rep hr.sorted hr.heads hr.full (fun kh hkh _ => hr.some kh hkh) hr.inj hr.nodup
      hr.fl hr.fl0 h2 he0 he hd
  | none =>
    have hno : ∀ kh ∈ Ravl.foreachOrder x.tree, kh.1 ≠ size := by
      intro kh hkh ee
      have := List.find?_eq_none.1 hf kh hkh
      simp [ee] at this
    have hs := Ravl.emplace_spec Prod.fst true x.tree (size, h) hr.sorted
    dsimp only
    cases ht : Ravl.emplace Prod.fst true x.tree (size, h) with
    | none =>
      rw [ht] at hs
      rcases hs with hs | ⟨y, hy, hk⟩
      · cases hs
      · exact absurd hk (hno y hy)
    | some t =>
      rw [ht] at hs
      obtain ⟨-, hne, a, b, hab, ht', ha, hb⟩ := hs
      have hmem : ∀ kh, kh ∈ Ravl.foreachOrder t ↔ kh = (size, h) ∨ kh ∈ Ravl.foreachOrder x.tree := by
        intro kh
        rw [ht', hab]
        simp only [List.mem_append, List.mem_cons]
        constructor
        · rintro (h | h | h)
          · exact Or.inr (Or.inl h)
          · exact Or.inl h
          · exact Or.inr (Or.inr h)
        · rintro (h | h | h)
          · exact Or.inr (Or.inl h)
          · exact Or.inl h
          · exact Or.inr (Or.inr h)
      refine addTo_rep (k := size) ?_ ?_ ?_ ?_ ?_ hr.nodup hr.fl hr.fl0 ((hmem _).2 (Or.inl rfl)) he0 he hd
      · show Ravl.Sorted Prod.fst (Ravl.foreachOrder t)
        have hs := hr.sorted
        rw [hab, Ravl.Sorted.append_iff] at hs
        rw [ht', Ravl.Sorted.append_iff, Ravl.Sorted.cons_iff]
        refine ⟨hs.1, ⟨hb, hs.2.1⟩, ?_⟩
        intro u hu v hv
        rcases List.mem_cons.1 hv with rfl | hv
        · exact ha u hu
        · exact hs.2.2 u hu v hv
      · intro kh hkh
        rcases (hmem kh).1 hkh with rfl | hkh
        · refine ⟨0, upd_eq, ?_⟩
          have : cls size g = [] := by
            rw [List.eq_nil_iff_forall_not_mem]
            intro n hn
            obtain ⟨n1, n2⟩ := mem_cls.1 hn
            obtain ⟨h', hh'⟩ := hr.full n n1
            exact hno _ hh' n2
          show Chain x.elems 0 0 (cls size g)
          rw [this]; rfl
        · obtain ⟨hd', j1, j2⟩ := hr.heads kh hkh
          exact ⟨hd', by rw [← j1]; exact upd_ne (hh kh hkh), j2⟩
      · intro n hn
        obtain ⟨h', hh'⟩ := hr.full n hn
        exact ⟨h', (hmem _).2 (Or.inr hh')⟩
      · intro kh hkh hne
        rcases (hmem kh).1 hkh with rfl | hkh
        · exact absurd rfl hne
        · exact hr.some kh hkh
      · intro kh hkh kh' hkh' ee
        rcases (hmem kh).1 hkh with rfl | hkh <;> rcases (hmem kh').1 hkh' with rfl | hkh'
        · rfl
        · exact absurd ee.symm (hh _ hkh')
        · exact absurd ee (hh _ hkh)
        · exact hr.inj kh hkh kh' hkh' ee

/-- Taking the entry `n` out of the list of its size, then dropping an empty list. -/
theorem take_rep {x : Idx} {A B : List Ent} {n : Ent} {h hd' : Nat} {m : Nat → Option Elem}
    (hr : Rep x (A ++ n :: B)) (hblk : ∀ y ∈ A ++ B, y.blk ≠ n.blk)
    (hk : (n.size, h) ∈ Ravl.foreachOrder x.tree)
    (hm : ∀ y ∈ A ++ B, y.size ≠ n.size → m y.elem = x.elems y.elem)
    (hc : Chain m hd' 0 (cls n.size (A ++ B))) (hh : Nat → Option Nat)
    (hh1 : hh h = some hd') (hh2 : ∀ y, y ≠ h → hh y = x.heads y) :
    ∃ x', dropEmpty { x with heads := hh, elems := m, fl := update x.fl n.blk 0 } n.size h = some x' ∧
      Rep x' (A ++ B) := by
  have hsub : (A ++ B).Sublist (A ++ n :: B) := (List.sublist_cons_self n B).append_left A
  have hcls : ∀ k', k' ≠ n.size → cls k' (A ++ n :: B) = cls k' (A ++ B) := by
    intro k' hne
    rw [cls_append, cls_append, cls_cons_ne (Ne.symm hne)]
  have heads : ∀ kh ∈ Ravl.foreachOrder x.tree, ∃ hd, hh kh.2 = some hd ∧
      Chain m hd 0 (cls kh.1 (A ++ B)) := by
    intro kh hkh
    by_cases hk' : kh.1 = n.size
    · have : kh = (n.size, h) :=
        Prod.ext hk' (hr.head_unique (k := n.size) (by rw [← hk']; exact hkh) hk)
      subst this
      exact ⟨hd', hh1, hc⟩
    · have hne : kh.2 ≠ h := by
        intro ee
        exact hk' (congrArg Prod.fst (hr.inj kh hkh _ hk ee))
      obtain ⟨hd, j1, j2⟩ := hr.heads kh hkh
      refine ⟨hd, by rw [hh2 _ hne]; exact j1, ?_⟩
      rw [hcls _ hk'] at j2
      refine j2.frame fun y hy => ?_
      obtain ⟨y1, y2⟩ := mem_cls.1 hy
      exact hm y y1 (by rw [y2]; exact hk')
  have nodup : ((A ++ B).map Ent.elem).Nodup := (hsub.map _).nodup hr.nodup
  have hfl : ∀ y ∈ A ++ B, update x.fl n.blk 0 y.blk = y.elem := by
    intro y hy
    rw [upd_ne (hblk y hy)]
    exact hr.fl y (hsub.subset hy)
  have hfl0 : ∀ d, d ∉ (A ++ B).map Ent.blk → update x.fl n.blk 0 d = 0 := by
    intro d hd
    by_cases hdn : d = n.blk
    · rw [hdn]; exact upd_eq
    · refine (upd_ne hdn).trans (hr.fl0 d ?_)
      rw [List.map_append, List.map_cons, List.mem_append, List.mem_cons]
      rw [List.map_append, List.mem_append] at hd
      rintro (h | h | h)
      · exact hd (Or.inl h)
      · exact hdn h
      · exact hd (Or.inr h)
  unfold dropEmpty
  simp only [hh1]
  by_cases h0 : hd' = 0
  · subst h0
    rw [if_pos rfl]
    have hnil : cls n.size (A ++ B) = [] := by
      revert hc
      cases cls n.size (A ++ B) with
      | nil => intro _; rfl
      | cons y l => rintro ⟨h1, h2, -⟩; exact absurd h1.symm h2
    have hs := Ravl.remove_spec Prod.fst n.size x.tree hr.sorted
    cases ht : Ravl.remove Prod.fst n.size x.tree with
    | none => rw [ht] at hs; exact absurd rfl (hs _ hk)
    | some p =>
      obtain ⟨kh0, t⟩ := p
      rw [ht] at hs
      obtain ⟨hkey, a, b, hab, ht'⟩ := hs
      have hkh0 : kh0 = (n.size, h) := by
        refine Prod.ext hkey (hr.head_unique (k := n.size) ?_ hk)
        rw [← hkey, hab]; simp
      subst hkh0
      have hsrt := hr.sorted
      rw [hab, Ravl.Sorted.append_iff, Ravl.Sorted.cons_iff] at hsrt
      have hmem : ∀ kh, kh ∈ Ravl.foreachOrder t ↔ kh ∈ Ravl.foreachOrder x.tree ∧ kh.1 ≠ n.size := by
        intro kh
        rw [ht', hab]
        simp only [List.mem_append, List.mem_cons]
        constructor
        · rintro (h | h)
          · have := hsrt.2.2 kh h _ (List.mem_cons_self ..); simp only at this
            exact ⟨Or.inl h, by omega⟩
          · have := hsrt.2.1.1 kh h; simp only at this
            exact ⟨Or.inr (Or.inr h), by omega⟩
        · rintro ⟨h | h | h, hne⟩
          · exact Or.inl h
          · subst h; exact absurd rfl hne
          · exact Or.inr h
      refine ⟨_, rfl, ?_, ?_, ?_, ?_, ?_, nodup, hfl, hfl0⟩
      · show Ravl.Sorted Prod.fst (Ravl.foreachOrder t)
        rw [ht', Ravl.Sorted.append_iff]
        exact ⟨hsrt.1, hsrt.2.1.2, fun u hu v hv => hsrt.2.2 u hu v (List.mem_cons_of_mem _ hv)⟩
      · intro kh hkh
        obtain ⟨k1, k2⟩ := (hmem kh).1 hkh
        obtain ⟨hd, j1, j2⟩ := heads kh k1
        have hne : kh.2 ≠ h := by
          intro ee
          exact k2 (congrArg Prod.fst (hr.inj kh k1 _ hk ee))
        exact ⟨hd, by rw [← j1]; exact upd_ne hne, j2⟩
      · intro y hy
        obtain ⟨h', hh'⟩ := hr.full y (hsub.subset hy)
        refine ⟨h', (hmem _).2 ⟨hh', fun ee => ?_⟩⟩
        have : y ∈ cls n.size (A ++ B) := mem_cls.2 ⟨hy, ee⟩
        rw [hnil] at this; cases this
      · intro kh hkh
        obtain ⟨k1, k2⟩ := (hmem kh).1 hkh
        rw [← hcls _ k2]; exact hr.some kh k1
      · intro kh hkh kh' hkh' ee
        exact hr.inj kh ((hmem kh).1 hkh).1 kh' ((hmem kh').1 hkh').1 ee
  · rw [if_neg h0]
    refine ⟨_, rfl, hr.sorted, heads, ?_, ?_, hr.inj, nodup, hfl, hfl0⟩
    · intro y hy
      exact hr.full y (hsub.subset hy)
    · intro kh hkh
      by_cases hk' : kh.1 = n.size
      · rw [hk']
        intro hnil
        rw [hnil] at hc
        exact h0 hc
      · rw [← hcls _ hk']; exact hr.some kh hkh

/-- `node_list_rm` of an entry, with the tail of its callers. -/
theorem listRm_rep {x : Idx} {A B : List Ent} {n : Ent} {h : Nat} (hr : Rep x (A ++ n :: B))
    (hblk : ∀ y ∈ A ++ B, y.blk ≠ n.blk) (hk : (n.size, h) ∈ Ravl.foreachOrder x.tree) :
    ∃ x1 x', nodeListRm x h n.elem = some (x1, n.blk) ∧ dropEmpty x1 n.size h = some x' ∧
      Rep x' (A ++ B) := by
  obtain ⟨hd, h1, h2⟩ := hr.heads _ hk
  simp only at h1 h2
  have hnd := cls_nodup (k := n.size) hr.nodup
  rw [cls_append, cls_cons_eq rfl] at h2 hnd
  have hzero : (0 : Nat) ∉ (cls n.size A ++ n :: cls n.size B).map Ent.elem := by
    intro hin
    obtain ⟨y, hy, hy0⟩ := List.mem_map.1 hin
    have : ∀ (m : Nat → Option Elem) l cur prev, Chain m cur prev l → ∀ y ∈ l, y.elem ≠ 0 := by
      intro m l
      induction l with
      | nil => intro _ _ _ y hy; cases hy
      | cons a l ih =>
        rintro cur prev ⟨g1, g2, nx, g3, g4⟩ y hy
        rcases List.mem_cons.1 hy with rfl | hy
        · exact g2
        · exact ih _ _ g4 y hy
    exact this _ _ _ _ h2 y hy hy0
  obtain ⟨nd, m1, m2, e1, e2, e3, e4, e5, e6, e7⟩ := h2.remove hnd hzero
  have hcond : nd.prev = 0 ∨ cls n.size A ≠ [] := by
    by_cases hA : cls n.size A = []
    · exact Or.inl (e4 hA).1
    · exact Or.inr hA
  obtain ⟨f1, f2, f3⟩ := e7 hcond
  refine ⟨{ x with heads := if n.elem = hd then update x.heads h (some nd.next) else x.heads,
                   elems := update m2 n.elem none, fl := update x.fl n.blk 0 }, ?_⟩
  have := take_rep (h := h) (hd' := if cls n.size A = [] then nd.next else hd)
    (m := update m2 n.elem none) hr hblk hk ?_ (by rw [cls_append]; exact f3)
    (if n.elem = hd then update x.heads h (some nd.next) else x.heads) ?_ ?_
  · obtain ⟨x', g1, g2⟩ := this
    refine ⟨x', ?_, g1, g2⟩
    unfold nodeListRm
    simp only [h1, e1, e6, f1, e2]
  · intro y hy hne
    have hyn : y.elem ∉ (cls n.size A ++ n :: cls n.size B).map Ent.elem := by
      intro hin
      obtain ⟨z, hz, hze⟩ := List.mem_map.1 hin
      have hz' : z ∈ cls n.size (A ++ n :: B) := by rw [cls_append, cls_cons_eq rfl]; exact hz
      obtain ⟨z1, z2⟩ := mem_cls.1 hz'
      have hy' : y ∈ A ++ n :: B := ((List.sublist_cons_self n B).append_left A).subset hy
      have := List.inj_on_of_nodup_map hr.nodup z1 hy' hze
      subst this
      exact hne z2
    rw [upd_ne (by intro ee; apply hyn; rw [ee]; simp), f2 _ hyn]
  · by_cases hA : cls n.size A = []
    · rw [if_pos hA, if_pos (e4 hA).2.symm, upd_eq]
    · rw [if_neg hA, if_neg (Ne.symm (e5 hA).2), h1]
  · intro y hy
    split
    · exact upd_ne hy
    · rfl

/-- `free_blocks_rm_node`. -/
theorem rmNode_rep {x : Idx} {A B : List Ent} {n : Ent} (hr : Rep x (A ++ n :: B))
    (hblk : ∀ y ∈ A ++ B, y.blk ≠ n.blk) :
    ∃ x', rmNode x n.size n.blk = some (x', n.blk) ∧ Rep x' (A ++ B) := by
  obtain ⟨h, hk⟩ := hr.full n (by simp)
  obtain ⟨x1, x', g1, g2, g3⟩ := listRm_rep hr hblk hk
  refine ⟨x', ?_, g3⟩
  unfold rmNode
  rw [find_eq hr]
  cases hf : (Ravl.foreachOrder x.tree).find? (fun y => decide (n.size = y.1)) with
  | none =>
    have := List.find?_eq_none.1 hf _ hk
    simp at this
  | some kh =>
    have h1 := List.find?_some hf
    have h2 := List.mem_of_find?_eq_some hf
    simp only [decide_eq_true_eq] at h1
    have : kh = (n.size, h) := Prod.ext h1.symm (hr.head_unique (k := n.size) (by rw [h1]; exact h2) hk)
    subst this
    simp only [hr.fl n (by simp), g1, g2]

/-- The loop finds the first entry with the alignment. -/
theorem walk_chain {m : Nat → Option Elem} {a : Nat} {l : List Ent} : ∀ {cur prev fuel : Nat},
    Chain m cur prev l → l.length < fuel → walk m a fuel cur =
      some (match l.find? (fun n => aligned n.blk a) with | none => 0 | some n => n.elem) := by
  induction l with
  | nil =>
    intro cur prev fuel h hf
    obtain ⟨fuel, rfl⟩ : ∃ f, fuel = f + 1 := ⟨fuel - 1, by simp at hf; omega⟩
    have h : cur = 0 := h
    simp [walk, h]
  | cons n l ih =>
    rintro cur prev fuel ⟨h1, h2, nx, h3, h4⟩ hf
    obtain ⟨fuel, rfl⟩ : ∃ f, fuel = f + 1 := ⟨fuel - 1, by simp at hf; omega⟩
    unfold walk
    rw [h1, if_neg h2, h3]
    dsimp only
    by_cases ha : aligned n.blk a
    · simp [ha]
    · rw [if_neg ha, ih h4 (by simp at hf; omega), List.find?_cons_of_neg (p := fun n : Ent => aligned n.blk a) ha]

end Verif.Coarse.Index
