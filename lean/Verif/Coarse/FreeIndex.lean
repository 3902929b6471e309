import Verif.Coarse.IndexOps
/-!
# The index of free blocks answers like the list in `Verif.Coarse.Model`

`Stands x free`: the structure `x` of the code (tree of doubly linked lists) stands for the list
`free` of `(size, address)` pairs, newest first. Every operation of the code on `x` is defined (no
null or dangling pointer is followed) and answers like the operation of the model on `free`.

The exception is a host allocation that fails after a new list head was entered:
`C05_emptyList_violated`.
-/
set_option linter.unusedSimpArgs false
namespace Verif.Coarse.Index
open Function (update)

/-- The pair that an entry stands for. -/
def Ent.pair (n : Ent) : Nat × Nat := (n.size, n.blk)

/-- The structure stands for the list. -/
def Stands (x : Idx) (free : List (Nat × Nat)) : Prop := ∃ g, Rep x g ∧ g.map Ent.pair = free

/-- The pointers the host allocator may return: not null and not in use. -/
def FreshPtr (x : Idx) (p : Nat) : Prop := p ≠ 0 ∧ x.heads p = none ∧ x.elems p = none

theorem chain_mem {m : Nat → Option Elem} : ∀ {l : List Ent} {cur prev : Nat},
    Chain m cur prev l → ∀ n ∈ l, m n.elem ≠ none
  | [], _, _, _, n, hn => by cases hn
  | a :: l, cur, prev, ⟨_, _, nx, h3, h4⟩, n, hn => by
    rcases List.mem_cons.1 hn with rfl | hn
    · rw [h3]; simp
    · exact chain_mem h4 n hn

theorem chain_ne {m : Nat → Option Elem} : ∀ {l : List Ent} {cur prev : Nat},
    Chain m cur prev l → ∀ n ∈ l, n.elem ≠ 0
  | [], _, _, _, n, hn => by cases hn
  | a :: l, cur, prev, ⟨_, h2, nx, _, h4⟩, n, hn => by
    rcases List.mem_cons.1 hn with rfl | hn
    · exact h2
    · exact chain_ne h4 n hn

theorem Rep.elem_mem {x : Idx} {g : List Ent} (hr : Rep x g) {n : Ent} (hn : n ∈ g) :
    x.elems n.elem ≠ none := by
  obtain ⟨h, hk⟩ := hr.full n hn
  obtain ⟨hd, -, hc⟩ := hr.heads _ hk
  exact chain_mem hc n (mem_cls.2 ⟨hn, rfl⟩)

/-- An empty index. -/
theorem empty_stands : Stands empty [] :=
  ⟨[], ⟨List.Pairwise.nil, by simp [empty, Ravl.foreachOrder], by simp, by simp [empty, Ravl.foreachOrder],
    by simp [empty, Ravl.foreachOrder], List.nodup_nil, by simp, fun _ _ => rfl⟩, rfl⟩

/-- `free_blocks_add` when the host allocator does not fail: the block becomes the newest entry. -/
theorem add_stands {x : Idx} {free : List (Nat × Nat)} (hs : Stands x free) {size d h e : Nat}
    (hh : FreshPtr x h) (he : FreshPtr x e) (hd : d ∉ free.map Prod.snd) :
    ∃ x', add x size d (some h) true (some e) = some (x', true) ∧ Stands x' ((size, d) :: free) := by
  obtain ⟨g, hr, rfl⟩ := hs
  have a1 : ∀ kh ∈ Ravl.foreachOrder x.tree, kh.2 ≠ h := by
    intro kh hkh ee
    obtain ⟨hd', j1, -⟩ := hr.heads kh hkh
    rw [ee, hh.2.1] at j1; cases j1
  have a2 : e ∉ g.map Ent.elem := by
    intro hin
    obtain ⟨n, hn, rfl⟩ := List.mem_map.1 hin
    exact hr.elem_mem hn he.2.2
  have a3 : d ∉ g.map Ent.blk := by
    intro hin
    apply hd
    obtain ⟨n, hn, rfl⟩ := List.mem_map.1 hin
    exact List.mem_map.2 ⟨n.pair, List.mem_map_of_mem hn, rfl⟩
  obtain ⟨x', h1, h2⟩ := add_rep hr (size := size) (d := d) (h := h) (e := e) a1 he.1 a2 a3
  exact ⟨x', h1, _, h2, rfl⟩

/-- `free_blocks_add` when the allocation of a head or of a tree node fails, or that of an element
for a size that has a head: the call fails and nothing has changed but the pointer of the block. -/
theorem add_fails {x : Idx} {free : List (Nat × Nat)} (hs : Stands x free) {size d : Nat}
    {hm em : Option Nat} {ok : Bool} (hd : d ∉ free.map Prod.snd)
    (hf : (size ∉ free.map Prod.fst ∧ (hm = none ∨ ok = false)) ∨
      (size ∈ free.map Prod.fst ∧ em = none)) :
    ∃ x', add x size d hm ok em = some (x', false) ∧ Stands x' free := by
  obtain ⟨g, hr, rfl⟩ := hs
  unfold add
  rw [find_eq hr]
  cases hfd : (Ravl.foreachOrder x.tree).find? (fun y => decide (size = y.1)) with
  | none =>
    have hno : size ∉ (g.map Ent.pair).map Prod.fst := by
      intro hin
      rw [List.map_map] at hin
      obtain ⟨n, hn, he⟩ := List.mem_map.1 hin
      obtain ⟨h, hk⟩ := hr.full n hn
      have := List.find?_eq_none.1 hfd _ hk
      simp only [decide_eq_true_eq] at this
      exact this he.symm
    rcases hf with ⟨-, hf⟩ | ⟨hf, -⟩
    · rcases hf with rfl | rfl
      · exact ⟨x, rfl, g, hr, rfl⟩
      · cases hm with
        | none => exact ⟨x, rfl, g, hr, rfl⟩
        | some h =>
          dsimp only
          have : Ravl.emplace Prod.fst false x.tree (size, h) = none := by simp [Ravl.emplace]
          rw [this]
          exact ⟨x, rfl, g, hr, rfl⟩
    · exact absurd hf hno
  | some kh =>
    have h1 := List.find?_some hfd
    have h2 := List.mem_of_find?_eq_some hfd
    simp only [decide_eq_true_eq] at h1
    have hin : size ∈ (g.map Ent.pair).map Prod.fst := by
      obtain ⟨n, hn⟩ := List.exists_mem_of_ne_nil _ (hr.some kh h2)
      obtain ⟨n1, n2⟩ := mem_cls.1 hn
      rw [List.map_map]
      exact List.mem_map.2 ⟨n, n1, by show n.size = size; rw [n2, h1]⟩
    rcases hf with ⟨hf, -⟩ | ⟨-, rfl⟩
    · exact absurd hin hf
    · refine ⟨{ x with fl := update x.fl d 0 }, rfl, g, ?_, rfl⟩
      refine ⟨hr.sorted, hr.heads, hr.full, hr.some, hr.inj, hr.nodup, fun n hn => ?_,
        fun y hy => ?_⟩
      · have : n.blk ≠ d := by
          rintro rfl
          apply hd
          rw [List.map_map]
          exact List.mem_map.2 ⟨n, hn, rfl⟩
        exact (upd_ne this).trans (hr.fl n hn)
      · show update x.fl d 0 y = 0
        by_cases hyd : y = d
        · rw [hyd]; exact upd_eq
        · exact (upd_ne hyd).trans (hr.fl0 y hy)

theorem erase_mid {A B : List Ent} {n : Ent} (hblk : ∀ y ∈ A ++ B, y.blk ≠ n.blk) :
    ((A ++ n :: B).map Ent.pair).erase n.pair = (A ++ B).map Ent.pair := by
  rw [List.map_append, List.map_cons, List.erase_append_right, List.erase_cons_head,
    List.map_append]
  intro hin
  obtain ⟨y, hy, he⟩ := List.mem_map.1 hin
  exact hblk y (List.mem_append.2 (Or.inl hy)) (congrArg Prod.snd he)

theorem blk_mid {A B : List Ent} {n : Ent}
    (hn : (((A ++ n :: B).map Ent.pair).map Prod.snd).Nodup) : ∀ y ∈ A ++ B, y.blk ≠ n.blk := by
  rw [List.map_map] at hn
  intro y hy e
  rw [List.map_append, List.map_cons, List.nodup_append] at hn
  obtain ⟨-, h2, h3⟩ := hn
  rw [List.nodup_cons] at h2
  rcases List.mem_append.1 hy with hy | hy
  · exact h3 _ (List.mem_map_of_mem hy) _ (List.mem_cons_self ..) e
  · exact h2.1 (List.mem_map.2 ⟨y, hy, e⟩)

/-- `free_blocks_rm_node`: the entry of the block is taken out. -/
theorem rmNode_stands {x : Idx} {free : List (Nat × Nat)} (hs : Stands x free)
    (hn : (free.map Prod.snd).Nodup) {size d : Nat} (hd : (size, d) ∈ free) :
    ∃ x', rmNode x size d = some (x', d) ∧ Stands x' (free.erase (size, d)) := by
  obtain ⟨g, hr, rfl⟩ := hs
  obtain ⟨n, hng, he⟩ := List.mem_map.1 hd
  cases he
  obtain ⟨A, B, rfl⟩ := List.append_of_mem hng
  have hblk := blk_mid hn
  obtain ⟨x', h1, h2⟩ := rmNode_rep hr hblk
  exact ⟨x', h1, A ++ B, h2, (erase_mid hblk).symm⟩

theorem filter_pair (k : Nat) (g : List Ent) :
    (g.map Ent.pair).filter (fun e => e.1 == k) = (cls k g).map Ent.pair := by
  rw [List.filter_map]; rfl

/-- The tree finds the smallest size that is large enough. -/
theorem minGe_tree {x : Idx} {g : List Ent} (hr : Rep x g) (s : Nat) :
    minGe s (g.map Ent.pair) =
      (Ravl.find Prod.fst x.tree s ⟨true, true, false⟩).map Prod.fst := by
  rw [find_ge hr]
  unfold minGe
  cases hf : (Ravl.foreachOrder x.tree).find? (fun y => decide (s < y.1) || (true && s == y.1)) with
  | none =>
    rw [Option.map_none, List.min?_eq_none_iff, List.filter_eq_nil_iff]
    intro k hk
    rw [List.map_map] at hk
    obtain ⟨n, hn, rfl⟩ := List.mem_map.1 hk
    obtain ⟨h, hh⟩ := hr.full n hn
    have := List.find?_eq_none.1 hf _ hh
    simp at this
    have h2 : (Prod.fst ∘ Ent.pair) n = n.size := rfl
    rw [h2, decide_eq_true_eq]
    omega
  | some kh =>
    have h1 := List.find?_some hf
    have hmem := List.mem_of_find?_eq_some hf
    rw [List.find?_eq_some_iff_append] at hf
    obtain ⟨-, as, bs, hab, hno⟩ := hf
    simp at h1
    rw [Option.map_some, List.min?_eq_some_iff]
    obtain ⟨n, hn⟩ := List.exists_mem_of_ne_nil _ (hr.some kh hmem)
    obtain ⟨n1, n2⟩ := mem_cls.1 hn
    constructor
    · rw [List.mem_filter]
      refine ⟨?_, by simp only [decide_eq_true_eq]; omega⟩
      rw [List.map_map]
      exact List.mem_map.2 ⟨n, n1, n2⟩
    · intro k hk
      rw [List.mem_filter, List.map_map] at hk
      obtain ⟨hk, hs⟩ := hk
      obtain ⟨y, hy, rfl⟩ := List.mem_map.1 hk
      obtain ⟨h, hh⟩ := hr.full y hy
      have h2 : (Prod.fst ∘ Ent.pair) y = y.size := rfl
      rw [h2, decide_eq_true_eq] at hs
      rw [h2]
      have hsrt := hr.sorted
      rw [hab] at hh hsrt
      rw [Ravl.Sorted.append_iff, Ravl.Sorted.cons_iff] at hsrt
      rcases List.mem_append.1 hh with hh | hh
      · have := hno _ hh
        simp at this
        omega
      · rcases List.mem_cons.1 hh with e | hh
        · have := congrArg Prod.fst e
          simp only at this
          omega
        · have := hsrt.2.1.1 _ hh
          simp only at this
          omega

theorem first_eq {x : Idx} {h hd : Nat} {n : Elem} (h1 : x.heads h = some hd) (h0 : hd ≠ 0)
    (h2 : x.elems hd = some n) (h3 : n.prev = 0) (a : Nat) :
    nodeListRmFirst x h a = if aligned n.blk a then
      (nodeListRm x h hd).map (fun p => (p.1, some p.2)) else some (x, none) := by
  unfold nodeListRmFirst nodeListRm
  simp only [h1, if_neg h0, h2, h3]
  split
  · cases setPrev x.elems n.next 0 with
    | none => rfl
    | some m => simp [setNext]
  · rfl

/-- `free_blocks_rm_ge`: the answer is that of the model, and the entry is taken out. `fuel` is any
number above the number of entries: the loop ends. -/
theorem rmGe_stands {x : Idx} {free : List (Nat × Nat)} (hs : Stands x free)
    (hn : (free.map Prod.snd).Nodup) {s a fuel : Nat} {check : Check} (hfuel : free.length < fuel) :
    match Coarse.rmGe s a check free with
    | none => rmGe x s a check fuel = some (x, none)
    | some e => ∃ x', rmGe x s a check fuel = some (x', some e.2) ∧ Stands x' (free.erase e) := by
  obtain ⟨g, hr, rfl⟩ := hs
  unfold Coarse.rmGe rmGe
  rw [minGe_tree hr]
  cases hf : Ravl.find Prod.fst x.tree s ⟨true, true, false⟩ with
  | none => rfl
  | some kh =>
    have hmem : kh ∈ Ravl.foreachOrder x.tree := by
      rw [find_ge hr] at hf
      exact List.mem_of_find?_eq_some hf
    obtain ⟨hd, h1, h2⟩ := hr.heads kh hmem
    have hne := hr.some kh hmem
    rw [Option.map_some]
    dsimp only
    rw [filter_pair]
    -- removing an entry of this size
    have key : ∀ n ∈ cls kh.1 g, ∃ x1 x', nodeListRm x kh.2 n.elem = some (x1, n.blk) ∧
        dropEmpty x1 kh.1 kh.2 = some x' ∧ Stands x' ((g.map Ent.pair).erase n.pair) := by
      intro n hnc
      obtain ⟨n1, n2⟩ := mem_cls.1 hnc
      obtain ⟨A, B, rfl⟩ := List.append_of_mem n1
      have hblk := blk_mid hn
      obtain ⟨x1, x', g1, g2, g3⟩ := listRm_rep (h := kh.2) hr hblk (by rw [n2]; exact hmem)
      exact ⟨x1, x', g1, by rw [← n2]; exact g2, A ++ B, g3, (erase_mid hblk).symm⟩
    have hdrop : dropEmpty x kh.1 kh.2 = some x := by
      unfold dropEmpty
      rw [h1]
      dsimp only
      rw [if_neg]
      rintro rfl
      cases hcl : cls kh.1 g with
      | nil => exact hne hcl
      | cons n l =>
        rw [hcl] at h2
        exact h2.2.1 h2.1.symm
    cases check with
    | first =>
      cases hcl : cls kh.1 g with
      | nil => exact absurd hcl hne
      | cons n l =>
        rw [hcl] at h2
        obtain ⟨c1, c2, nx, c3, c4⟩ := h2
        subst c1
        rw [List.map_cons, List.head?_cons]
        dsimp only
        rw [first_eq h1 c2 c3 rfl]
        by_cases ha : aligned n.pair.2 a
        · rw [if_pos ha]
          have ha' : aligned n.blk a = true := ha
          rw [if_pos ha']
          obtain ⟨x1, x', g1, g2, g3⟩ := key n (by rw [hcl]; exact List.mem_cons_self ..)
          refine ⟨x', ?_, g3⟩
          rw [g1]
          simp only [Option.map_some, g2]
          rfl
        · rw [if_neg ha]
          have ha' : ¬ aligned n.blk a = true := ha
          rw [if_neg ha']
          simp only [hdrop]
    | allOfSize =>
      have hlen : (cls kh.1 g).length < fuel := by
        have := List.length_filter_le (fun n : Ent => n.size == kh.1) g
        rw [List.length_map] at hfuel
        unfold cls
        omega
      have hw := walk_chain (a := a) h2 hlen
      rw [List.find?_map]
      unfold nodeListRmAligned
      simp only [h1, hw]
      cases hfd : (cls kh.1 g).find? (fun n => aligned n.blk a) with
      | none =>
        have : (cls kh.1 g).find? ((fun e : Nat × Nat => aligned e.2 a) ∘ Ent.pair) = none := hfd
        rw [this]
        simp only [Option.map_none, if_true, hdrop]
      | some n =>
        have : (cls kh.1 g).find? ((fun e : Nat × Nat => aligned e.2 a) ∘ Ent.pair) = some n := hfd
        rw [this]
        have hnc := List.mem_of_find?_eq_some hfd
        obtain ⟨x1, x', g1, g2, g3⟩ := key n hnc
        have h0 : n.elem ≠ 0 := by
          have : ∀ {l : List Ent} {cur prev : Nat}, Chain x.elems cur prev l → ∀ y ∈ l, y.elem ≠ 0 := by
            intro l
            induction l with
            | nil => intro _ _ _ y hy; cases hy
            | cons b l ih =>
              rintro cur prev ⟨k1, k2, nx, k3, k4⟩ y hy
              rcases List.mem_cons.1 hy with rfl | hy
              · exact k2
              · exact ih k4 y hy
          exact this h2 n hnc
        refine ⟨x', ?_, g3⟩
        simp only [Option.map_some, if_neg h0, g1, g2]
        rfl

/-! ## Every history -/

/-- The structures that the code can build, beside the list of free blocks each of them stands for.
A block is added only when it is not yet on the list (`coarse.c`: `free_list_ptr == NULL`), and
removed by its own element. Host allocations may fail, except the one of the exception below. -/
inductive Serves : Idx → List (Nat × Nat) → Prop where
  | init : Serves empty []
  | add {x x' : Idx} {free : List (Nat × Nat)} {size d h e : Nat} : Serves x free →
      d ∉ free.map Prod.snd → FreshPtr x h → FreshPtr x e →
      add x size d (some h) true (some e) = some (x', true) → Serves x' ((size, d) :: free)
  | addFails {x x' : Idx} {free : List (Nat × Nat)} {size d : Nat} {hm em : Option Nat} {ok : Bool} :
      Serves x free → d ∉ free.map Prod.snd →
      (size ∉ free.map Prod.fst ∧ (hm = none ∨ ok = false)) ∨
        (size ∈ free.map Prod.fst ∧ em = none) →
      Index.add x size d hm ok em = some (x', false) → Serves x' free
  | take {x x' : Idx} {free : List (Nat × Nat)} {s a fuel d : Nat} {check : Check} {k : Nat} :
      Serves x free → free.length < fuel → rmGe x s a check fuel = some (x', some d) →
      (k, d) ∈ free → Serves x' (free.erase (k, d))
  | remove {x x' : Idx} {free : List (Nat × Nat)} {size d d' : Nat} : Serves x free →
      (size, d) ∈ free → rmNode x size d = some (x', d') → Serves x' (free.erase (size, d))

theorem coarse_rmGe_mem {s a : Nat} {check : Check} {free : List (Nat × Nat)} {e : Nat × Nat}
    (h : Coarse.rmGe s a check free = some e) : e ∈ free ∧ s ≤ e.1 ∧ aligned e.2 a = true ∧
      ∀ e' ∈ free, s ≤ e'.1 → e.1 ≤ e'.1 := by
  unfold Coarse.rmGe at h
  cases hm : minGe s free with
  | none => rw [hm] at h; cases h
  | some k =>
    rw [hm] at h
    dsimp only at h
    unfold minGe at hm
    rw [List.min?_eq_some_iff] at hm
    obtain ⟨m1, m2⟩ := hm
    have hs : s ≤ k := by have := (List.mem_filter.1 m1).2; simpa using this
    have hle : ∀ e' ∈ free, s ≤ e'.1 → k ≤ e'.1 := fun e' he' hse =>
      m2 _ (List.mem_filter.2 ⟨List.mem_map_of_mem he', by simpa using hse⟩)
    have hcl : ∀ e' ∈ free.filter (fun e => e.1 == k), e' ∈ free ∧ e'.1 = k := by
      intro e' he'
      obtain ⟨c1, c2⟩ := List.mem_filter.1 he'
      exact ⟨c1, by simpa using c2⟩
    cases check with
    | first =>
      dsimp only at h
      cases hh : (free.filter (fun e => e.1 == k)).head? with
      | none => rw [hh] at h; cases h
      | some e' =>
        rw [hh] at h
        dsimp only at h
        split at h
        · cases h
          obtain ⟨c1, c2⟩ := hcl e (List.mem_of_mem_head? hh)
          exact ⟨c1, by omega, by assumption, by rw [c2]; exact hle⟩
        · cases h
    | allOfSize =>
      dsimp only at h
      obtain ⟨c1, c2⟩ := hcl e (List.mem_of_find?_eq_some h)
      have c3 := List.find?_some (p := fun e : Nat × Nat => aligned e.2 a) h
      exact ⟨c1, by omega, c3, by rw [c2]; exact hle⟩

/-- Whatever the history, the structure stands for its list and no block is on it twice. -/
theorem serves_stands {x : Idx} {free : List (Nat × Nat)} (h : Serves x free) :
    Stands x free ∧ (free.map Prod.snd).Nodup := by
  induction h with
  | init => exact ⟨empty_stands, List.nodup_nil⟩
  | add _ hd hh he hadd ih =>
    obtain ⟨x', h1, h2⟩ := add_stands ih.1 hh he hd
    rw [hadd] at h1
    cases h1
    exact ⟨h2, by rw [List.map_cons, List.nodup_cons]; exact ⟨hd, ih.2⟩⟩
  | addFails _ hd hf hadd ih =>
    obtain ⟨x', h1, h2⟩ := add_fails ih.1 hd hf
    rw [hadd] at h1
    cases h1
    exact ⟨h2, ih.2⟩
  | @take x x' free s a fuel d check k _ hfuel hrm hk ih =>
    have := rmGe_stands ih.1 ih.2 (s := s) (a := a) (check := check) hfuel
    cases hc : Coarse.rmGe s a check free with
    | none => rw [hc] at this; dsimp only at this; rw [hrm] at this; cases this
    | some e =>
      rw [hc] at this
      obtain ⟨x2, h1, h2⟩ := this
      rw [hrm] at h1
      cases h1
      have he : e = (k, e.2) := by
        obtain ⟨c1, -⟩ := coarse_rmGe_mem hc
        exact List.inj_on_of_nodup_map ih.2 c1 hk rfl
      rw [← he]
      exact ⟨h2, ih.2.sublist (List.Sublist.map _ List.erase_sublist)⟩
  | remove _ hd hrm ih =>
    obtain ⟨x2, h1, h2⟩ := rmNode_stands ih.1 ih.2 hd
    rw [hrm] at h1
    cases h1
    exact ⟨h2, ih.2.sublist (List.Sublist.map _ List.erase_sublist)⟩

/-- The field `free_list_ptr` of a block tells whether the block is on the list: that is the flag
`listed` of `Verif.Coarse.Model`, on which the merges depend. -/
theorem C06_indexListed {x : Idx} {free : List (Nat × Nat)} (h : Serves x free) (d : Nat) :
    x.fl d ≠ 0 ↔ ∃ k, (k, d) ∈ free := by
  obtain ⟨⟨g, hr, rfl⟩, -⟩ := serves_stands h
  constructor
  · intro h0
    by_contra hno
    apply h0
    apply hr.fl0
    intro hin
    obtain ⟨n, hn, rfl⟩ := List.mem_map.1 hin
    exact hno ⟨n.size, List.mem_map.2 ⟨n, hn, rfl⟩⟩
  · rintro ⟨k, hk⟩
    obtain ⟨n, hn, he⟩ := List.mem_map.1 hk
    cases he
    rw [hr.fl n hn]
    obtain ⟨hh, hk'⟩ := hr.full n hn
    obtain ⟨hd, -, hc⟩ := hr.heads _ hk'
    exact chain_ne hc n (mem_cls.2 ⟨hn, rfl⟩)

/-- Property C06, the data structure below: after any history of the index of free blocks a search
follows no null or dangling pointer and its loop ends. What it returns is a free block of the least
sufficient size that is aligned as asked. A search without alignment fails only when every free block is too
small; one that looks at all blocks of a size fails only when no block of the least sufficient size
is aligned. -/
theorem C06_index {x : Idx} {free : List (Nat × Nat)} (h : Serves x free) {s a fuel : Nat}
    {check : Check} (hfuel : free.length < fuel) :
    ∃ x' r, rmGe x s a check fuel = some (x', r) ∧
      (∀ d, r = some d → ∃ k, (k, d) ∈ free ∧ s ≤ k ∧ (a = 0 ∨ a ∣ d) ∧
        (∀ e ∈ free, s ≤ e.1 → k ≤ e.1) ∧ Serves x' (free.erase (k, d))) ∧
      (r = none → x' = x ∧ (a = 0 → ∀ e ∈ free, e.1 < s) ∧
        (check = .allOfSize → ∀ e ∈ free, s ≤ e.1 → a ∣ e.2 →
          ∃ e' ∈ free, s ≤ e'.1 ∧ e'.1 < e.1)) := by
  obtain ⟨hs, hn⟩ := serves_stands h
  have := rmGe_stands hs hn (s := s) (a := a) (check := check) hfuel
  cases hc : Coarse.rmGe s a check free with
  | some e =>
    rw [hc] at this
    obtain ⟨x', h1, h2⟩ := this
    refine ⟨x', some e.2, h1, ?_, by simp⟩
    intro d hd
    cases hd
    obtain ⟨c1, c2, c3, c4⟩ := coarse_rmGe_mem hc
    refine ⟨e.1, c1, c2, ?_, c4, .take h hfuel h1 c1⟩
    unfold aligned at c3
    simp only [Bool.or_eq_true, beq_iff_eq] at c3
    rcases c3 with c3 | c3
    · exact Or.inl c3
    · exact Or.inr (Nat.dvd_of_mod_eq_zero c3)
  | none =>
    rw [hc] at this
    refine ⟨x, none, this, by simp, fun _ => ⟨rfl, ?_, ?_⟩⟩
    · intro ha e he
      subst ha
      by_contra hlt
      unfold Coarse.rmGe at hc
      cases hm : minGe s free with
      | none =>
        unfold minGe at hm
        rw [List.min?_eq_none_iff, List.filter_eq_nil_iff] at hm
        exact hm _ (List.mem_map_of_mem he) (by simpa using hlt)
      | some k =>
        rw [hm] at hc
        dsimp only at hc
        unfold minGe at hm
        rw [List.min?_eq_some_iff] at hm
        obtain ⟨y, hy, hk⟩ := List.mem_map.1 (List.mem_filter.1 hm.1).1
        have hyc : y ∈ free.filter (fun e => e.1 == k) := List.mem_filter.2 ⟨hy, by simpa using hk⟩
        cases check with
        | first =>
          dsimp only at hc
          cases hl : free.filter (fun e => e.1 == k) with
          | nil => rw [hl] at hyc; cases hyc
          | cons z zs =>
            rw [hl] at hc
            simp [aligned] at hc
        | allOfSize =>
          dsimp only at hc
          rw [List.find?_eq_none] at hc
          exact hc y hyc (by simp [aligned])
    · intro hca e he hse hdv
      subst hca
      unfold Coarse.rmGe at hc
      cases hm : minGe s free with
      | none =>
        unfold minGe at hm
        rw [List.min?_eq_none_iff, List.filter_eq_nil_iff] at hm
        exact absurd (by simpa using hse) (hm _ (List.mem_map_of_mem he))
      | some k =>
        rw [hm] at hc
        dsimp only at hc
        unfold minGe at hm
        rw [List.min?_eq_some_iff] at hm
        obtain ⟨y, hy, hk⟩ := List.mem_map.1 (List.mem_filter.1 hm.1).1
        have hsk : s ≤ k := by simpa using (List.mem_filter.1 hm.1).2
        have hke : k ≤ e.1 := hm.2 _ (List.mem_filter.2 ⟨List.mem_map_of_mem he, by simpa using hse⟩)
        rw [List.find?_eq_none] at hc
        rcases Nat.lt_or_ge k e.1 with hlt | hge
        · exact ⟨y, hy, by omega, by omega⟩
        · exfalso
          refine hc e (List.mem_filter.2 ⟨he, ?_⟩) ?_
          · simp only [beq_iff_eq]; omega
          · simp only [aligned, Bool.or_eq_true, beq_iff_eq]
            exact Or.inr (Nat.mod_eq_zero_of_dvd hdv)

/-- Taking a block out by its own element (the merges) also succeeds after any history. -/
theorem C06_indexRemove {x : Idx} {free : List (Nat × Nat)} (h : Serves x free) {size d : Nat}
    (hd : (size, d) ∈ free) : ∃ x', rmNode x size d = some (x', d) ∧
      Serves x' (free.erase (size, d)) := by
  obtain ⟨hs, hn⟩ := serves_stands h
  obtain ⟨x', h1, -⟩ := rmNode_stands hs hn hd
  exact ⟨x', h1, .remove h hd h1⟩

/-- And so does adding a block, when the host allocations succeed. -/
theorem C06_indexAdd {x : Idx} {free : List (Nat × Nat)} (h : Serves x free) {size d p q : Nat}
    (hd : d ∉ free.map Prod.snd) (hp : FreshPtr x p) (hq : FreshPtr x q) :
    ∃ x', add x size d (some p) true (some q) = some (x', true) ∧
      Serves x' ((size, d) :: free) := by
  obtain ⟨hs, hn⟩ := serves_stands h
  obtain ⟨x', h1, -⟩ := add_stands hs hp hq hd
  exact ⟨x', h1, .add h hd hp hq h1⟩

/-! ## Cases that meet the hypotheses, and the exception -/

/-- Two blocks of one size and one of another. -/
def ex3 : Option Idx :=
  match add empty 4096 65536 (some 1) true (some 2) with
  | some (x1, _) => match add x1 8192 131072 (some 3) true (some 4) with
    | some (x2, _) => (add x2 4096 262144 (some 5) true (some 6)).map Prod.fst
    | none => none
  | none => none

theorem ex3_serves : ∃ x, ex3 = some x ∧
    Serves x [(4096, 262144), (8192, 131072), (4096, 65536)] := by
  obtain ⟨x1, h1, s1⟩ := C06_indexAdd .init (size := 4096) (d := 65536) (p := 1) (q := 2)
    (by simp) ⟨by decide, rfl, rfl⟩ ⟨by decide, rfl, rfl⟩
  have e1 : add empty 4096 65536 (some 1) true (some 2) = some (⟨.node .nil (4096, 1) 0 .nil,
    update (update (fun _ => none) 1 (some 0)) 1 (some 2),
    update (fun _ => none) 2 (some ⟨65536, 0, 0⟩), update (fun _ => 0) 65536 2⟩, true) := rfl
  rw [h1] at e1
  cases e1
  obtain ⟨x2, h2, s2⟩ := C06_indexAdd s1 (size := 8192) (d := 131072) (p := 3) (q := 4)
    (by decide) ⟨by decide, rfl, rfl⟩ ⟨by decide, rfl, rfl⟩
  have e2 := h2
  revert s2
  cases h2
  intro s2
  obtain ⟨x3, h3, s3⟩ := C06_indexAdd s2 (size := 4096) (d := 262144) (p := 5) (q := 6)
    (by decide) ⟨by decide, rfl, rfl⟩ ⟨by decide, rfl, rfl⟩
  refine ⟨x3, ?_, s3⟩
  unfold ex3
  rw [h1]
  dsimp only
  rw [e2]
  dsimp only
  rw [h3]
  rfl

/-- Both blocks of 4096 bytes are aligned to 65536: the newest is taken. -/
example : ∃ x x', ex3 = some x ∧ rmGe x 4000 65536 .allOfSize 4 = some (x', some 262144) ∧
    Stands x' [(8192, 131072), (4096, 65536)] := by
  obtain ⟨x, h1, h2⟩ := ex3_serves
  have := rmGe_stands (serves_stands h2).1 (by decide) (s := 4000) (a := 65536) (fuel := 4) (check := .allOfSize)
    (by decide)
  have e : Coarse.rmGe 4000 65536 .allOfSize [(4096, 262144), (8192, 131072), (4096, 65536)] =
    some (4096, 262144) := by decide
  rw [e] at this
  obtain ⟨x', h3, h4⟩ := this
  exact ⟨x, x', h1, h3, h4⟩

/-- After a free-list element could not be allocated for a size with no other free block, the empty
list stays in the tree (`coarse.c:345-349`). The next allocation that looks at it reads through a
null pointer (`node_list_rm_first`, `coarse.c:277-279`): the failed `free` was not without effect. -/
theorem C05_emptyList_violated : ∃ x, add empty 4096 65536 (some 1) true none = some (x, false) ∧
    rmGe x 4096 0 .first 1 = none := ⟨_, rfl, rfl⟩

end Verif.Coarse.Index
