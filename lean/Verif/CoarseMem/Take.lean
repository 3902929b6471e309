import Verif.CoarseMem.Index
/-!
# Lemmas for the coarse allocator, pointer by pointer: taking a block off its list
-/
namespace Verif.CoarseMem
open Verif.Coarse (Res Check aligned)
open Verif.Coarse.Index (Elem Ent cls Chain cls_cons_eq cls_cons_ne cls_append mem_cls cls_nodup)
open Verif.Ravl (Slot Pred)

variable {s : St} {F : List (Addr × Nat × Addr)} {E : List Ent}

/-- An element is unlinked; its list may be empty now. -/
theorem unlink_ix {s1 : St} {n h f' : Addr} {X Y : List Ent} {m : Ent} {B : Blk} (hI : Ix s F (X ++ m :: Y)) (hx : (n, m.size, h) ∈ F)
    (hB : s.blk m.blk = some B) (htree : s1.tree = s.tree) (hhd : s1.hd h = some f') (hhd' : ∀ h', h' ≠ h → s1.hd h' = s.hd h')
    (helm : ∀ y ∈ X ++ Y, y.size ≠ m.size → s1.elm y.elem = s.elm y.elem) (helm0 : s1.elm m.elem = none)
    (hin : ∀ e, s1.elm e ≠ none → s.elm e ≠ none) (hchain : Chain s1.elm f' 0 (cls m.size (X ++ Y)))
    (hblk : s1.blk = upd s.blk m.blk (some { B with fl := 0 })) : Ix s1 F (X ++ Y) := by
  have hx' : (m.size, h) ∈ F.map (·.2) := mem_map2.2 ⟨n, hx⟩
  have hsub : ∀ y, y ∈ X ++ Y → y ∈ X ++ m :: Y := fun y hy => by
    rcases List.mem_append.1 hy with hy | hy
    · exact List.mem_append_left _ hy
    · exact List.mem_append_right _ (List.mem_cons_of_mem _ hy)
  have hmm : m ∈ X ++ m :: Y := by simp
  have hnd := hI.nodup
  rw [List.map_append, List.map_cons, List.nodup_append, List.nodup_cons] at hnd
  have hne : ∀ y ∈ X ++ Y, y.elem ≠ m.elem := by
    intro y hy e
    rcases List.mem_append.1 hy with hy | hy
    · exact hnd.2.2 _ (List.mem_map_of_mem hy) _ List.mem_cons_self e
    · exact hnd.2.1.1 (e ▸ List.mem_map_of_mem hy)
  have hnb : ∀ y ∈ X ++ Y, y.blk ≠ m.blk := fun y hy e => hne y hy (by rw [hI.inj (hsub y hy) hmm e])
  refine ⟨?_, ?_, ?_, hI.headInj, fun y hy => hI.full y (hsub y hy), ?_, ?_, ?_, ?_⟩
  · show RavlMem.Inv _ (s1.tree .fre) F
    rw [htree]
    exact hI.fre
  · intro x hxx
    by_cases hxk : x.1 = m.size
    · have := hI.keyInj hxx hx' hxk
      subst this
      exact ⟨f', hhd, hchain⟩
    · obtain ⟨f, j1, j2⟩ := hI.heads x hxx
      have hxh : x.2 ≠ h := fun e' => hxk (congrArg Prod.fst (hI.headInj x hxx _ hx' e'))
      refine ⟨f, (hhd' _ hxh).trans j1, ?_⟩
      have hc : cls x.1 (X ++ m :: Y) = cls x.1 (X ++ Y) := by
        rw [cls_append, cls_append, cls_cons_ne fun e => hxk e.symm]
      rw [hc] at j2
      refine j2.frame fun y hy => helm y (mem_cls.1 hy).1 ?_
      rw [(mem_cls.1 hy).2]
      exact hxk
  · intro h' hh'
    by_cases e : h' = h
    · exact ⟨_, hx', e.symm⟩
    · rw [hhd' _ e] at hh'
      exact hI.headOnly h' hh'
  · rw [List.map_append, List.nodup_append]
    exact ⟨hnd.1, hnd.2.1.2, fun a ha b hb => hnd.2.2 a ha b (List.mem_cons_of_mem _ hb)⟩
  · intro e he
    have h1 := hI.elemOnly e (hin e he)
    rw [List.map_append, List.map_cons, List.mem_append, List.mem_cons] at h1
    rw [List.map_append, List.mem_append]
    rcases h1 with h1 | h1 | h1
    · exact .inl h1
    · rw [h1] at he
      exact absurd helm0 he
    · exact .inr h1
  · intro y hy
    obtain ⟨C, c1, c2⟩ := hI.ent y (hsub y hy)
    exact ⟨C, by rw [hblk, upd_ne _ _ (hnb y hy)]; exact c1, c2⟩
  · intro b C hb hC
    rw [hblk] at hb
    by_cases hbm : b = m.blk
    · rw [hbm, upd_same] at hb
      cases hb
      exact absurd rfl hC
    · rw [upd_ne _ _ hbm] at hb
      obtain ⟨y, hy, e⟩ := hI.fl b C hb hC
      refine ⟨y, ?_, e⟩
      rw [List.mem_append, List.mem_cons] at hy
      rcases hy with hy | hy | hy
      · exact List.mem_append_left _ hy
      · rw [hy] at e
        exact absurd e.symm hbm
      · exact List.mem_append_right _ hy

/-- An empty list goes away. -/
theorem dropEmpty_ok {n k h : Addr} (hI : Ix s F E) (hx : (n, k, h) ∈ F) :
    ∃ s' F', Ev (dropEmpty n h) s () s' ∧ Frame s s' ∧ Ix s' F' E ∧ s'.blk = s.blk ∧ (∀ h', s'.hd h' = some 0 → h' ≠ h ∧ s.hd h' = some 0) := by
  have hx' : (k, h) ∈ F.map (·.2) := mem_map2.2 ⟨n, hx⟩
  obtain ⟨f, h1, h2⟩ := hI.heads _ hx'
  dsimp only at h1 h2
  by_cases hf : f = 0
  · subst hf
    have hcls : cls k E = [] := by
      cases hc : cls k E with
      | nil => rfl
      | cons y l =>
        rw [hc] at h2
        obtain ⟨e1, e2, -⟩ := h2
        exact absurd e1.symm e2
    obtain ⟨P, Q, rfl⟩ := List.append_of_mem hx
    obtain ⟨T, Q', hev, hT, hQ⟩ := remove_ev (s := { s with
      hd := upd s.hd h none }) (t := .fre) hI.fre
    refine ⟨{ s with
      hd := upd s.hd h none
      tree := updT s.tree .fre T }, P ++ Q', ?_, ⟨updT_ne (t := Tr.fre) (u := Tr.all) s.tree T (by decide), fun _ h => h, fun h => h, rfl, rfl⟩, ?_, rfl, ?_⟩
    · unfold dropEmpty
      exact Ev.bind (getH_ev h1) (Ev.ite_pos rfl (Ev.bind (freeH_ev h1) hev))
    · have hmem : ∀ x, x ∈ (P ++ Q').map (·.2) → x ∈ (P ++ (n, k, h) :: Q).map (·.2) := by
        intro x hx
        rw [List.map_append, hQ] at hx
        rw [List.map_append, List.map_cons, List.mem_append, List.mem_cons]
        rcases List.mem_append.1 hx with hx | hx
        · exact .inl hx
        · exact .inr (.inr hx)
      have hmem' : ∀ x, x ∈ (P ++ (n, k, h) :: Q).map (·.2) → x ≠ (k, h) → x ∈ (P ++ Q').map (·.2) := by
        intro x hx hne
        rw [List.map_append, hQ, List.mem_append]
        rw [List.map_append, List.map_cons, List.mem_append, List.mem_cons] at hx
        rcases hx with hx | hx | hx
        · exact .inl hx
        · exact absurd hx hne
        · exact .inr hx
      have hkey : ∀ x ∈ (P ++ Q').map (·.2), x.1 ≠ k := by
        intro x hx e
        have hp := (RavlMem.inv_view hI.fre).2.1
        rw [List.pairwise_append, List.pairwise_cons] at hp
        rw [List.map_append, hQ, List.mem_append] at hx
        rcases hx with hx | hx
        · obtain ⟨y, hy, rfl⟩ := List.mem_map.1 hx
          have h' : y.2.1 < k := hp.2.2 y hy _ List.mem_cons_self
          exact Nat.ne_of_lt h' e
        · obtain ⟨y, hy, rfl⟩ := List.mem_map.1 hx
          have h' : k < y.2.1 := hp.2.1.1 y hy
          exact Nat.ne_of_gt h' e
      refine ⟨?_, ?_, ?_, fun x hx y hy => hI.headInj x (hmem x hx) y (hmem y hy), ?_, hI.nodup, hI.elemOnly, hI.ent, hI.fl⟩
      · show RavlMem.Inv _ (updT s.tree .fre T .fre) _
        rw [updT_same]
        exact hT
      · intro x hx
        obtain ⟨f, j1, j2⟩ := hI.heads x (hmem x hx)
        refine ⟨f, ?_, j2⟩
        dsimp only
        rw [upd_ne _ _ fun e => hkey x hx (congrArg Prod.fst (hI.headInj x (hmem x hx) _ hx' e))]
        exact j1
      · intro h' hh'
        dsimp only at hh'
        by_cases e : h' = h
        · rw [e, upd_same] at hh'
          exact absurd rfl hh'
        · rw [upd_ne _ _ e] at hh'
          obtain ⟨x, hx, e'⟩ := hI.headOnly h' hh'
          refine ⟨x, hmem' x hx ?_, e'⟩
          rintro rfl
          exact e e'.symm
      · intro y hy
        obtain ⟨x, hx, e'⟩ := hI.full y hy
        refine ⟨x, hmem' x hx ?_, e'⟩
        rintro rfl
        have : y ∈ cls k E := mem_cls.2 ⟨hy, e'.symm⟩
        rw [hcls] at this
        cases this
    · intro h' hh'
      dsimp only at hh'
      by_cases e : h' = h
      · rw [e, upd_same] at hh'
        cases hh'
      · rw [upd_ne _ _ e] at hh'
        exact ⟨e, hh'⟩
  · refine ⟨s, F, ?_, .rfl, hI, rfl, fun h' hh' => ⟨?_, hh'⟩⟩
    · unfold dropEmpty
      exact Ev.bind (getH_ev h1) (Ev.ite_neg hf (.pure _ _))
    · rintro rfl
      rw [h1] at hh'
      cases hh'
      exact hf rfl

/-- `node_list_rm`. -/
theorem nodeListRm_ok {n h : Addr} {X Y : List Ent} {m : Ent} {B : Blk} (hI : Ix s F (X ++ m :: Y)) (hx : (n, m.size, h) ∈ F)
    (hB : s.blk m.blk = some B) :
    ∃ s1, Ev (nodeListRm h m.elem) s m.blk s1 ∧ Frame s s1 ∧ Ix s1 F (X ++ Y) ∧ s1.blk = upd s.blk m.blk (some { B with fl := 0 }) ∧
      (∀ h', h' ≠ h → s1.hd h' = s.hd h') := by
  have hx' : (m.size, h) ∈ F.map (·.2) := mem_map2.2 ⟨n, hx⟩
  obtain ⟨f, h1, h2⟩ := hI.heads _ hx'
  dsimp only at h1 h2
  have hnd := cls_nodup (k := m.size) hI.nodup
  rw [cls_append, cls_cons_eq rfl] at h2 hnd
  have hmm : m ∈ X ++ m :: Y := by simp
  have hp0 : 0 ∉ (cls m.size X ++ m :: cls m.size Y).map Ent.elem := by
    intro h'
    obtain ⟨y, hy, e⟩ := List.mem_map.1 h'
    refine (hI.elem ?_).1 e
    rcases List.mem_append.1 hy with hy | hy
    · exact List.mem_append_left _ (mem_cls.1 hy).1
    · rcases List.mem_cons.1 hy with rfl | hy
      · exact hmm
      · exact List.mem_append_right _ (List.mem_cons_of_mem _ (mem_cls.1 hy).1)
  obtain ⟨nd, m1, m2, e1, e2, e3, e4, e5, e6, e7⟩ := h2.remove hnd hp0
  have hcase : nd.prev = 0 ∨ cls m.size X ≠ [] := by
    by_cases hX : cls m.size X = []
    · exact .inl (e4 hX).1
    · exact .inr hX
  obtain ⟨f1, f2, f3⟩ := e7 hcase
  rw [update_eq] at f3
  have hms : ∀ y ∈ X ++ Y, y.elem ≠ m.elem := by
    have hnd := hI.nodup
    rw [List.map_append, List.map_cons, List.nodup_append, List.nodup_cons] at hnd
    intro y hy e
    rcases List.mem_append.1 hy with hy | hy
    · exact hnd.2.2 _ (List.mem_map_of_mem hy) _ List.mem_cons_self e
    · exact hnd.2.1.1 (e ▸ List.mem_map_of_mem hy)
  -- the elements of other sizes
  have hoth : ∀ y ∈ X ++ Y, y.size ≠ m.size → upd m2 m.elem none y.elem = s.elm y.elem := by
    intro y hy hys
    rw [upd_ne _ _ (hms y hy)]
    refine f2 _ fun h' => ?_
    obtain ⟨z, hz, e⟩ := List.mem_map.1 h'
    have hz' : z ∈ X ++ m :: Y ∧ z.size = m.size := by
      rcases List.mem_append.1 hz with hz | hz
      · exact ⟨List.mem_append_left _ (mem_cls.1 hz).1, (mem_cls.1 hz).2⟩
      · rcases List.mem_cons.1 hz with rfl | hz
        · exact ⟨hmm, rfl⟩
        · exact ⟨List.mem_append_right _ (List.mem_cons_of_mem _ (mem_cls.1 hz).1), (mem_cls.1 hz).2⟩
    have hy' : y ∈ X ++ m :: Y := by
      rcases List.mem_append.1 hy with hy | hy
      · exact List.mem_append_left _ hy
      · exact List.mem_append_right _ (List.mem_cons_of_mem _ hy)
    have := List.inj_on_of_nodup_map hI.nodup hz'.1 hy' e
    rw [this] at hz'
    exact hys hz'.2
  have hin : ∀ e, upd m2 m.elem none e ≠ none → s.elm e ≠ none := by
    intro e he
    by_cases hem : e = m.elem
    · rw [hem, upd_same] at he
      exact absurd rfl he
    · rw [upd_ne _ _ hem] at he
      by_cases hec : e ∈ (cls m.size X ++ m :: cls m.size Y).map Ent.elem
      · obtain ⟨y, hy, rfl⟩ := List.mem_map.1 hec
        have hy' : y ∈ X ++ m :: Y := by
          rcases List.mem_append.1 hy with hy | hy
          · exact List.mem_append_left _ (mem_cls.1 hy).1
          · rcases List.mem_cons.1 hy with rfl | hy
            · exact hmm
            · exact List.mem_append_right _ (List.mem_cons_of_mem _ (mem_cls.1 hy).1)
        obtain ⟨-, nd', h', -⟩ := hI.elem hy'
        rw [h']
        nofun
      · rw [f2 e hec] at he
        exact he
  have hm2 : m2 m.elem ≠ none := by
    have hk : ∀ (u : Nat → Option Elem) (p v : Nat) (w : Nat → Option Elem), Coarse.Index.setPrev u p v = some w → ∀ e, u e ≠ none → w e ≠ none := by
      intro u p v w hw e he
      unfold Coarse.Index.setPrev at hw
      split at hw
      · cases hw; exact he
      · split at hw
        · cases hw
        · cases hw
          rw [update_eq]
          by_cases hep : e = p
          · rw [hep, upd_same]; nofun
          · rw [upd_ne _ _ hep]; exact he
    have hk' : ∀ (u : Nat → Option Elem) (p v : Nat) (w : Nat → Option Elem), Coarse.Index.setNext u p v = some w → ∀ e, u e ≠ none → w e ≠ none := by
      intro u p v w hw e he
      unfold Coarse.Index.setNext at hw
      split at hw
      · cases hw; exact he
      · split at hw
        · cases hw
        · cases hw
          rw [update_eq]
          by_cases hep : e = p
          · rw [hep, upd_same]; nofun
          · rw [upd_ne _ _ hep]; exact he
    exact hk' _ _ _ _ f1 _ (hk _ _ _ _ e6 _ (by rw [e1]; nofun))
  obtain ⟨nd2, hnd2⟩ := Option.ne_none_iff_exists'.1 hm2
  have hcls : cls m.size (X ++ Y) = cls m.size X ++ cls m.size Y := cls_append _ _ _
  by_cases hX : cls m.size X = []
  · rw [if_pos hX] at f3
    have hfe := (e4 hX).2
    refine ⟨{ s with
      hd := upd s.hd h (some nd.next)
      elm := upd m2 m.elem none
      blk := upd s.blk m.blk (some { B with fl := 0 }) }, ?_, ⟨rfl, fun _ h => h, fun h => h, rfl, rfl⟩, ?_, rfl, fun h' hh => upd_ne _ _ hh⟩
    · unfold nodeListRm unhead
      refine Ev.bind (getH_ev h1) (Ev.bind (getE_ev e3 e1) (Ev.bind (Ev.ite_pos hfe.symm (setH_ev _ h1)) (Ev.bind (setPrev_ev e6) (Ev.bind (setNext_ev f1) ?_))))
      rw [e2]
      exact Ev.bind (modB_ev _ hB) (Ev.bind (freeE_ev hnd2) (.pure _ _))
    · exact unlink_ix hI hx hB rfl (upd_same _ _ _) (fun h' hh => upd_ne _ _ hh) hoth (upd_same _ _ _) hin (by rw [hcls]; exact f3) rfl
  · rw [if_neg hX] at f3
    have hfe := (e5 hX).2
    refine ⟨{ s with
      elm := upd m2 m.elem none
      blk := upd s.blk m.blk (some { B with fl := 0 }) }, ?_, ⟨rfl, fun _ h => h, fun h => h, rfl, rfl⟩, ?_, rfl, fun h' hh => rfl⟩
    · unfold nodeListRm unhead
      refine Ev.bind (getH_ev h1) (Ev.bind (getE_ev e3 e1) (Ev.bind (Ev.ite_neg (fun e => hfe e.symm) (.pure _ _)) (Ev.bind (setPrev_ev e6) (Ev.bind (setNext_ev f1) ?_))))
      rw [e2]
      exact Ev.bind (modB_ev _ hB) (Ev.bind (freeE_ev hnd2) (.pure _ _))
    · exact unlink_ix hI hx hB rfl h1 (fun h' hh => rfl) hoth (upd_same _ _ _) hin (by rw [hcls]; exact f3) rfl

/-- `free_blocks_rm_node`, for the element of an entry. -/
theorem rmNode_ok {m : Ent} {B : Blk} (hI : Ix s F E) (hm : m ∈ E) (hB : s.blk m.blk = some B) :
    ∃ s' F' X Y, E = X ++ m :: Y ∧ Ev (rmNode m.elem) s m.blk s' ∧ Frame s s' ∧ Ix s' F' (X ++ Y) ∧ s'.blk = upd s.blk m.blk (some { B with fl := 0 }) ∧
      (∀ h, s'.hd h = some 0 → s.hd h = some 0) := by
  obtain ⟨C, c1, c2, c3⟩ := hI.ent m hm
  rw [hB] at c1
  cases c1
  obtain ⟨h0, nd, h1, h2⟩ := hI.elem hm
  rcases findEq_ev hI.fre B.size with ⟨-, hno⟩ | ⟨n, h, hx, hn, hev⟩
  · obtain ⟨x, hx, e⟩ := hI.full m hm
    obtain ⟨n, hx⟩ := mem_map2.1 hx
    exact absurd (e.trans c3.symm) (hno _ hx)
  · obtain ⟨X, Y, rfl⟩ := List.append_of_mem hm
    rw [c3] at hx
    obtain ⟨s1, g1, g2, g3, g4, g5⟩ := nodeListRm_ok hI hx hB
    obtain ⟨s2, F', k1, k2, k3, k4, k5⟩ := dropEmpty_ok g3 hx
    refine ⟨s2, F', X, Y, rfl, ?_, g2.trans k2, k3, k4.trans g4, fun h' hh => ?_⟩
    · unfold rmNode
      refine Ev.bind (getE_ev h0 h1) ?_
      rw [h2]
      refine Ev.bind (getB_ev hB) (Ev.bind hev ?_)
      exact Ev.bind (dataOf_ev hI.fre hx) (Ev.bind g1 (Ev.bind k1 (.pure _ _)))
    · obtain ⟨a1, a2⟩ := k5 h' hh
      rw [← g5 h' a1]
      exact a2

theorem bind_some {α β : Type} {m : M α} {f : α → M β} {n : Nat} {s s' : St} {a : α} (h : m n s = some (a, s')) : (m >>= f) n s = f a n s' := by
  show (match m n s with | none => none | some (a, s) => f a n s) = _
  rw [h]

theorem bind_none {α β : Type} {m : M α} {f : α → M β} {n : Nat} {s : St} (h : m n s = none) : (m >>= f) n s = none := by
  show (match m n s with | none => none | some (a, s) => f a n s) = _
  rw [h]

/-- The first entry whose block is aligned. -/
def pick (s : St) (a : Nat) (l : List Ent) : Option Ent := l.find? fun y => aligned (dataAt s y.blk) a

theorem dataAt_eq {b : Addr} {B : Blk} (h : s.blk b = some B) : dataAt s b = B.data := by
  unfold dataAt
  rw [h]
  rfl

/-- The walk through a list: the first element of a block that is aligned, if any. -/
theorem walk_ok {a : Nat} {l : List Ent} (hb : ∀ y ∈ l, ∃ B, s.blk y.blk = some B) : ∀ {cur prev : Nat}, Chain s.elm cur prev l →
    ∃ r, (r = 0 ∧ pick s a l = none ∨ ∃ y ∈ l, r = y.elem ∧ pick s a l = some y) ∧ ∀ n k, l.length < n → walk a n cur k s = some (r, s) := by
  induction l with
  | nil =>
    intro cur prev h
    have h : cur = 0 := h
    subst h
    refine ⟨0, .inl ⟨rfl, rfl⟩, fun n k hn => ?_⟩
    obtain ⟨n, rfl⟩ : ∃ i, n = i + 1 := ⟨n - 1, by simp at hn; omega⟩
    rfl
  | cons y l ih =>
    rintro cur prev ⟨h1, h2, nx, h3, h4⟩
    obtain ⟨B, hB⟩ := hb y (by simp)
    subst h1
    have he : ∀ n k, walk a (n + 1) y.elem k s = (if aligned B.data a = true then (pure y.elem : M Addr) else walk a n nx) k s := by
      intro n k
      rw [walk, if_neg h2]
      rw [bind_some (a := ⟨y.blk, nx, prev⟩) (s' := s) (by unfold getE; rw [if_neg h2, h3]; rfl)]
      dsimp only
      rw [bind_some (a := B) (s' := s) (by unfold getB; rw [hB]; rfl)]
    by_cases ha : aligned B.data a = true
    · refine ⟨y.elem, .inr ⟨y, by simp, rfl, ?_⟩, fun n k hn => ?_⟩
      · unfold pick
        rw [List.find?_cons_of_pos (by rw [dataAt_eq hB]; exact ha)]
      obtain ⟨n, rfl⟩ : ∃ i, n = i + 1 := ⟨n - 1, by simp at hn; omega⟩
      rw [he, if_pos ha]
      rfl
    · obtain ⟨r, hr, hr'⟩ := ih (fun z hz => hb z (by simp [hz])) h4
      have hp : pick s a (y :: l) = pick s a l := by
        unfold pick
        rw [List.find?_cons_of_neg (by rw [dataAt_eq hB]; exact ha)]
      refine ⟨r, ?_, fun n k hn => ?_⟩
      · rw [hp]
        rcases hr with hr | ⟨z, hz, hr⟩
        · exact .inl hr
        · exact .inr ⟨z, by simp [hz], hr⟩
      · obtain ⟨n, rfl⟩ : ∃ i, n = i + 1 := ⟨n - 1, by simp at hn; omega⟩
        rw [he, if_neg ha]
        exact hr' n k (by simp at hn; omega)

theorem chain_nonempty {f k : Addr} (h : Chain s.elm f 0 (cls k E)) (hf : f ≠ 0) : ∃ y l, cls k E = y :: l ∧ y.elem = f := by
  cases hc : cls k E with
  | nil =>
    rw [hc] at h
    exact absurd h hf
  | cons y l =>
    rw [hc] at h
    exact ⟨y, l, rfl, h.1.symm⟩

/-- Which entry of a list is taken. -/
def takes (s : St) (c : Check) (a : Nat) (l : List Ent) (r : Option Ent) : Prop :=
  match c with
  | .first => (match l.head? with | none => none | some y => if aligned (dataAt s y.blk) a = true then some y else none) = r
  | .allOfSize => pick s a l = r

/-- `node_list_rm_first` on a list that is not empty. -/
theorem nodeListRmFirst_ok {n k h a : Addr} (hI : Ix s F E) (hx : (n, k, h) ∈ F) (hne : s.hd h ≠ some 0) :
    (Ev (nodeListRmFirst h a) s 0 s ∧ takes s .first a (cls k E) none) ∨ ∃ s1 X m Y B, E = X ++ m :: Y ∧ takes s .first a (cls k E) (some m) ∧ s.blk m.blk = some B ∧ Ev (nodeListRmFirst h a) s m.blk s1 ∧ Frame s s1 ∧
      Ix s1 F (X ++ Y) ∧ s1.blk = upd s.blk m.blk (some { B with fl := 0 }) ∧ (∀ h', h' ≠ h → s1.hd h' = s.hd h') ∧ B.fl ≠ 0 := by
  have hx' : (k, h) ∈ F.map (·.2) := mem_map2.2 ⟨n, hx⟩
  obtain ⟨f, h1, h2⟩ := hI.heads _ hx'
  dsimp only at h1 h2
  have hf : f ≠ 0 := fun e => hne (by rw [h1, e])
  obtain ⟨m, l, hc, rfl⟩ := chain_nonempty h2 hf
  have hm : m ∈ E ∧ m.size = k := mem_cls.1 (by rw [hc]; simp)
  obtain ⟨hm, rfl⟩ := hm
  obtain ⟨B, b1, b2, b3⟩ := hI.ent m hm
  rw [hc] at h2
  obtain ⟨-, -, nx, c1, c2⟩ := h2
  by_cases ha : aligned B.data a = true
  · right
    have ht : takes s .first a (cls m.size E) (some m) := by
      unfold takes
      rw [hc]
      dsimp only [List.head?_cons]
      rw [dataAt_eq b1, if_pos ha]
    clear hc
    obtain ⟨X, Y, rfl⟩ := List.append_of_mem hm
    obtain ⟨s1, g1, g2, g3, g4, g5⟩ := nodeListRm_ok hI hx b1
    refine ⟨s1, X, m, Y, B, rfl, ht, b1, ?_, g2, g3, g4, g5, by rw [b2]; exact hf⟩
    obtain ⟨N, hN⟩ := g1
    refine ⟨N, fun i hi => ?_⟩
    have g := hN i hi
    unfold nodeListRm unhead at g
    unfold nodeListRmFirst
    rw [bind_some (a := m.elem) (s' := s) (by unfold getH; rw [h1]; rfl)] at g ⊢
    rw [bind_some (a := ⟨m.blk, nx, 0⟩) (s' := s) (by unfold getE; rw [if_neg hf, c1]; rfl)] at g ⊢
    dsimp only at g ⊢
    rw [bind_some (a := B) (s' := s) (by unfold getB; rw [b1]; rfl)]
    rw [if_pos ha]
    rw [if_pos rfl] at g
    rw [bind_some (a := ()) (s' := { s with
      hd := upd s.hd h (some nx) }) (by unfold setH; rw [h1]; rfl)] at g
    cases hp : Coarse.Index.setPrev s.elm nx 0 with
    | none =>
      have : (setPrev nx 0 : M Unit) i { s with
        hd := upd s.hd h (some nx) } = none := by
        unfold setPrev
        dsimp only
        rw [hp]
        rfl
      rw [bind_none this] at g
      cases g
    | some w =>
      rw [bind_some (a := ()) (s' := { s with
        hd := upd s.hd h (some nx)
        elm := w }) (by unfold setPrev; dsimp only; rw [hp]; rfl)] at g
      rw [bind_some (a := ()) (s' := { s with
        elm := w }) (by unfold setPrev; rw [hp]; rfl)]
      rw [bind_some (a := ()) (s' := { s with
        hd := upd s.hd h (some nx)
        elm := w }) (by unfold setH; dsimp only; rw [h1]; rfl)]
      rw [bind_some (a := ()) (s' := { s with
        hd := upd s.hd h (some nx)
        elm := w }) (by unfold setNext Coarse.Index.setNext; dsimp only; rw [if_pos rfl]; rfl)] at g
      exact g
  · left
    refine ⟨?_, ?_⟩
    rotate_left
    · unfold takes
      rw [hc]
      dsimp only [List.head?_cons]
      rw [dataAt_eq b1, if_neg ha]
    unfold nodeListRmFirst
    exact Ev.bind (getH_ev h1) (Ev.bind (getE_ev hf c1) (Ev.bind (getB_ev b1) (Ev.ite_neg ha (.pure _ _))))

/-- `node_list_rm_with_alignment`. -/
theorem nodeListRmAligned_ok {n k h a : Addr} (hI : Ix s F E) (hx : (n, k, h) ∈ F) :
    (Ev (nodeListRmAligned h a) s 0 s ∧ takes s .allOfSize a (cls k E) none) ∨ ∃ s1 X m Y B, E = X ++ m :: Y ∧ takes s .allOfSize a (cls k E) (some m) ∧ s.blk m.blk = some B ∧ Ev (nodeListRmAligned h a) s m.blk s1 ∧ Frame s s1 ∧
      Ix s1 F (X ++ Y) ∧ s1.blk = upd s.blk m.blk (some { B with fl := 0 }) ∧ (∀ h', h' ≠ h → s1.hd h' = s.hd h') ∧ B.fl ≠ 0 := by
  have hx' : (k, h) ∈ F.map (·.2) := mem_map2.2 ⟨n, hx⟩
  obtain ⟨f, h1, h2⟩ := hI.heads _ hx'
  dsimp only at h1 h2
  obtain ⟨r, hr, hw⟩ := walk_ok (a := a) (fun y hy => (hI.ent y (mem_cls.1 hy).1).imp fun B h => h.1) h2
  have hev : Ev (walkAll a f) s r s := ⟨(cls k E).length + 1, fun i hi => hw i i hi⟩
  rcases hr with ⟨rfl, ht⟩ | ⟨m, hm, rfl, ht⟩
  · left
    refine ⟨?_, ht⟩
    unfold nodeListRmAligned
    exact Ev.bind (getH_ev h1) (Ev.bind hev (Ev.ite_pos rfl (.pure _ _)))
  · right
    obtain ⟨hmE, e⟩ := mem_cls.1 hm
    subst e
    obtain ⟨B, b1, b2, b3⟩ := hI.ent m hmE
    have hf := (hI.elem hmE).1
    clear hm
    obtain ⟨X, Y, rfl⟩ := List.append_of_mem hmE
    obtain ⟨s1, g1, g2, g3, g4, g5⟩ := nodeListRm_ok hI hx b1
    refine ⟨s1, X, m, Y, B, rfl, ht, b1, ?_, g2, g3, g4, g5, by rw [b2]; exact hf⟩
    unfold nodeListRmAligned
    exact Ev.bind (getH_ev h1) (Ev.bind hev (Ev.ite_neg hf g1))

theorem absF_filter (k : Nat) : (absF s E).filter (fun e => e.1 == k) = absF s (cls k E) := by
  unfold absF cls
  rw [List.filter_map]
  rfl

/-- The abstract search, when the class found is known. -/
theorem rmGe_abs {size a k : Nat} {c : Check} {r : Option Ent} (h1 : size ≤ k) (h2 : ∀ n ∈ E, size ≤ n.size → k ≤ n.size) (h3 : cls k E ≠ [])
    (h4 : takes s c a (cls k E) r) : Coarse.rmGe size a c (absF s E) = r.map fun n => (n.size, dataAt s n.blk) := by
  have hk : Coarse.minGe size (absF s E) = some k := by
    unfold Coarse.minGe
    rw [List.min?_eq_some_iff]
    constructor
    · obtain ⟨n, hn⟩ := List.exists_mem_of_ne_nil _ h3
      obtain ⟨hn, e⟩ := mem_cls.1 hn
      rw [List.mem_filter, List.mem_map]
      exact ⟨⟨(n.size, dataAt s n.blk), List.mem_map.2 ⟨n, hn, rfl⟩, e⟩, by simpa using h1⟩
    · intro b hb
      rw [List.mem_filter, List.mem_map] at hb
      obtain ⟨⟨x, hx, rfl⟩, hb⟩ := hb
      obtain ⟨n, hn, rfl⟩ := List.mem_map.1 hx
      exact h2 n hn (by simpa using hb)
  unfold Coarse.rmGe
  rw [hk]
  dsimp only
  rw [absF_filter]
  cases c with
  | first =>
    unfold takes at h4
    dsimp only at h4 ⊢
    rw [← h4]
    unfold absF
    cases cls k E with
    | nil => rfl
    | cons y l =>
      show (if aligned (dataAt s y.blk) a = true then some (y.size, dataAt s y.blk) else none) =
        Option.map (fun n : Ent => (n.size, dataAt s n.blk)) (if aligned (dataAt s y.blk) a = true then some y else none)
      split <;> rfl
  | allOfSize =>
    unfold takes pick at h4
    dsimp only at h4 ⊢
    rw [← h4]
    unfold absF
    rw [List.find?_map]
    rfl

/-- `free_blocks_rm_ge`. It may read a `NULL` element when there is an empty list. -/
theorem rmGe_ok {size a : Nat} {c : Check} (hI : Ix s F E) :
    (¬ NoEmpty s ∧ EvN (rmGe size a c) s) ∨ ∃ r s' F' E', Ev (rmGe size a c) s r s' ∧ Frame s s' ∧ Ix s' F' E' ∧ (NoEmpty s → NoEmpty s') ∧
      (r = 0 ∧ s'.blk = s.blk ∧ E' = E ∧ (NoEmpty s → Coarse.rmGe size a c (absF s E) = none) ∨
        ∃ X m Y B, E = X ++ m :: Y ∧ E' = X ++ Y ∧ r = m.blk ∧ s.blk r = some B ∧ B.fl ≠ 0 ∧ s'.blk = upd s.blk r (some { B with fl := 0 }) ∧
          (NoEmpty s → Coarse.rmGe size a c (absF s E) = some (B.size, B.data))) := by
  rcases findGe_ev hI.fre size with ⟨hev, hlt⟩ | ⟨n, k, h, hx, hn, hk1, hk2, hev⟩
  · refine .inr ⟨0, s, F, E, by unfold rmGe; exact Ev.bind hev (Ev.ite_pos rfl (.pure _ _)), .rfl, hI, fun hN => hN, .inl ⟨rfl, rfl, rfl, fun _ => ?_⟩⟩
    have : Coarse.minGe size (absF s E) = none := by
      unfold Coarse.minGe
      rw [List.min?_eq_none_iff, List.filter_eq_nil_iff]
      intro x hx
      obtain ⟨y, hy, rfl⟩ := List.mem_map.1 hx
      obtain ⟨m, hm, rfl⟩ := List.mem_map.1 hy
      obtain ⟨z, hz, e⟩ := hI.full m hm
      obtain ⟨w, hw, rfl⟩ := List.mem_map.1 hz
      have h1 : w.2.1 < size := hlt w hw
      have h2 : w.2.1 = m.size := e
      show ¬ decide (size ≤ m.size) = true
      simp
      omega
    unfold Coarse.rmGe
    rw [this]
  · have hd := dataOf_ev hI.fre hx
    have habs : ∀ r, NoEmpty s → takes s c a (cls k E) r → Coarse.rmGe size a c (absF s E) = r.map fun n => (n.size, dataAt s n.blk) := by
      intro r hN ht
      refine rmGe_abs hk1 (fun m hm hs => ?_) ?_ ht
      · obtain ⟨z, hz, e⟩ := hI.full m hm
        obtain ⟨w, hw, rfl⟩ := List.mem_map.1 hz
        have h1 := hk2 w hw (by rw [e]; exact hs)
        rw [e] at h1
        exact h1
      · obtain ⟨f, f1, f2⟩ := hI.heads (k, h) (mem_map2.2 ⟨n, hx⟩)
        have hf : f ≠ 0 := fun e => hN h (by rw [f1, e])
        obtain ⟨y, l, e, -⟩ := chain_nonempty f2 hf
        rw [e]
        nofun
    have hm : ∀ (mm : M Addr), ((Ev mm s 0 s ∧ takes s c a (cls k E) none) ∨ ∃ s1 X m Y B, E = X ++ m :: Y ∧ takes s c a (cls k E) (some m) ∧ s.blk m.blk = some B ∧ Ev mm s m.blk s1 ∧ Frame s s1 ∧
        Ix s1 F (X ++ Y) ∧ s1.blk = upd s.blk m.blk (some { B with fl := 0 }) ∧ (∀ h', h' ≠ h → s1.hd h' = s.hd h') ∧ B.fl ≠ 0) →
        ∃ r s' F' E', Ev (mm >>= fun b => dropEmpty n h >>= fun _ => pure b) s r s' ∧ Frame s s' ∧ Ix s' F' E' ∧ (NoEmpty s → NoEmpty s') ∧
      (r = 0 ∧ s'.blk = s.blk ∧ E' = E ∧ (NoEmpty s → Coarse.rmGe size a c (absF s E) = none) ∨
        ∃ X m Y B, E = X ++ m :: Y ∧ E' = X ++ Y ∧ r = m.blk ∧ s.blk r = some B ∧ B.fl ≠ 0 ∧ s'.blk = upd s.blk r (some { B with fl := 0 }) ∧
          (NoEmpty s → Coarse.rmGe size a c (absF s E) = some (B.size, B.data))) := by
      intro mm hmm
      rcases hmm with ⟨h1, ht⟩ | ⟨s1, X, m, Y, B, hE, ht, b1, g1, g2, g3, g4, g5, g6⟩
      · obtain ⟨s2, F', k1, k2, k3, k4, k5⟩ := dropEmpty_ok hI hx
        exact ⟨0, s2, F', E, Ev.bind h1 (Ev.bind k1 (.pure _ _)), k2, k3, fun hN h' hh => hN h' (k5 h' hh).2, .inl ⟨rfl, k4, rfl, fun hN => habs _ hN ht⟩⟩
      · obtain ⟨s2, F', k1, k2, k3, k4, k5⟩ := dropEmpty_ok g3 hx
        refine ⟨m.blk, s2, F', X ++ Y, Ev.bind g1 (Ev.bind k1 (.pure _ _)), g2.trans k2, k3, fun hN h' hh => ?_,
          .inr ⟨X, m, Y, B, hE, rfl, rfl, b1, g6, k4.trans g4, fun hN => ?_⟩⟩
        · obtain ⟨a1, a2⟩ := k5 h' hh
          rw [g5 h' a1] at a2
          exact hN h' a2
        · obtain ⟨C, c1, -, c3⟩ := hI.ent m (by rw [hE]; simp)
          rw [b1] at c1
          cases c1
          have := habs _ hN ht
          rw [Option.map_some, dataAt_eq b1, ← c3] at this
          exact this
    have key : (¬ NoEmpty s ∧ EvN (takeFrom c h a) s) ∨ ∃ r s' F' E', Ev (takeFrom c h a >>= fun b => dropEmpty n h >>= fun _ => pure b) s r s' ∧ Frame s s' ∧ Ix s' F' E' ∧ (NoEmpty s → NoEmpty s') ∧
      (r = 0 ∧ s'.blk = s.blk ∧ E' = E ∧ (NoEmpty s → Coarse.rmGe size a c (absF s E) = none) ∨
        ∃ X m Y B, E = X ++ m :: Y ∧ E' = X ++ Y ∧ r = m.blk ∧ s.blk r = some B ∧ B.fl ≠ 0 ∧ s'.blk = upd s.blk r (some { B with fl := 0 }) ∧
          (NoEmpty s → Coarse.rmGe size a c (absF s E) = some (B.size, B.data))) := by
      cases c
      · by_cases hh : s.hd h = some 0
        · refine .inl ⟨fun hN => hN h hh, ?_⟩
          show EvN (nodeListRmFirst h a) s
          unfold nodeListRmFirst
          exact Ev.bindN (getH_ev hh) (EvN.bind ⟨0, fun _ _ => rfl⟩)
        · exact .inr (hm _ (nodeListRmFirst_ok hI hx hh))
      · exact .inr (hm _ (nodeListRmAligned_ok hI hx))
    rcases key with ⟨k1, k2⟩ | ⟨r, s', F', E', k1, k2⟩
    · refine .inl ⟨k1, ?_⟩
      unfold rmGe
      exact Ev.bindN hev (EvN.ite_neg hn (Ev.bindN hd k2.bind))
    · refine .inr ⟨r, s', F', E', ?_, k2⟩
      unfold rmGe
      exact Ev.bind hev (Ev.ite_neg hn (Ev.bind hd k1))

end Verif.CoarseMem
