import Verif.CoarseMem.Base
import Verif.Coarse.IndexLemmas
/-!
# Lemmas for the coarse allocator, pointer by pointer: the tree of lists of free blocks
-/
namespace Verif.CoarseMem
open Verif.Coarse (Res Check aligned)
open Verif.Coarse.Index (Elem Ent cls Chain cls_cons_eq cls_cons_ne cls_append mem_cls cls_nodup)
open Verif.Ravl (Slot Pred)

theorem update_eq {β : Type} (f : Addr → β) (a : Addr) (x : β) : Function.update f a x = upd f a x := by
  funext b
  by_cases h : b = a
  · rw [h, upd_same, Function.update_self]
  · rw [upd_ne _ _ h, Function.update_of_ne h]

/-- The lists of free blocks: `F` is what the tree holds (nodes with size and head), `E` the entries (size, element, descriptor). -/
structure Ix (s : St) (F : List (Addr × Nat × Addr)) (E : List Ent) : Prop where
  fre : Holds s .fre F
  heads : ∀ x ∈ F.map (·.2), ∃ f, s.hd x.2 = some f ∧ Chain s.elm f 0 (cls x.1 E)
  headOnly : ∀ h, s.hd h ≠ none → ∃ x ∈ F.map (·.2), x.2 = h
  headInj : ∀ x ∈ F.map (·.2), ∀ y ∈ F.map (·.2), x.2 = y.2 → x = y
  full : ∀ n ∈ E, ∃ x ∈ F.map (·.2), x.1 = n.size
  nodup : (E.map Ent.elem).Nodup
  elemOnly : ∀ e, s.elm e ≠ none → e ∈ E.map Ent.elem
  ent : ∀ n ∈ E, ∃ B, s.blk n.blk = some B ∧ B.fl = n.elem ∧ B.size = n.size
  fl : ∀ b B, s.blk b = some B → B.fl ≠ 0 → ∃ n ∈ E, n.blk = b

/-- The address of the memory of a block. -/
def dataAt (s : St) (b : Addr) : Nat := ((s.blk b).map Blk.data).getD 0

/-- The entries as pairs of size and address. -/
def absF (s : St) (E : List Ent) : List (Nat × Nat) := E.map fun n => (n.size, dataAt s n.blk)

/-- What the code for the lists does not touch, and how the base allocator is asked. -/
structure Frame (s s' : St) : Prop where
  all : s'.tree .all = s.tree .all
  host : ∀ x ∈ s'.host, x ∈ s.host
  ref : s'.refused = false → s.refused = false
  sizes : s'.usedSize = s.usedSize ∧ s'.allocSize = s.allocSize

theorem Frame.rfl {s : St} : Frame s s := ⟨Eq.refl _, fun _ h => h, fun h => h, Eq.refl _, Eq.refl _⟩
theorem Frame.trans {s s1 s2 : St} (h : Frame s s1) (h' : Frame s1 s2) : Frame s s2 :=
  ⟨h'.all.trans h.all, fun x hx => h.host x (h'.host x hx), fun e => h.ref (h'.ref e), h'.sizes.1.trans h.sizes.1, h'.sizes.2.trans h.sizes.2⟩

variable {s : St} {F : List (Addr × Nat × Addr)} {E : List Ent}

theorem mem_map2 {L : List (Addr × Nat × Addr)} {x : Nat × Addr} : x ∈ L.map (·.2) ↔ ∃ n, (n, x) ∈ L := by
  simp

theorem Ix.keyInj (h : Ix s F E) {x y : Nat × Addr} (hx : x ∈ F.map (·.2)) (hy : y ∈ F.map (·.2)) (e : x.1 = y.1) : x = y := by
  obtain ⟨n, hx⟩ := mem_map2.1 hx
  obtain ⟨m, hy⟩ := mem_map2.1 hy
  exact congrArg Prod.snd (holds_uniq h.fre hx hy e)

theorem Ix.elem (h : Ix s F E) {n : Ent} (hn : n ∈ E) : n.elem ≠ 0 ∧ ∃ nd, s.elm n.elem = some nd ∧ nd.blk = n.blk := by
  obtain ⟨x, hx, he⟩ := h.full n hn
  obtain ⟨f, -, hc⟩ := h.heads x hx
  have hm : n ∈ cls x.1 E := mem_cls.2 ⟨hn, he.symm⟩
  generalize cls x.1 E = l at hc hm
  have hz : ∀ {f p : Nat} {l : List Ent}, Chain s.elm f p l → n ∈ l → n.elem ≠ 0 ∧ ∃ nd, s.elm n.elem = some nd ∧ nd.blk = n.blk := by
    intro f p l
    induction l generalizing f p with
    | nil => intro _ h; cases h
    | cons a l ih =>
      rintro ⟨h1, h2, nx, h3, h4⟩ hm
      rcases List.mem_cons.1 hm with rfl | hm
      · exact ⟨h2, _, h3, Eq.refl _⟩
      · exact ih h4 hm
  exact hz hc hm

theorem Ix.inj (h : Ix s F E) {n m : Ent} (hn : n ∈ E) (hm : m ∈ E) (e : n.blk = m.blk) : n = m := by
  obtain ⟨B, h1, h2, -⟩ := h.ent n hn
  obtain ⟨C, g1, g2, -⟩ := h.ent m hm
  rw [e, g1] at h1
  cases h1
  exact List.inj_on_of_nodup_map h.nodup hn hm (h2.symm.trans g2)

/-- The parts of the state the lists are made of. -/
theorem Ix.congr {s' : St} (h : Ix s F E) (h1 : s'.tree .fre = s.tree .fre) (h2 : s'.hd = s.hd) (h3 : s'.elm = s.elm)
    (h4 : ∀ n ∈ E, ∀ B, s.blk n.blk = some B → ∃ C, s'.blk n.blk = some C ∧ C.fl = B.fl ∧ C.size = B.size)
    (h5 : ∀ b C, s'.blk b = some C → C.fl ≠ 0 → ∃ B, s.blk b = some B ∧ B.fl ≠ 0) : Ix s' F E := by
  refine ⟨?_, ?_, ?_, h.headInj, h.full, h.nodup, ?_, ?_, ?_⟩
  · show RavlMem.Inv _ (s'.tree .fre) F
    rw [h1]
    exact h.fre
  · rw [h2, h3]
    exact h.heads
  · rw [h2]
    exact h.headOnly
  · rw [h3]
    exact h.elemOnly
  · intro n hn
    obtain ⟨B, e1, e2, e3⟩ := h.ent n hn
    obtain ⟨C, g1, g2, g3⟩ := h4 n hn B e1
    exact ⟨C, g1, g2.trans e2, g3.trans e3⟩
  · intro b C hb hC
    obtain ⟨B, e1, e2⟩ := h5 b C hb hC
    exact h.fl b B e1 e2

/-- A new element at the head of its list. -/
theorem push_ok {s : St} {n k h b e : Addr} {B : Blk} (hI : Ix s F E) (hx : (n, k, h) ∈ F) (hb : s.blk b = some B) (hk : B.size = k) (hfl : B.fl = 0)
    (he : e ≠ 0) (hf : s.elm e = none) :
    ∃ f m, s.hd h = some f ∧ Coarse.Index.setPrev s.elm f e = some m ∧
      Ix { s with elm := upd m e (some ⟨b, f, 0⟩)
                  hd := upd s.hd h (some e)
                  blk := upd s.blk b (some { B with fl := e }) } F (⟨k, e, b⟩ :: E) := by
  have hx' : (k, h) ∈ F.map (·.2) := mem_map2.2 ⟨n, hx⟩
  obtain ⟨f, h1, h2⟩ := hI.heads _ hx'
  have hne : e ∉ E.map Ent.elem := by
    intro h'
    obtain ⟨y, hy, rfl⟩ := List.mem_map.1 h'
    obtain ⟨-, nd, h3, -⟩ := hI.elem hy
    rw [hf] at h3
    cases h3
  have hbE : ∀ y ∈ E, y.blk ≠ b := by
    intro y hy e'
    obtain ⟨C, c1, c2, -⟩ := hI.ent y hy
    rw [e', hb] at c1
    cases c1
    exact (hI.elem hy).1 (c2.symm.trans hfl)
  obtain ⟨m, g1, g2, g3⟩ := h2.relink (v := e) (cls_nodup hI.nodup)
  refine ⟨f, m, h1, g1, hI.fre, ?_, ?_, hI.headInj, ?_, ?_, ?_, ?_, ?_⟩
  · intro x hxx
    by_cases hxk : x.1 = k
    · have : x = (k, h) := hI.keyInj hxx hx' hxk
      subst this
      refine ⟨e, upd_same _ _ _, ?_⟩
      dsimp only
      rw [cls_cons_eq (k := k) (n := ⟨k, e, b⟩) rfl]
      refine ⟨rfl, he, f, upd_same _ _ _, g2.frame fun y hy => upd_ne _ _ ?_⟩
      rintro rfl
      exact hne (List.mem_map_of_mem (mem_cls.1 hy).1)
    · obtain ⟨f', j1, j2⟩ := hI.heads x hxx
      have hxh : x.2 ≠ h := fun e' => hxk (congrArg Prod.fst (hI.headInj x hxx _ hx' e'))
      refine ⟨f', (upd_ne _ _ hxh).trans j1, ?_⟩
      dsimp only
      rw [cls_cons_ne (fun e' => hxk e'.symm)]
      refine j2.frame fun y hy => ?_
      have hyE := (mem_cls.1 hy).1
      rw [upd_ne _ _ (fun e' => hne (by rw [← e']; exact List.mem_map_of_mem hyE))]
      refine g3 _ fun hin => ?_
      obtain ⟨z, hz, e'⟩ := List.mem_map.1 hin
      have := List.inj_on_of_nodup_map hI.nodup (mem_cls.1 hz).1 hyE e'
      rw [this] at hz
      exact hxk ((mem_cls.1 hy).2.symm.trans (mem_cls.1 hz).2)
  · intro h' hh
    by_cases hhh : h' = h
    · exact ⟨_, hx', hhh.symm⟩
    · dsimp only at hh
      rw [upd_ne _ _ hhh] at hh
      exact hI.headOnly h' hh
  · intro y hy
    rcases List.mem_cons.1 hy with rfl | hy
    · exact ⟨_, hx', rfl⟩
    · exact hI.full y hy
  · rw [List.map_cons, List.nodup_cons]
    exact ⟨hne, hI.nodup⟩
  · intro e' he'
    dsimp only at he'
    rw [List.map_cons, List.mem_cons]
    by_cases hee : e' = e
    · exact .inl hee
    · refine .inr ?_
      rw [upd_ne _ _ hee] at he'
      by_cases hc : e' ∈ (cls k E).map Ent.elem
      · obtain ⟨y, hy, rfl⟩ := List.mem_map.1 hc
        exact List.mem_map_of_mem (mem_cls.1 hy).1
      · rw [g3 _ hc] at he'
        exact hI.elemOnly e' he'
  · intro y hy
    rcases List.mem_cons.1 hy with rfl | hy
    · exact ⟨_, upd_same _ _ _, rfl, hk⟩
    · obtain ⟨C, c1, c2⟩ := hI.ent y hy
      exact ⟨C, (upd_ne _ _ (hbE y hy)).trans c1, c2⟩
  · intro b' C hb' hC
    dsimp only at hb'
    by_cases hbb : b' = b
    · exact ⟨_, List.mem_cons_self, hbb.symm⟩
    · rw [upd_ne _ _ hbb] at hb'
      obtain ⟨y, hy, e'⟩ := hI.fl b' C hb' hC
      exact ⟨y, List.mem_cons_of_mem _ hy, e'⟩

theorem upd_id {β : Type} {f : Addr → β} {a : Addr} {x : β} (h : f a = x) : upd f a x = f := by
  funext b
  by_cases hb : b = a
  · rw [hb, upd_same, h]
  · rw [upd_ne _ _ hb]

theorem tail_sub {α : Type} {l : List α} : ∀ x ∈ l.tail, x ∈ l := fun _ hx => List.mem_of_mem_tail hx

/-- `addTo`: the block is entered in the list, or there is no memory. -/
theorem addTo_ok {n k h b : Addr} {B : Blk} (hI : Ix s F E) (hx : (n, k, h) ∈ F) (hb : s.blk b = some B) (hk : B.size = k) (hfl : B.fl = 0) :
    (∃ e s', e ≠ 0 ∧ Ev (addTo h b) s true s' ∧ Frame s s' ∧ Ix s' F (⟨k, e, b⟩ :: E) ∧ s'.blk = upd s.blk b (some { B with fl := e }) ∧
      s'.hd = upd s.hd h (some e) ∧ s'.refused = s.refused) ∨
    (∃ s', Ev (addTo h b) s false s' ∧ Frame s s' ∧ Ix s' F E ∧ s'.blk = s.blk ∧ s'.hd = s.hd ∧ s'.refused = true) := by
  rcases hostAlloc_ev s with ⟨e, g, he, hfr, -, hev⟩ | hev
  · left
    obtain ⟨-, hfe, -, -⟩ := fresh_iff.1 hfr
    obtain ⟨f, m, h1, h2, h3⟩ := push_ok hI hx hb hk hfl he hfe
    refine ⟨e, { s with
      elm := upd m e (some ⟨b, f, 0⟩)
      hd := upd s.hd h (some e)
      blk := upd s.blk b (some { B with fl := e })
      host := s.host.tail }, he, ?_, ⟨rfl, tail_sub, fun h => h, rfl, rfl⟩, ?_, rfl, rfl, rfl⟩
    · unfold addTo nodeListAdd
      refine Ev.bind (a := e) (s1 := { s with
        elm := upd m e (some ⟨b, f, 0⟩)
        hd := upd s.hd h (some e)
        host := s.host.tail }) (Ev.bind hev (Ev.ite_neg he (Ev.bind (getH_ev h1) (Ev.bind (setPrev_ev h2) (Ev.bind (newE_ev _ _ _)
          (Ev.bind (setH_ev _ h1) (.pure _ _))))))) ?_
      refine Ev.bind (modB_ev _ hb) ?_
      have : (decide (e ≠ 0)) = true := decide_eq_true he
      rw [this]
      exact .pure _ _
    · exact h3.congr rfl rfl rfl (fun y _ C hC => ⟨C, hC, rfl, rfl⟩) fun b' C hC h0 => ⟨C, hC, h0⟩
  · right
    refine ⟨{ s with
      host := s.host.tail
      refused := true }, ?_, ⟨rfl, tail_sub, (fun h => by cases h), rfl, rfl⟩, ?_, rfl, rfl, rfl⟩
    · unfold addTo nodeListAdd
      refine Ev.bind (Ev.bind hev (Ev.ite_pos rfl (.pure _ _))) ?_
      have h1 := modB_ev (s := { s with host := s.host.tail, refused := true }) (fun B => { B with fl := 0 }) hb
      have h2 : upd s.blk b (some { B with fl := 0 }) = s.blk := upd_id (by rw [hb, ← hfl])
      dsimp only at h1
      rw [h2] at h1
      exact Ev.bind h1 (.pure _ _)
    · exact hI.congr rfl rfl rfl (fun y _ C hC => ⟨C, hC, rfl, rfl⟩) fun b' C hC h0 => ⟨C, hC, h0⟩

/-- The tree of lists gets a new, empty list. -/
theorem newHead_ok {T : RavlMem.St (Nat × Addr)} {a k h : Addr} {P Q : List (Addr × Nat × Addr)} (hI : Ix s (P ++ Q) E) (hk : ∀ x ∈ P ++ Q, x.2.1 ≠ k)
    (hh : s.hd h = none) (hT : RavlMem.Inv Prod.fst T (P ++ (a, k, h) :: Q)) :
    Ix { s with
      hd := upd s.hd h (some 0)
      tree := updT s.tree .fre T } (P ++ (a, k, h) :: Q) E := by
  have hmem : ∀ x, x ∈ (P ++ (a, k, h) :: Q).map (·.2) ↔ x = (k, h) ∨ x ∈ (P ++ Q).map (·.2) := by
    intro x
    simp only [List.map_append, List.map_cons, List.mem_append, List.mem_cons]
    tauto
  have hkE : ∀ y ∈ E, y.size ≠ k := by
    intro y hy e
    obtain ⟨x, hx, e'⟩ := hI.full y hy
    obtain ⟨n, hx⟩ := mem_map2.1 hx
    exact hk _ hx (e'.trans e)
  have hhF : ∀ x ∈ (P ++ Q).map (·.2), x.2 ≠ h := by
    intro x hx e
    obtain ⟨f, h1, -⟩ := hI.heads x hx
    rw [e, hh] at h1
    cases h1
  refine ⟨?_, ?_, ?_, ?_, ?_, hI.nodup, hI.elemOnly, hI.ent, hI.fl⟩
  · show RavlMem.Inv _ (updT s.tree .fre T .fre) _
    rw [updT_same]
    exact hT
  · intro x hx
    rcases (hmem x).1 hx with rfl | hx
    · refine ⟨0, upd_same _ _ _, ?_⟩
      have : cls k E = [] := by
        rw [List.eq_nil_iff_forall_not_mem]
        intro y hy
        exact hkE y (mem_cls.1 hy).1 (mem_cls.1 hy).2
      dsimp only
      rw [this]
      rfl
    · obtain ⟨f, h1, h2⟩ := hI.heads x hx
      exact ⟨f, (upd_ne _ _ (hhF x hx)).trans h1, h2⟩
  · intro h' hh'
    by_cases e : h' = h
    · exact ⟨(k, h), (hmem _).2 (.inl rfl), e.symm⟩
    · dsimp only at hh'
      rw [upd_ne _ _ e] at hh'
      obtain ⟨x, hx, e'⟩ := hI.headOnly h' hh'
      exact ⟨x, (hmem _).2 (.inr hx), e'⟩
  · intro x hx y hy e
    rcases (hmem x).1 hx with rfl | hx <;> rcases (hmem y).1 hy with rfl | hy
    · rfl
    · exact absurd e.symm (hhF y hy)
    · exact absurd e (hhF x hx)
    · exact hI.headInj x hx y hy e
  · intro y hy
    obtain ⟨x, hx, e'⟩ := hI.full y hy
    exact ⟨x, (hmem _).2 (.inr hx), e'⟩

/-- `free_blocks_add`. -/
theorem freeAdd_ok {b : Addr} {B : Blk} (hI : Ix s F E) (hb : s.blk b = some B) (hfl : B.fl = 0) :
    ∃ r s' F' e, Ev (freeAdd b) s r s' ∧ Frame s s' ∧ Ix s' F' (if r = true then ⟨B.size, e, b⟩ :: E else E) ∧
      s'.blk = upd s.blk b (some { B with fl := e }) ∧ (r = false ↔ e = 0) ∧ (s'.refused = false → r = true ∧ (NoEmpty s → NoEmpty s')) := by
  have hid : upd s.blk b (some { B with fl := 0 }) = s.blk := upd_id (by rw [hb, ← hfl])
  rcases findEq_ev hI.fre B.size with ⟨hev, hno⟩ | ⟨n, h, hx, hn, hev⟩
  · rcases hostAlloc_ev s with ⟨h, g, hh, hfr, -, hev1⟩ | hev1
    · obtain ⟨f1, f2, f3, f4⟩ := fresh_iff.1 hfr
      rcases hostAlloc_ev { s with
        host := s.host.tail
        hd := upd s.hd h (some 0) } with ⟨a, g', ha, hfr', -, hev2⟩ | hev2
      · obtain ⟨-, -, -, k4⟩ := fresh_iff.1 hfr'
        obtain ⟨T, P, Q, rfl, hev3, hT⟩ := emplaceAt_ev (s := { s with
          hd := upd s.hd h (some 0)
          host := s.host.tail.tail }) (t := .fre) (x := (B.size, h)) hI.fre hno ha (k4 .fre)
        have hI' := newHead_ok hI hno f3 hT
        have hI2 : Ix { s with
          hd := upd s.hd h (some 0)
          tree := updT s.tree .fre T
          host := s.host.tail.tail } _ E :=
          hI'.congr rfl rfl rfl (fun y _ C hC => ⟨C, hC, rfl, rfl⟩) fun b' C hC h0 => ⟨C, hC, h0⟩
        have hst : ∀ {r : Bool} {s' : St}, Ev (addTo h b) { s with
          hd := upd s.hd h (some 0)
          tree := updT s.tree .fre T
          host := s.host.tail.tail } r s' → Ev (freeAdd b) s r s' := by
          intro r s' h'
          unfold freeAdd
          refine Ev.bind (getB_ev hb) (Ev.bind hev (Ev.ite_neg (fun e => e rfl) (Ev.bind hev1 (Ev.ite_neg hh (Ev.bind (newH_ev _ _ _) ?_)))))
          unfold emplaceN
          exact Ev.bind (Ev.bind hev2 hev3) (Ev.ite_pos rfl h')
        have hfr0 : Frame s { s with
          hd := upd s.hd h (some 0)
          tree := updT s.tree .fre T
          host := s.host.tail.tail } :=
          ⟨updT_ne (t := Tr.fre) (u := Tr.all) s.tree T (by decide), fun x hx => tail_sub x (tail_sub x hx), fun h => h, rfl, rfl⟩
        rcases addTo_ok (n := a) (k := B.size) (h := h) hI2 (by simp) hb rfl hfl with ⟨e, s', he, j1, j2, j3, j4, j5, j6⟩ | ⟨s', j1, j2, j3, j4, j5, j6⟩
        · refine ⟨true, s', _, e, hst j1, hfr0.trans j2, j3, j4, ⟨(fun h => by cases h), fun h => absurd h he⟩, fun _ => ⟨rfl, fun hN h' => ?_⟩⟩
          rw [j5]
          dsimp only
          by_cases hhh : h' = h
          · rw [hhh, upd_same]
            intro e'
            cases e'
            exact he rfl
          · rw [upd_ne _ _ hhh, upd_ne _ _ hhh]
            exact hN h'
        · refine ⟨false, s', _, 0, hst j1, hfr0.trans j2, j3, by rw [j4, hid], ⟨fun _ => rfl, fun _ => rfl⟩, fun h' => ?_⟩
          rw [j6] at h'
          cases h'
      · obtain ⟨T, hev3, hT⟩ := emplaceAt_fail (s := { s with
          hd := upd s.hd h (some 0)
          host := s.host.tail.tail
          refused := true }) (t := .fre) (x := (B.size, h)) (a := 0) hI.fre (.inl rfl)
        refine ⟨false, { s with
          tree := updT s.tree .fre T
          host := s.host.tail.tail
          refused := true }, F, 0, ?_, ⟨updT_ne (t := Tr.fre) (u := Tr.all) s.tree T (by decide), fun x hx => tail_sub x (tail_sub x hx), (fun h => by cases h), rfl, rfl⟩, ?_,
          by rw [hid], ⟨fun _ => rfl, fun _ => rfl⟩, fun h => by cases h⟩
        · unfold freeAdd
          refine Ev.bind (getB_ev hb) (Ev.bind hev (Ev.ite_neg (fun e => e rfl) (Ev.bind hev1 (Ev.ite_neg hh (Ev.bind (newH_ev _ _ _) ?_)))))
          unfold emplaceN
          refine Ev.bind (Ev.bind hev2 hev3) (Ev.ite_neg (by decide) ?_)
          have h1 := freeH_ev (s := { s with
            hd := upd s.hd h (some 0)
            tree := updT s.tree .fre T
            host := s.host.tail.tail
            refused := true }) (h := h) (f := 0) (upd_same _ _ _)
          have h2 : upd (upd s.hd h (some 0)) h none = s.hd := by
            funext x
            by_cases hx : x = h
            · rw [hx, upd_same, f3]
            · rw [upd_ne _ _ hx, upd_ne _ _ hx]
          dsimp only at h1
          rw [h2] at h1
          exact Ev.bind h1 (.pure _ _)
        · refine ⟨?_, hI.heads, hI.headOnly, hI.headInj, hI.full, hI.nodup, hI.elemOnly, hI.ent, hI.fl⟩
          show RavlMem.Inv _ (updT s.tree .fre T .fre) _
          rw [updT_same]
          exact hT
    · refine ⟨false, { s with
        host := s.host.tail
        refused := true }, F, 0, ?_, ⟨rfl, tail_sub, (fun h => by cases h), rfl, rfl⟩, ?_, by rw [hid], ⟨fun _ => rfl, fun _ => rfl⟩, fun h => by cases h⟩
      · unfold freeAdd
        exact Ev.bind (getB_ev hb) (Ev.bind hev (Ev.ite_neg (fun e => e rfl) (Ev.bind hev1 (Ev.ite_pos rfl (.pure _ _)))))
      · exact hI.congr rfl rfl rfl (fun y _ C hC => ⟨C, hC, rfl, rfl⟩) fun b' C hC h0 => ⟨C, hC, h0⟩
  · have hst : ∀ {r : Bool} {s' : St}, Ev (addTo h b) s r s' → Ev (freeAdd b) s r s' := by
      intro r s' h'
      unfold freeAdd
      exact Ev.bind (getB_ev hb) (Ev.bind hev (Ev.ite_pos hn (Ev.bind (dataOf_ev hI.fre hx) h')))
    rcases addTo_ok hI hx hb rfl hfl with ⟨e, s', he, j1, j2, j3, j4, j5, j6⟩ | ⟨s', j1, j2, j3, j4, j5, j6⟩
    · refine ⟨true, s', F, e, hst j1, j2, j3, j4, ⟨(fun h => by cases h), fun h => absurd h he⟩, fun _ => ⟨rfl, fun hN h' => ?_⟩⟩
      rw [j5]
      by_cases hhh : h' = h
      · rw [hhh, upd_same]
        intro e'
        cases e'
        exact he rfl
      · rw [upd_ne _ _ hhh]
        exact hN h'
    · refine ⟨false, s', F, 0, hst j1, j2, j3, by rw [j4, hid], ⟨fun _ => rfl, fun _ => rfl⟩, fun h' => ?_⟩
      rw [j6] at h'
      cases h'

end Verif.CoarseMem
