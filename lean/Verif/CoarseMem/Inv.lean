import Verif.CoarseMem.Abs
/-!
# Lemmas for the coarse allocator, pointer by pointer: one block
-/
namespace Verif.CoarseMem
open Verif.Coarse (Res Check aligned alignUp effAlign Cfg Strategy)
open Verif.Coarse.Index (Elem Ent cls Chain)
open Verif.Ravl (Slot Pred)
open Verif.RavlMem.Spec (nodeOf)

variable {s s' : St} {A : List (Addr × Nat × Addr)} {E : List Ent}

/-- The lists change, the blocks do not. -/
theorem Inv.relist {F : List (Addr × Nat × Addr)} {E' : List Ent} (h : Inv s A E) (hall : s'.tree .all = s.tree .all) (hix : Ix s' F E')
    (hb : ∀ b, (s'.blk b).map Blk.data = (s.blk b).map Blk.data) (hN : s'.refused = false → NoEmpty s') : Inv s' A E' := by
  refine ⟨?_, ?_, ?_, ⟨F, hix⟩, hN⟩
  · show RavlMem.Inv _ (s'.tree .all) A
    rw [hall]
    exact h.all
  · intro x hx
    obtain ⟨h0, B, h1, h2⟩ := h.desc x hx
    refine ⟨h0, ?_⟩
    have := hb x.2
    rw [h1] at this
    cases hc : s'.blk x.2 with
    | none => rw [hc] at this; cases this
    | some C =>
      rw [hc] at this
      exact ⟨C, rfl, (Option.some.inj this).trans h2⟩
  · intro b hne
    refine h.only b fun e => hne ?_
    have := hb b
    rw [e] at this
    cases hc : s'.blk b with
    | none => rfl
    | some C => rw [hc] at this; cases this

theorem upd_data {b : Addr} {B C : Blk} (hb : s.blk b = some B) (hd : C.data = B.data) (c : Addr) :
    (upd s.blk b (some C) c).map Blk.data = (s.blk c).map Blk.data := by
  by_cases e : c = b
  · rw [e, upd_same, hb]
    exact congrArg some hd
  · rw [upd_ne _ _ e]

/-- A field of a block changes. -/
theorem Inv.mod (h : Inv s A E) {b : Addr} {B C : Blk} (hb : s.blk b = some B) (hd : C.data = B.data) (hf : C.fl = B.fl)
    (hs : B.fl = 0 ∨ C.size = B.size) : Inv { s with blk := upd s.blk b (some C) } A E := by
  obtain ⟨F, hI⟩ := h.lists
  refine h.relist (F := F) rfl ?_ (upd_data hb hd) h.heads
  refine hI.congr rfl rfl rfl (fun n hn B' hB' => ?_) fun c C' hc hC' => ?_
  · by_cases e : n.blk = b
    · rw [e, hb] at hB'
      cases hB'
      dsimp only
      rw [e, upd_same]
      refine ⟨C, rfl, hf, ?_⟩
      rcases hs with hs | hs
      · obtain ⟨D, d1, d2, -⟩ := hI.ent n hn
        rw [e, hb] at d1
        cases d1
        exact absurd (d2.symm.trans hs) (hI.elem hn).1
      · exact hs
    · dsimp only
      rw [upd_ne _ _ e]
      exact ⟨B', hB', rfl, rfl⟩
  · dsimp only at hc
    by_cases e : c = b
    · rw [e, upd_same] at hc
      cases hc
      rw [e]
      exact ⟨B, hb, fun h' => hC' (hf.trans h')⟩
    · rw [upd_ne _ _ e] at hc
      exact ⟨C', hc, hC'⟩

/-- Nothing the blocks are made of changes. -/
theorem Inv.same (h : Inv s A E) (h1 : s'.tree = s.tree) (h2 : s'.blk = s.blk) (h3 : s'.elm = s.elm) (h4 : s'.hd = s.hd)
    (h5 : s'.refused = false → s.refused = false) : Inv s' A E := by
  obtain ⟨F, hI⟩ := h.lists
  refine h.relist (F := F) (by rw [h1]) (hI.congr (by rw [h1]) h4 h3 ?_ ?_) (by rw [h2]; intro; rfl) fun h' => ?_
  · rw [h2]
    exact fun n _ B hB => ⟨B, hB, rfl, rfl⟩
  · rw [h2]
    exact fun b C hC h0 => ⟨C, hC, h0⟩
  · intro x
    rw [h4]
    exact h.heads (h5 h') x

theorem Step.mod {b : Addr} {C : Option Blk} : Step (· = b) s { s with blk := upd s.blk b C } :=
  ⟨fun _ _ h _ _ hn => (upd_ne _ _ hn).trans h, fun _ h => h, fun h => h⟩

theorem Step.trans' {X Y : Addr → Prop} {s s1 s2 : St} (h : Step X s s1) (h' : Step Y s1 s2)
    (hY : ∀ b B, s.blk b = some B → B.used = true → B.fl = 0 → Y b → X b) : Step X s s2 :=
  ⟨fun b B e u f n => h'.keep b B (h.keep b B e u f n) u f fun hy => n (hY b B e u f hy), fun x hx => h.host x (h'.host x hx), fun e => h.ref (h'.ref e)⟩

theorem clean_upd {b : Addr} {C : Blk} (h : Clean s) (hC : C.used = true → C.fl = 0) (hb : s'.blk = upd s.blk b (some C)) : Clean s' := by
  intro c D hc hu
  rw [hb] at hc
  by_cases e : c = b
  · rw [e, upd_same] at hc
    cases hc
    exact hC hu
  · rw [upd_ne _ _ e] at hc
    exact h c D hc hu

/-- A block that is on no list is put on one. -/
theorem freeAdd_inv {b : Addr} {B : Blk} (h : Inv s A E) (hb : s.blk b = some B) (hf : B.fl = 0) :
    ∃ r s' e E', Ev (freeAdd b) s r s' ∧ Inv s' A E' ∧ s'.blk = upd s.blk b (some { B with fl := e }) ∧ Step (· = b) s s' ∧
      (r = false → e = 0) ∧ (s'.refused = false → r = true) ∧ (r = false → abs s' A E' = abs s A E) ∧
      ∀ env ho g site, ho site = r → Coarse.freeAdd (cenv env ho g) site (abs s A E) B.data = if r = true then some (abs s' A E') else none := by
  obtain ⟨F, hI⟩ := h.lists
  obtain ⟨r, s', F', e, h1, h2, h3, h4, h5, h6⟩ := freeAdd_ok hI hb hf
  obtain ⟨-, n, hn⟩ := h.node hb
  refine ⟨r, s', e, if r = true then ⟨B.size, e, b⟩ :: E else E, h1, ?_, h4, ?_, h5.1, fun h' => (h6 h').1, ?_, ?_⟩
  · refine h.relist h2.all h3 ?_ fun h' => (h6 h').2 (h.heads (h2.ref h'))
    rw [h4]
    exact upd_data hb rfl
  · refine ⟨fun c C hc _ _ hn => ?_, h2.host, h2.ref⟩
    rw [h4, upd_ne _ _ hn]
    exact hc
  · intro hr
    have he := h5.1 hr
    subst hr he
    have h4' : s'.blk = s.blk := by
      rw [h4]
      exact upd_id (by rw [hb, ← hf])
    exact abs_congr (absL_blk h4') (absF_blk h4') h2.sizes
  · intro env ho g site hr
    cases r with
    | false =>
      unfold Coarse.freeAdd
      rw [if_neg (c := (cenv env ho g).host site = true) (fun h' => by rw [show ho site = true from h'] at hr; cases hr)]
      rfl
    | true =>
      have he : e ≠ 0 := fun e' => by cases h5.2 e'
      unfold Coarse.freeAdd
      rw [if_pos (c := (cenv env ho g).host site = true) hr, if_pos rfl, if_pos rfl]
      have hl : Coarse.lookup B.data (abs s A E).blocks = some (viewB B) := lookup_abs h.keyed hn hb
      rw [hl]
      have e1 : Coarse.modify B.data (fun b => { b with listed := true }) (absL s A) = absL s' A :=
        h.modify hb (C := { B with fl := e }) (by unfold viewB; simp [he]) h4
      have e2 : absF s' (⟨B.size, e, b⟩ :: E) = (B.size, B.data) :: absF s E := by
        have := absF_upd (E := E) hb (C := { B with fl := e }) rfl h4
        show (B.size, dataAt s' b) :: absF s' E = _
        rw [this, dataAt_eq (B := { B with fl := e }) (by rw [h4, upd_same])]
      unfold abs
      dsimp only
      rw [e1, e2, h2.sizes.1, h2.sizes.2]
      rfl

/-- What the other model sees when a block with address `d` is added: its list with the new block, whatever the byte holds. -/
def AddsNew (s s' : St) (A A' : List (Addr × Nat × Addr)) (E : List Ent) (b d size : Nat) : Prop :=
  (∀ env ho g site, ho site = true → Coarse.addNew (cenv env ho g) site (absL s A) d size =
    some (absL { s with blk := upd s.blk b (some ⟨d, size, g, 0⟩) } A')) ∧
  (∀ g, Keyed { s with blk := upd s.blk b (some ⟨d, size, g, 0⟩) } A') ∧
  absF s' E = absF s E ∧ s'.usedSize = s.usedSize ∧ s'.allocSize = s.allocSize

theorem addsNew_of {P Q : List (Addr × Nat × Addr)} {c b : Addr} {d size : Nat} {g : Bool} (h : Inv s (P ++ Q) E)
    (hk : Keyed s' (P ++ (c, d, b) :: Q)) (hb : s.blk b = none) (hs : s'.blk = upd s.blk b (some ⟨d, size, g, 0⟩))
    (hz : s'.usedSize = s.usedSize ∧ s'.allocSize = s.allocSize) : AddsNew s s' (P ++ Q) (P ++ (c, d, b) :: Q) E b d size := by
  have hnb : ∀ x ∈ P ++ Q, x.2.2 ≠ b := by
    intro x hx e
    obtain ⟨B, b1, -⟩ := h.keyed.2 x hx
    rw [e, hb] at b1
    cases b1
  refine ⟨fun env ho g' site hh => ?_, fun g' => hk.congr fun x hx => ?_, absF_congr fun n hn => ?_, hz⟩
  · unfold Coarse.addNew
    rw [if_pos (c := (cenv env ho g').host site = true) hh, absL_append]
    have hp := hk.1
    rw [List.pairwise_append, List.pairwise_cons] at hp
    have e1 : ∀ L : List (Addr × Nat × Addr), (∀ x ∈ L, x ∈ P ++ Q) → absL { s with blk := upd s.blk b (some ⟨d, size, g', 0⟩) } L = absL s L :=
      fun L hL => absL_congr fun x hx => upd_ne _ _ (hnb x (hL x hx))
    rw [insert_abs (d := d) rfl]
    · rw [absL_append, e1 P (fun x hx => by simp [hx])]
      show some (absL s P ++ _ :: absL s Q) = some (absL s P ++ absB _ b :: absL { s with blk := upd s.blk b (some ⟨d, size, g', 0⟩) } Q)
      rw [e1 Q (fun x hx => by simp [hx]), absB_eq (B := ⟨d, size, g', 0⟩) (upd_same _ _ _)]
      rfl
    · intro y hy
      obtain ⟨x, hx, rfl⟩ := List.mem_map.1 hy
      rw [h.keyed.data (x := x) (by simp [hx])]
      exact hp.2.2 x hx _ List.mem_cons_self
    · intro y hy
      obtain ⟨x, hx, rfl⟩ := List.mem_map.1 hy
      rw [h.keyed.data (x := x) (by simp [hx])]
      exact hp.2.1.1 x hx
  · dsimp only
    rw [hs]
    by_cases e : x.2.2 = b
    · rw [e, upd_same, upd_same]
      rfl
    · rw [upd_ne _ _ e, upd_ne _ _ e]
  · obtain ⟨F, hI⟩ := h.lists
    obtain ⟨B, b1, -⟩ := hI.ent n hn
    unfold dataAt
    rw [hs, upd_ne _ _ fun e => by rw [e, hb] at b1; cases b1]

theorem addNew_none {env : Env} {ho : Coarse.Site → Bool} {g : Bool} {site : Coarse.Site} {l : List Coarse.Block} {d size : Nat} (h : ho site = false) :
    Coarse.addNew (cenv env ho g) site l d size = none := by
  unfold Coarse.addNew
  rw [if_neg (c := (cenv env ho g).host site = true) (fun h' => by rw [show ho site = true from h'] at h; cases h)]

/-- A new block is not added: refused, or there is one with the same address. -/
theorem addNew_fail {d : Nat} (h : Inv s A E) (hx : s'.refused = false → ∃ x ∈ A, x.2.1 = d) :
    ∃ k, (s'.refused = false → k = true) ∧ ∀ env ho g site size, ho site = k → Coarse.addNew (cenv env ho g) site (absL s A) d size = none := by
  cases hr : s'.refused with
  | true => exact ⟨false, (fun h => by cases h), fun env ho g site size hs => addNew_none hs⟩
  | false =>
    refine ⟨true, fun _ => rfl, fun env ho g site size hs => ?_⟩
    obtain ⟨x, hx, hd⟩ := hx hr
    unfold Coarse.addNew
    rw [if_pos (c := (cenv env ho g).host site = true) hs]
    exact insert_abs_none rfl h.keyed.sorted ⟨absB s x.2.2, List.mem_map_of_mem (f := fun x => absB s x.2.2) hx, (h.keyed.data hx).trans hd⟩

/-- The byte is written right away. -/
theorem AddsNew.modify {A' : List (Addr × Nat × Addr)} {b d size n : Nat} {g0 : Bool} {C : Blk} (h : AddsNew s s' A A' E b d size)
    (hs : s'.blk = upd s.blk b (some ⟨d, size, g0, 0⟩)) (hn : (n, d, b) ∈ A') (f : Coarse.Block → Coarse.Block) (g : Bool)
    (hf : f ⟨d, size, g, false⟩ = viewB C) : Coarse.modify d f (absL { s with blk := upd s.blk b (some ⟨d, size, g, 0⟩) } A') =
      absL { s' with blk := upd s'.blk b (some C) } A' := by
  refine (h.2.1 g).modify (B := ⟨d, size, g, 0⟩) (C := C) hn (upd_same _ _ _) hf ?_
  dsimp only
  rw [hs]
  funext x
  by_cases e : x = b
  · rw [e, upd_same, upd_same]
  · rw [upd_ne _ _ e, upd_ne _ _ e, upd_ne _ _ e, upd_ne _ _ e]

/-- `coarse_ravl_add_new`. -/
theorem addNew_inv (h : Inv s A E) (d size : Nat) :
    ∃ s', (Ev (addNew d size) s (0, 0) s' ∧ Inv s' A E ∧ s'.blk = s.blk ∧ Step (fun _ => False) s s' ∧ (s'.refused = false → ∃ x ∈ A, x.2.1 = d) ∧
        abs s' A E = abs s A E) ∨
      ∃ b n g A', Ev (addNew d size) s (b, n) s' ∧ b ≠ 0 ∧ s.blk b = none ∧ s'.blk = upd s.blk b (some ⟨d, size, g, 0⟩) ∧ (n, d, b) ∈ A' ∧
        Inv s' A' E ∧ Step (fun _ => False) s s' ∧ (Zero s → g = false) ∧ AddsNew s s' A A' E b d size := by
  obtain ⟨F, hI⟩ := h.lists
  rcases hostAlloc_ev s with ⟨b, g, hb0, hfr, hg, hev⟩ | hev
  · obtain ⟨f1, f2, f3, f4⟩ := fresh_iff.1 hfr
    have hback : upd (upd s.blk b (some ⟨d, size, g, 0⟩)) b none = s.blk := by
      funext x
      by_cases hx : x = b
      · rw [hx, upd_same, f1]
      · rw [upd_ne _ _ hx, upd_ne _ _ hx]
    have hfail : ∀ (T : RavlMem.St (Nat × Addr)) (ho : List (Addr × Bool)) (rf : Bool), RavlMem.Inv Prod.fst T A → (rf = false → s.refused = false) →
        Inv { s with
          tree := updT s.tree .all T
          host := ho
          refused := rf } A E := by
      intro T ho rf hT hrf
      refine ⟨?_, h.desc, h.only, ⟨F, ?_⟩, fun h' => h.heads (hrf h')⟩
      · show RavlMem.Inv _ (updT s.tree .all T .all) _
        rw [updT_same]
        exact hT
      · exact hI.congr (updT_ne (t := Tr.all) (u := Tr.fre) s.tree T (by decide)) rfl rfl (fun y _ C hC => ⟨C, hC, rfl, rfl⟩) fun b' C hC h0 => ⟨C, hC, h0⟩
    have hfree : ∀ (T : RavlMem.St (Nat × Addr)) (ho : List (Addr × Bool)) (rf : Bool), Ev (freeB b) { s with
          blk := upd s.blk b (some ⟨d, size, g, 0⟩)
          tree := updT s.tree .all T
          host := ho
          refused := rf } () { s with
          tree := updT s.tree .all T
          host := ho
          refused := rf } := by
      intro T ho rf
      have h1 := freeB_ev (s := { s with
          blk := upd s.blk b (some ⟨d, size, g, 0⟩)
          tree := updT s.tree .all T
          host := ho
          refused := rf }) (b := b) (upd_same _ _ _)
      dsimp only at h1
      rw [hback] at h1
      exact h1
    rcases hostAlloc_ev { s with
        host := s.host.tail
        blk := upd s.blk b (some ⟨d, size, g, 0⟩) } with ⟨c, g', hc0, hfr', -, hev2⟩ | hev2
    · by_cases hd : ∃ x ∈ A, x.2.1 = d
      · obtain ⟨T, hev3, hT⟩ := emplaceAt_fail (s := { s with
          blk := upd s.blk b (some ⟨d, size, g, 0⟩)
          host := s.host.tail.tail }) (t := .all) (x := (d, b)) (a := c) h.all (.inr hd)
        refine ⟨{ s with
          tree := updT s.tree .all T
          host := s.host.tail.tail }, .inl ⟨?_, hfail T _ _ hT fun h' => h', rfl, ⟨fun _ _ hc _ _ _ => hc, fun x hx => tail_sub x (tail_sub x hx), fun h => h⟩, fun _ => hd, rfl⟩⟩
        unfold addNew
        refine Ev.bind hev (Ev.ite_neg hb0 (Ev.bind (newB_ev _ _ _) ?_))
        unfold emplaceN
        exact Ev.bind (Ev.bind hev2 hev3) (Ev.ite_neg (by decide) (Ev.bind (hfree T _ _) (.pure _ _)))
      · obtain ⟨-, -, -, k4⟩ := fresh_iff.1 hfr'
        obtain ⟨T, P, Q, rfl, hev3, hT⟩ := emplaceAt_ev (s := { s with
          blk := upd s.blk b (some ⟨d, size, g, 0⟩)
          host := s.host.tail.tail }) (t := .all) (x := (d, b)) (a := c) h.all (fun x hx e => hd ⟨x, hx, e⟩) hc0 (k4 .all)
        have hI' : Inv { s with
            blk := upd s.blk b (some ⟨d, size, g, 0⟩)
            tree := updT s.tree .all T
            host := s.host.tail.tail } (P ++ (c, d, b) :: Q) E := by
          refine ⟨?_, ?_, ?_, ⟨F, ?_⟩, h.heads⟩
          · show RavlMem.Inv _ (updT s.tree .all T .all) _
            rw [updT_same]
            exact hT
          · intro x hx
            dsimp only
            by_cases hxb : x = (d, b)
            · subst hxb
              exact ⟨hb0, _, upd_same _ _ _, rfl⟩
            · have hx' : x ∈ (P ++ Q).map (·.2) := by
                rw [List.map_append, List.map_cons, List.mem_append, List.mem_cons] at hx
                rw [List.map_append, List.mem_append]
                rcases hx with hx | hx | hx
                · exact .inl hx
                · exact absurd hx hxb
                · exact .inr hx
              obtain ⟨h0, B, h1, h2⟩ := h.desc x hx'
              refine ⟨h0, B, ?_, h2⟩
              rw [upd_ne _ _ fun e => by rw [e, f1] at h1; cases h1]
              exact h1
          · intro b' hb'
            dsimp only at hb'
            by_cases e : b' = b
            · exact ⟨d, by rw [e]; simp⟩
            · rw [upd_ne _ _ e] at hb'
              obtain ⟨d', hd'⟩ := h.only b' hb'
              refine ⟨d', ?_⟩
              rw [List.map_append, List.mem_append] at hd'
              rw [List.map_append, List.map_cons, List.mem_append, List.mem_cons]
              rcases hd' with hd' | hd'
              · exact .inl hd'
              · exact .inr (.inr hd')
          · refine hI.congr (updT_ne (t := Tr.all) (u := Tr.fre) s.tree T (by decide)) rfl rfl (fun y _ C hC => ⟨C, ?_, rfl, rfl⟩) fun b' C hC h0 => ?_
            · dsimp only
              rw [upd_ne _ _ fun e => by rw [e, f1] at hC; cases hC]
              exact hC
            · dsimp only at hC
              by_cases e : b' = b
              · rw [e, upd_same] at hC
                cases hC
                exact absurd rfl h0
              · rw [upd_ne _ _ e] at hC
                exact ⟨C, hC, h0⟩
        obtain ⟨n, hn, -, hev4⟩ := hI'.find (b := b) (B := ⟨d, size, g, 0⟩) (upd_same _ _ _)
        refine ⟨{ s with
            blk := upd s.blk b (some ⟨d, size, g, 0⟩)
            tree := updT s.tree .all T
            host := s.host.tail.tail }, .inr ⟨b, n, g, _, ?_, hb0, f1, rfl, hn, hI', ⟨fun x _ hx _ _ _ => ?_, fun x hx => tail_sub x (tail_sub x hx), fun h => h⟩, fun hz => hz _ hg, ?_⟩⟩
        · unfold addNew
          refine Ev.bind hev (Ev.ite_neg hb0 (Ev.bind (newB_ev _ _ _) ?_))
          unfold emplaceN
          exact Ev.bind (Ev.bind hev2 hev3) (Ev.ite_pos rfl (Ev.bind hev4 (.pure _ _)))
        · dsimp only
          rw [upd_ne _ _ fun e => by rw [e, f1] at hx; cases hx]
          exact hx
        · exact addsNew_of h hI'.keyed f1 rfl ⟨rfl, rfl⟩
    · obtain ⟨T, hev3, hT⟩ := emplaceAt_fail (s := { s with
          blk := upd s.blk b (some ⟨d, size, g, 0⟩)
          host := s.host.tail.tail
          refused := true }) (t := .all) (x := (d, b)) (a := 0) h.all (.inl rfl)
      refine ⟨{ s with
          tree := updT s.tree .all T
          host := s.host.tail.tail
          refused := true }, .inl ⟨?_, hfail T _ _ hT (fun h' => by cases h'), rfl, ⟨fun _ _ hc _ _ _ => hc, fun x hx => tail_sub x (tail_sub x hx), fun h => by cases h⟩, (fun h => by cases h), rfl⟩⟩
      unfold addNew
      refine Ev.bind hev (Ev.ite_neg hb0 (Ev.bind (newB_ev _ _ _) ?_))
      unfold emplaceN
      exact Ev.bind (Ev.bind hev2 hev3) (Ev.ite_neg (by decide) (Ev.bind (hfree T _ _) (.pure _ _)))
  · refine ⟨{ s with
      host := s.host.tail
      refused := true }, .inl ⟨?_, h.same rfl rfl rfl rfl (fun h => by cases h), rfl, ⟨fun _ _ hc _ _ _ => hc, tail_sub, fun h => by cases h⟩, (fun h => by cases h), rfl⟩⟩
    unfold addNew
    exact Ev.bind hev (Ev.ite_pos rfl (.pure _ _))

/-- `if (block->free_list_ptr) { … }`. -/
theorem unlistIf_inv {b : Addr} {B : Blk} (h : Inv s A E) (hb : s.blk b = some B) :
    ∃ s' E', Ev (unlistIf b) s () s' ∧ Inv s' A E' ∧ s'.blk = upd s.blk b (some { B with fl := 0 }) ∧ Step (· = b) s s' ∧
      absF s' E' = (if (viewB B).listed then (absF s E).erase (B.size, B.data) else absF s E) ∧
      s'.usedSize = s.usedSize ∧ s'.allocSize = s.allocSize := by
  by_cases hf : B.fl = 0
  · have hid : s.blk = upd s.blk b (some { B with fl := 0 }) := (upd_id (by rw [hb, ← hf])).symm
    refine ⟨s, E, ?_, h, hid, .rfl, by unfold viewB; simp [hf], rfl, rfl⟩
    unfold unlistIf
    exact Ev.bind (getB_ev hb) (Ev.ite_neg (fun e => e hf) (.pure _ _))
  · obtain ⟨F, hI⟩ := h.lists
    obtain ⟨m, hm, rfl⟩ := hI.fl b B hb hf
    obtain ⟨C, c1, c2, -⟩ := hI.ent m hm
    rw [hb] at c1
    cases c1
    obtain ⟨s1, F', X, Y, rfl, g1, g2, g3, g4, g5⟩ := rmNode_ok hI hm hb
    have hs1 : s1.blk m.blk = some { B with fl := 0 } := by rw [g4, upd_same]
    have hid : upd s1.blk m.blk (some { B with fl := 0 }) = s1.blk := upd_id hs1
    refine ⟨s1, X ++ Y, ?_, ?_, g4, ?_, ?_, g2.sizes⟩
    · have h1 := modB_ev (fun B => { B with fl := 0 }) hs1
      dsimp only at h1
      rw [hid] at h1
      unfold unlistIf
      rw [← c2] at g1
      exact Ev.bind (getB_ev hb) (Ev.ite_pos hf (Ev.bind g1 h1))
    · refine h.relist g2.all g3 ?_ fun h' x hx => h.heads (g2.ref h') x (g5 x hx)
      rw [g4]
      exact upd_data hb rfl
    · refine ⟨fun c C hc _ _ hn => ?_, g2.host, g2.ref⟩
      rw [g4, upd_ne _ _ hn]
      exact hc
    · rw [if_pos (by unfold viewB; simp [hf]), erase_abs h hb]
      exact absF_upd (C := { B with fl := 0 }) hb rfl g4

end Verif.CoarseMem
