import Verif.CoarseMem.Merge
/-!
# Lemmas for the coarse allocator, pointer by pointer: the calls
-/
namespace Verif.CoarseMem
open Verif.Coarse (Res Check aligned alignUp effAlign Cfg Strategy)
open Verif.Coarse.Index (Elem Ent cls Chain)
open Verif.Ravl (Slot Pred)
open Verif.RavlMem.Spec (nodeOf)

variable {s s' : St} {A : List (Addr × Nat × Addr)} {E : List Ent}

/-- The descriptor `b` is of a block at address `d` that is used and on no list. -/
def SolidAt (s : St) (b : Addr) (d : Nat) : Prop := ∃ B, s.blk b = some B ∧ B.data = d ∧ B.used = true ∧ B.fl = 0

/-- The block at address `d` is used and on no list. -/
def Solid (s : St) (d : Nat) : Prop := ∃ b, SolidAt s b d

theorem Step.solid {X : Addr → Prop} (h : Step X s s') {d : Nat} (hs : Solid s d)
    (hX : ∀ b B, s.blk b = some B → B.data = d → ¬ X b) : Solid s' d := by
  obtain ⟨b, B, h1, h2, h3, h4⟩ := hs
  exact ⟨b, B, h.keep b B h1 h3 h4 (hX b B h1 h2), h2, h3, h4⟩

/-- What the other model returns agrees with what the code returns. -/
def Same (p : Coarse.St × Coarse.Out) (st : Coarse.St) (r : Ret) : Prop := p.1 = st ∧ p.2.res = r.res ∧ p.2.ptr = r.ptr

/-- Answers of the base allocator at each place. -/
def hof (k1 k2 k3 k4 k5 : Bool) : Coarse.Site → Bool
  | .addNew1 => k1
  | .freeAdd1 => k2
  | .addNew2 => k3
  | .freeAdd2 => k4
  | .reAdd => k5

/-- `create_aligned_block`. -/
theorem createAligned_inv {b : Addr} {B : Blk} (env : Env) (a : Nat) (h : Inv s A E) (hb : s.blk b = some B) (hf : B.fl = 0) :
    ∃ r c s' A' C E', Ev (createAligned env b a) s (r, c) s' ∧ Inv s' A' E' ∧ s'.blk c = some C ∧ C.fl = 0 ∧ Step (· = b) s s' ∧
      (c = b ∨ s.blk c = none) ∧ (Clean s → Zero s → B.used = false → Clean s' ∧ C.used = false) ∧
      ∃ k1 k2 g, (s'.refused = false → k1 = true ∧ k2 = true) ∧ (Zero s → g = false) ∧ ∀ ho, ho .addNew1 = k1 → ho .freeAdd1 = k2 →
        Coarse.createAligned (cenv env ho g) (abs s A E) (viewB B) a = (abs s' A' E', r, viewB C) := by
  by_cases h1 : a > 0 ∧ alignUp B.data a - B.data > 0
  · by_cases h2 : env.splitCb B.data B.size (alignUp B.data a - B.data) = .success
    · obtain ⟨s1, ⟨a1, a2, a3, a4, ax, a9⟩ | ⟨b', n', g, A', a1, a2, a3, a4, a5, a6, a7, a8, a9⟩⟩ :=
        addNew_inv h (B.data + (alignUp B.data a - B.data)) (B.size - (alignUp B.data a - B.data))
      · obtain ⟨k, kx, ky⟩ := addNew_fail h ax
        refine ⟨.outOfHostMemory, b, s1, A, B, E, ?_, a2, by rw [a3]; exact hb, hf, a4.mono (fun _ _ _ _ _ h => h.elim), .inl rfl, fun hC _ hu => ⟨?_, hu⟩, k, true, false, fun h => ⟨kx h, rfl⟩, fun _ => rfl, fun ho q1 q2 => ?_⟩
        · unfold createAligned
          exact Ev.bind (getB_ev hb) (Ev.ite_pos h1 (Ev.ite_pos h2 (Ev.bind a1 (Ev.ite_pos rfl (.pure _ _)))))
        · intro c C hc
          rw [a3] at hc
          exact hC c C hc
        · have hk : Coarse.addNew (cenv env ho false) .addNew1 (abs s A E).blocks ((viewB B).data + (alignUp (viewB B).data a - (viewB B).data))
              ((viewB B).size - (alignUp (viewB B).data a - (viewB B).data)) = none := ky _ _ _ _ _ q1
          unfold Coarse.createAligned
          dsimp only
          rw [if_pos (c := a > 0 ∧ alignUp (viewB B).data a - (viewB B).data > 0) h1,
            show (cenv env ho false).splitCb (viewB B).data (viewB B).size (alignUp (viewB B).data a - (viewB B).data) = .success from h2, hk, a9]
      · have hbb : b ≠ b' := fun e => by rw [← e, hb] at a3; cases a3
        have hb1 : s1.blk b = some B := by rw [a4, upd_ne _ _ hbb]; exact hb
        have h3 := a6.mod hb1 (C := { B with used := false, size := alignUp B.data a - B.data }) rfl rfl (.inl hf)
        obtain ⟨r, s3, e, E', g1, g2, g3, g4, g5, g6, g7, g8⟩ := freeAdd_inv h3 (b := b) (upd_same _ _ _) hf
        have habs : ∀ ho, ho Coarse.Site.addNew1 = true → Coarse.createAligned (cenv env ho g) (abs s A E) (viewB B) a =
            match Coarse.freeAdd (cenv env ho g) .freeAdd1 (abs { s1 with
              blk := upd s1.blk b (some { B with used := false, size := alignUp B.data a - B.data }) } A' E) B.data with
            | none => (abs { s1 with
              blk := upd s1.blk b (some { B with used := false, size := alignUp B.data a - B.data }) } A' E, .outOfHostMemory, ⟨B.data, alignUp B.data a - B.data, false, (viewB B).listed⟩)
            | some st2 => (st2, .success, ⟨B.data + (alignUp B.data a - B.data), B.size - (alignUp B.data a - B.data), g, false⟩) := by
          intro ho q1
          have hk : Coarse.addNew (cenv env ho g) .addNew1 (abs s A E).blocks ((viewB B).data + (alignUp (viewB B).data a - (viewB B).data))
              ((viewB B).size - (alignUp (viewB B).data a - (viewB B).data)) = some (absL s1 A') := by
            rw [absL_blk (s' := s1) (s := { s with
              blk := upd s.blk b' (some ⟨B.data + (alignUp B.data a - B.data), B.size - (alignUp B.data a - B.data), g, 0⟩) }) a4]
            exact a9.1 env ho g .addNew1 q1
          have hm : Coarse.modify (viewB B).data (fun _ => ⟨B.data, alignUp B.data a - B.data, false, (viewB B).listed⟩) (absL s1 A') = absL { s1 with
              blk := upd s1.blk b (some { B with used := false, size := alignUp B.data a - B.data }) } A' :=
            a6.modify hb1 (C := { B with used := false, size := alignUp B.data a - B.data }) rfl rfl
          have hst : abs { s1 with
              blk := upd s1.blk b (some { B with used := false, size := alignUp B.data a - B.data }) } A' E =
              { abs s A E with blocks := Coarse.modify (viewB B).data (fun _ => ⟨B.data, alignUp B.data a - B.data, false, (viewB B).listed⟩) (absL s1 A') } := by
            rw [hm]
            unfold abs
            dsimp only
            rw [absF_upd (s := s1) (s' := { s1 with
              blk := upd s1.blk b (some { B with used := false, size := alignUp B.data a - B.data }) }) hb1
              (C := { B with used := false, size := alignUp B.data a - B.data }) rfl rfl, a9.2.2.1, a9.2.2.2.1, a9.2.2.2.2]
          unfold Coarse.createAligned
          dsimp only
          rw [if_pos (c := a > 0 ∧ alignUp (viewB B).data a - (viewB B).data > 0) h1,
            show (cenv env ho g).splitCb (viewB B).data (viewB B).size (alignUp (viewB B).data a - (viewB B).data) = .success from h2, hk, hst]
          rfl
        have hpre : ∀ q, Ev (pure (if r = true then (Res.success, b') else (Res.outOfHostMemory, b)) : M (Res × Addr)) s3 q s3 →
            Ev (createAligned env b a) s q s3 := by
          intro q hq
          unfold createAligned
          exact Ev.bind (getB_ev hb) (Ev.ite_pos h1 (Ev.ite_pos h2 (Ev.bind a1 (Ev.ite_neg a2 (Ev.bind (modB_ev _ hb1) (Ev.bind g1 hq))))))
        have hst : Step (· = b) s s3 := ((a7.mono (Y := (· = b)) (fun _ _ _ _ _ h => h.elim)).trans Step.mod).trans g4
        have hcl : Clean s → Zero s → Clean s3 := by
          intro hC hz
          refine clean_upd (clean_upd (s' := { s1 with
            blk := upd s1.blk b (some { B with used := false, size := alignUp B.data a - B.data }) }) (clean_upd hC (C := ⟨_, _, g, 0⟩) (fun _ => rfl) a4) (fun h => ?_) rfl) (fun h => ?_) g3
          · cases h
          · cases h
        cases r with
        | true =>
          refine ⟨.success, b', s3, A', ⟨B.data + (alignUp B.data a - B.data), B.size - (alignUp B.data a - B.data), g, 0⟩, E', hpre _ (by rw [if_pos rfl]; exact .pure _ _), g2, ?_, rfl, hst, .inr a3, fun hC hz _ => ⟨hcl hC hz, a8 hz⟩,
            true, true, g, fun _ => ⟨rfl, rfl⟩, a8, fun ho q1 q2 => ?_⟩
          · rw [g3, upd_ne _ _ hbb.symm]
            dsimp only
            rw [upd_ne _ _ hbb.symm, a4, upd_same]
          · rw [habs ho q1, g8 env ho g .freeAdd1 q2]
            rfl
        | false =>
          refine ⟨.outOfHostMemory, b, s3, A', ⟨B.data, alignUp B.data a - B.data, false, e⟩, E', hpre _ (by rw [if_neg (by decide)]; exact .pure _ _), g2, by rw [g3, upd_same], g5 rfl, hst, .inl rfl,
            fun hC hz _ => ⟨hcl hC hz, rfl⟩, true, false, g, fun h => ⟨rfl, g6 h⟩, a8, fun ho q1 q2 => ?_⟩
          rw [habs ho q1, g8 env ho g .freeAdd1 q2, g7 rfl]
          have he := g5 rfl
          subst he
          unfold viewB
          dsimp only
          rw [hf]
          rfl
    · refine ⟨env.splitCb B.data B.size (alignUp B.data a - B.data), b, s, A, B, E, ?_, h, hb, hf, .rfl, .inl rfl, fun hC _ hu => ⟨hC, hu⟩, true, true, false, fun _ => ⟨rfl, rfl⟩, fun _ => rfl, fun ho _ _ => ?_⟩
      · unfold createAligned
        exact Ev.bind (getB_ev hb) (Ev.ite_pos h1 (Ev.ite_neg h2 (.pure _ _)))
      · unfold Coarse.createAligned
        dsimp only
        rw [if_pos (c := a > 0 ∧ alignUp (viewB B).data a - (viewB B).data > 0) h1]
        show (match env.splitCb B.data B.size (alignUp B.data a - B.data) with | .success => _ | r => (abs s A E, r, viewB B)) = _
        cases hr : env.splitCb B.data B.size (alignUp B.data a - B.data) <;> first | rfl | exact absurd hr h2
  · refine ⟨.success, b, s, A, B, E, ?_, h, hb, hf, .rfl, .inl rfl, fun hC _ hu => ⟨hC, hu⟩, true, true, false, fun _ => ⟨rfl, rfl⟩, fun _ => rfl, fun ho _ _ => ?_⟩
    · unfold createAligned
      exact Ev.bind (getB_ev hb) (Ev.ite_neg h1 (.pure _ _))
    · unfold Coarse.createAligned
      dsimp only
      rw [if_neg (c := a > 0 ∧ alignUp (viewB B).data a - (viewB B).data > 0) h1]

/-- `split_current_block`. -/
theorem splitCurrent_inv {b : Addr} {B : Blk} (env : Env) (size : Nat) (h : Inv s A E) (hb : s.blk b = some B) :
    ∃ r s' A' E', Ev (splitCurrent env b size) s r s' ∧ Inv s' A' E' ∧ s'.blk b = some B ∧ Step (fun _ => False) s s' ∧
      (Clean s → Zero s → Clean s') ∧ ∃ k1 k2, (s'.refused = false → k1 = true ∧ k2 = true) ∧ ∀ ho g, ho .addNew2 = k1 → ho .freeAdd2 = k2 →
        Coarse.splitCurrent (cenv env ho g) (abs s A E) (viewB B) size = (abs s' A' E', r) := by
  by_cases h2 : env.splitCb B.data B.size size = .success
  · obtain ⟨s1, ⟨a1, a2, a3, a4, ax, a9⟩ | ⟨b', n', g, A', a1, a2, a3, a4, a5, a6, a7, a8, a9⟩⟩ := addNew_inv h (B.data + size) (B.size - size)
    · obtain ⟨k, kx, ky⟩ := addNew_fail h ax
      refine ⟨.outOfHostMemory, s1, A, E, ?_, a2, by rw [a3]; exact hb, a4, fun hC _ => ?_, k, true, fun h => ⟨kx h, rfl⟩, fun ho g q1 _ => ?_⟩
      · unfold splitCurrent
        exact Ev.bind (getB_ev hb) (Ev.ite_pos h2 (Ev.bind a1 (Ev.ite_pos rfl (.pure _ _))))
      · intro c C hc
        rw [a3] at hc
        exact hC c C hc
      · unfold Coarse.splitCurrent
        rw [show (cenv env ho g).splitCb (viewB B).data (viewB B).size size = .success from h2]
        dsimp only
        have hk : Coarse.addNew (cenv env ho g) .addNew2 (abs s A E).blocks ((viewB B).data + size) ((viewB B).size - size) = none := ky _ _ _ _ _ q1
        rw [hk, a9]
    · have hbb : b ≠ b' := fun e => by rw [← e, hb] at a3; cases a3
      have hb1 : s1.blk b' = some ⟨B.data + size, B.size - size, g, 0⟩ := by rw [a4, upd_same]
      have h3 := a6.mod hb1 (C := ⟨B.data + size, B.size - size, false, 0⟩) rfl rfl (.inl rfl)
      obtain ⟨r, s3, e, E', g1, g2, g3, g4, g5, g6, g7, g8⟩ := freeAdd_inv h3 (b := b') (upd_same _ _ _) rfl
      refine ⟨if r = true then .success else .outOfHostMemory, s3, A', E', ?_, g2, ?_, ?_, fun hC hz => ?_, true, r, fun h => ⟨rfl, g6 h⟩, fun ho g' q1 q2 => ?_⟩
      · unfold splitCurrent
        exact Ev.bind (getB_ev hb) (Ev.ite_pos h2 (Ev.bind a1 (Ev.ite_neg a2 (Ev.bind (modB_ev _ hb1)
          (Ev.bind (dataOf_ev h3.all a5) (Ev.bind g1 (.pure _ _)))))))
      · rw [g3, upd_ne _ _ hbb]
        dsimp only
        rw [upd_ne _ _ hbb, a4, upd_ne _ _ hbb]
        exact hb
      · have hY : ∀ c C, s.blk c = some C → C.used = true → C.fl = 0 → c = b' → False := by
          intro c C hc _ _ e
          rw [e, a3] at hc
          cases hc
        exact (a7.trans' Step.mod hY).trans' g4 hY
      · refine clean_upd (clean_upd (s' := { s1 with
            blk := upd s1.blk b' (some ⟨B.data + size, B.size - size, false, 0⟩) }) (clean_upd hC (C := ⟨_, _, g, 0⟩) (fun _ => rfl) a4) (fun h => ?_) rfl) (fun h => ?_) g3
        · cases h
        · cases h
      · unfold Coarse.splitCurrent
        rw [show (cenv env ho g').splitCb (viewB B).data (viewB B).size size = .success from h2]
        dsimp only
        have hk : Coarse.addNew (cenv env ho g') .addNew2 (abs s A E).blocks ((viewB B).data + size) ((viewB B).size - size) = _ := a9.1 env ho g' .addNew2 q1
        rw [hk]
        dsimp only
        have hm : Coarse.modify ((viewB B).data + size) (fun n => { n with used := false }) (absL { s with
            blk := upd s.blk b' (some ⟨B.data + size, B.size - size, g', 0⟩) } A') = absL { s1 with
            blk := upd s1.blk b' (some ⟨B.data + size, B.size - size, false, 0⟩) } A' :=
          a9.modify a4 a5 (C := ⟨B.data + size, B.size - size, false, 0⟩) (fun n => { n with used := false }) g' rfl
        rw [hm]
        have hst : abs { s1 with
            blk := upd s1.blk b' (some ⟨B.data + size, B.size - size, false, 0⟩) } A' E = { abs s A E with blocks := (absL { s1 with
              blk := upd s1.blk b' (some ⟨B.data + size, B.size - size, false, 0⟩) } A') } := by
          unfold abs
          dsimp only
          rw [absF_upd (s := s1) (s' := { s1 with
            blk := upd s1.blk b' (some ⟨B.data + size, B.size - size, false, 0⟩) }) hb1 (C := ⟨B.data + size, B.size - size, false, 0⟩) rfl rfl,
            a9.2.2.1, a9.2.2.2.1, a9.2.2.2.2]
        rw [← hst]
        have := g8 env ho g' .freeAdd2 q2
        rw [show (viewB B).data + size = B.data + size from rfl, this]
        cases r with
        | true => rfl
        | false => rw [g7 rfl]; rfl
  · refine ⟨env.splitCb B.data B.size size, s, A, E, ?_, h, hb, .rfl, fun hC _ => hC, true, true, fun _ => ⟨rfl, rfl⟩, fun ho g _ _ => ?_⟩
    · unfold splitCurrent
      exact Ev.bind (getB_ev hb) (Ev.ite_neg h2 (.pure _ _))
    · unfold Coarse.splitCurrent
      show (match env.splitCb B.data B.size size with | .success => _ | r => (abs s A E, r)) = _
      cases hr : env.splitCb B.data B.size size <;> first | rfl | exact absurd hr h2

/-- The block is used. -/
theorem useBlock_inv {b : Addr} {B : Blk} (size : Nat) (h : Inv s A E) (hb : s.blk b = some B) (hf : B.fl = 0) :
    ∃ s', Ev (useBlock b size) s { res := .success, ptr := B.data } s' ∧ Inv s' A E ∧ Step (· = b) s s' ∧ (Clean s → Clean s') ∧
      SolidAt s' b B.data ∧ abs s' A E = { abs s A E with
        blocks := Coarse.modify B.data (fun x => { x with used := true }) (absL s A)
        usedSize := s.usedSize + size } := by
  have h1 := h.mod hb (C := { B with used := true }) rfl rfl (.inr rfl)
  refine ⟨{ s with
    blk := upd s.blk b (some { B with used := true })
    usedSize := s.usedSize + size
    allocSize := s.allocSize + 0 }, ?_, h1.same rfl rfl rfl rfl (fun h => h), ?_, ?_, ⟨_, upd_same _ _ _, rfl, rfl, hf⟩, ?_⟩
  · unfold useBlock
    exact Ev.bind (modB_ev _ hb) (Ev.bind (.of fun _ => rfl) (Ev.bind (getB_ev (b := b) (B := { B with used := true }) (upd_same _ _ _)) (.pure _ _)))
  · exact ⟨fun _ _ h _ _ hn => (upd_ne _ _ hn).trans h, fun _ h => h, fun h => h⟩
  · exact fun hC => clean_upd (b := b) (C := { B with used := true }) hC (fun _ => hf) rfl
  · rw [h.modify (s' := { s with
      blk := upd s.blk b (some { B with used := true })
      usedSize := s.usedSize + size
      allocSize := s.allocSize + 0 }) hb (C := { B with used := true }) rfl rfl]
    unfold abs
    dsimp only
    rw [absF_upd (s' := { s with
      blk := upd s.blk b (some { B with used := true })
      usedSize := s.usedSize + size
      allocSize := s.allocSize + 0 }) hb (C := { B with used := true }) rfl rfl]
    rfl

/-- The other model, after the alignment. -/
def cutA (env : Coarse.Env) (st : Coarse.St) (c : Coarse.Block) (size : Nat) (sp : Bool) : Coarse.St × Coarse.Out :=
  if sp = true then
    match Coarse.splitCurrent env st c size with
    | (st3, .success) => ({ st3 with
        blocks := Coarse.modify c.data (fun x => { x with size := size, used := true }) st3.blocks
        usedSize := st3.usedSize + size }, { res := .success, ptr := c.data })
    | (st3, r) => ((Coarse.mergeAndAdd env st3 c.data).1, { res := r })
  else ({ st with
    blocks := Coarse.modify c.data (fun x => { x with used := true }) st.blocks
    usedSize := st.usedSize + size }, { res := .success, ptr := c.data })

theorem allocFrom_eq (env : Coarse.Env) (st : Coarse.St) (b : Coarse.Block) (size a : Nat) : Coarse.allocFrom env st b size a =
    match Coarse.createAligned env st b a with
    | (st2, .success, c) => cutA env st2 c size (decide (b.size > size))
    | (st2, r, c) => ((Coarse.mergeAndAdd env st2 c.data).1, { res := r }) := by
  unfold Coarse.allocFrom cutA
  obtain ⟨st2, r, c⟩ := Coarse.createAligned env st b a
  cases r with
  | success =>
    dsimp only
    by_cases h : b.size > size
    · rw [if_pos h, if_pos (decide_eq_true h)]
      rfl
    · rw [if_neg h, if_neg (by simpa using h)]
  | _ => rfl

/-- After the alignment. -/
theorem cutBlock_inv {b : Addr} {B : Blk} (env : Env) (size : Nat) (sp : Bool) (h : Inv s A E) (hb : s.blk b = some B) (hf : B.fl = 0) :
    ∃ r s' A' E', Ev (cutBlock env b size sp) s r s' ∧ Inv s' A' E' ∧ Step (· = b) s s' ∧ (Clean s → Zero s → B.used = false → Clean s') ∧
      (r.res = .success → SolidAt s' b r.ptr) ∧ ∃ k1 k2 k3, (s'.refused = false → k1 = true ∧ k2 = true ∧ k3 = true) ∧ ∀ ho g, ho .addNew2 = k1 → ho .freeAdd2 = k2 → ho .reAdd = k3 →
        Same (cutA (cenv env ho g) (abs s A E) (viewB B) size sp) (abs s' A' E') r := by
  cases sp with
  | true =>
    obtain ⟨r, s1, A1, E1, a1, a2, a3, a4, a5, k1, k2, kx, a6⟩ := splitCurrent_inv env size h hb
    have a4' : Step (· = b) s s1 := a4.mono fun _ _ _ _ _ h => h.elim
    by_cases hr : r = .success
    · have h1 := a2.mod a3 (C := { B with size := size }) rfl rfl (.inl hf)
      obtain ⟨s2, g1, g2, g3, g4, g5, g6⟩ := useBlock_inv size h1 (b := b) (upd_same _ _ _) hf
      refine ⟨{ res := .success, ptr := B.data }, s2, A1, E1, ?_, g2, (a4'.trans Step.mod).trans g3, fun hC hz _ => g4 (clean_upd (b := b) (C := { B with size := size }) (a5 hC hz) (fun _ => hf) rfl), fun _ => g5,
        k1, k2, true, fun h => ⟨(kx (g3.ref h)).1, (kx (g3.ref h)).2, rfl⟩, fun ho g q1 q2 _ => ?_⟩
      · unfold cutBlock
        exact Ev.ite_pos rfl (Ev.bind a1 (Ev.ite_pos hr (Ev.bind (modB_ev _ a3) g1)))
      · subst hr
        have hm1 := a2.modify (s' := { s1 with blk := upd s1.blk b (some { B with size := size }) }) (f := fun x => { x with size := size }) a3
          (C := { B with size := size }) rfl rfl
        have hmm : Coarse.modify B.data (fun x => { x with size := size, used := true }) (absL s1 A1) =
            Coarse.modify B.data (fun x => { x with used := true }) (absL { s1 with blk := upd s1.blk b (some { B with size := size }) } A1) := by
          rw [← hm1]
          unfold Coarse.modify
          rw [List.map_map]
          refine List.map_congr_left fun x _ => ?_
          by_cases hx : x.data = B.data <;> simp [hx]
        unfold cutA
        rw [if_pos rfl, a6 ho g q1 q2]
        refine ⟨?_, rfl, rfl⟩
        dsimp only
        rw [g6]
        show Coarse.St.mk (Coarse.modify B.data _ (absL s1 A1)) (absF s1 E1) _ _ = Coarse.St.mk _ (absF _ E1) _ _
        rw [hmm, absF_upd (s := s1) (s' := { s1 with blk := upd s1.blk b (some { B with size := size }) }) a3 (C := { B with size := size }) rfl rfl]
        rfl
    · obtain ⟨q, s2, A2, E2, g1, g2, g3, g4, g5, g6⟩ := reAdd_inv env a2 a3 hf
      refine ⟨{ res := r }, s2, A2, E2, ?_, g2, a4'.trans g3, fun hC hz hu => g4 (a5 hC hz) hu, fun h' => absurd h' hr, k1, k2, q, fun h => ⟨(kx (g3.ref h)).1, (kx (g3.ref h)).2, g5 h⟩, fun ho g q1 q2 q3 => ?_⟩
      · unfold cutBlock
        exact Ev.ite_pos rfl (Ev.bind a1 (Ev.ite_neg hr (Ev.bind g1 (.pure _ _))))
      · have := g6 ho g q3
        unfold cutA
        rw [if_pos rfl, a6 ho g q1 q2]
        show Same (match (abs s1 A1 E1, r) with
          | (st3, .success) => _
          | (st3, r) => ((Coarse.mergeAndAdd (cenv env ho g) st3 B.data).1, { res := r })) _ _
        cases r <;> first | exact absurd rfl hr | (dsimp only; rw [this]; exact ⟨rfl, rfl, rfl⟩)
  | false =>
    obtain ⟨s2, g1, g2, g3, g4, g5, g6⟩ := useBlock_inv size h hb hf
    refine ⟨{ res := .success, ptr := B.data }, s2, A, E, ?_, g2, g3, fun hC _ _ => g4 hC, fun _ => g5, true, true, true, fun _ => ⟨rfl, rfl, rfl⟩, fun ho g _ _ _ => ?_⟩
    · unfold cutBlock
      exact Ev.ite_neg (by decide) g1
    · unfold cutA
      rw [if_neg (by decide), g6]
      exact ⟨rfl, rfl, rfl⟩

/-- There is a free block. -/
theorem allocFrom_inv {b : Addr} {B : Blk} (env : Env) (size a : Nat) (sp : Bool) (h : Inv s A E) (hb : s.blk b = some B) (hf : B.fl = 0) :
    ∃ r s' A' E', Ev (allocFrom env b size a sp) s r s' ∧ Inv s' A' E' ∧ Step (· = b) s s' ∧ (Clean s → Zero s → B.used = false → Clean s') ∧
      (r.res = .success → ∃ c, SolidAt s' c r.ptr ∧ (c = b ∨ s.blk c = none)) ∧
      (sp = decide (B.size > size) → ∃ ho g, (s'.refused = false → ∀ x, ho x = true) ∧ (Zero s → g = false) ∧ Same (Coarse.allocFrom (cenv env ho g) (abs s A E) (viewB B) size a) (abs s' A' E') r) := by
  obtain ⟨r, c, s1, A1, C, E1, a1, a2, a3, a4, a5, a6, a7, k1, k2, g0, kx, kz, a8⟩ := createAligned_inv env a h hb hf
  have hY : ∀ c' C', s.blk c' = some C' → C'.used = true → C'.fl = 0 → c' = c → c' = b := by
    intro c' C' hc _ _ e
    rcases a6 with h' | h'
    · exact e.trans h'
    · rw [e, h'] at hc
      cases hc
  by_cases hr : r = .success
  · obtain ⟨q, s2, A2, E2, g1, g2, g3, g4, g5, k3, k4, k5, ky, g6⟩ := cutBlock_inv env size sp a2 a3 a4
    refine ⟨q, s2, A2, E2, ?_, g2, a5.trans' g3 hY, fun hC hz hu => g4 (a7 hC hz hu).1 (hz.of a5.host) (a7 hC hz hu).2, fun h' => ⟨c, g5 h', a6⟩,
      fun hsp => ⟨hof k1 k2 k3 k4 k5, g0, fun h x => ?_, kz, ?_⟩⟩
    · unfold allocFrom
      exact Ev.bind a1 (Ev.ite_pos hr g1)
    · obtain ⟨y1, y2⟩ := kx (g3.ref h)
      obtain ⟨y3, y4, y5⟩ := ky h
      cases x <;> assumption
    · subst hr
      rw [allocFrom_eq, a8 _ rfl rfl]
      have := g6 (hof k1 k2 k3 k4 k5) g0 rfl rfl rfl
      rw [hsp] at this
      exact this
  · obtain ⟨q, s2, A2, E2, g1, g2, g3, g4, g5, g6⟩ := reAdd_inv env a2 a3 a4
    refine ⟨{ res := r }, s2, A2, E2, ?_, g2, a5.trans' g3 hY, fun hC hz hu => g4 (a7 hC hz hu).1 (a7 hC hz hu).2, fun h' => absurd h' hr,
      fun _ => ⟨hof k1 k2 true true q, g0, fun h x => ?_, kz, ?_⟩⟩
    · unfold allocFrom
      exact Ev.bind a1 (Ev.ite_neg hr (Ev.bind g1 (.pure _ _)))
    · obtain ⟨y1, y2⟩ := kx (g3.ref h)
      have y5 := g5 h
      cases x <;> first | assumption | rfl
    · have := g6 (hof k1 k2 true true q) g0 rfl
      rw [allocFrom_eq, a8 _ rfl rfl]
      show Same (match (abs s1 A1 E1, r, viewB C) with
        | (st2, .success, c) => _
        | (st2, r, c) => ((Coarse.mergeAndAdd (cenv env (hof k1 k2 true true q) g0) st2 c.data).1, { res := r })) _ _
      have hd : (viewB C).data = C.data := rfl
      cases r <;> first | exact absurd rfl hr | (dsimp only; rw [hd, this]; exact ⟨rfl, rfl, rfl⟩)

/-- `coarse_add_used_block`. -/
theorem addUsedBlock_inv (d size : Nat) (h : Inv s A E) :
    ∃ r s' A', Ev (addUsedBlock d size) s r s' ∧ Inv s' A' E ∧ Step (fun _ => False) s s' ∧ (Clean s → Clean s') ∧
      (r = true → ∃ b B, s.blk b = none ∧ s'.blk b = some B ∧ B.data = d ∧ B.used = true ∧ B.fl = 0) ∧ (r = false → abs s' A' E = abs s A E ∧ ∃ k, (s'.refused = false → k = true) ∧
        ∀ env ho g site size, ho site = k → Coarse.addNew (cenv env ho g) site (absL s A) d size = none) ∧
      (r = true → ∀ env ho g, ho .addNew1 = true → ∃ bl, Coarse.addNew (cenv env ho g) .addNew1 (absL s A) d size = some bl ∧
        abs s' A' E = ⟨Coarse.modify d (fun b => { b with used := true }) bl, absF s E, s.usedSize + size, s.allocSize + size⟩) := by
  obtain ⟨s1, ⟨a1, a2, a3, a4, ax, a9⟩ | ⟨b', n', g, A', a1, a2, a3, a4, a5, a6, a7, a8, a9⟩⟩ := addNew_inv h d size
  · refine ⟨false, s1, A, ?_, a2, a4, fun hC c C hc => ?_, (fun h => by cases h), (fun _ => ⟨a9, addNew_fail h ax⟩), fun h => by cases h⟩
    · unfold addUsedBlock
      exact Ev.bind a1 (Ev.ite_pos rfl (.pure _ _))
    · rw [a3] at hc
      exact hC c C hc
  · have hb1 : s1.blk b' = some ⟨d, size, g, 0⟩ := by rw [a4, upd_same]
    have h3 := a6.mod hb1 (C := ⟨d, size, true, 0⟩) rfl rfl (.inl rfl)
    refine ⟨true, { s1 with
      blk := upd s1.blk b' (some ⟨d, size, true, 0⟩)
      usedSize := s1.usedSize + size
      allocSize := s1.allocSize + size }, A', ?_, h3.same rfl rfl rfl rfl (fun h => h), ?_, fun hC => ?_, fun _ => ⟨b', _, a3, upd_same _ _ _, rfl, rfl, rfl⟩, (fun h => by cases h), fun _ env ho g' q1 => ⟨_, a9.1 env ho g' .addNew1 q1, ?_⟩⟩
    · unfold addUsedBlock
      exact Ev.bind a1 (Ev.ite_neg a2 (Ev.bind (modB_ev _ hb1) (Ev.bind (.of fun _ => rfl) (.pure _ _))))
    · refine a7.trans' (Y := (· = b')) ⟨fun _ _ h _ _ hn => (upd_ne _ _ hn).trans h, fun _ h => h, fun h => h⟩ fun c C hc _ _ e => ?_
      rw [e, a3] at hc
      cases hc
    · exact clean_upd (clean_upd hC (C := ⟨d, size, g, 0⟩) (fun _ => rfl) a4) (C := ⟨d, size, true, 0⟩) (fun _ => rfl) rfl
    · rw [a9.modify a4 a5 (C := ⟨d, size, true, 0⟩) (fun b => { b with used := true }) g' rfl]
      unfold abs
      dsimp only
      rw [absF_upd (s := s1) (s' := { s1 with
        blk := upd s1.blk b' (some ⟨d, size, true, 0⟩)
        usedSize := s1.usedSize + size
        allocSize := s1.allocSize + size }) hb1 (C := ⟨d, size, true, 0⟩) rfl rfl, a9.2.2.1, ← a9.2.2.2.1, ← a9.2.2.2.2]
      rfl

/-- There is no free block. -/
theorem allocUpstream_inv (cfg : Cfg) (env : Env) (size a : Nat) (h : Inv s A E) :
    ∃ r s' A', Ev (allocUpstream cfg env size a) s r s' ∧ Inv s' A' E ∧ Step (fun _ => False) s s' ∧ (Clean s → Clean s') ∧
      (r.res = .success → ∃ c, SolidAt s' c r.ptr ∧ s.blk c = none) ∧
      ∃ k, (s'.refused = false → k = true) ∧ ∀ ho g, ho .addNew1 = k → Same (Coarse.allocUpstream cfg (cenv env ho g) (abs s A E) size a) (abs s' A' E) r := by
  by_cases h1 : cfg.hasAlloc = true
  · by_cases h2 : (env.upAlloc size a).1 = .success
    · obtain ⟨r, s', A', a1, a2, a3, a4, a5, a6, a7⟩ := addUsedBlock_inv (env.upAlloc size a).2 size h
      have hup : ∀ ho g, (cenv env ho g).upAlloc size a = .ok (env.upAlloc size a).2 := fun ho g => if_pos h2
      have hk : ∃ k, (s'.refused = false → k = true) ∧ (r = true → k = true) ∧
          (r = false → ∀ ho g, ho .addNew1 = k → Coarse.addNew (cenv env ho g) .addNew1 (abs s A E).blocks (env.upAlloc size a).2 size = none) := by
        cases r with
        | true => exact ⟨true, fun _ => rfl, fun _ => rfl, fun h => by cases h⟩
        | false =>
          obtain ⟨-, k, kx, ky⟩ := a6 rfl
          exact ⟨k, kx, (fun h => by cases h), fun _ ho g => ky env ho g .addNew1 size⟩
      obtain ⟨k, kx, ky, kz⟩ := hk
      refine ⟨if r = true then { res := .success, ptr := (env.upAlloc size a).2 }
        else { res := .outOfHostMemory, freed := if cfg.hasFree = true then [((env.upAlloc size a).2, size)] else [] }, s', A', ?_, a2, a3, a4, ?_, k, kx, fun ho g q1 => ?_⟩
      · unfold allocUpstream
        exact Ev.ite_pos h1 (Ev.ite_pos h2 (Ev.bind a1 (.pure _ _)))
      · cases r with
        | false => intro h; cases h
        | true =>
          intro _
          obtain ⟨b, B, h0, h'⟩ := a5 rfl
          exact ⟨b, ⟨B, h'⟩, h0⟩
      · unfold Coarse.allocUpstream
        rw [if_pos h1, hup]
        dsimp only
        cases r with
        | false =>
          rw [kz rfl ho g q1]
          exact ⟨(a6 rfl).1.symm, rfl, rfl⟩
        | true =>
          obtain ⟨bl, l1, l2⟩ := a7 rfl env ho g (q1.trans (ky rfl))
          have l1' : Coarse.addNew (cenv env ho g) .addNew1 (abs s A E).blocks (env.upAlloc size a).2 size = some bl := l1
          rw [l1', l2]
          exact ⟨rfl, rfl, rfl⟩
    · refine ⟨{ res := (env.upAlloc size a).1 }, s, A, ?_, h, .rfl, fun h => h, fun h' => absurd h' h2, true, fun _ => rfl, fun ho g _ => ?_⟩
      · unfold allocUpstream
        exact Ev.ite_pos h1 (Ev.ite_neg h2 (.pure _ _))
      · have hup : (cenv env ho g).upAlloc size a = .error (env.upAlloc size a).1 := if_neg h2
        unfold Coarse.allocUpstream
        rw [if_pos h1, hup]
        exact ⟨rfl, rfl, rfl⟩
  · refine ⟨{ res := .outOfHostMemory }, s, A, ?_, h, .rfl, fun h => h, (fun h => by cases h), true, fun _ => rfl, fun ho g _ => ?_⟩
    · unfold allocUpstream
      exact Ev.ite_neg h1 (.pure _ _)
    · unfold Coarse.allocUpstream
      rw [if_neg h1]
      exact ⟨rfl, rfl, rfl⟩

/-- A block was taken from its list, or none was found; `q`: what the other model finds. -/
def Took (s s' : St) (A : List (Addr × Nat × Addr)) (E E' : List Ent) (r : Addr) (q : Option (Nat × Nat)) : Prop :=
  (r = 0 ∧ s'.blk = s.blk ∧ E' = E ∧ abs s' A E' = abs s A E ∧ (NoEmpty s → q = none)) ∨
  (r ≠ 0 ∧ ∃ B, s.blk r = some B ∧ B.fl ≠ 0 ∧ s'.blk r = some { B with fl := 0 } ∧ abs s' A E' = Coarse.unlist (abs s A E) (B.size, B.data) ∧
    (NoEmpty s → q = some (B.size, B.data)))

/-- `free_blocks_rm_ge`. -/
theorem rmGe_inv (size a : Nat) (c : Check) (h : Inv s A E) : (¬ NoEmpty s ∧ EvN (rmGe size a c) s) ∨
    ∃ r s' E', Ev (rmGe size a c) s r s' ∧ Inv s' A E' ∧ (NoEmpty s → NoEmpty s') ∧ Step (fun _ => False) s s' ∧ (Clean s → Clean s') ∧
      Took s s' A E E' r (Coarse.rmGe size a c (absF s E)) := by
  obtain ⟨F, hI⟩ := h.lists
  rcases rmGe_ok (size := size) (a := a) (c := c) hI with hx | ⟨r, s', F', E', g1, g2, g3, g4, g5⟩
  · exact .inl hx
  right
  rcases g5 with ⟨rfl, g5, rfl, g6⟩ | ⟨X, m, Y, B, rfl, rfl, rfl, b1, b2, b3, b4⟩
  · refine ⟨0, s', E', g1, h.relist g2.all g3 (by rw [g5]; intro; rfl) fun e => g4 (h.heads (g2.ref e)), g4, ⟨fun _ _ h _ _ _ => by rw [g5]; exact h, g2.host, g2.ref⟩,
      fun hC b B hb => ?_, .inl ⟨rfl, g5, rfl, abs_congr (absL_blk g5) (absF_blk g5) g2.sizes, g6⟩⟩
    rw [g5] at hb
    exact hC b B hb
  · refine ⟨m.blk, s', X ++ Y, g1, h.relist g2.all g3 (by rw [b3]; exact upd_data b1 rfl) fun e => g4 (h.heads (g2.ref e)), g4, ⟨fun c C hc _ hf _ => ?_, g2.host, g2.ref⟩,
      fun hC => clean_upd hC (fun _ => rfl) b3, .inr ⟨(h.node b1).1, B, b1, b2, by rw [b3, upd_same], ?_, b4⟩⟩
    · rw [b3, upd_ne _ _ ?_]
      · exact hc
      · rintro rfl
        rw [b1] at hc
        cases hc
        exact b2 hf
    · have e1 : Coarse.modify B.data (fun b => { b with listed := false }) (absL s A) = absL s' A :=
        h.modify b1 (C := { B with fl := 0 }) (by unfold viewB; simp) b3
      unfold Coarse.unlist abs
      dsimp only
      rw [erase_abs h b1, e1, g2.sizes.1, g2.sizes.2, absF_upd (C := { B with fl := 0 }) b1 rfl b3]

/-- `find_free_block`. -/
theorem findFree_inv (cfg : Cfg) (size a : Nat) (h : Inv s A E) : (¬ NoEmpty s ∧ EvN (findFree cfg size a) s) ∨
    ∃ r s' E', Ev (findFree cfg size a) s r s' ∧ Inv s' A E' ∧ Step (fun _ => False) s s' ∧ (Clean s → Clean s') ∧
      Took s s' A E E' r (Coarse.findFree cfg size a (absF s E)) := by
  have hfast : ∀ {s : St}, Inv s A E → (¬ NoEmpty s ∧ EvN (findFastest size a) s) ∨
      ∃ r s' E', Ev (findFastest size a) s r s' ∧ Inv s' A E' ∧ Step (fun _ => False) s s' ∧ (Clean s → Clean s') ∧
      Took s s' A E E' r (if size + a ≥ 2 ^ 64 then none else Coarse.rmGe (size + a) 0 .first (absF s E)) := by
    intro s h
    unfold findFastest
    by_cases h1 : size + a ≥ 2 ^ 64
    · exact .inr ⟨0, s, E, Ev.ite_pos h1 (.pure _ _), h, .rfl, fun h => h, .inl ⟨rfl, rfl, rfl, rfl, fun _ => if_pos h1⟩⟩
    · rw [if_neg (c := size + a ≥ 2 ^ 64) (t := (none : Option (Nat × Nat))) h1]
      rcases rmGe_inv (size + a) 0 .first h with ⟨hx, hy⟩ | ⟨r, s', E', g1, g2, -, g4, g5, g6⟩
      · exact .inl ⟨hx, EvN.ite_neg h1 hy⟩
      · exact .inr ⟨r, s', E', Ev.ite_neg h1 g1, g2, g4, g5, g6⟩
  have htwo : ∀ c, (¬ NoEmpty s ∧ EvN (rmGe size a c >>= fun b => if b ≠ 0 then pure b else findFastest size a) s) ∨
      ∃ r s' E', Ev (rmGe size a c >>= fun b => if b ≠ 0 then pure b else findFastest size a) s r s' ∧ Inv s' A E' ∧
      Step (fun _ => False) s s' ∧ (Clean s → Clean s') ∧ Took s s' A E E' r (match Coarse.rmGe size a c (absF s E) with
        | some e => some e
        | none => if size + a ≥ 2 ^ 64 then none else Coarse.rmGe (size + a) 0 .first (absF s E)) := by
    intro c
    rcases rmGe_inv size a c h with ⟨hx, hy⟩ | ⟨r, s1, E1, g1, g2, g3, g4, g5, g6⟩
    · exact .inl ⟨hx, hy.bind⟩
    rcases g6 with ⟨rfl, g6, rfl, g7, g8⟩ | ⟨hr, B, b1, b2, b3, b4, b5⟩
    · rcases hfast g2 with ⟨hx, hy⟩ | ⟨q, s2, E2, k1, k2, k3, k4, k5⟩
      · exact .inl ⟨fun hN => hx (g3 hN), Ev.bindN g1 (EvN.ite_neg (fun h => h rfl) hy)⟩
      refine .inr ⟨q, s2, E2, Ev.bind g1 (Ev.ite_neg (fun h => h rfl) k1), k2, g4.trans k3, fun h => k4 (g5 h), ?_⟩
      rw [absF_blk (s := s) g6] at k5
      rcases k5 with ⟨j1, j2, j3, j4, j5⟩ | ⟨j1, B, j2, j3, j4, j5, j6⟩
      · exact .inl ⟨j1, j2.trans g6, j3, j4.trans g7, fun hN => by rw [g8 hN]; exact j5 (g3 hN)⟩
      · exact .inr ⟨j1, B, by rw [← g6]; exact j2, j3, j4, by rw [j5, g7], fun hN => by rw [g8 hN]; exact j6 (g3 hN)⟩
    · exact .inr ⟨r, s1, E1, Ev.bind g1 (Ev.ite_pos hr (.pure _ _)), g2, g4, g5, .inr ⟨hr, B, b1, b2, b3, b4, fun hN => by rw [b5 hN]⟩⟩
  unfold findFree Coarse.findFree
  dsimp only
  cases cfg.strategy with
  | fastest => exact hfast h
  | fastestButOne => exact htwo _
  | checkAllSize => exact htwo _

/-- `coarse_alloc`. -/
theorem alloc_inv (cfg : Cfg) (env : Env) (size align : Nat) (h : Inv s A E) :
    (¬ NoEmpty s ∧ EvN (alloc cfg env size align) s) ∨ ∃ r s' A' E', Ev (alloc cfg env size align) s r s' ∧ Inv s' A' E' ∧ Step (fun _ => False) s s' ∧ (Clean s → Zero s → Clean s') ∧
      (r.res = .success → ∃ c, SolidAt s' c r.ptr ∧ ∀ C, s.blk c = some C → C.used = true → C.fl = 0 → False) ∧
      (NoEmpty s → ∃ ho g, (s'.refused = false → ∀ x, ho x = true) ∧ (Zero s → g = false) ∧ Same (Coarse.alloc cfg (cenv env ho g) (abs s A E) size align) (abs s' A' E') r) := by
  cases he : effAlign cfg.page align with
  | none =>
    refine .inr ⟨{ res := .invalidAlignment }, s, A, E, ?_, h, .rfl, fun h _ => h, (fun h => by cases h), fun _ => ⟨fun _ => true, false, fun _ _ => rfl, fun _ => rfl, ?_⟩⟩
    · unfold alloc
      rw [he]
      exact .pure _ _
    · unfold Coarse.alloc
      rw [he]
      exact ⟨rfl, rfl, rfl⟩
  | some a =>
    rcases findFree_inv cfg size a h with ⟨hx, hy⟩ | ⟨b, s1, E1, g1, g2, g3, g4, g5⟩
    · refine .inl ⟨hx, ?_⟩
      unfold alloc
      rw [he]
      exact hy.bind
    right
    obtain ⟨u, s2, A2, u1, u2, u3, u4, u5, ku, kx, u7⟩ := allocUpstream_inv cfg env size a g2
    have hfr : (abs s A E).free = absF s E := rfl
    have u6 : u.res = .success → ∃ c, SolidAt s2 c u.ptr ∧ ∀ C, s.blk c = some C → C.used = true → C.fl = 0 → False := by
      intro h'
      obtain ⟨c, c1, c2⟩ := u5 h'
      refine ⟨c, c1, fun C hc hu hf => ?_⟩
      rw [g3.keep c C hc hu hf fun h => h] at c2
      cases c2
    rcases g5 with ⟨rfl, -, rfl, j1, j2⟩ | ⟨hb, B, b1, b2, b3, b4, b5⟩
    · refine ⟨u, s2, A2, E1, ?_, u2, g3.trans u3, fun hC _ => u4 (g4 hC), u6, fun hN => ⟨fun _ => ku, false, fun h _ => kx h, fun _ => rfl, ?_⟩⟩
      · unfold alloc
        rw [he]
        exact Ev.bind g1 (Ev.ite_pos rfl u1)
      · unfold Coarse.alloc
        rw [he]
        dsimp only
        rw [hfr, j2 hN, ← j1]
        exact u7 _ false rfl
    · have hu : Clean s → B.used = false := by
        intro hC
        cases hB : B.used with
        | false => rfl
        | true => exact absurd (hC b B b1 hB) b2
      have hl : Coarse.lookup B.data (abs s A E).blocks = some (viewB B) := by
        obtain ⟨-, n, hn⟩ := h.node b1
        exact lookup_abs h.keyed hn b1
      have hfrom : ∀ sp, ∃ r s' A' E', Ev (allocFrom env b size a sp) s1 r s' ∧ Inv s' A' E' ∧ Step (fun _ => False) s s' ∧
          (Clean s → Zero s → Clean s') ∧ (r.res = .success → ∃ c, SolidAt s' c r.ptr ∧ ∀ C, s.blk c = some C → C.used = true → C.fl = 0 → False) ∧
          (sp = decide (B.size > size) → B.size ≥ size → NoEmpty s → ∃ ho g, (s'.refused = false → ∀ x, ho x = true) ∧ (Zero s → g = false) ∧ Same (Coarse.alloc cfg (cenv env ho g) (abs s A E) size align) (abs s' A' E') r) := by
        intro sp
        obtain ⟨r, s3, A3, E3, k1, k2, k3, k4, k5, k6⟩ := allocFrom_inv env size a sp g2 b3 rfl
        refine ⟨r, s3, A3, E3, k1, k2, g3.trans' k3 fun c C hc _ hf e => ?_, fun hC hz => k4 (g4 hC) (hz.of g3.host) (hu hC), fun h' => ?_, fun hsp hge hN => ?_⟩
        · rw [e, b1] at hc
          cases hc
          exact b2 hf
        · obtain ⟨c, c1, c2⟩ := k5 h'
          refine ⟨c, c1, fun C hc hu hf => ?_⟩
          rcases c2 with rfl | c2
          · rw [b1] at hc
            cases hc
            exact b2 hf
          · rw [g3.keep c C hc hu hf fun h => h] at c2
            cases c2
        · obtain ⟨ho, g, kx, kz, k7⟩ := k6 hsp
          refine ⟨ho, g, kx, fun hz => kz (hz.of g3.host), ?_⟩
          unfold Coarse.alloc
          rw [he]
          dsimp only
          rw [hfr, b5 hN]
          dsimp only
          rw [hl]
          dsimp only
          rw [if_pos (c := (viewB B).size ≥ size) hge, ← b4]
          have hv : viewB { B with fl := 0 } = { viewB B with listed := false } := by
            unfold viewB
            simp
          rw [← hv]
          exact k7
      by_cases h1 : B.size > size
      · obtain ⟨r, s3, A3, E3, k1, k2, k3, k4, k5, k6⟩ := hfrom true
        refine ⟨r, s3, A3, E3, ?_, k2, k3, k4, k5, k6 (decide_eq_true h1).symm (Nat.le_of_lt h1)⟩
        unfold alloc
        rw [he]
        exact Ev.bind g1 (Ev.ite_neg hb (Ev.bind (getB_ev b3) (Ev.ite_pos h1 k1)))
      · by_cases h2 : B.size = size
        · obtain ⟨r, s3, A3, E3, k1, k2, k3, k4, k5, k6⟩ := hfrom false
          refine ⟨r, s3, A3, E3, ?_, k2, k3, k4, k5, k6 (decide_eq_false h1).symm (Nat.le_of_eq h2.symm)⟩
          unfold alloc
          rw [he]
          exact Ev.bind g1 (Ev.ite_neg hb (Ev.bind (getB_ev b3) (Ev.ite_neg h1 (Ev.ite_pos h2 k1))))
        · refine ⟨u, s2, A2, E1, ?_, u2, g3.trans u3, fun hC _ => u4 (g4 hC), u6, fun hN => ⟨fun _ => ku, false, fun h _ => kx h, fun _ => rfl, ?_⟩⟩
          · unfold alloc
            rw [he]
            exact Ev.bind g1 (Ev.ite_neg hb (Ev.bind (getB_ev b3) (Ev.ite_neg h1 (Ev.ite_neg h2 u1))))
          · unfold Coarse.alloc
            rw [he]
            dsimp only
            rw [hfr, b5 hN]
            dsimp only
            rw [hl]
            dsimp only
            rw [if_neg (c := (viewB B).size ≥ size) (fun h' => h2 (Nat.le_antisymm (Nat.not_lt.1 h1) h')), ← b4]
            exact u7 _ false rfl

/-- `coarse_free`. -/
theorem free_inv (env : Env) (ptr bytes : Nat) (h : Inv s A E) (hs : ∀ b B, s.blk b = some B → B.data = ptr → B.used = true → B.fl = 0) :
    ∃ r s' A' E', Ev (free env ptr bytes) s r s' ∧ Inv s' A' E' ∧ Step (fun c => ∃ C, s.blk c = some C ∧ C.data = ptr) s s' ∧ (Clean s → Clean s') ∧
      (r.res = .invalidArgument → s' = s) ∧ ∃ k, (s'.refused = false → k = true) ∧ ∀ ho g, ho .reAdd = k → Same (Coarse.free (cenv env ho g) (abs s A E) ptr bytes) (abs s' A' E') r := by
  by_cases h0 : ptr = 0
  · refine ⟨{ res := .success }, s, A, E, ?_, h, .rfl, fun h => h, fun _ => rfl, true, fun _ => rfl, fun ho g _ => ?_⟩
    · unfold free
      exact Ev.ite_pos h0 (.pure _ _)
    · unfold Coarse.free
      rw [if_pos h0]
      exact ⟨rfl, rfl, rfl⟩
  · rcases findEq_ev h.all ptr with ⟨hev, hno⟩ | ⟨n, b, hn, hn0, hev⟩
    · refine ⟨{ res := .invalidArgument }, s, A, E, ?_, h, .rfl, fun h => h, fun _ => rfl, true, fun _ => rfl, fun ho g _ => ?_⟩
      · unfold free
        exact Ev.ite_neg h0 (Ev.bind hev (Ev.ite_pos rfl (.pure _ _)))
      · have hl : Coarse.lookup ptr (abs s A E).blocks = none := lookup_abs_none h.keyed hno
        unfold Coarse.free
        rw [if_neg h0, hl]
        exact ⟨rfl, rfl, rfl⟩
    · obtain ⟨-, B, b1, b2⟩ := h.block hn
      have hl : Coarse.lookup ptr (abs s A E).blocks = some (viewB B) := lookup_abs h.keyed hn b1
      have hpre : ∀ {r : Ret} {s'}, Ev (if B.used = false then pure { res := .invalidArgument }
          else if bytes > 0 ∧ bytes ≠ B.size then pure { res := .invalidArgument }
          else giveBack env n b) s r s' → Ev (free env ptr bytes) s r s' := by
        intro r s' h'
        unfold free
        exact Ev.ite_neg h0 (Ev.bind hev (Ev.ite_neg hn0 (Ev.bind (dataOf_ev h.all hn) (Ev.bind (getB_ev b1) h'))))
      by_cases h1 : B.used = false
      · refine ⟨{ res := .invalidArgument }, s, A, E, hpre (Ev.ite_pos h1 (.pure _ _)), h, .rfl, fun h => h, fun _ => rfl, true, fun _ => rfl, fun ho g _ => ?_⟩
        unfold Coarse.free
        rw [if_neg h0, hl]
        dsimp only
        rw [if_pos (c := (viewB B).used = false) h1]
        exact ⟨rfl, rfl, rfl⟩
      · by_cases h2 : bytes > 0 ∧ bytes ≠ B.size
        · refine ⟨{ res := .invalidArgument }, s, A, E, hpre (Ev.ite_neg h1 (Ev.ite_pos h2 (.pure _ _))), h, .rfl, fun h => h, fun _ => rfl, true, fun _ => rfl, fun ho g _ => ?_⟩
          unfold Coarse.free
          rw [if_neg h0, hl]
          dsimp only
          rw [if_neg (c := (viewB B).used = false) h1, if_pos (c := bytes > 0 ∧ bytes ≠ (viewB B).size) h2]
          exact ⟨rfl, rfl, rfl⟩
        · have hf : B.fl = 0 := hs b B b1 b2 (by cases hB : B.used with | true => rfl | false => exact absurd hB h1)
          have k1 : Inv { s with
              usedSize := s.usedSize - B.size
              allocSize := s.allocSize - 0 } A E := h.same rfl rfl rfl rfl fun h => h
          have k2 := k1.mod (b := b) (B := B) b1 (C := { B with used := false }) rfl rfl (.inl hf)
          obtain ⟨r, s', A', E', g1, g2, g3, g4, g5, g6⟩ := mergeAdd_inv env k2 hn (b := b) (upd_same _ _ _) hf
          refine ⟨{ res := if r = true then .success else .outOfHostMemory }, s', A', E', hpre (Ev.ite_neg h1 (Ev.ite_neg h2 ?_)), g2, ?_, ?_, ?_, r, g5, fun ho g q1 => ?_⟩
          · unfold giveBack
            exact Ev.bind (getB_ev b1) (Ev.bind (.of fun _ => rfl) (Ev.bind (modB_ev (s := { s with
              usedSize := s.usedSize - B.size
              allocSize := s.allocSize - 0 }) _ b1) (Ev.bind g1 (.pure _ _))))
          · refine ⟨fun c C hc hu hfl hn' => g3.keep c C ?_ hu hfl fun e => hn' ⟨B, by rw [e]; exact b1, b2⟩, g3.host, g3.ref⟩
            dsimp only
            rw [upd_ne _ _ fun e => hn' ⟨B, by rw [e]; exact b1, b2⟩]
            exact hc
          · exact fun hC => g4 (clean_upd (s := s) hC (b := b) (C := { B with used := false }) (fun h => by cases h) rfl) rfl
          · cases r
            · intro h; cases h
            · intro h; cases h
          · have e1 : Coarse.modify ptr (fun b => { b with used := false }) (absL s A) = absL { s with
                usedSize := s.usedSize - B.size
                allocSize := s.allocSize - 0
                blk := upd s.blk b (some { B with used := false }) } A := by
              rw [← b2]
              exact h.modify b1 (C := { B with used := false }) rfl rfl
            have e2 : ({ abs s A E with
                usedSize := (abs s A E).usedSize - (viewB B).size
                blocks := Coarse.modify ptr (fun b => { b with used := false }) (abs s A E).blocks } : Coarse.St) = abs { s with
                usedSize := s.usedSize - B.size
                allocSize := s.allocSize - 0
                blk := upd s.blk b (some { B with used := false }) } A E := by
              unfold abs
              dsimp only
              rw [e1, absF_upd (s := s) (s' := { s with
                usedSize := s.usedSize - B.size
                allocSize := s.allocSize - 0
                blk := upd s.blk b (some { B with used := false }) }) b1 (C := { B with used := false }) rfl rfl]
              rfl
            have g7 := g6 ho g q1
            unfold Coarse.free
            rw [if_neg h0, hl]
            dsimp only
            rw [if_neg (c := (viewB B).used = false) h1, if_neg (c := bytes > 0 ∧ bytes ≠ (viewB B).size) h2]
            have e3 := e2
            rw [← e2] at g7
            rw [g7]
            cases r <;> exact ⟨rfl, rfl, rfl⟩

/-- `coarse_merge`. -/
theorem merge_inv (env : Env) (low high total : Nat) (h : Inv s A E) :
    ∃ r s' A' E', Ev (merge env low high total) s r s' ∧ Inv s' A' E' ∧ (Clean s → Clean s') ∧
      Step (fun c => ∃ C, s.blk c = some C ∧ (C.data = low ∨ C.data = high)) s s' ∧
      (r.res ≠ .success → s' = s) ∧ (r.res = .success → Solid s' low) ∧
      ∀ ho g, Same (Coarse.merge (cenv env ho g) (abs s A E) low high total) (abs s' A' E') r := by
  by_cases h0 : low = 0 ∨ high = 0 ∨ total = 0 ∨ high ≤ low ∨ high - low ≥ total
  · refine ⟨{ res := .invalidArgument }, s, A, E, ?_, h, fun h => h, .rfl, fun _ => rfl, (fun h => by cases h), fun ho g => ?_⟩
    · unfold merge
      exact Ev.ite_pos h0 (.pure _ _)
    · unfold Coarse.merge
      rw [if_pos h0]
      exact ⟨rfl, rfl, rfl⟩
  · rcases findEq_ev h.all low with ⟨hev, hno⟩ | ⟨n, b, hn, hn0, hev⟩
    · refine ⟨{ res := .invalidArgument }, s, A, E, ?_, h, fun h => h, .rfl, fun _ => rfl, (fun h => by cases h), fun ho g => ?_⟩
      · unfold merge
        exact Ev.ite_neg h0 (Ev.bind hev (Ev.ite_pos rfl (.pure _ _)))
      · have hl : Coarse.lookup low (abs s A E).blocks = none := lookup_abs_none h.keyed hno
        unfold Coarse.merge
        rw [if_neg h0, hl]
        exact ⟨rfl, rfl, rfl⟩
    · obtain ⟨-, B, b1, b2⟩ := h.block hn
      have hl : Coarse.lookup low (abs s A E).blocks = some (viewB B) := lookup_abs h.keyed hn b1
      have hbad : (∀ x ∈ A, x.2.1 ≠ high) → ∀ ho g, Same (Coarse.merge (cenv env ho g) (abs s A E) low high total) (abs s A E) { res := .invalidArgument } := by
        intro hno ho g
        have hl2 : Coarse.lookup high (abs s A E).blocks = none := lookup_abs_none h.keyed hno
        unfold Coarse.merge
        rw [if_neg h0, hl, hl2]
        exact ⟨rfl, rfl, rfl⟩
      have hu : ∀ m c C, (m, high, c) ∈ A → s.blk c = some C → (B.used = false ∨ C.used = false) → ∀ ho g,
          Same (Coarse.merge (cenv env ho g) (abs s A E) low high total) (abs s A E) { res := .invalidArgument } := by
        intro m c C hm c1 hor ho g
        have hl2 : Coarse.lookup high (abs s A E).blocks = some (viewB C) := lookup_abs h.keyed hm c1
        unfold Coarse.merge
        rw [if_neg h0, hl, hl2]
        dsimp only
        rw [if_pos (c := (viewB B).used = false ∨ (viewB C).used = false) hor]
        exact ⟨rfl, rfl, rfl⟩
      by_cases h1 : B.used = false
      · refine ⟨{ res := .invalidArgument }, s, A, E, ?_, h, fun h => h, .rfl, fun _ => rfl, (fun h => by cases h), fun ho g => ?_⟩
        rotate_left
        · by_cases hx : ∀ x ∈ A, x.2.1 ≠ high
          · exact hbad hx ho g
          · simp only [not_forall, Classical.not_not] at hx
            obtain ⟨⟨m, d, c⟩, hm, hd⟩ := hx
            obtain ⟨-, C, c1, -⟩ := h.block hm
            dsimp only at hd
            rw [hd] at hm
            exact hu m c C hm c1 (.inl h1) ho g
        unfold merge
        exact Ev.ite_neg h0 (Ev.bind hev (Ev.ite_neg hn0 (Ev.bind (dataOf_ev h.all hn) (Ev.bind (getB_ev b1) (Ev.ite_pos h1 (.pure _ _))))))
      · have hpre : ∀ {r : Ret} {s'}, Ev (findN .all high eqP >>= fun m => if m = 0 then pure { res := .invalidArgument } else do
            let y ← dataOf .all m
            let C ← getB y.2
            if C.used = false then pure { res := .invalidArgument } else mergeFound env n m low high total B C) s r s' →
            Ev (merge env low high total) s r s' := by
          intro r s' h'
          unfold merge
          exact Ev.ite_neg h0 (Ev.bind hev (Ev.ite_neg hn0 (Ev.bind (dataOf_ev h.all hn) (Ev.bind (getB_ev b1) (Ev.ite_neg h1 h')))))
        rcases findEq_ev h.all high with ⟨hev2, hno⟩ | ⟨m, c, hm, hm0, hev2⟩
        · exact ⟨{ res := .invalidArgument }, s, A, E, hpre (Ev.bind hev2 (Ev.ite_pos rfl (.pure _ _))), h, fun h => h, .rfl, fun _ => rfl, (fun h => by cases h), hbad hno⟩
        · obtain ⟨-, C, c1, c2⟩ := h.block hm
          by_cases h2 : C.used = false
          · exact ⟨{ res := .invalidArgument }, s, A, E, hpre (Ev.bind hev2 (Ev.ite_neg hm0 (Ev.bind (dataOf_ev h.all hm) (Ev.bind (getB_ev c1) (Ev.ite_pos h2 (.pure _ _)))))), h,
              fun h => h, .rfl, fun _ => rfl, (fun h => by cases h), hu m c C hm c1 (.inr h2)⟩
          · have hpre2 : ∀ {r : Ret} {s'}, Ev (mergeFound env n m low high total B C) s r s' → Ev (merge env low high total) s r s' := fun h' =>
              hpre (Ev.bind hev2 (Ev.ite_neg hm0 (Ev.bind (dataOf_ev h.all hm) (Ev.bind (getB_ev c1) (Ev.ite_neg h2 h')))))
            have hl2 : Coarse.lookup high (abs s A E).blocks = some (viewB C) := lookup_abs h.keyed hm c1
            have hgo : ∀ ho g, Coarse.merge (cenv env ho g) (abs s A E) low high total =
                if Coarse.nextOf low (abs s A E).blocks ≠ some (viewB C) ∨ high ≠ low + B.size then (abs s A E, { res := .invalidArgument })
                else if B.size + C.size ≠ total then (abs s A E, { res := .invalidArgument })
                else match Coarse.userBlockMerge (cenv env ho g) (abs s A E) (viewB B) (viewB C) true with
                  | (st', r) => (st', { res := r }) := by
              intro ho g
              unfold Coarse.merge
              rw [if_neg h0, hl, hl2]
              dsimp only
              rw [if_neg (c := (viewB B).used = false ∨ (viewB C).used = false) (fun h => h.elim h1 h2)]
              rfl
            obtain ⟨P, Q, rfl⟩ := List.append_of_mem hn
            have hp : Coarse.nextOf low (abs s (P ++ (n, low, b) :: Q) E).blocks = Q.head?.map fun x => absB s x.2.2 := nextOf_abs h.keyed
            have hev3 := next_ev h.all
            generalize hk : nodeOf Q.head? = k at hev3
            have hnx : Coarse.nextOf low (abs s (P ++ (n, low, b) :: Q) E).blocks = some (viewB C) ↔ k = m := by
              rw [hp]
              cases Q with
              | nil =>
                refine ⟨(fun h => by cases h), fun h => ?_⟩
                exact absurd (h.symm.trans hk.symm) hm0
              | cons q Q =>
                obtain ⟨q1, q2, q3⟩ := q
                have hk' : q1 = k := hk
                have hqm : (q1, q2, q3) ∈ P ++ (n, low, b) :: (q1, q2, q3) :: Q := by simp
                constructor
                · intro e
                  have e' : absB s q3 = viewB C := Option.some.inj e
                  have e1 := h.keyed.data hqm
                  dsimp only at e1
                  rw [e'] at e1
                  have e2 : q2 = high := e1.symm.trans c2
                  have := h.keyed.uniq hqm hm e2
                  rw [← hk']
                  exact congrArg Prod.fst this
                · intro e
                  have := List.inj_on_of_nodup_map (RavlMem.inv_view h.all).1 hm hqm (e.symm.trans hk'.symm)
                  have hc : q3 = c := (congrArg (fun x => x.2.2) this).symm
                  show some (absB s q3) = _
                  rw [hc, absB_eq c1]
            by_cases h3 : k ≠ m ∨ high ≠ low + B.size
            · refine ⟨{ res := .invalidArgument }, s, _, E, hpre2 ?_, h, fun h => h, .rfl, fun _ => rfl, (fun h => by cases h), fun ho g => ?_⟩
              · unfold mergeFound
                exact Ev.bind hev3 (Ev.ite_pos h3 (.pure _ _))
              · rw [hgo, if_pos (h3.imp (fun h e => h (hnx.1 e)) id)]
                exact ⟨rfl, rfl, rfl⟩
            · by_cases h4 : B.size + C.size ≠ total
              · refine ⟨{ res := .invalidArgument }, s, _, E, hpre2 ?_, h, fun h => h, .rfl, fun _ => rfl, (fun h => by cases h), fun ho g => ?_⟩
                · unfold mergeFound
                  exact Ev.bind hev3 (Ev.ite_neg h3 (Ev.ite_pos h4 (.pure _ _)))
                · rw [hgo, if_neg (fun h' => h3 (h'.imp (fun h e => h (hnx.2 e)) id)), if_pos h4]
                  exact ⟨rfl, rfl, rfl⟩
              · have hkm : k = m := Classical.byContradiction fun h' => h3 (.inl h')
                cases Q with
                | nil => exact absurd (hkm.symm.trans hk.symm) hm0
                | cons q Q =>
                  obtain ⟨q1, q2, q3⟩ := q
                  have hq : q1 = m := hk.trans hkm
                  subst hq
                  have := List.inj_on_of_nodup_map (RavlMem.inv_view h.all).1 hm (show (q1, q2, q3) ∈ _ by simp) rfl
                  cases this
                  obtain ⟨r, s', g1, g2⟩ := userBlockMerge_inv (env := env) (Q := Q) true h b1 c1
                  have hev4 : Ev (merge env low high total) s { res := r } s' := by
                    refine hpre2 ?_
                    unfold mergeFound
                    exact Ev.bind hev3 (Ev.ite_neg h3 (Ev.ite_neg h4 (Ev.bind g1 (.pure _ _))))
                  have hgo2 : ∀ ho g, Coarse.merge (cenv env ho g) (abs s (P ++ (n, low, b) :: (q1, high, c) :: Q) E) low high total =
                      match Coarse.userBlockMerge (cenv env ho g) (abs s (P ++ (n, low, b) :: (q1, high, c) :: Q) E) (viewB B) (viewB C) true with
                      | (st', r) => (st', { res := r }) := by
                    intro ho g
                    rw [hgo, if_neg (fun h' => h3 (h'.imp (fun h e => h (hnx.2 e)) id)), if_neg h4]
                  rcases g2 with ⟨g2, g3, g4⟩ | ⟨g2, u1, u2, hbb, -, Q', E', p1, p2, p3, p4, p5⟩
                  · subst g3
                    refine ⟨{ res := r }, _, _, E, hev4, h, fun h => h, .rfl, fun _ => rfl, fun h' => absurd h' g2, fun ho g => ?_⟩
                    rw [hgo2, g4]
                    exact ⟨rfl, rfl, rfl⟩
                  · refine ⟨{ res := r }, s', _, E', hev4, p2, fun hC => clean_merge hC rfl p3, p4.mono fun c' C' hc' _ _ e => ?_, fun h' => absurd g2 h', fun _ =>
                      ⟨b, { B with size := B.size + C.size, fl := 0 }, by rw [p3, upd_ne _ _ hbb, upd_same], b2, u1, rfl⟩, fun ho g => ?_⟩
                    · rcases e with e | e
                      · exact ⟨B, by rw [e]; exact b1, .inl b2⟩
                      · exact ⟨C, by rw [e]; exact c1, .inr c2⟩
                    · rw [hgo2, p5 ho g]
                      exact ⟨rfl, g2.symm, rfl⟩

/-- `coarse_split`. -/
theorem split_inv (env : Env) (ptr total first : Nat) (h : Inv s A E) (hs : ∀ b B, s.blk b = some B → B.data = ptr → B.used = true → B.fl = 0) :
    ∃ r s' A', Ev (split env ptr total first) s r s' ∧ Inv s' A' E ∧ (Clean s → Clean s') ∧
      Step (fun c => r.res = .success ∧ ∃ C, s.blk c = some C ∧ C.data = ptr) s s' ∧ (r.res = .success → Solid s' ptr ∧ Solid s' (ptr + first)) ∧
      ∃ k, (s'.refused = false → k = true) ∧ ∀ ho g, ho .addNew1 = k → Same (Coarse.split (cenv env ho g) (abs s A E) ptr total first) (abs s' A' E) r := by
  by_cases h0 : ptr = 0 ∨ first ≥ total ∨ first = 0 ∨ total = 0
  · refine ⟨{ res := .invalidArgument }, s, A, ?_, h, fun h => h, .rfl, (fun h => by cases h), true, fun _ => rfl, fun ho g _ => ?_⟩
    · unfold split
      exact Ev.ite_pos h0 (.pure _ _)
    · unfold Coarse.split
      rw [if_pos h0]
      exact ⟨rfl, rfl, rfl⟩
  · rcases findEq_ev h.all ptr with ⟨hev, hno⟩ | ⟨n, b, hn, hn0, hev⟩
    · refine ⟨{ res := .invalidArgument }, s, A, ?_, h, fun h => h, .rfl, (fun h => by cases h), true, fun _ => rfl, fun ho g _ => ?_⟩
      · unfold split
        exact Ev.ite_neg h0 (Ev.bind hev (Ev.ite_pos rfl (.pure _ _)))
      · have hl : Coarse.lookup ptr (abs s A E).blocks = none := lookup_abs_none h.keyed hno
        unfold Coarse.split
        rw [if_neg h0, hl]
        exact ⟨rfl, rfl, rfl⟩
    · obtain ⟨-, B, b1, b2⟩ := h.block hn
      have hl : Coarse.lookup ptr (abs s A E).blocks = some (viewB B) := lookup_abs h.keyed hn b1
      have hgo : ∀ ho g, Coarse.split (cenv env ho g) (abs s A E) ptr total first =
          if B.size ≠ total then (abs s A E, { res := .invalidArgument })
          else if B.used = false then (abs s A E, { res := .invalidArgument })
          else match env.splitCb ptr total first with
            | .success =>
              match Coarse.addNew (cenv env ho g) .addNew1 (absL s A) (ptr + first) (B.size - first) with
              | none => (abs s A E, { res := .outOfHostMemory })
              | some bl => ({ abs s A E with
                  blocks := Coarse.modify (ptr + first) (fun n => { n with used := true }) (Coarse.modify ptr (fun b => { b with size := first }) bl) }, { res := .success })
            | r => (abs s A E, { res := r }) := by
        intro ho g
        unfold Coarse.split
        rw [if_neg h0, hl]
        rfl
      have hpre : ∀ {r : Ret} {s'}, Ev (if B.size ≠ total then pure { res := .invalidArgument }
          else if B.used = false then pure { res := .invalidArgument }
          else if env.splitCb ptr total first = .success then cutUsed b B first
          else pure { res := env.splitCb ptr total first }) s r s' → Ev (split env ptr total first) s r s' := by
        intro r s' h'
        unfold split
        exact Ev.ite_neg h0 (Ev.bind hev (Ev.ite_neg hn0 (Ev.bind (dataOf_ev h.all hn) (Ev.bind (getB_ev b1) h'))))
      by_cases h1 : B.size ≠ total
      · refine ⟨{ res := .invalidArgument }, s, A, hpre (Ev.ite_pos h1 (.pure _ _)), h, fun h => h, .rfl, (fun h => by cases h), true, fun _ => rfl, fun ho g _ => ?_⟩
        rw [hgo, if_pos h1]
        exact ⟨rfl, rfl, rfl⟩
      · by_cases h2 : B.used = false
        · refine ⟨{ res := .invalidArgument }, s, A, hpre (Ev.ite_neg h1 (Ev.ite_pos h2 (.pure _ _))), h, fun h => h, .rfl, (fun h => by cases h), true, fun _ => rfl, fun ho g _ => ?_⟩
          rw [hgo, if_neg h1, if_pos h2]
          exact ⟨rfl, rfl, rfl⟩
        · by_cases h3 : env.splitCb ptr total first = .success
          · have hu : B.used = true := by cases hB : B.used with | true => rfl | false => exact absurd hB h2
            have hf : B.fl = 0 := hs b B b1 b2 hu
            obtain ⟨s1, ⟨a1, a2, a3, a4, ax, a9⟩ | ⟨b', n', g, A', a1, a2, a3, a4, a5, a6, a7, a8, a9⟩⟩ := addNew_inv h (B.data + first) (B.size - first)
            · obtain ⟨k, kx, ky⟩ := addNew_fail h ax
              refine ⟨{ res := .outOfHostMemory }, s1, A, hpre (Ev.ite_neg h1 (Ev.ite_neg h2 (Ev.ite_pos h3 ?_))), a2, ?_, a4.mono (fun _ _ _ _ _ h => h.elim), (fun h => by cases h), k, kx, fun ho g q1 => ?_⟩
              · unfold cutUsed
                exact Ev.bind a1 (Ev.ite_pos rfl (.pure _ _))
              · intro hC c C hc
                rw [a3] at hc
                exact hC c C hc
              · rw [hgo, if_neg h1, if_neg h2, h3]
                dsimp only
                rw [← b2, ky _ _ _ _ _ q1]
                exact ⟨a9.symm, rfl, rfl⟩
            · have hbb : b ≠ b' := fun e => by rw [← e, b1] at a3; cases a3
              have hb1 : s1.blk b = some B := by rw [a4, upd_ne _ _ hbb]; exact b1
              have k1 := a6.mod hb1 (C := { B with size := first }) rfl rfl (.inl hf)
              have hb2 : upd s1.blk b (some { B with size := first }) b' = some ⟨B.data + first, B.size - first, g, 0⟩ := by
                rw [upd_ne _ _ hbb.symm, a4, upd_same]
              have k2 := k1.mod (b := b') hb2 (C := ⟨B.data + first, B.size - first, true, 0⟩) rfl rfl (.inl rfl)
              refine ⟨{ res := .success }, _, A', hpre (Ev.ite_neg h1 (Ev.ite_neg h2 (Ev.ite_pos h3 ?_))), k2, ?_, ?_, fun _ =>
                ⟨⟨b, { B with size := first }, ?_, b2, hu, hf⟩, b', ⟨B.data + first, B.size - first, true, 0⟩, upd_same _ _ _, ?_, rfl, rfl⟩, true, fun _ => rfl, fun ho g' q1 => ?_⟩
              · unfold cutUsed
                exact Ev.bind a1 (Ev.ite_neg a2 (Ev.bind (modB_ev _ hb1) (Ev.bind (modB_ev (s := { s1 with
                  blk := upd s1.blk b (some { B with size := first }) }) _ hb2) (.pure _ _))))
              · intro hC
                exact clean_upd (s := { s1 with
                  blk := upd s1.blk b (some { B with size := first }) }) (clean_upd (clean_upd hC (C := ⟨B.data + first, B.size - first, g, 0⟩) (fun _ => rfl) a4)
                    (C := { B with size := first }) (fun _ => hf) rfl) (C := ⟨B.data + first, B.size - first, true, 0⟩) (fun _ => rfl) rfl
              · refine ⟨fun c C hc hu' hfl hn' => ?_, a7.host, a7.ref⟩
                have e1 : c ≠ b := fun e => hn' ⟨rfl, B, by rw [e]; exact b1, b2⟩
                have e2 : c ≠ b' := fun e => by rw [e, a3] at hc; cases hc
                dsimp only
                rw [upd_ne _ _ e2, upd_ne _ _ e1, a4, upd_ne _ _ e2]
                exact hc
              · dsimp only
                rw [upd_ne _ _ hbb, upd_same]
              · rw [← b2]
              · rw [hgo, if_neg h1, if_neg h2, h3]
                dsimp only
                rw [← b2]
                have hk := a9.1 env ho g' .addNew1 q1
                rw [hk]
                refine ⟨?_, rfl, rfl⟩
                dsimp only
                obtain ⟨m, hm, -⟩ := a6.find hb1
                have hb1' : upd s.blk b' (some ⟨B.data + first, B.size - first, g', 0⟩) b = some B := by rw [upd_ne _ _ hbb]; exact b1
                have m1 := (a9.2.1 g').modify (s' := { s with
                  blk := upd (upd s.blk b' (some ⟨B.data + first, B.size - first, g', 0⟩)) b (some { B with size := first }) })
                  (f := fun b => { b with size := first }) (C := { B with size := first }) hm hb1' rfl rfl
                have hk2 : Keyed { s with
                    blk := upd (upd s.blk b' (some ⟨B.data + first, B.size - first, g', 0⟩)) b (some { B with size := first }) } A' :=
                  (a9.2.1 g').congr fun x _ => upd_data (s := { s with
                    blk := upd s.blk b' (some ⟨B.data + first, B.size - first, g', 0⟩) }) (C := { B with size := first }) hb1' rfl x.2.2
                have m2 := hk2.modify (B := ⟨B.data + first, B.size - first, g', 0⟩) (b := b') (s' := { s1 with
                  blk := upd (upd s1.blk b (some { B with size := first })) b' (some ⟨B.data + first, B.size - first, true, 0⟩) })
                  (f := fun n => { n with used := true }) (C := ⟨B.data + first, B.size - first, true, 0⟩) a5
                  (by dsimp only; rw [upd_ne _ _ hbb.symm, upd_same]) rfl (by
                    dsimp only
                    rw [a4]
                    funext x
                    by_cases e1 : x = b'
                    · rw [e1, upd_same, upd_same]
                    · rw [upd_ne _ _ e1, upd_ne _ _ e1]
                      by_cases e2 : x = b
                      · rw [e2, upd_same, upd_same]
                      · rw [upd_ne _ _ e2, upd_ne _ _ e2, upd_ne _ _ e1, upd_ne _ _ e1])
                rw [m1]
                unfold abs
                dsimp only
                have hF : absF { s1 with
                    blk := upd (upd s1.blk b (some { B with size := first })) b' (some ⟨B.data + first, B.size - first, true, 0⟩) } E = absF s E := by
                  rw [← a9.2.2.1, ← absF_upd (s := s1) (s' := { s1 with
                    blk := upd s1.blk b (some { B with size := first }) }) (E := E) hb1 (C := { B with size := first }) rfl rfl]
                  exact absF_upd (s := { s1 with
                    blk := upd s1.blk b (some { B with size := first }) }) hb2 (C := ⟨B.data + first, B.size - first, true, 0⟩) rfl rfl
                rw [hF, a9.2.2.2.1, a9.2.2.2.2]
                exact congrArg (fun l => Coarse.St.mk l _ _ _) m2
          · refine ⟨{ res := env.splitCb ptr total first }, s, A, hpre (Ev.ite_neg h1 (Ev.ite_neg h2 (Ev.ite_neg h3 (.pure _ _)))), h, fun h => h, .rfl, fun h' => absurd h' h3, true, fun _ => rfl, fun ho g _ => ?_⟩
            rw [hgo, if_neg h1, if_neg h2]
            cases hr : env.splitCb ptr total first <;> first | exact absurd hr h3 | exact ⟨rfl, rfl, rfl⟩

/-- `coarse_add_memory_fixed`. -/
theorem addFixed_inv (cfg : Cfg) (env : Env) (addr size : Nat) (h : Inv s A E) :
    ∃ r s' A' E', Ev (addFixed cfg env addr size) s r s' ∧ Inv s' A' E' ∧ Step (fun _ => False) s s' ∧ (Clean s → Clean s') ∧
      ∃ ho, (s'.refused = false → ∀ x, ho x = true) ∧ ∀ g, Same (Coarse.addFixed cfg (cenv env ho g) (abs s A E) addr size) (abs s' A' E') r := by
  by_cases h1 : addr = 0 ∨ size = 0
  · refine ⟨{ res := .invalidArgument }, s, A, E, ?_, h, .rfl, fun h => h, fun _ => true, fun _ _ => rfl, fun g => ?_⟩
    · unfold addFixed
      exact Ev.ite_pos h1 (.pure _ _)
    · unfold Coarse.addFixed
      rw [if_pos h1]
      exact ⟨rfl, rfl, rfl⟩
  · by_cases h2 : cfg.hasAlloc = true ∨ cfg.hasFree = true
    · refine ⟨{ res := .notSupported }, s, A, E, ?_, h, .rfl, fun h => h, fun _ => true, fun _ _ => rfl, fun g => ?_⟩
      · unfold addFixed
        exact Ev.ite_neg h1 (Ev.ite_pos h2 (.pure _ _))
      · unfold Coarse.addFixed
        rw [if_neg h1, if_pos h2]
        exact ⟨rfl, rfl, rfl⟩
    · obtain ⟨r, s1, A1, a1, a2, a3, a4, a5, a6, a7⟩ := addUsedBlock_inv addr size h
      by_cases hr : r = true
      · obtain ⟨b, B, e1, e2, e3, e4, e5⟩ := a5 hr
        obtain ⟨q, s2, A2, E2, g1, g2, g3, g4, -, k, kx, g6⟩ := free_inv env addr size a2 (by
          intro c C hc hd _
          have := a2.data_inj hc e2 (hd.trans e3.symm)
          rw [this, e2] at hc
          cases hc
          exact e5)
        refine ⟨q, s2, A2, E2, ?_, g2, a3.trans' g3 ?_, fun hC => g4 (a4 hC), hof true true true true k, fun h x => by cases x <;> first | exact kx h | rfl, fun g => ?_⟩
        · unfold addFixed
          exact Ev.ite_neg h1 (Ev.ite_neg h2 (Ev.bind a1 (Ev.ite_pos hr g1)))
        · rintro c C hc - - ⟨D, d1, d2⟩
          have := a2.data_inj d1 e2 (d2.trans e3.symm)
          rw [this, e1] at hc
          cases hc
        · obtain ⟨bl, l1, l2⟩ := a7 hr env (hof true true true true k) g rfl
          have l1' : Coarse.addNew (cenv env (hof true true true true k) g) .addNew1 (abs s A E).blocks addr size = some bl := l1
          obtain ⟨f1, f2, f3⟩ := g6 (hof true true true true k) g rfl
          have hq : q.ptr = 0 := by
            have : (Coarse.free (cenv env (hof true true true true k) g) (abs s1 A1 E) addr size).2.ptr = 0 := by
              unfold Coarse.free
              split
              · rfl
              · split
                · rfl
                · split
                  · rfl
                  · split
                    · rfl
                    · dsimp only
                      split <;> rfl
            exact f3.symm.trans this
          unfold Coarse.addFixed
          rw [if_neg h1, if_neg h2, l1']
          rw [l2] at f1 f2
          exact ⟨f1, f2, hq.symm⟩
      · have hr' : r = false := by cases r with | false => rfl | true => exact absurd rfl hr
        obtain ⟨a6, k, kx, ky⟩ := a6 hr'
        refine ⟨{ res := .outOfHostMemory }, s1, A1, E, ?_, a2, a3, a4, fun _ => k, fun h _ => kx h, fun g => ?_⟩
        · unfold addFixed
          exact Ev.ite_neg h1 (Ev.ite_neg h2 (Ev.bind a1 (Ev.ite_neg hr (.pure _ _))))
        · unfold Coarse.addFixed
          have hk : Coarse.addNew (cenv env (fun _ => k) g) .addNew1 (abs s A E).blocks addr size = none := ky _ _ _ _ _ rfl
          rw [if_neg h1, if_neg h2, hk]
          exact ⟨a6.symm, rfl, rfl⟩

/-- `coarse_add_memory_from_provider`. -/
theorem addUpstream_inv (cfg : Cfg) (env : Env) (size : Nat) (h : Inv s A E) :
    (¬ NoEmpty s ∧ EvN (addUpstream cfg env size) s) ∨ ∃ r s' A' E', Ev (addUpstream cfg env size) s r s' ∧ Inv s' A' E' ∧ Step (fun _ => False) s s' ∧ (Clean s → Zero s → Clean s') ∧
      (NoEmpty s → ∃ ho1 g1 ho2 g2, (s'.refused = false → ∀ x, ho1 x = true ∧ ho2 x = true) ∧ (Zero s → g1 = false) ∧ Same (addUpA cfg (cenv env ho1 g1) (cenv env ho2 g2) (abs s A E) size) (abs s' A' E') r) := by
  by_cases h1 : size = 0
  · refine .inr ⟨{ res := .invalidArgument }, s, A, E, ?_, h, .rfl, fun h _ => h, fun _ => ⟨fun _ => true, false, fun _ => true, false, fun _ _ => ⟨rfl, rfl⟩, fun _ => rfl, ?_⟩⟩
    · unfold addUpstream
      exact Ev.ite_pos h1 (.pure _ _)
    · unfold addUpA
      rw [if_pos h1]
      exact ⟨rfl, rfl, rfl⟩
  · by_cases h2 : cfg.hasAlloc = true
    · rcases alloc_inv cfg env size cfg.page h with ⟨hx, hy⟩ | ⟨r, s1, A1, E1, a1, a2, a3, a4, a5, a6⟩
      · refine .inl ⟨hx, ?_⟩
        unfold addUpstream
        exact EvN.ite_neg h1 (EvN.ite_pos h2 hy.bind)
      right
      by_cases hr : r.res = .success
      · obtain ⟨b, ⟨B, e2, e3, e4, e5⟩, e6⟩ := a5 hr
        obtain ⟨q, s2, A2, E2, g1, g2, g3, g4, -, k, kx, g6⟩ := free_inv env r.ptr size a2 (by
          intro c C hc hd _
          have := a2.data_inj hc e2 (hd.trans e3.symm)
          rw [this, e2] at hc
          cases hc
          exact e5)
        refine ⟨q, s2, A2, E2, ?_, g2, a3.trans' g3 ?_, fun hC hz => g4 (a4 hC hz), fun hN => ?_⟩
        · unfold addUpstream
          exact Ev.ite_neg h1 (Ev.ite_pos h2 (Ev.bind a1 (Ev.ite_pos hr g1)))
        · rintro c C hc hu hf ⟨D, d1, d2⟩
          have := a2.data_inj d1 e2 (d2.trans e3.symm)
          subst this
          exact e6 C hc hu hf
        · obtain ⟨ho, g, ka, kz, f1, f2, f3⟩ := a6 hN
          refine ⟨ho, g, fun _ => k, false, fun h x => ⟨ka (g3.ref h) x, kx h⟩, kz, ?_⟩
          unfold addUpA
          rw [if_neg h1, if_pos h2, if_pos (f2.trans hr), f1, f3]
          exact g6 _ false rfl
      · refine ⟨{ res := r.res, freed := r.freed }, s1, A1, E1, ?_, a2, a3, a4, fun hN => ?_⟩
        · unfold addUpstream
          exact Ev.ite_neg h1 (Ev.ite_pos h2 (Ev.bind a1 (Ev.ite_neg hr (.pure _ _))))
        · obtain ⟨ho, g, ka, kz, f1, f2, f3⟩ := a6 hN
          refine ⟨ho, g, fun _ => true, false, fun h x => ⟨ka h x, rfl⟩, kz, ?_⟩
          unfold addUpA
          rw [if_neg h1, if_pos h2, if_neg (fun h' => hr (f2.symm.trans h'))]
          exact ⟨f1, f2, rfl⟩
    · refine .inr ⟨{ res := .notSupported }, s, A, E, ?_, h, .rfl, fun h _ => h, fun _ => ⟨fun _ => true, false, fun _ => true, false, fun _ _ => ⟨rfl, rfl⟩, fun _ => rfl, ?_⟩⟩
      · unfold addUpstream
        exact Ev.ite_neg h1 (Ev.ite_neg h2 (.pure _ _))
      · unfold addUpA
        rw [if_neg h1, if_neg h2]
        exact ⟨rfl, rfl, rfl⟩

end Verif.CoarseMem
