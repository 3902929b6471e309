import Verif.Coarse.Ops
/-! Specifications of alloc, free, split, merge and add-memory of the coarse model. -/
set_option linter.unusedSimpArgs false
namespace Verif.Coarse

theorem allocFrom_eq (env : Env) (st : St) (b : Block) (size a : Nat) :
    allocFrom env st b size a =
      match createAligned env st b a with
      | (st2, .success, c) => finish env st2 c size (decide (b.size > size))
      | (st2, r, c) => ((mergeAndAdd env st2 c.data).1, { res := r }) := by
  unfold allocFrom
  rcases createAligned env st b a with ⟨st2, r, c⟩
  cases r <;> simp only
  unfold finish
  by_cases h : b.size > size
  · simp only [h, decide_true, if_true]; rfl
  · simp only [h, decide_false, if_false, Bool.false_eq_true]

/-- Using a free block, just unlisted, for a request. -/
theorem allocFrom_spec (env : Env) (st : St) (pre post : List Block) (c : Block) (size k : Nat)
    (hb : st.blocks = pre ++ c :: post) (hcore : Core st.blocks st.free)
    (hu : c.used = false) (hl : c.listed = false)
    (hpre : ∀ b ∈ pre, OK b) (hpost : ∀ b ∈ post, OK b)
    (hgood : Good env size) (hsz : size ≤ c.size)
    (hfit : c.data % 2 ^ k = 0 ∨ size + 2 ^ k ≤ c.size) :
    let r := allocFrom env st c size (2 ^ k)
    r.2.got = none ∧
    ((r.2.res = .success ∧ r.2.ptr % 2 ^ k = 0 ∧ Handed st r.1 st.blocks r.2.ptr size ∧
        (NoAdj st.blocks → NoAdj r.1.blocks)) ∨
     (r.2.res ≠ .success ∧
      ¬ ((0 < size ∨ c.size = size) ∧ (∀ a b c, env.splitCb a b c = .success) ∧
        ∀ s, env.host s = true) ∧
      Unchanged st r.1 st.blocks ∧
      ((∀ a b d, env.mergeCb a b d = .success) → NoAdj st.blocks → NoAdj r.1.blocks))) := by
  intro r
  have hs := hcore.sorted
  have hcore0 := hcore
  rw [hb] at hcore0 hs
  obtain ⟨h1, h2, h3, h4, h5⟩ := core_mid hcore0
  have hcp := hcore0.pos c (by simp)
  have h2k : 0 < 2 ^ k := Nat.two_pow_pos k
  have hc_eq : pre ++ { c with used := false } :: post = st.blocks := by
    rw [hb, ← hu]
  have hsub : NoAdj st.blocks → NoAdj (pre ++ post) := by
    intro hno a ha b hb'
    rw [List.mem_append] at ha hb'
    apply hno a _ b _
    · rw [hb]; rcases ha with h | h <;> simp [h]
    · rw [hb]; rcases hb' with h | h <;> simp [h]
  -- result of merging back
  have hback : ∀ res : Res, res ≠ .success → ∀ r : St × Out,
      r = ((mergeAndAdd env st c.data).1, { res := res }) →
      r.2.got = none ∧ r.2.res ≠ .success ∧ Unchanged st r.1 st.blocks ∧
      ((∀ a b d, env.mergeCb a b d = .success) → NoAdj st.blocks → NoAdj r.1.blocks) := by
    intro res hres r hr
    obtain ⟨bl, fr, e1, e2, e3, e4, e5⟩ :=
      mergeAndAdd_spec env st pre post c hb hcore hu hl hpre hpost hgood.reAdd
    rw [hr, e1]
    exact ⟨rfl, hres, ⟨e2, e3, e4, rfl, rfl⟩, fun hall hno => e5 hall (hsub hno)⟩
  have hr0 : r = allocFrom env st c size (2 ^ k) := rfl
  rw [allocFrom_eq] at hr0
  obtain ⟨g1, g2, g3⟩ := alignUp_pow2 c.data k
  by_cases hpad : alignUp c.data (2 ^ k) - c.data > 0
  · -- padding needed
    have hnal : c.data % 2 ^ k ≠ 0 := fun h => by rw [alignUp_self h] at hpad; omega
    have hbig : size + 2 ^ k ≤ c.size := hfit.resolve_left hnal
    generalize hpd : alignUp c.data (2 ^ k) - c.data = pad at hpad
    have hpadlt : pad < 2 ^ k := by omega
    have hsum : c.data + pad = alignUp c.data (2 ^ k) := by omega
    unfold createAligned at hr0
    rw [hpd] at hr0
    simp only [gt_iff_lt, h2k, hpad, and_self, if_true] at hr0
    cases hsp : env.splitCb c.data c.size pad with
    | success =>
      rw [hsp] at hr0
      simp only at hr0
      have hpost' : ∀ q ∈ post, c.data + pad < q.data := fun q hq => by
        have := h4 q hq; omega
      rw [hb, addNew_mid hs hpad hpost'] at hr0
      by_cases hh : env.host .addNew1 = true
      · rw [if_pos hh] at hr0
        simp only at hr0
        have hs2 : SortedD (pre ++ c :: ⟨c.data + pad, c.size - pad, env.garbage, false⟩ :: post) := by
          have := sortedD_insert (pre := pre ++ [c]) (post := post)
            (n := ⟨c.data + pad, c.size - pad, env.garbage, false⟩) (by simpa using hs)
            (by intro x hx; simp only [List.mem_append, List.mem_cons, List.not_mem_nil, or_false] at hx
                rcases hx with hx | rfl
                · have := h3 x hx; simp only; omega
                · simp only; omega) hpost'
          simpa using this
        rw [modify_mid _ hs2] at hr0
        have hcs := core_split hcore0 hl pad hpad (by omega) false env.garbage
        have hfa := freeAdd_spec env .freeAdd1
          { st with blocks := pre ++ { c with used := false, size := pad } ::
              ⟨c.data + pad, c.size - pad, env.garbage, false⟩ :: post }
          pre (⟨c.data + pad, c.size - pad, env.garbage, false⟩ :: post)
          { c with used := false, size := pad } rfl hcs.sorted hgood.free1
        simp only at hfa
        rw [hfa] at hr0
        simp only at hr0
        have hdec : decide (c.size > size) = true := by simp; omega
        have hdec' : decide (size < c.size) = true := by simp; omega
        rw [hdec'] at hr0
        have hcf := core_freeAdd hcs hl
        have e1 : pre ++ { c with used := false, size := pad, listed := true } ::
            ⟨c.data + pad, c.size - pad, env.garbage, false⟩ :: post =
            (pre ++ [{ c with used := false, size := pad, listed := true }]) ++
            ⟨c.data + pad, c.size - pad, env.garbage, false⟩ :: post := by simp
        simp only at hcf
        have hfs := finish_spec env
          { st with
            blocks := pre ++ { c with used := false, size := pad, listed := true } ::
              ⟨c.data + pad, c.size - pad, env.garbage, false⟩ :: post
            free := (pad, c.data) :: st.free }
          (pre ++ [{ c with used := false, size := pad, listed := true }]) post
          ⟨c.data + pad, c.size - pad, env.garbage, false⟩ size true e1 hcf rfl
          (by intro b hb
              simp only [List.mem_append, List.mem_cons, List.not_mem_nil, or_false] at hb
              rcases hb with hb | rfl
              · exact hpre b hb
              · simp [OK])
          hpost hgood (Or.inr rfl) (by simp only [if_true]; omega)
        simp only at hfs
        have hsame : Same st.blocks ((pre ++ [{ c with used := false, size := pad, listed := true }]) ++
            ⟨c.data + pad, c.size - pad, false, false⟩ :: post) := by
          rw [hb]
          refine ⟨by simp [hu], by simp; omega, fun x => ?_⟩
          simp only [cover_append, cover_cons]
          constructor
          · rintro ((h | h | h) | h | h)
            · exact Or.inl h
            · exact Or.inr (Or.inl (by omega))
            · rcases h with ⟨_, h, _⟩; cases h
            · exact Or.inr (Or.inl (by omega))
            · exact Or.inr (Or.inr h)
          · rintro (h | h | h)
            · exact Or.inl (Or.inl h)
            · by_cases hx : x < c.data + pad
              · exact Or.inl (Or.inr (Or.inl (by omega)))
              · exact Or.inr (Or.inl (by omega))
            · exact Or.inr (Or.inr h)
        rw [← hr0] at hfs
        obtain ⟨f0, hfs⟩ := hfs
        refine ⟨f0, ?_⟩
        rcases hfs with ⟨f1, f2, f3, f4⟩ | ⟨f1, _, f2, f3, f4⟩
        · left
          refine ⟨f1, by rw [f2, hsum]; exact g3, ?_, ?_⟩
          · rw [f2]
            obtain ⟨A, B, hAB, hAB'⟩ := f3.usedOf
            exact ⟨f3.core, f3.ok, ⟨A, B, by rw [← hsame.used]; exact hAB, hAB'⟩,
              f3.tot.trans hsame.tot, fun x => (f3.cover x).trans (hsame.cover x), f3.used, f3.alloc⟩
          · -- no two free blocks touch: padding, used, rest
            intro hno a ha b hb' hau hbu he
            -- the padding block ends where the handed out block starts, which is used
            have hmemc : c ∈ st.blocks := by rw [hb]; simp
            obtain ⟨A, B, hAB, hAB'⟩ := f3.usedOf
            -- use the explicit form of the result
            have hex : r.1.blocks = (pre ++ [{ c with used := false, size := pad, listed := true }]) ++
                ⟨c.data + pad, size, true, false⟩ ::
                ⟨c.data + pad + size, c.size - pad - size, false, true⟩ :: post := by
              rw [hr0]
              unfold finish
              simp only [if_true]
              rcases splitCurrent_spec env
                { st with
                  blocks := pre ++ { c with used := false, size := pad, listed := true } ::
                    ⟨c.data + pad, c.size - pad, env.garbage, false⟩ :: post
                  free := (pad, c.data) :: st.free }
                (pre ++ [{ c with used := false, size := pad, listed := true }]) post
                ⟨c.data + pad, c.size - pad, env.garbage, false⟩ size e1 hcf rfl
                (by simp only; omega) hgood.free2 with ⟨r', hr', hsp', hnot⟩ | ⟨h0, hsp'⟩
              · exfalso
                have := congrArg (fun x => x.2.res) hr0
                unfold finish at this
                simp only [if_true] at this
                rw [hsp'] at this
                rw [f1] at this
                cases r' <;> first | exact absurd rfl hr' | (simp at this)
              · rw [hsp']
                simp only
                have hs3 : SortedD ((pre ++ [{ c with used := false, size := pad, listed := true }]) ++
                    ⟨c.data + pad, c.size - pad, env.garbage, false⟩ ::
                    ⟨c.data + pad + size, c.size - pad - size, false, true⟩ :: post) := by
                  have := sortedD_insert
                    (pre := pre ++ [{ c with used := false, size := pad, listed := true },
                      ⟨c.data + pad, c.size - pad, env.garbage, false⟩]) (post := post)
                    (n := ⟨c.data + pad + size, c.size - pad - size, false, true⟩)
                    (by simpa using hcf.sorted)
                    (by intro x hx
                        simp only [List.mem_append, List.mem_cons, List.not_mem_nil, or_false] at hx
                        rcases hx with hx | rfl | rfl
                        · have := h3 x hx; simp only; omega
                        · simp only; omega
                        · simp only; omega)
                    (fun q hq => by have := h4 q hq; simp only; omega)
                  simpa using this
                exact modify_mid _ hs3
            rw [hex] at ha hb'
            simp only [List.mem_append, List.mem_cons, List.not_mem_nil, or_false] at ha hb'
            have mpre : ∀ y ∈ pre, y ∈ st.blocks := fun y hy => by rw [hb]; simp [hy]
            have mpost : ∀ y ∈ post, y ∈ st.blocks := fun y hy => by rw [hb]; simp [hy]
            rcases ha with (ha | rfl) | rfl | rfl | ha
            · rcases hb' with (hb' | rfl) | rfl | rfl | hb'
              · exact hno a (mpre _ ha) b (mpre _ hb') hau hbu he
              · exact hno a (mpre _ ha) c hmemc hau hu he
              · cases hbu
              · have := h3 a ha; simp only at he; omega
              · exact hno a (mpre _ ha) b (mpost _ hb') hau hbu he
            · rcases hb' with (hb' | rfl) | rfl | rfl | hb'
              · have := h3 b hb'; simp only at he; omega
              · simp only at he; omega
              · cases hbu
              · have h0 : 0 < size := by
                  have := f3.core.pos ⟨c.data + pad, size, true, false⟩ (by rw [hex]; simp)
                  exact this.1
                simp only at he; omega
              · have := h4 b hb'; simp only at he; omega
            · cases hau
            · rcases hb' with (hb' | rfl) | rfl | rfl | hb'
              · have := h3 b hb'; simp only at he; omega
              · simp only at he; omega
              · cases hbu
              · simp only at he; omega
              · refine hno c hmemc b (mpost _ hb') hu hbu ?_
                simp only at he; omega
            · rcases hb' with (hb' | rfl) | rfl | rfl | hb'
              · exact hno a (mpost _ ha) b (mpre _ hb') hau hbu he
              · have := h4 a ha; simp only at he; omega
              · cases hbu
              · have := h4 a ha; simp only at he; omega
              · exact hno a (mpost _ ha) b (mpost _ hb') hau hbu he
        · right
          refine ⟨f1, ?_, ?_, ?_⟩
          · rintro ⟨q1, q2, q3⟩
            rcases q1 with q1 | q1
            · exact f2 ⟨q1, q2, q3 _⟩
            · omega
          · exact ⟨f3.core, f3.ok, hsame.trans f3.same, f3.used, f3.alloc⟩
          · intro hall hno
            apply f4 hall
            intro a ha b hb' hau hbu he
            simp only [List.mem_append, List.mem_cons, List.not_mem_nil, or_false] at ha hb'
            have hmemc : c ∈ st.blocks := by rw [hb]; simp
            have mpre : ∀ y ∈ pre, y ∈ st.blocks := fun y hy => by rw [hb]; simp [hy]
            have mpost : ∀ y ∈ post, y ∈ st.blocks := fun y hy => by rw [hb]; simp [hy]
            rcases ha with (ha | rfl) | ha <;> rcases hb' with (hb' | rfl) | hb'
            · exact hno a (mpre _ ha) b (mpre _ hb') hau hbu he
            · exact hno a (mpre _ ha) c hmemc hau hu he
            · exact hno a (mpre _ ha) b (mpost _ hb') hau hbu he
            · have := h3 b hb'; simp only at he; omega
            · simp only at he; omega
            · have := h4 b hb'; simp only at he; omega
            · exact hno a (mpost _ ha) b (mpre _ hb') hau hbu he
            · have := h4 a ha; simp only at he; omega
            · exact hno a (mpost _ ha) b (mpost _ hb') hau hbu he
      · rw [if_neg hh] at hr0
        simp only at hr0
        obtain ⟨b0, b1, b2, b3⟩ := hback _ (by simp) r hr0
        exact ⟨b0, Or.inr ⟨b1, fun h => hh (h.2.2 _), b2, b3⟩⟩
    | _ =>
      rw [hsp] at hr0
      simp only at hr0
      obtain ⟨b0, b1, b2, b3⟩ := hback _ (by simp) r hr0
      refine ⟨b0, Or.inr ⟨b1, fun h => ?_, b2, b3⟩⟩
      rw [h.2.1] at hsp; cases hsp
  · -- already aligned
    have hal : c.data % 2 ^ k = 0 := by
      have : alignUp c.data (2 ^ k) = c.data := by omega
      rw [this] at g3; exact g3
    have hca : createAligned env st c (2 ^ k) = (st, .success, c) := by
      unfold createAligned
      simp only [hpad, and_false, if_false]
    rw [hca] at hr0
    simp only at hr0
    have hfs := finish_spec env st pre post c size (decide (c.size > size)) hb hcore hl hpre hpost
      hgood (Or.inl hu) (by by_cases h : c.size > size
                            · simp only [h, decide_true, if_true]
                            · simp only [h, decide_false, Bool.false_eq_true, if_false]; omega)
    simp only at hfs
    rw [hc_eq, ← hr0] at hfs
    obtain ⟨f0, hfs⟩ := hfs
    refine ⟨f0, ?_⟩
    rcases hfs with ⟨f1, f2, f3, f4⟩ | ⟨f1, fs, f2, f3, f4⟩
    · left
      refine ⟨f1, by rw [f2]; exact hal, by rw [f2]; exact f3, f4⟩
    · right
      refine ⟨f1, ?_, f3, fun hall hno => f4 hall (hsub hno)⟩
      rintro ⟨q1, q2, q3⟩
      simp only [gt_iff_lt, decide_eq_true_eq] at fs
      rcases q1 with q1 | q1
      · exact f2 ⟨q1, q2, q3 _⟩
      · omega

end Verif.Coarse
