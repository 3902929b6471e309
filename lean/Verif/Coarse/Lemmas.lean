import Verif.Coarse.Lists
/-! Invariants of the coarse model and what each internal function preserves. -/
set_option linter.unusedSimpArgs false
namespace Verif.Coarse

/-- No two blocks overlap; the list is ordered. -/
def Chain (l : List Block) : Prop := l.Pairwise fun a b => a.data + a.size ≤ b.data

/-- Structural invariant of the two indexes. -/
structure Core (l : List Block) (fr : List (Nat × Nat)) : Prop where
  chain : Chain l
  pos : ∀ b ∈ l, 0 < b.size ∧ 0 < b.data ∧ b.data + b.size ≤ 2 ^ 64
  perm : fr.Perm (keys l)

/-- A block at rest: on a free list exactly when it is not used. -/
def OK (b : Block) : Prop := b.listed = !b.used

/-- No two free blocks touch. -/
def NoAdj (l : List Block) : Prop :=
  ∀ a ∈ l, ∀ b ∈ l, a.used = false → b.used = false → a.data + a.size ≠ b.data

theorem Chain.sorted {l : List Block} (h : Chain l) (hp : ∀ b ∈ l, 0 < b.size) : SortedD l := by
  induction l with
  | nil => exact List.Pairwise.nil
  | cons b l ih =>
    unfold Chain at h
    rw [List.pairwise_cons] at h
    unfold SortedD
    rw [List.pairwise_cons]
    refine ⟨fun a ha => ?_, ih h.2 (fun b hb => hp b (by simp [hb]))⟩
    have h1 := h.1 a ha
    have h2 := hp b (by simp)
    omega

theorem Core.sorted {l : List Block} {fr} (h : Core l fr) : SortedD l :=
  h.chain.sorted fun b hb => (h.pos b hb).1

theorem chain_append (a b : List Block) :
    Chain (a ++ b) ↔ Chain a ∧ Chain b ∧ ∀ x ∈ a, ∀ y ∈ b, x.data + x.size ≤ y.data := by
  unfold Chain; rw [List.pairwise_append]

theorem chain_cons (x : Block) (l : List Block) :
    Chain (x :: l) ↔ (∀ y ∈ l, x.data + x.size ≤ y.data) ∧ Chain l := by
  unfold Chain; rw [List.pairwise_cons]

/-- Replacing a stretch of the list by blocks inside the same span. -/
theorem chain_replace {pre post mid : List Block} {lo hi : Nat} (hpre : Chain pre)
    (hpost : Chain post) (hmid : Chain mid)
    (h1 : ∀ a ∈ pre, a.data + a.size ≤ lo) (h2 : ∀ q ∈ post, hi ≤ q.data)
    (h3 : ∀ m ∈ mid, lo ≤ m.data ∧ m.data + m.size ≤ hi)
    (h4 : ∀ a ∈ pre, ∀ q ∈ post, a.data + a.size ≤ q.data) :
    Chain (pre ++ (mid ++ post)) := by
  rw [chain_append, chain_append]
  refine ⟨hpre, ⟨hmid, hpost, ?_⟩, ?_⟩
  · intro x hx y hy; have := (h3 x hx).2; have := h2 y hy; omega
  · intro x hx y hy
    rw [List.mem_append] at hy
    rcases hy with hy | hy
    · have := h1 x hx; have := (h3 y hy).1; omega
    · exact h4 x hx y hy

theorem userBlockMerge_cases (env : Env) (st : St) (b1 b2 : Block) (u : Bool) :
    (b1.used = u ∧ b2.used = u ∧ b1.data + b1.size = b2.data ∧
      env.mergeCb b1.data b2.data (b1.size + b2.size) = .success ∧
      userBlockMerge env st b1 b2 u =
        ({ st with
          free := (if b2.listed then
              (if b1.listed then st.free.erase (b1.size, b1.data) else st.free).erase
                (b2.size, b2.data)
            else (if b1.listed then st.free.erase (b1.size, b1.data) else st.free)),
          blocks := removeBlock b2.data (modify b1.data
            (fun b => { b with size := b1.size + b2.size, listed := false }) st.blocks) },
          .success)) ∨
    (∃ r, r ≠ .success ∧ userBlockMerge env st b1 b2 u = (st, r) ∧
      ((∀ a b c, env.mergeCb a b c = .success) →
        ¬ (b1.used = u ∧ b2.used = u ∧ b1.data + b1.size = b2.data))) := by
  unfold userBlockMerge
  by_cases h : ¬ (b1.used = u ∧ b2.used = u) ∨ b1.data + b1.size ≠ b2.data
  · right
    refine ⟨.invalidArgument, by simp, by rw [if_pos h], ?_⟩
    intro _ hh
    rcases h with h | h
    · exact h ⟨hh.1, hh.2.1⟩
    · exact h hh.2.2
  · rw [if_neg h]
    have h' : (b1.used = u ∧ b2.used = u) ∧ b1.data + b1.size = b2.data :=
      ⟨Classical.not_not.1 fun hn => h (Or.inl hn), Classical.not_not.1 fun hn => h (Or.inr hn)⟩
    cases hm : env.mergeCb b1.data b2.data (b1.size + b2.size) with
    | success => left; exact ⟨h'.1.1, h'.1.2, h'.2, rfl, rfl⟩
    | _ => right; refine ⟨_, ?_, rfl, fun hall => ?_⟩
           · simp
           · rw [hall] at hm; cases hm

/-- `free_block_merge_with_prev` on a free, unlisted block. -/
theorem mergePrev_spec (env : Env) (st : St) (pre post : List Block) (c : Block)
    (hb : st.blocks = pre ++ c :: post) (hs : SortedD st.blocks) (hc : c.used = false)
    (hl : c.listed = false) (hok : ∀ b ∈ pre, OK b) :
    (mergePrev env st c.data = (st, c.data) ∧
      ((∀ a b d, env.mergeCb a b d = .success) → ∀ p, pre.getLast? = some p →
        p.used = false → p.data + p.size ≠ c.data)) ∨
    (∃ pre' p, pre = pre' ++ [p] ∧ p.used = false ∧ p.listed = true ∧
      p.data + p.size = c.data ∧
      mergePrev env st c.data =
        ({ st with free := st.free.erase (p.size, p.data),
                   blocks := pre' ++ { p with size := p.size + c.size, listed := false } :: post },
          p.data)) := by
  rw [hb] at hs
  unfold mergePrev
  rw [hb, lookup_mid hs, prevOf_mid hs]
  cases hp : pre.getLast? with
  | none => left; exact ⟨rfl, fun _ p h => by cases h⟩
  | some p =>
    simp only
    rcases userBlockMerge_cases env st p c false with ⟨h1, h2, h3, h4, h5⟩ | ⟨r, hr, h5, h6⟩
    · right
      obtain ⟨pre', rfl⟩ := List.getLast?_eq_some_iff.1 hp
      have hpok : p.listed = true := by have := hok p (by simp); unfold OK at this; simp [this, h1]
      refine ⟨pre', p, rfl, h1, hpok, h3, ?_⟩
      rw [h5]
      simp only [hpok, hl, if_true, Bool.false_eq_true, if_false]
      have e1 : pre' ++ [p] ++ c :: post = pre' ++ p :: (c :: post) := by simp
      rw [hb, e1] 
      rw [e1] at hs
      rw [modify_mid _ hs]
      have hs2 : SortedD (pre' ++ [{ p with size := p.size + c.size, listed := false }] ++
          c :: post) := by
        have := sortedD_replace (c := { p with size := p.size + c.size, listed := false }) hs rfl
        simpa using this
      have e2 : pre' ++ { p with size := p.size + c.size, listed := false } :: c :: post =
          pre' ++ [{ p with size := p.size + c.size, listed := false }] ++ c :: post := by simp
      rw [e2, removeBlock_mid hs2]
      simp
    · left
      rw [h5]
      refine ⟨?_, fun hall p' hp' hu he => ?_⟩
      · cases r <;> first | rfl | exact absurd rfl hr
      · cases hp'
        exact h6 hall ⟨hu, hc, he⟩

/-- `free_block_merge_with_next` on a free, unlisted block. -/
theorem mergeNext_spec (env : Env) (st : St) (pre post : List Block) (c : Block)
    (hb : st.blocks = pre ++ c :: post) (hs : SortedD st.blocks) (hc : c.used = false)
    (hl : c.listed = false) (hok : ∀ b ∈ post, OK b) :
    (mergeNext env st c.data = st ∧
      ((∀ a b d, env.mergeCb a b d = .success) → ∀ n, post.head? = some n →
        n.used = false → c.data + c.size ≠ n.data)) ∨
    (∃ n post', post = n :: post' ∧ n.used = false ∧ n.listed = true ∧
      c.data + c.size = n.data ∧
      mergeNext env st c.data =
        { st with free := st.free.erase (n.size, n.data),
                  blocks := pre ++ { c with size := c.size + n.size } :: post' }) := by
  rw [hb] at hs
  unfold mergeNext
  rw [hb, lookup_mid hs, nextOf_mid hs]
  cases hp : post.head? with
  | none => left; exact ⟨rfl, fun _ p h => by cases h⟩
  | some n =>
    simp only
    rcases userBlockMerge_cases env st c n false with ⟨h1, h2, h3, h4, h5⟩ | ⟨r, hr, h5, h6⟩
    · right
      obtain ⟨post', rfl⟩ := List.head?_eq_some_iff.1 hp
      have hpok : n.listed = true := by have := hok n (by simp); unfold OK at this; simp [this, h2]
      refine ⟨n, post', rfl, h2, hpok, h3, ?_⟩
      rw [h5]
      simp only [hpok, hl, if_true, Bool.false_eq_true, if_false]
      rw [hb, modify_mid _ hs]
      have hs2 := sortedD_replace (c := { c with size := c.size + n.size, listed := false }) hs rfl
      have e2 : pre ++ { c with size := c.size + n.size, listed := false } :: n :: post' =
          pre ++ [{ c with size := c.size + n.size, listed := false }] ++ n :: post' := by simp
      rw [e2] at hs2
      rw [e2, removeBlock_mid hs2]
      simp [hl]
    · left
      rw [h5]
      refine ⟨?_, fun hall p' hp' hu he => ?_⟩
      · cases r <;> first | rfl | exact absurd rfl hr
      · cases hp'
        exact h6 hall ⟨hc, hu, he⟩

theorem freeAdd_spec (env : Env) (site : Site) (st : St) (pre post : List Block) (c : Block)
    (hb : st.blocks = pre ++ c :: post) (hs : SortedD st.blocks) (hh : env.host site = true) :
    freeAdd env site st c.data =
      some { st with free := (c.size, c.data) :: st.free,
                     blocks := pre ++ { c with listed := true } :: post } := by
  rw [hb] at hs
  unfold freeAdd
  rw [if_pos hh, hb, lookup_mid hs, modify_mid _ hs]

/-- The list of blocks was only rearranged among free memory. -/
structure Same (l l' : List Block) : Prop where
  used : usedOf l' = usedOf l
  tot : total l' = total l
  cover : ∀ x, Cover l' x ↔ Cover l x

theorem Same.refl (l : List Block) : Same l l := ⟨rfl, rfl, fun _ => Iff.rfl⟩
theorem Same.trans {a b c : List Block} (h1 : Same a b) (h2 : Same b c) : Same a c :=
  ⟨h2.used.trans h1.used, h2.tot.trans h1.tot, fun x => (h2.cover x).trans (h1.cover x)⟩

theorem core_mid {pre post : List Block} {c : Block} {fr} (h : Core (pre ++ c :: post) fr) :
    Chain pre ∧ Chain post ∧ (∀ a ∈ pre, a.data + a.size ≤ c.data) ∧
    (∀ q ∈ post, c.data + c.size ≤ q.data) ∧
    (∀ a ∈ pre, ∀ q ∈ post, a.data + a.size ≤ q.data) := by
  have := h.chain
  rw [chain_append, chain_cons] at this
  refine ⟨this.1, this.2.1.2, fun a ha => this.2.2 a ha c (by simp), this.2.1.1,
    fun a ha q hq => this.2.2 a ha q (by simp [hq])⟩

/-- Merging a free, unlisted block with its left neighbour. -/
theorem core_mergePrev {pre post : List Block} {p c : Block} {fr}
    (h : Core (pre ++ p :: c :: post) fr) (hp : p.listed = true) (hc : c.listed = false)
    (he : p.data + p.size = c.data) :
    Core (pre ++ { p with size := p.size + c.size, listed := false } :: post)
      (fr.erase (p.size, p.data)) := by
  obtain ⟨h1, h2, h3, h4, h5⟩ := core_mid h
  rw [chain_cons] at h2
  refine ⟨?_, ?_, ?_⟩
  · have := chain_replace (pre := pre) (post := post)
      (mid := [{ p with size := p.size + c.size, listed := false }])
      (lo := p.data) (hi := c.data + c.size) h1 h2.2 (by simp [Chain]) h3
      h2.1 (by simp; omega) (fun a ha q hq => h5 a ha q (by simp [hq]))
    simpa using this
  · intro b hb
    simp only [List.mem_append, List.mem_cons] at hb
    have hpp := h.pos p (by simp)
    have hcp := h.pos c (by simp)
    rcases hb with hb | rfl | hb
    · exact h.pos b (by simp [hb])
    · simp only; omega
    · exact h.pos b (by simp [hb])
  · have := h.perm
    simp only [keys_append, keys_cons, hp, hc, if_true, Bool.false_eq_true, if_false,
      List.nil_append, List.cons_append] at this ⊢
    exact perm_erase_mid this

/-- Merging a free, unlisted block with its right neighbour. -/
theorem core_mergeNext {pre post : List Block} {n c : Block} {fr}
    (h : Core (pre ++ c :: n :: post) fr) (hn : n.listed = true) (hc : c.listed = false)
    (he : c.data + c.size = n.data) :
    Core (pre ++ { c with size := c.size + n.size } :: post) (fr.erase (n.size, n.data)) := by
  obtain ⟨h1, h2, h3, h4, h5⟩ := core_mid h
  rw [chain_cons] at h2
  refine ⟨?_, ?_, ?_⟩
  · have := chain_replace (pre := pre) (post := post)
      (mid := [{ c with size := c.size + n.size }])
      (lo := c.data) (hi := n.data + n.size) h1 h2.2 (by simp [Chain]) h3
      h2.1 (by simp; omega) (fun a ha q hq => h5 a ha q (by simp [hq]))
    simpa using this
  · intro b hb
    simp only [List.mem_append, List.mem_cons] at hb
    have hpp := h.pos n (by simp)
    have hcp := h.pos c (by simp)
    rcases hb with hb | rfl | hb
    · exact h.pos b (by simp [hb])
    · simp only; omega
    · exact h.pos b (by simp [hb])
  · have := h.perm
    simp only [keys_append, keys_cons, hn, hc, if_true, Bool.false_eq_true, if_false,
      List.nil_append, List.cons_append] at this ⊢
    exact perm_erase_mid this

/-- Putting the block on the free list. -/
theorem core_freeAdd {pre post : List Block} {c : Block} {fr}
    (h : Core (pre ++ c :: post) fr) (hc : c.listed = false) :
    Core (pre ++ { c with listed := true } :: post) ((c.size, c.data) :: fr) := by
  refine ⟨?_, ?_, ?_⟩
  · have := h.chain
    rw [chain_append, chain_cons] at this ⊢
    refine ⟨this.1, this.2.1, ?_⟩
    intro x hx y hy
    rw [List.mem_cons] at hy
    rcases hy with rfl | hy
    · exact this.2.2 x hx c (by simp)
    · exact this.2.2 x hx y (by simp [hy])
  · intro b hb
    simp only [List.mem_append, List.mem_cons] at hb
    rcases hb with hb | rfl | hb
    · exact h.pos b (by simp [hb])
    · exact h.pos c (by simp)
    · exact h.pos b (by simp [hb])
  · have := h.perm
    simp only [keys_append, keys_cons, hc, if_true, Bool.false_eq_true, if_false,
      List.nil_append, List.cons_append] at this ⊢
    exact (this.cons _).trans List.perm_middle.symm

/-- The tail of `coarse_free` / `free_blocks_re_add`. -/
theorem mergeAndAdd_spec (env : Env) (st : St) (pre post : List Block) (c : Block)
    (hb : st.blocks = pre ++ c :: post) (hcore : Core st.blocks st.free) (hc : c.used = false)
    (hl : c.listed = false) (hpre : ∀ b ∈ pre, OK b) (hpost : ∀ b ∈ post, OK b)
    (hh : env.host .reAdd = true) :
    ∃ bl fr, mergeAndAdd env st c.data = ({ st with blocks := bl, free := fr }, true) ∧
      Core bl fr ∧ (∀ b ∈ bl, OK b) ∧ Same st.blocks bl ∧
      ((∀ a b d, env.mergeCb a b d = .success) → NoAdj (pre ++ post) → NoAdj bl) := by
  have step2 : ∀ (st : St) (pre : List Block) (c : Block), st.blocks = pre ++ c :: post →
      Core st.blocks st.free → c.used = false → c.listed = false → (∀ b ∈ pre, OK b) →
      ∃ bl fr, (match freeAdd env .reAdd (mergeNext env st c.data) c.data with
        | some st3 => (st3, true)
        | none => (mergeNext env st c.data, false)) = ({ st with blocks := bl, free := fr }, true) ∧
      Core bl fr ∧ (∀ b ∈ bl, OK b) ∧ Same st.blocks bl ∧
      ((∀ a b d, env.mergeCb a b d = .success) →
        (∀ p ∈ pre, p.used = false → p.data + p.size ≠ c.data) → NoAdj (pre ++ post) →
        NoAdj bl) := by
    intro st pre c hb hcore hc hl hpre
    rcases mergeNext_spec env st pre post c hb hcore.sorted hc hl hpost with ⟨h1, h2⟩ |
      ⟨n, post', rfl, hn1, hn2, hn3, h1⟩
    · rw [h1, freeAdd_spec env .reAdd st pre post c hb hcore.sorted hh]
      refine ⟨_, _, rfl, ?_, ?_, ?_, ?_⟩
      · rw [hb] at hcore; exact core_freeAdd hcore hl
      · intro b hb
        simp only [List.mem_append, List.mem_cons] at hb
        rcases hb with hb | rfl | hb
        · exact hpre b hb
        · simp [OK, hc]
        · exact hpost b hb
      · rw [hb]
        exact ⟨by simp [hc], by simp, fun x => by simp only [cover_append, cover_cons]⟩
      · intro hall hleft hno
        have hright : ∀ q ∈ post, q.used = false → c.data + c.size ≠ q.data := by
          intro q hq hqu he
          rw [hb] at hcore
          obtain ⟨m1, m2, m3, m4, m5⟩ := core_mid hcore
          cases post with
          | nil => cases hq
          | cons n post' =>
            rw [List.mem_cons] at hq
            rcases hq with rfl | hq
            · exact h2 hall q rfl hqu he
            · rw [chain_cons] at m2
              have e1 := m2.1 q hq
              have e2 := m4 n (by simp)
              have e3 := (hcore.pos n (by simp)).1
              omega
        have hcpos : 0 < c.size := (hcore.pos c (by rw [hb]; simp)).1
        intro a ha b hb' hau hbu he
        simp only [List.mem_append, List.mem_cons] at ha hb'
        have fold : ∀ y, (y ∈ pre ∨ y ∈ post) → y ∈ pre ++ post := by
          intro y hy; simpa using hy
        rcases ha with ha | rfl | ha <;> rcases hb' with hb' | rfl | hb'
        · exact hno a (fold _ (Or.inl ha)) b (fold _ (Or.inl hb')) hau hbu he
        · exact hleft a ha hau he
        · exact hno a (fold _ (Or.inl ha)) b (fold _ (Or.inr hb')) hau hbu he
        · rw [hb] at hcore
          have := (core_mid hcore).2.2.1 b hb'
          simp only at he; omega
        · simp only at he; omega
        · exact hright b hb' hbu he
        · exact hno a (fold _ (Or.inr ha)) b (fold _ (Or.inl hb')) hau hbu he
        · rw [hb] at hcore
          have := (core_mid hcore).2.2.2.1 a ha
          simp only at he; omega
        · exact hno a (fold _ (Or.inr ha)) b (fold _ (Or.inr hb')) hau hbu he
    · rw [h1]
      rw [hb] at hcore
      have hcore' := core_mergeNext hcore hn2 hl hn3
      rw [freeAdd_spec env .reAdd _ pre post' { c with size := c.size + n.size } rfl
        hcore'.sorted hh]
      refine ⟨_, _, rfl, core_freeAdd hcore' hl, ?_, ?_, ?_⟩
      · intro b hb
        simp only [List.mem_append, List.mem_cons] at hb
        rcases hb with hb | rfl | hb
        · exact hpre b hb
        · simp [OK, hc]
        · exact hpost b (by simp [hb])
      · rw [hb]
        refine ⟨by simp [hc, hn1], by simp; omega, fun x => ?_⟩
        simp only [cover_append, cover_cons]
        constructor
        · rintro (h | h | h)
          · exact Or.inl h
          · by_cases hx : x < n.data
            · exact Or.inr (Or.inl (by omega))
            · exact Or.inr (Or.inr (Or.inl (by omega)))
          · exact Or.inr (Or.inr (Or.inr h))
        · rintro (h | h | h | h)
          · exact Or.inl h
          · exact Or.inr (Or.inl (by omega))
          · exact Or.inr (Or.inl (by omega))
          · exact Or.inr (Or.inr h)
      · intro hall hleft hno
        have hnpos : 0 < n.size := (hcore.pos n (by simp)).1
        have hcpos : 0 < c.size := (hcore.pos c (by simp)).1
        obtain ⟨m1, m2, m3, m4, m5⟩ := core_mid hcore
        rw [chain_cons] at m2
        intro a ha b hb' hau hbu he
        simp only [List.mem_append, List.mem_cons] at ha hb'
        have fold : ∀ y, (y ∈ pre ∨ y ∈ post') → y ∈ pre ++ n :: post' := by
          intro y hy; simp only [List.mem_append, List.mem_cons]; rcases hy with h | h <;> simp [h]
        rcases ha with ha | rfl | ha <;> rcases hb' with hb' | rfl | hb'
        · exact hno a (fold _ (Or.inl ha)) b (fold _ (Or.inl hb')) hau hbu he
        · exact hleft a ha hau he
        · exact hno a (fold _ (Or.inl ha)) b (fold _ (Or.inr hb')) hau hbu he
        · have := m3 b hb'
          simp only at he; omega
        · simp only at he; omega
        · refine hno n (by simp) b (fold _ (Or.inr hb')) hn1 hbu ?_
          simp only at he; omega
        · exact hno a (fold _ (Or.inr ha)) b (fold _ (Or.inl hb')) hau hbu he
        · have := m4 a (by simp [ha])
          simp only at he; omega
        · exact hno a (fold _ (Or.inr ha)) b (fold _ (Or.inr hb')) hau hbu he
  unfold mergeAndAdd
  rcases mergePrev_spec env st pre post c hb hcore.sorted hc hl hpre with ⟨h1, h2⟩ |
    ⟨pre', p, rfl, hp1, hp2, hp3, h1⟩
  · rw [h1]
    obtain ⟨bl, fr, e1, e2, e3, e4, e5⟩ := step2 st pre c hb hcore hc hl hpre
    refine ⟨bl, fr, e1, e2, e3, e4, fun hall hno => e5 hall ?_ hno⟩
    intro p hp hpu he
    rw [hb] at hcore
    obtain ⟨m1, m2, m3, m4, m5⟩ := core_mid hcore
    rcases List.eq_nil_or_concat pre with rfl | ⟨pre', q, rfl⟩
    · cases hp
    · simp only [List.concat_eq_append, List.mem_append, List.mem_cons, List.not_mem_nil,
        or_false] at hp
      rcases hp with hp | rfl
      · simp only [List.concat_eq_append] at m1 m3
        rw [chain_append] at m1
        have e1 := m1.2.2 p hp q (by simp)
        have e2 := m3 q (by simp)
        have e3 := (hcore.pos q (by simp)).1
        omega
      · exact h2 hall p (by simp) hpu he
  · rw [h1]
    rw [hb] at hcore
    have eq1 : pre' ++ [p] ++ c :: post = pre' ++ p :: c :: post := by simp
    rw [eq1] at hcore hb
    have hcore' := core_mergePrev hcore hp2 hl hp3
    obtain ⟨bl, fr, e1, e2, e3, e4, e5⟩ := step2
      { st with free := st.free.erase (p.size, p.data),
                blocks := pre' ++ { p with size := p.size + c.size, listed := false } :: post }
      pre' { p with size := p.size + c.size, listed := false } rfl hcore' hp1 rfl
      (fun b hb => hpre b (by simp [hb]))
    refine ⟨bl, fr, e1, e2, e3, ?_, fun hall hno => e5 hall ?_ ?_⟩
    · refine Same.trans ?_ e4
      rw [hb]
      refine ⟨by simp [hc, hp1], by simp; omega, fun x => ?_⟩
      have hcs := (hcore.pos c (by simp)).1
      have hps := (hcore.pos p (by simp)).1
      simp only [cover_append, cover_cons]
      constructor
      · rintro (h | h | h)
        · exact Or.inl h
        · by_cases hx : x < c.data
          · exact Or.inr (Or.inl (by omega))
          · exact Or.inr (Or.inr (Or.inl (by omega)))
        · exact Or.inr (Or.inr (Or.inr h))
      · rintro (h | h | h | h)
        · exact Or.inl h
        · exact Or.inr (Or.inl (by omega))
        · exact Or.inr (Or.inl (by omega))
        · exact Or.inr (Or.inr h)
    · intro q hq hqu he
      exact hno q (by simp [hq]) p (by simp) hqu hp1 he
    · intro a ha b hb' 
      simp only [List.mem_append] at ha hb'
      refine hno a ?_ b ?_
      · rcases ha with h | h <;> simp [h]
      · rcases hb' with h | h <;> simp [h]

end Verif.Coarse
