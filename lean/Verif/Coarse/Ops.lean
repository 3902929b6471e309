import Verif.Coarse.Lemmas
import Verif.Utils.NatBits
/-! What each public operation of the coarse model does, under the invariant. -/
set_option linter.unusedSimpArgs false
namespace Verif.Coarse

/-- The invariant between operations. -/
structure Inv (st : St) : Prop where
  core : Core st.blocks st.free
  ok : ∀ b ∈ st.blocks, OK b
  used : st.usedSize = usedTotal st.blocks
  alloc : st.allocSize = total st.blocks

theorem usedTotal_append (a b : List Block) : usedTotal (a ++ b) = usedTotal a + usedTotal b := by
  simp [usedTotal]
theorem usedTotal_cons (b : Block) (l : List Block) :
    usedTotal (b :: l) = (if b.used then b.size else 0) + usedTotal l := by
  simp only [usedTotal, usedOf_cons]; split <;> simp
theorem usedTotal_of_used {l l' : List Block} (h : usedOf l' = usedOf l) :
    usedTotal l' = usedTotal l := by simp [usedTotal, h]

theorem usedTotal_le_total (l : List Block) : usedTotal l ≤ total l := by
  induction l with
  | nil => simp [usedTotal]
  | cons b l ih => rw [usedTotal_cons, total_cons]; split <;> omega

/-! ### Alignment -/

theorem alignUp_pow2 (v k : Nat) : v ≤ alignUp v (2 ^ k) ∧ alignUp v (2 ^ k) < v + 2 ^ k ∧
    alignUp v (2 ^ k) % 2 ^ k = 0 := by
  have h2 : 0 < 2 ^ k := Nat.two_pow_pos k
  unfold alignUp
  have hm := Nat.div_add_mod (v + (2 ^ k - 1)) (2 ^ k)
  have hl := Nat.mod_lt (v + (2 ^ k - 1)) h2
  have hc : (v + (2 ^ k - 1)) / 2 ^ k * 2 ^ k = 2 ^ k * ((v + (2 ^ k - 1)) / 2 ^ k) :=
    Nat.mul_comm _ _
  refine ⟨by omega, by omega, ?_⟩
  exact Nat.mul_mod_left _ _

theorem alignUp_self {v k : Nat} (h : v % 2 ^ k = 0) : alignUp v (2 ^ k) = v := by
  have h2 : 0 < 2 ^ k := Nat.two_pow_pos k
  obtain ⟨h1, h3, h4⟩ := alignUp_pow2 v k
  obtain ⟨x, hx⟩ := Nat.dvd_of_mod_eq_zero h
  obtain ⟨y, hy⟩ := Nat.dvd_of_mod_eq_zero h4
  rw [hy] at h1 h3 ⊢
  rw [hx] at h1 h3
  rw [hx]
  have : y = x := by
    have a1 : x ≤ y := Nat.le_of_mul_le_mul_left h1 h2
    have a2 : y < x + 1 := by
      have : 2 ^ k * y < 2 ^ k * (x + 1) := by rw [Nat.mul_add]; omega
      exact Nat.lt_of_mul_lt_mul_left this
    omega
  rw [this]

theorem effAlign_spec {page align a k : Nat} (hp : page = 2 ^ k) (h : effAlign page align = some a) :
    ∃ j, a = 2 ^ j ∧ page ∣ a ∧ align ∣ a * (if align = 0 then 0 else 1) := by
  subst hp
  unfold effAlign at h
  have h2 : 0 < 2 ^ k := Nat.two_pow_pos k
  by_cases h0 : align = 0
  · rw [if_pos h0] at h; cases h
    exact ⟨k, rfl, Nat.dvd_refl _, by simp [h0]⟩
  · rw [if_neg h0] at h
    by_cases h1 : align &&& (align - 1) ≠ 0 ∨ (align % 2 ^ k ≠ 0 ∧ 2 ^ k % align ≠ 0)
    · rw [if_pos h1] at h; cases h
    · rw [if_neg h1] at h
      have hand : align &&& (align - 1) = 0 := Classical.not_not.1 fun hn => h1 (Or.inl hn)
      have hj := Utils.nat_pow2_of_and h0 hand
      rw [if_neg h0]
      by_cases h3 : align % 2 ^ k ≠ 0
      · rw [if_pos h3] at h; cases h
        have hdiv : 2 ^ k % align = 0 := Classical.not_not.1 fun hn => h1 (Or.inr ⟨h3, hn⟩)
        have hle : align ≤ 2 ^ k := Nat.le_of_dvd h2 (Nat.dvd_of_mod_eq_zero hdiv)
        have hlt : align < 2 ^ k := by
          rcases Nat.lt_or_ge align (2 ^ k) with h | h
          · exact h
          · have : align = 2 ^ k := by omega
            rw [this, Nat.mod_self] at h3; exact absurd rfl h3
        have hup : alignUp align (2 ^ k) = 2 ^ k := by
          unfold alignUp
          have : (align + (2 ^ k - 1)) / 2 ^ k = 1 := by
            apply Nat.div_eq_of_lt_le
            · omega
            · omega
          rw [this, Nat.one_mul]
        rw [hup]
        exact ⟨k, rfl, Nat.dvd_refl _, by rw [Nat.mul_one]; exact Nat.dvd_of_mod_eq_zero hdiv⟩
      · rw [if_neg h3] at h; cases h
        have h3' : align % 2 ^ k = 0 := Classical.not_not.1 h3
        exact ⟨_, hj, Nat.dvd_of_mod_eq_zero h3', by simp⟩

/-! ### The free index -/

theorem minGe_some {s k : Nat} {fr : List (Nat × Nat)} (h : minGe s fr = some k) :
    s ≤ k ∧ (∃ d, (k, d) ∈ fr) ∧ ∀ e ∈ fr, s ≤ e.1 → k ≤ e.1 := by
  unfold minGe at h
  rw [List.min?_eq_some_iff] at h
  obtain ⟨h1, h2⟩ := h
  rw [List.mem_filter, List.mem_map] at h1
  obtain ⟨⟨e, he, hek⟩, hs⟩ := h1
  refine ⟨by simpa using hs, ⟨e.2, by rw [← hek]; exact he⟩, ?_⟩
  intro e' he' hse
  apply h2
  rw [List.mem_filter]
  exact ⟨List.mem_map_of_mem he', by simpa using hse⟩

theorem minGe_none {s : Nat} {fr : List (Nat × Nat)} (h : minGe s fr = none) :
    ∀ e ∈ fr, e.1 < s := by
  intro e he
  unfold minGe at h
  rw [List.min?_eq_none_iff, List.filter_eq_nil_iff] at h
  have := h e.1 (List.mem_map_of_mem he)
  simp at this; omega

theorem rmGe_some {s a : Nat} {ch : Check} {fr : List (Nat × Nat)} {e : Nat × Nat}
    (h : rmGe s a ch fr = some e) : e ∈ fr ∧ s ≤ e.1 ∧ aligned e.2 a = true := by
  unfold rmGe at h
  cases hm : minGe s fr with
  | none => rw [hm] at h; cases h
  | some k =>
    rw [hm] at h
    obtain ⟨h1, _, _⟩ := minGe_some hm
    cases ch with
    | first =>
      simp only at h
      cases hh : (fr.filter (fun e => e.1 == k)).head? with
      | none => rw [hh] at h; cases h
      | some e' =>
        rw [hh] at h
        simp only at h
        by_cases ha : aligned e'.2 a = true
        · rw [if_pos ha] at h; cases h
          have := List.mem_of_head? hh
          rw [List.mem_filter] at this
          have h2 : e.1 = k := by simpa using this.2
          exact ⟨this.1, by omega, ha⟩
        · rw [if_neg ha] at h; cases h
    | allOfSize =>
      simp only at h
      have h1' := List.find?_some h
      have h2 := List.mem_of_find?_eq_some h
      rw [List.mem_filter] at h2
      have h3 : e.1 = k := by simpa using h2.2
      exact ⟨h2.1, by omega, h1'⟩

theorem findFree_some {cfg : Cfg} {size a : Nat} {fr : List (Nat × Nat)} {e : Nat × Nat}
    (h : findFree cfg size a fr = some e) :
    e ∈ fr ∧ size ≤ e.1 ∧ (aligned e.2 a = true ∨ size + a ≤ e.1) := by
  have hf : ∀ e, (if size + a ≥ 2 ^ 64 then none else rmGe (size + a) 0 .first fr) = some e →
      e ∈ fr ∧ size ≤ e.1 ∧ (aligned e.2 a = true ∨ size + a ≤ e.1) := by
    intro e h
    split at h
    · cases h
    · obtain ⟨h1, h2, _⟩ := rmGe_some h
      exact ⟨h1, by omega, Or.inr h2⟩
  unfold findFree at h
  cases hs : cfg.strategy <;> rw [hs] at h <;> simp only at h
  · exact hf e h
  · cases hr : rmGe size a .first fr with
    | none => rw [hr] at h; exact hf e h
    | some e' => rw [hr] at h; cases h
                 obtain ⟨h1, h2, h3⟩ := rmGe_some hr
                 exact ⟨h1, h2, Or.inl h3⟩
  · cases hr : rmGe size a .allOfSize fr with
    | none => rw [hr] at h; exact hf e h
    | some e' => rw [hr] at h; cases h
                 obtain ⟨h1, h2, h3⟩ := rmGe_some hr
                 exact ⟨h1, h2, Or.inl h3⟩

/-- A free-list entry belongs to a block of the block list. -/
theorem free_entry {st : St} (hi : Inv st) {e : Nat × Nat} (he : e ∈ st.free) :
    ∃ pre b post, st.blocks = pre ++ b :: post ∧ b.data = e.2 ∧ b.size = e.1 ∧ b.used = false ∧
      b.listed = true := by
  have := (hi.core.perm.mem_iff).1 he
  unfold keys at this
  rw [List.mem_map] at this
  obtain ⟨b, hb, hbe⟩ := this
  rw [List.mem_filter] at hb
  obtain ⟨pre, post, hpp⟩ := List.append_of_mem hb.1
  have hok := hi.ok b hb.1
  unfold OK at hok
  rw [hb.2] at hok
  exact ⟨pre, b, post, hpp, by rw [← hbe], by rw [← hbe], by simpa using hok.symm, hb.2⟩

/-- Taking a block off the free list. -/
theorem unlist_spec {st : St} (hi : Inv st) {pre post : List Block} {b : Block}
    (hb : st.blocks = pre ++ b :: post) (hl : b.listed = true) :
    (unlist st (b.size, b.data)).blocks = pre ++ { b with listed := false } :: post ∧
    Core (pre ++ { b with listed := false } :: post) (st.free.erase (b.size, b.data)) := by
  have hcore := hi.core
  have hs := hcore.sorted
  rw [hb] at hs hcore
  refine ⟨by unfold unlist; simp only; rw [hb, modify_mid _ hs], ?_, ?_, ?_⟩
  · have := hcore.chain
    rw [chain_append, chain_cons] at this ⊢
    refine ⟨this.1, this.2.1, ?_⟩
    intro x hx y hy
    rw [List.mem_cons] at hy
    rcases hy with rfl | hy
    · exact this.2.2 x hx b (by simp)
    · exact this.2.2 x hx y (by simp [hy])
  · intro c hc
    simp only [List.mem_append, List.mem_cons] at hc
    rcases hc with hc | rfl | hc
    · exact hcore.pos c (by simp [hc])
    · exact hcore.pos b (by simp)
    · exact hcore.pos c (by simp [hc])
  · have := hcore.perm
    simp only [keys_append, keys_cons, hl, if_true, Bool.false_eq_true, if_false,
      List.nil_append, List.cons_append] at this ⊢
    exact perm_erase_mid this

/-- Splitting a block in two, the upper part listed or not as given. -/
theorem core_split {pre post : List Block} {c : Block} {fr} (h : Core (pre ++ c :: post) fr)
    (hl : c.listed = false) (s : Nat) (hs0 : 0 < s) (hs : s < c.size) (u1 u2 : Bool) :
    Core (pre ++ { c with size := s, used := u1 } ::
      ⟨c.data + s, c.size - s, u2, false⟩ :: post) fr := by
  obtain ⟨h1, h2, h3, h4, h5⟩ := core_mid h
  have hcp := h.pos c (by simp)
  refine ⟨?_, ?_, ?_⟩
  · have := chain_replace (pre := pre) (post := post)
      (mid := [{ c with size := s, used := u1 }, ⟨c.data + s, c.size - s, u2, false⟩])
      (lo := c.data) (hi := c.data + c.size) h1 h2 (by simp [Chain]) h3 h4
      (by intro m hm; simp only [List.mem_cons, List.not_mem_nil, or_false] at hm
          rcases hm with rfl | rfl <;> simp only <;> omega) h5
    simpa using this
  · intro b hb
    simp only [List.mem_append, List.mem_cons] at hb
    rcases hb with hb | rfl | rfl | hb
    · exact h.pos b (by simp [hb])
    · simp only; omega
    · simp only; omega
    · exact h.pos b (by simp [hb])
  · have := h.perm
    simp only [keys_append, keys_cons, hl, if_true, Bool.false_eq_true, if_false,
      List.nil_append, List.cons_append] at this ⊢
    exact this

/-- Changing only the `used` flag of a block. -/
theorem core_setUsed {pre post : List Block} {c : Block} {fr} (h : Core (pre ++ c :: post) fr)
    (u : Bool) : Core (pre ++ { c with used := u } :: post) fr := by
  refine ⟨?_, ?_, ?_⟩
  · have := h.chain
    rw [chain_append, chain_cons] at this ⊢
    refine ⟨this.1, this.2.1, ?_⟩
    intro x hx y hy
    rw [List.mem_cons] at hy
    rcases hy with rfl | hy
    · exact this.2.2 x hx c (by simp)
    · exact this.2.2 x hx y (by simp [hy])
  · intro b hb
    simp only [List.mem_append, List.mem_cons] at hb
    rcases hb with hb | rfl | hb
    · exact h.pos b (by simp [hb])
    · exact h.pos c (by simp)
    · exact h.pos b (by simp [hb])
  · have := h.perm
    simp only [keys_append, keys_cons] at this ⊢
    exact this

/-- Inserting a new block between neighbours. -/
theorem addNew_mid {env : Env} {site : Site} {pre post : List Block} {c : Block} {s sz : Nat}
    (hs : SortedD (pre ++ c :: post)) (hs0 : 0 < s) (hpost : ∀ q ∈ post, c.data + s < q.data) :
    addNew env site (pre ++ c :: post) (c.data + s) sz =
      if env.host site then some (pre ++ c :: ⟨c.data + s, sz, env.garbage, false⟩ :: post)
      else none := by
  unfold addNew
  split
  · exact insertBlock_after hs (by simp only; omega) hpost
  · rfl

/-- What the environment must provide so that a failed allocation cannot leave an
uninitialised block behind: the free-list elements can be allocated, and either the
uninitialised flag reads `false` or nothing fails once the aligned block exists. -/
structure Good (env : Env) (size : Nat) : Prop where
  free1 : env.host .freeAdd1 = true
  free2 : env.host .freeAdd2 = true
  reAdd : env.host .reAdd = true
  flag : env.garbage = false ∨
    (0 < size ∧ (∀ a b c, env.splitCb a b c = .success) ∧ env.host .addNew2 = true)

/-- `split_current_block` followed by the shrinking of the current block. -/
theorem splitCurrent_spec (env : Env) (st : St) (pre post : List Block) (c : Block) (size : Nat)
    (hb : st.blocks = pre ++ c :: post) (hcore : Core st.blocks st.free) (hl : c.listed = false)
    (hsz : size < c.size) (hf : env.host .freeAdd2 = true) :
    (∃ r, r ≠ .success ∧ splitCurrent env st c size = (st, r) ∧
      ¬ (0 < size ∧ (∀ a b c, env.splitCb a b c = .success) ∧ env.host .addNew2 = true)) ∨
    (0 < size ∧ splitCurrent env st c size =
      ({ st with
        blocks := pre ++ c :: ⟨c.data + size, c.size - size, false, true⟩ :: post,
        free := (c.size - size, c.data + size) :: st.free }, .success)) := by
  unfold splitCurrent
  have hs := hcore.sorted
  have hcore0 := hcore
  rw [hb] at hcore0 hs
  obtain ⟨h1, h2, h3, h4, h5⟩ := core_mid hcore0
  have hcp := hcore0.pos c (by simp)
  cases hsp : env.splitCb c.data c.size size with
  | success =>
    simp only
    by_cases h0 : size = 0
    · left
      have hnone : addNew env .addNew2 st.blocks (c.data + size) (c.size - size) = none := by
        unfold addNew
        split
        · rw [hb]
          have := insertBlock_spec ⟨c.data + size, c.size - size, env.garbage, false⟩ _ hs
          cases hi : insertBlock ⟨c.data + size, c.size - size, env.garbage, false⟩
              (pre ++ c :: post) with
          | none => rfl
          | some l' =>
            rw [hi] at this
            obtain ⟨a, b, hab, _, ha, hb'⟩ := this
            have hc : c ∈ a ++ b := by rw [← hab]; simp
            rw [List.mem_append] at hc
            rcases hc with hc | hc
            · have := ha c hc; simp only at this; omega
            · have := hb' c hc; simp only at this; omega
        · rfl
      rw [hnone]
      exact ⟨_, by simp, rfl, fun h => by omega⟩
    · have hpost : ∀ q ∈ post, c.data + size < q.data := fun q hq => by
        have := h4 q hq; omega
      rw [hb, addNew_mid hs (by omega) hpost]
      by_cases hh : env.host .addNew2 = true
      · rw [if_pos hh]
        right
        refine ⟨by omega, ?_⟩
        have hs' := sortedD_insert (pre := pre ++ [c]) (post := post)
          (n := ⟨c.data + size, c.size - size, env.garbage, false⟩) (by simpa using hs)
          (by intro x hx; simp only [List.mem_append, List.mem_cons, List.not_mem_nil, or_false] at hx
              rcases hx with hx | rfl
              · have := h3 x hx; simp only; omega
              · simp only; omega) hpost
        have e1 : pre ++ c :: ⟨c.data + size, c.size - size, env.garbage, false⟩ :: post =
            (pre ++ [c]) ++ ⟨c.data + size, c.size - size, env.garbage, false⟩ :: post := by simp
        simp only
        rw [e1]
        have hm := modify_mid (fun n => { n with used := false }) hs'
        simp only at hm
        rw [hm]
        have hs'' := sortedD_replace (c := ⟨c.data + size, c.size - size, false, false⟩) hs' rfl
        have hfa := freeAdd_spec env .freeAdd2
          { st with blocks := (pre ++ [c]) ++ ⟨c.data + size, c.size - size, false, false⟩ :: post }
          (pre ++ [c]) post ⟨c.data + size, c.size - size, false, false⟩ rfl hs'' hf
        simp only at hfa
        rw [hfa]
        simp
      · rw [if_neg hh]
        left
        exact ⟨_, by simp, rfl, fun h => hh h.2.2⟩
  | _ => left; refine ⟨_, ?_, rfl, fun h => ?_⟩
         · simp
         · rw [h.2.1] at hsp; cases hsp

/-- Second half of using a free block: cut off the rest (if any) and mark it used. -/
def finish (env : Env) (st : St) (c : Block) (size : Nat) (splitIt : Bool) : St × Out :=
  if splitIt then
    match splitCurrent env st c size with
    | (st3, .success) =>
      ({ st3 with
          blocks := modify c.data (fun x => { x with size := size, used := true }) st3.blocks
          usedSize := st3.usedSize + size }, { res := .success, ptr := c.data })
    | (st3, r) => ((mergeAndAdd env st3 c.data).1, { res := r })
  else
    ({ st with
        blocks := modify c.data (fun x => { x with used := true }) st.blocks
        usedSize := st.usedSize + size }, { res := .success, ptr := c.data })

/-- How an operation may leave the state when it does not change the allocations. -/
structure Unchanged (st st' : St) (l : List Block) : Prop where
  core : Core st'.blocks st'.free
  ok : ∀ b ∈ st'.blocks, OK b
  same : Same l st'.blocks
  used : st'.usedSize = st.usedSize
  alloc : st'.allocSize = st.allocSize

/-- The state after handing out `[p, p+s)` from free memory covered by `l`. -/
structure Handed (st st' : St) (l : List Block) (p s : Nat) : Prop where
  core : Core st'.blocks st'.free
  ok : ∀ b ∈ st'.blocks, OK b
  usedOf : ∃ A B, Verif.Coarse.usedOf l = A ++ B ∧ Verif.Coarse.usedOf st'.blocks = A ++ (p, s) :: B
  tot : total st'.blocks = total l
  cover : ∀ x, Cover st'.blocks x ↔ Cover l x
  used : st'.usedSize = st.usedSize + s
  alloc : st'.allocSize = st.allocSize

theorem finish_spec (env : Env) (st : St) (pre post : List Block) (c : Block) (size : Nat)
    (splitIt : Bool) (hb : st.blocks = pre ++ c :: post) (hcore : Core st.blocks st.free)
    (hl : c.listed = false) (hpre : ∀ b ∈ pre, OK b) (hpost : ∀ b ∈ post, OK b)
    (hgood : Good env size) (hflag : c.used = false ∨ c.used = env.garbage)
    (hsz : if splitIt then size < c.size else size = c.size) :
    let l := pre ++ { c with used := false } :: post
    (finish env st c size splitIt).2.got = none ∧
    (((finish env st c size splitIt).2.res = .success ∧
      (finish env st c size splitIt).2.ptr = c.data ∧
      Handed st (finish env st c size splitIt).1 l c.data size ∧
      (NoAdj l → NoAdj (finish env st c size splitIt).1.blocks)) ∨
     ((finish env st c size splitIt).2.res ≠ .success ∧
      splitIt = true ∧
      ¬ (0 < size ∧ (∀ a b c, env.splitCb a b c = .success) ∧ env.host .addNew2 = true) ∧
      Unchanged st (finish env st c size splitIt).1 l ∧
      ((∀ a b d, env.mergeCb a b d = .success) → NoAdj (pre ++ post) →
        NoAdj (finish env st c size splitIt).1.blocks))) := by
  intro l
  have hs := hcore.sorted
  have hcore0 := hcore
  rw [hb] at hcore0 hs
  obtain ⟨h1, h2, h3, h4, h5⟩ := core_mid hcore0
  have hcp := hcore0.pos c (by simp)
  cases splitIt with
  | true =>
    simp only [if_true] at hsz
    simp only [finish, if_true]
    rcases splitCurrent_spec env st pre post c size hb hcore hl hsz hgood.free2 with
      ⟨r, hr, hsp, hnot⟩ | ⟨h0, hsp⟩
    · have hu : c.used = false := by
        rcases hgood.flag with h | h
        · rcases hflag with h' | h'
          · exact h'
          · rw [h', h]
        · exact absurd h hnot
      have hl' : l = pre ++ c :: post := by
        simp only [l]; rw [← hu]
      obtain ⟨bl, fr, e1, e2, e3, e4, e5⟩ :=
        mergeAndAdd_spec env st pre post c hb hcore hu hl hpre hpost hgood.reAdd
      have hfin : (match splitCurrent env st c size with
          | (st3, .success) =>
            ({ st3 with
                blocks := modify c.data (fun x => { x with size := size, used := true }) st3.blocks
                usedSize := st3.usedSize + size }, ({ res := .success, ptr := c.data } : Out))
          | (st3, r) => ((mergeAndAdd env st3 c.data).1, { res := r })) =
          ({ st with blocks := bl, free := fr }, { res := r }) := by
        rw [hsp]
        cases r <;> first | exact absurd rfl hr | (simp only; rw [e1])
      rw [hfin]
      refine ⟨rfl, Or.inr ⟨hr, trivial, hnot, ⟨e2, e3, ?_, rfl, rfl⟩, e5⟩⟩
      rw [hl', ← hb]; exact e4
    · rw [hsp]
      simp only
      have hs2 : SortedD (pre ++ c :: ⟨c.data + size, c.size - size, false, true⟩ :: post) := by
        have := sortedD_insert (pre := pre ++ [c]) (post := post)
          (n := ⟨c.data + size, c.size - size, false, true⟩) (by simpa using hs)
          (by intro x hx; simp only [List.mem_append, List.mem_cons, List.not_mem_nil, or_false] at hx
              rcases hx with hx | rfl
              · have := h3 x hx; simp only; omega
              · simp only; omega)
          (fun q hq => by have := h4 q hq; simp only; omega)
        simpa using this
      rw [modify_mid _ hs2]
      refine ⟨trivial, Or.inl ⟨trivial, trivial, ?_, ?_⟩⟩
      · have hcs := core_split hcore0 hl size h0 hsz true false
        have e1 : pre ++ { c with size := size, used := true } ::
            ⟨c.data + size, c.size - size, false, false⟩ :: post =
            (pre ++ [{ c with size := size, used := true }]) ++
            ⟨c.data + size, c.size - size, false, false⟩ :: post := by simp
        rw [e1] at hcs
        have hcf := core_freeAdd hcs rfl
        have e2 : (pre ++ [{ c with size := size, used := true }]) ++
            ⟨c.data + size, c.size - size, false, true⟩ :: post =
            pre ++ { c with size := size, used := true } ::
            ⟨c.data + size, c.size - size, false, true⟩ :: post := by simp
        simp only at hcf
        rw [e2] at hcf
        refine ⟨hcf, ?_, ⟨usedOf pre, usedOf post, by simp [l], by simp⟩, ?_, ?_, rfl, rfl⟩
        · intro b hb
          simp only [List.mem_append, List.mem_cons] at hb
          rcases hb with hb | rfl | rfl | hb
          · exact hpre b hb
          · simp [OK, hl]
          · simp [OK]
          · exact hpost b hb
        · simp [l]; omega
        · intro x
          simp only [l, cover_append, cover_cons]
          constructor
          · rintro (h | h | h | h)
            · exact Or.inl h
            · exact Or.inr (Or.inl (by omega))
            · exact Or.inr (Or.inl (by omega))
            · exact Or.inr (Or.inr h)
          · rintro (h | h | h)
            · exact Or.inl h
            · by_cases hx : x < c.data + size
              · exact Or.inr (Or.inl (by omega))
              · exact Or.inr (Or.inr (Or.inl (by omega)))
            · exact Or.inr (Or.inr (Or.inr h))
      · intro hno a ha b hb' hau hbu he
        simp only [List.mem_append, List.mem_cons] at ha hb'
        have m1 : ∀ y, y ∈ pre ∨ y ∈ post → y ∈ l := by
          intro y hy; simp only [l, List.mem_append, List.mem_cons]; rcases hy with h | h <;> simp [h]
        have m2 : { c with used := false } ∈ l := by simp [l]
        rcases ha with ha | rfl | rfl | ha
        · rcases hb' with hb' | rfl | rfl | hb'
          · exact hno a (m1 _ (Or.inl ha)) b (m1 _ (Or.inl hb')) hau hbu he
          · cases hbu
          · have := h3 a ha; simp only at he; omega
          · exact hno a (m1 _ (Or.inl ha)) b (m1 _ (Or.inr hb')) hau hbu he
        · cases hau
        · rcases hb' with hb' | rfl | rfl | hb'
          · have := h3 b hb'; simp only at he; omega
          · cases hbu
          · simp only at he; omega
          · refine hno _ m2 b (m1 _ (Or.inr hb')) rfl hbu ?_
            simp only at he ⊢; omega
        · rcases hb' with hb' | rfl | rfl | hb'
          · exact hno a (m1 _ (Or.inr ha)) b (m1 _ (Or.inl hb')) hau hbu he
          · cases hbu
          · have := h4 a ha; simp only at he; omega
          · exact hno a (m1 _ (Or.inr ha)) b (m1 _ (Or.inr hb')) hau hbu he
  | false =>
    simp only [Bool.false_eq_true, if_false] at hsz
    simp only [finish, Bool.false_eq_true, if_false]
    rw [hb, modify_mid _ hs]
    refine ⟨trivial, Or.inl ⟨trivial, trivial, ?_, ?_⟩⟩
    · refine ⟨core_setUsed hcore0 true, ?_, ⟨usedOf pre, usedOf post, by simp [l], by simp [hsz]⟩,
        by simp [l], fun x => ?_, rfl, rfl⟩
      · intro b hb
        simp only [List.mem_append, List.mem_cons] at hb
        rcases hb with hb | rfl | hb
        · exact hpre b hb
        · simp [OK, hl]
        · exact hpost b hb
      · simp only [l, cover_append, cover_cons]
    · intro hno a ha b hb' hau hbu he
      simp only [List.mem_append, List.mem_cons] at ha hb'
      have m1 : ∀ y, y ∈ pre ∨ y ∈ post → y ∈ l := by
        intro y hy; simp only [l, List.mem_append, List.mem_cons]; rcases hy with h | h <;> simp [h]
      rcases ha with ha | rfl | ha
      · rcases hb' with hb' | rfl | hb'
        · exact hno a (m1 _ (Or.inl ha)) b (m1 _ (Or.inl hb')) hau hbu he
        · cases hbu
        · exact hno a (m1 _ (Or.inl ha)) b (m1 _ (Or.inr hb')) hau hbu he
      · cases hau
      · rcases hb' with hb' | rfl | hb'
        · exact hno a (m1 _ (Or.inr ha)) b (m1 _ (Or.inl hb')) hau hbu he
        · cases hbu
        · exact hno a (m1 _ (Or.inr ha)) b (m1 _ (Or.inr hb')) hau hbu he

end Verif.Coarse
