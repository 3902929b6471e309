import Verif.Coarse.Ops2
/-! Specifications of the public operations. -/
set_option linter.unusedSimpArgs false
namespace Verif.Coarse

/-- `[p, p+s)` is acceptable new memory: not null, not empty, inside the address space and
apart from every block. -/
structure Fresh (l : List Block) (p s : Nat) : Prop where
  ptr : 0 < p
  size : 0 < s
  bound : p + s ≤ 2 ^ 64
  apart : ∀ b ∈ l, b.data + b.size ≤ p ∨ p + s ≤ b.data

/-- `coarse_add_used_block`. -/
theorem addUsed_spec {env : Env} {st : St} {p s : Nat} {bl : List Block} (hi : Inv st)
    (hf : Fresh st.blocks p s) (h : addNew env .addNew1 st.blocks p s = some bl) :
    ∃ pre post, st.blocks = pre ++ post ∧
      modify p (fun b => { b with used := true }) bl = pre ++ ⟨p, s, true, false⟩ :: post ∧
      Inv { st with blocks := pre ++ ⟨p, s, true, false⟩ :: post
                    allocSize := st.allocSize + s, usedSize := st.usedSize + s } := by
  unfold addNew at h
  split at h
  · have hsp := insertBlock_spec ⟨p, s, env.garbage, false⟩ st.blocks hi.core.sorted
    rw [h] at hsp
    obtain ⟨pre, post, h1, rfl, h3, h4⟩ := hsp
    simp only at h3 h4
    refine ⟨pre, post, h1, ?_, ?_⟩
    · have hs := hi.core.sorted
      rw [h1] at hs
      have := modify_mid (fun b => { b with used := true })
        (sortedD_insert (n := ⟨p, s, env.garbage, false⟩) hs h3 h4)
      exact this
    · have hch := hi.core.chain
      rw [h1, chain_append] at hch
      refine ⟨⟨?_, ?_, ?_⟩, ?_, ?_, ?_⟩
      · have := chain_replace (pre := pre) (post := post) (mid := [⟨p, s, true, false⟩])
          (lo := p) (hi := p + s) hch.1 hch.2.1 (by simp [Chain])
          (fun a ha => by
            have := h3 a ha
            rcases hf.apart a (by rw [h1]; simp [ha]) with h | h
            · exact h
            · omega)
          (fun q hq => by
            have := h4 q hq
            have hq' := hf.apart q (by rw [h1]; simp [hq])
            have := hf.size
            omega)
          (by simp) hch.2.2
        simpa using this
      · intro b hb
        simp only [List.mem_append, List.mem_cons] at hb
        rcases hb with hb | rfl | hb
        · exact hi.core.pos b (by rw [h1]; simp [hb])
        · exact ⟨hf.size, hf.ptr, hf.bound⟩
        · exact hi.core.pos b (by rw [h1]; simp [hb])
      · have := hi.core.perm
        rw [h1] at this
        simpa using this
      · intro b hb
        simp only [List.mem_append, List.mem_cons] at hb
        rcases hb with hb | rfl | hb
        · exact hi.ok b (by rw [h1]; simp [hb])
        · simp [OK]
        · exact hi.ok b (by rw [h1]; simp [hb])
      · have := hi.used
        simp only
        rw [this, h1]
        simp only [usedTotal_append, usedTotal_cons, if_true]; omega
      · have := hi.alloc
        simp only
        rw [this, h1]
        simp only [total_append, total_cons]; omega
  · cases h

/-- Possible outcomes of an allocation. -/
inductive AllocOutcome (env : Env) (st : St) (size : Nat) (st' : St) (o : Out) : Prop where
  | handed (hres : o.res = .success) (hgot : o.got = none) (h : Handed st st' st.blocks o.ptr size)
      (hna : NoAdj st.blocks → NoAdj st'.blocks)
  | grown (hres : o.res = .success) (hgot : o.got = some (o.ptr, size))
      (hi : Inv st') (hu : ∃ A B, usedOf st.blocks = A ++ B ∧
        usedOf st'.blocks = A ++ (o.ptr, size) :: B)
      (hc : ∀ x, Cover st'.blocks x ↔ Cover st.blocks x ∨ (o.ptr ≤ x ∧ x < o.ptr + size))
      (ha : st'.allocSize = st.allocSize + size) (hus : st'.usedSize = st.usedSize + size)
      (hna : NoAdj st.blocks → NoAdj st'.blocks)
  | failed (hres : o.res ≠ .success) (hgot : o.got = none) (h : Unchanged st st' st.blocks)
      (hna : (∀ a b d, env.mergeCb a b d = .success) → NoAdj st.blocks → NoAdj st'.blocks)

theorem Inv.unchanged {st : St} (hi : Inv st) : Unchanged st st st.blocks :=
  ⟨hi.core, hi.ok, Same.refl _, rfl, rfl⟩

theorem Unchanged.inv {st st' : St} (hi : Inv st) (h : Unchanged st st' st.blocks) : Inv st' :=
  ⟨h.core, h.ok, by rw [h.used, hi.used, usedTotal_of_used h.same.used],
    by rw [h.alloc, hi.alloc, h.same.tot]⟩

theorem Handed.inv {st st' : St} {p s : Nat} (hi : Inv st) (h : Handed st st' st.blocks p s) :
    Inv st' := by
  refine ⟨h.core, h.ok, ?_, by rw [h.alloc, hi.alloc, h.tot]⟩
  obtain ⟨A, B, h1, h2⟩ := h.usedOf
  rw [h.used, hi.used]
  simp only [usedTotal, h1, h2, List.map_append, List.map_cons, List.sum_append, List.sum_cons]
  omega

/-- Upstream behaves: what it returns is fresh and aligned as asked. -/
def UpOk (env : Env) (st : St) (size : Nat) : Prop :=
  ∀ a p, env.upAlloc size a = .ok p → Fresh st.blocks p size ∧ p % a = 0

theorem allocUpstream_spec {cfg : Cfg} {env : Env} {st : St} {size a : Nat} (hi : Inv st)
    (hup : UpOk env st size) (hne : ∀ r, env.upAlloc size a = .error r → r ≠ .success) :
    AllocOutcome env st size (allocUpstream cfg env st size a).1 (allocUpstream cfg env st size a).2 ∧
    ((allocUpstream cfg env st size a).2.res = .success →
      (allocUpstream cfg env st size a).2.ptr % a = 0) := by
  unfold allocUpstream
  split
  · cases hu : env.upAlloc size a with
    | error r =>
      simp only
      exact ⟨.failed (hne r hu) rfl hi.unchanged (fun _ h => h), fun h => absurd h (hne r hu)⟩
    | ok p =>
      simp only
      obtain ⟨hf, hal⟩ := hup a p hu
      cases hn : addNew env .addNew1 st.blocks p size with
      | none => exact ⟨.failed (by simp) rfl hi.unchanged (fun _ h => h), fun h => by cases h⟩
      | some bl =>
        obtain ⟨pre, post, h1, h2, h3⟩ := addUsed_spec hi hf hn
        simp only
        rw [h2]
        refine ⟨.grown rfl rfl h3 ⟨usedOf pre, usedOf post, by rw [h1]; simp, by simp⟩ ?_ rfl rfl ?_,
          fun _ => hal⟩
        · intro x
          simp only
          rw [h1]
          simp only [cover_append, cover_cons]
          constructor
          · rintro (h | h | h)
            · exact Or.inl (Or.inl h)
            · exact Or.inr h
            · exact Or.inl (Or.inr h)
          · rintro ((h | h) | h)
            · exact Or.inl h
            · exact Or.inr (Or.inr h)
            · exact Or.inr (Or.inl h)
        · rw [h1]
          intro hno a ha b hb hau hbu
          simp only [List.mem_append, List.mem_cons] at ha hb
          rcases ha with ha | rfl | ha
          · rcases hb with hb | rfl | hb
            · exact hno a (by simp [ha]) b (by simp [hb]) hau hbu
            · cases hbu
            · exact hno a (by simp [ha]) b (by simp [hb]) hau hbu
          · cases hau
          · rcases hb with hb | rfl | hb
            · exact hno a (by simp [ha]) b (by simp [hb]) hau hbu
            · cases hbu
            · exact hno a (by simp [ha]) b (by simp [hb]) hau hbu
  · exact ⟨.failed (by simp) rfl hi.unchanged (fun _ h => h), fun h => by cases h⟩

theorem alloc_spec {cfg : Cfg} {env : Env} {st : St} {size align k : Nat} (hi : Inv st)
    (hp : cfg.page = 2 ^ k) (hgood : Good env size) (hup : UpOk env st size)
    (hne : ∀ a r, env.upAlloc size a = .error r → r ≠ .success) :
    AllocOutcome env st size (alloc cfg env st size align).1 (alloc cfg env st size align).2 ∧
    ((alloc cfg env st size align).2.res = .success →
      (alloc cfg env st size align).2.ptr % cfg.page = 0 ∧
      (align ≠ 0 → (alloc cfg env st size align).2.ptr % align = 0)) ∧
    (∀ a e, effAlign cfg.page align = some a → findFree cfg size a st.free = some e → 0 < size →
      (∀ a b c, env.splitCb a b c = .success) → (∀ s, env.host s = true) →
      (alloc cfg env st size align).2.res = .success ∧
        (alloc cfg env st size align).2.got = none) := by
  unfold alloc
  cases he : effAlign cfg.page align with
  | none => exact ⟨.failed (by simp) rfl hi.unchanged (fun _ h => h), (fun h => by cases h),
      (fun a e h => by cases h)⟩
  | some a =>
    obtain ⟨j, hj, hpa, hal⟩ := effAlign_spec hp he
    have hdiv : ∀ p : Nat, p % a = 0 → p % cfg.page = 0 ∧ (align ≠ 0 → p % align = 0) := by
      intro p hpz
      have hap := Nat.dvd_of_mod_eq_zero hpz
      refine ⟨Nat.mod_eq_zero_of_dvd (Nat.dvd_trans hpa hap), fun h0 => ?_⟩
      rw [if_neg h0, Nat.mul_one] at hal
      exact Nat.mod_eq_zero_of_dvd (Nat.dvd_trans hal hap)
    simp only
    cases hff : findFree cfg size a st.free with
    | none =>
      simp only
      obtain ⟨h1, h2⟩ := allocUpstream_spec (cfg := cfg) (a := a) hi hup (hne a)
      exact ⟨h1, fun h => hdiv _ (h2 h), fun a' e h h' => by
        cases h; rw [hff] at h'; cases h'⟩
    | some e =>
      obtain ⟨hmem, hsz, hfit⟩ := findFree_some hff
      obtain ⟨pre, b, post, hb, hbd, hbs, hbu, hbl⟩ := free_entry hi hmem
      have hlook : lookup e.2 st.blocks = some b := by
        rw [← hbd, hb]
        have := hi.core.sorted
        rw [hb] at this
        exact lookup_mid this
      simp only
      rw [hlook]
      simp only
      rw [if_pos (by omega)]
      have hee : e = (b.size, b.data) := by rw [hbs, hbd]
      obtain ⟨hu1, hu2⟩ := unlist_spec hi hb hbl
      rw [hee]
      have hokpre : ∀ x ∈ pre, OK x := fun x hx => hi.ok x (by rw [hb]; simp [hx])
      have hokpost : ∀ x ∈ post, OK x := fun x hx => hi.ok x (by rw [hb]; simp [hx])
      have hspec := allocFrom_spec env (unlist st (b.size, b.data)) pre post
        { b with listed := false } size j hu1 (by rw [hu1]; exact hu2) hbu rfl hokpre hokpost hgood
        (by simp only; omega)
        (by simp only
            rcases hfit with h | h
            · left
              rw [← hj, hbd]
              unfold aligned at h
              simp only [Bool.or_eq_true, beq_iff_eq] at h
              rcases h with h | h
              · have := Nat.two_pow_pos j; omega
              · exact h
            · right; rw [← hj]; omega)
      simp only at hspec
      rw [← hj] at hspec
      generalize hr : allocFrom env (unlist st (b.size, b.data)) { b with listed := false } size a = r
        at hspec
      obtain ⟨hgot, hcase⟩ := hspec
      have hsame : Same st.blocks (unlist st (b.size, b.data)).blocks := by
        rw [hu1, hb]
        exact ⟨by simp, by simp, fun x => by simp only [cover_append, cover_cons]⟩
      have hna : NoAdj st.blocks → NoAdj (unlist st (b.size, b.data)).blocks := by
        rw [hu1, hb]
        intro hno x hx y hy hxu hyu
        simp only [List.mem_append, List.mem_cons] at hx hy
        have conv : ∀ z, z ∈ pre ∨ z = { b with listed := false } ∨ z ∈ post →
            ∃ w ∈ pre ++ b :: post, w.data = z.data ∧ w.size = z.size ∧ w.used = z.used := by
          rintro z (h | rfl | h)
          · exact ⟨z, by simp [h], rfl, rfl, rfl⟩
          · exact ⟨b, by simp, rfl, rfl, rfl⟩
          · exact ⟨z, by simp [h], rfl, rfl, rfl⟩
        obtain ⟨x', hx', x1, x2, x3⟩ := conv x hx
        obtain ⟨y', hy', y1, y2, y3⟩ := conv y hy
        rw [← x1, ← x2, ← y1]
        exact hno x' hx' y' hy' (by rw [x3]; exact hxu) (by rw [y3]; exact hyu)
      rcases hcase with ⟨c1, c2, c3, c4⟩ | ⟨c1, c2, c3, c4⟩
      · refine ⟨.handed c1 hgot ?_ (fun h => c4 (hna h)), fun _ => hdiv _ c2, fun _ _ _ _ _ _ _ => ⟨c1, hgot⟩⟩
        obtain ⟨A, B, hAB, hAB'⟩ := c3.usedOf
        exact ⟨c3.core, c3.ok, ⟨A, B, by rw [← hsame.used]; exact hAB, hAB'⟩,
          c3.tot.trans hsame.tot, fun x => (c3.cover x).trans (hsame.cover x), c3.used, c3.alloc⟩
      · refine ⟨.failed c1 hgot ⟨c3.core, c3.ok, hsame.trans c3.same, c3.used, c3.alloc⟩
          (fun hall h => c4 hall (hna h)), fun h => absurd h c1,
          fun _ _ _ _ h0 h1 h2 => absurd ⟨Or.inl h0, h1, h2⟩ c2⟩

/-- `coarse_free`. -/
theorem free_spec {env : Env} {st : St} {ptr bytes : Nat} (hi : Inv st)
    (hh : env.host .reAdd = true) :
    (ptr = 0 ∧ free env st ptr bytes = (st, { res := .success })) ∨
    (ptr ≠ 0 ∧ free env st ptr bytes = (st, { res := .invalidArgument }) ∧
      ∀ s, (ptr, s) ∈ usedOf st.blocks → bytes ≠ 0 ∧ bytes ≠ s) ∨
    (∃ st' A B s, free env st ptr bytes = (st', { res := .success }) ∧ ptr ≠ 0 ∧
      (bytes = 0 ∨ bytes = s) ∧
      usedOf st.blocks = A ++ (ptr, s) :: B ∧ usedOf st'.blocks = A ++ B ∧
      Inv st' ∧ (∀ x, Cover st'.blocks x ↔ Cover st.blocks x) ∧ total st'.blocks = total st.blocks ∧
      st'.usedSize = st.usedSize - s ∧ st'.allocSize = st.allocSize ∧
      ((∀ a b d, env.mergeCb a b d = .success) → NoAdj st.blocks → NoAdj st'.blocks)) := by
  unfold free
  by_cases h0 : ptr = 0
  · left; exact ⟨h0, by rw [if_pos h0]⟩
  · rw [if_neg h0]
    have hs := hi.core.sorted
    right
    cases hl : lookup ptr st.blocks with
    | none =>
      left
      refine ⟨h0, rfl, ?_⟩
      intro s hms
      unfold usedOf at hms
      rw [List.mem_map] at hms
      obtain ⟨b, hb, hbe⟩ := hms
      rw [List.mem_filter] at hb
      have := lookup_none hl b hb.1
      simp at hbe; omega
    | some b =>
      obtain ⟨pre, post, hb, hbd⟩ := lookup_some hl
      have hsb := hs
      rw [hb] at hsb
      have huniq : ∀ s, (ptr, s) ∈ usedOf st.blocks → b.used = true ∧ s = b.size := by
        intro s hms
        unfold usedOf at hms
        rw [List.mem_map] at hms
        obtain ⟨b', hb', hbe⟩ := hms
        rw [List.mem_filter] at hb'
        have := lookup_of_mem hs hb'.1
        simp only [Prod.mk.injEq] at hbe
        rw [hbe.1, hl] at this
        cases this
        exact ⟨hb'.2, hbe.2.symm⟩
      simp only
      by_cases hu : b.used = false
      · left
        rw [if_pos hu]
        refine ⟨h0, rfl, fun s hms => ?_⟩
        have := (huniq s hms).1
        rw [hu] at this; cases this
      · rw [if_neg hu]
        have hu' : b.used = true := by simpa using hu
        by_cases hby : bytes > 0 ∧ bytes ≠ b.size
        · left
          rw [if_pos hby]
          refine ⟨h0, rfl, fun s hms => ?_⟩
          have := (huniq s hms).2
          omega
        · right
          rw [if_neg hby]
          have hok := hi.ok b (by rw [hb]; simp)
          unfold OK at hok
          rw [hu'] at hok
          have hbl : b.listed = false := by simpa using hok
          have hm : modify ptr (fun b => { b with used := false }) st.blocks =
              pre ++ { b with used := false } :: post := by
            rw [← hbd, hb]; exact modify_mid _ hsb
          rw [hm]
          have hcore := hi.core
          rw [hb] at hcore
          have hcu := core_setUsed hcore false
          obtain ⟨bl, fr, e1, e2, e3, e4, e5⟩ := mergeAndAdd_spec env
            { st with usedSize := st.usedSize - b.size, blocks := pre ++ { b with used := false } :: post }
            pre post { b with used := false } rfl hcu rfl hbl
            (fun x hx => hi.ok x (by rw [hb]; simp [hx]))
            (fun x hx => hi.ok x (by rw [hb]; simp [hx])) hh
          have e1' : mergeAndAdd env
              { st with usedSize := st.usedSize - b.size, blocks := pre ++ { b with used := false } :: post }
              ptr = ({ blocks := bl, free := fr, usedSize := st.usedSize - b.size,
                       allocSize := st.allocSize }, true) := by
            have := e1
            rw [← hbd]
            exact this
          rw [e1']
          have hue : usedOf st.blocks = usedOf pre ++ (ptr, b.size) :: usedOf post := by
            rw [hb]; simp [hu', hbd]
          have hue' : usedOf bl = usedOf pre ++ usedOf post := by
            rw [e4.used]; simp
          have htot : total bl = total st.blocks := by
            rw [e4.tot, hb]; simp
          refine ⟨_, usedOf pre, usedOf post, b.size, rfl, h0, by omega, hue, hue', ?_, ?_, htot,
            rfl, rfl, ?_⟩
          · refine ⟨e2, e3, ?_, ?_⟩
            · simp only
              rw [hi.used]
              simp only [usedTotal, hue, hue', List.map_append, List.map_cons, List.sum_append,
                List.sum_cons]
              omega
            · simp only; rw [hi.alloc, htot]
          · intro x
            rw [e4.cover, hb]
            simp only [cover_append, cover_cons]
          · intro hall hno
            apply e5 hall
            intro x hx y hy
            rw [List.mem_append] at hx hy
            refine hno x ?_ y ?_ <;> rw [hb]
            · rcases hx with h | h <;> simp [h]
            · rcases hy with h | h <;> simp [h]

/-- `coarse_split`. -/
theorem split_spec {env : Env} {st : St} {ptr tot first : Nat} (hi : Inv st) :
    (∃ r, r ≠ .success ∧ split env st ptr tot first = (st, { res := r }) ∧
      ¬ ((ptr, tot) ∈ usedOf st.blocks ∧ 0 < first ∧ first < tot ∧
        (∀ a b c, env.splitCb a b c = .success) ∧ env.host .addNew1 = true)) ∨
    (∃ pre post b, split env st ptr tot first =
        ({ st with blocks := pre ++ { b with size := first } ::
            ⟨ptr + first, tot - first, true, false⟩ :: post }, { res := .success }) ∧
      st.blocks = pre ++ b :: post ∧ b.data = ptr ∧ b.size = tot ∧ b.used = true ∧
      0 < first ∧ first < tot ∧
      Inv { st with blocks := pre ++ { b with size := first } ::
            ⟨ptr + first, tot - first, true, false⟩ :: post }) := by
  unfold split
  have hs := hi.core.sorted
  by_cases h0 : ptr = 0 ∨ first ≥ tot ∨ first = 0 ∨ tot = 0
  · left; rw [if_pos h0]
    refine ⟨_, by simp, rfl, ?_⟩
    rintro ⟨hm, h1, h2, _⟩
    have : ptr ≠ 0 := by
      unfold usedOf at hm
      rw [List.mem_map] at hm
      obtain ⟨b, hb, hbe⟩ := hm
      rw [List.mem_filter] at hb
      have := hi.core.pos b hb.1
      simp only [Prod.mk.injEq] at hbe
      omega
    omega
  · rw [if_neg h0]
    cases hl : lookup ptr st.blocks with
    | none =>
      left
      refine ⟨_, by simp, rfl, ?_⟩
      rintro ⟨hm, _⟩
      unfold usedOf at hm
      rw [List.mem_map] at hm
      obtain ⟨b, hb, hbe⟩ := hm
      rw [List.mem_filter] at hb
      have := lookup_none hl b hb.1
      simp at hbe; omega
    | some b =>
      obtain ⟨pre, post, hb, hbd⟩ := lookup_some hl
      have hsb := hs
      rw [hb] at hsb
      have huniq : ∀ s, (ptr, s) ∈ usedOf st.blocks → b.used = true ∧ s = b.size := by
        intro s hms
        unfold usedOf at hms
        rw [List.mem_map] at hms
        obtain ⟨b', hb', hbe⟩ := hms
        rw [List.mem_filter] at hb'
        have := lookup_of_mem hs hb'.1
        simp only [Prod.mk.injEq] at hbe
        rw [hbe.1, hl] at this
        cases this
        exact ⟨hb'.2, hbe.2.symm⟩
      simp only
      by_cases h1 : b.size ≠ tot
      · left; rw [if_pos h1]
        exact ⟨_, by simp, rfl, fun h => h1 (huniq _ h.1).2.symm⟩
      · rw [if_neg h1]
        by_cases h2 : b.used = false
        · left; rw [if_pos h2]
          refine ⟨_, by simp, rfl, fun h => ?_⟩
          have := (huniq _ h.1).1
          rw [h2] at this; cases this
        · rw [if_neg h2]
          have hu : b.used = true := by simpa using h2
          have hok := hi.ok b (by rw [hb]; simp)
          unfold OK at hok
          rw [hu] at hok
          have hbl : b.listed = false := by simpa using hok
          have hcore := hi.core
          rw [hb] at hcore
          obtain ⟨m1, m2, m3, m4, m5⟩ := core_mid hcore
          cases hsp : env.splitCb ptr tot first with
          | success =>
            simp only
            have han := addNew_mid (env := env) (site := .addNew1) (sz := b.size - first)
              (s := first) hsb (by omega) (fun q hq => by have := m4 q hq; omega)
            rw [hbd] at han
            rw [hb, han]
            by_cases hh : env.host .addNew1 = true
            · rw [if_pos hh]
              right
              simp only
              have hcs := core_split hcore hbl first (by omega) (by omega) true true
              have hcs0 := core_split hcore hbl first (by omega) (by omega) true env.garbage
              have hs2 : SortedD (pre ++ b :: ⟨ptr + first, b.size - first, env.garbage, false⟩ :: post) := by
                have := sortedD_replace (c := b) hcs0.sorted rfl
                rw [hbd] at this; exact this
              have hmod := modify_mid (fun b => { b with size := first }) hs2
              rw [hbd] at hmod
              rw [hmod]
              have hs3 : SortedD ((pre ++ [{ b with size := first }]) ++
                  ⟨ptr + first, b.size - first, env.garbage, false⟩ :: post) := by
                have := sortedD_replace (c := { b with size := first }) hs2 rfl
                simpa using this
              have hmod2 := modify_mid (fun n => { n with used := true }) hs3
              simp only [List.append_assoc, List.cons_append, List.nil_append, hbd] at hmod2
              rw [hmod2]
              have hbt : b.size = tot := by omega
              refine ⟨pre, post, b, by rw [hbt, hbd], rfl, hbd, hbt, hu, by omega, by omega, ?_⟩
              rw [hbd, hbt] at hcs
              have hbeq : (⟨ptr, first, true, b.listed⟩ : Block) = { b with size := first } := by
                rw [hu, hbd]
              rw [hbeq] at hcs
              refine ⟨hcs, ?_, ?_, ?_⟩
              · intro x hx
                simp only [List.mem_append, List.mem_cons] at hx
                rcases hx with hx | rfl | rfl | hx
                · exact hi.ok x (by rw [hb]; simp [hx])
                · simp [OK, hbl, hu]
                · simp [OK]
                · exact hi.ok x (by rw [hb]; simp [hx])
              · simp only
                rw [hi.used, hb]
                simp only [usedTotal_append, usedTotal_cons, hu, if_true]; omega
              · simp only
                rw [hi.alloc, hb]
                simp only [total_append, total_cons]; omega
            · rw [if_neg hh]
              left
              exact ⟨.outOfHostMemory, by simp, rfl, fun h => hh h.2.2.2.2⟩
          | _ => left; refine ⟨_, ?_, rfl, fun h => ?_⟩
                 · simp
                 · rw [h.2.2.2.1] at hsp; cases hsp

/-- `coarse_merge`. -/
theorem merge_spec {env : Env} {st : St} {low high tot : Nat} (hi : Inv st) :
    (∃ r, r ≠ .success ∧ merge env st low high tot = (st, { res := r }) ∧
      ¬ (∃ s1 s2, (low, s1) ∈ usedOf st.blocks ∧ (high, s2) ∈ usedOf st.blocks ∧
        high = low + s1 ∧ tot = s1 + s2 ∧ (∀ a b c, env.mergeCb a b c = .success))) ∨
    (∃ pre post l h, merge env st low high tot =
        ({ st with blocks := pre ++ { l with size := tot } :: post }, { res := .success }) ∧
      st.blocks = pre ++ l :: h :: post ∧ l.data = low ∧ h.data = high ∧ l.used = true ∧
      h.used = true ∧ high = low + l.size ∧ tot = l.size + h.size ∧
      Inv { st with blocks := pre ++ { l with size := tot } :: post }) := by
  unfold merge
  have hs := hi.core.sorted
  have hlook : ∀ p s, (p, s) ∈ usedOf st.blocks →
      ∃ b, lookup p st.blocks = some b ∧ b.used = true ∧ b.size = s ∧ b ∈ st.blocks ∧ b.data = p := by
    intro p s hms
    unfold usedOf at hms
    rw [List.mem_map] at hms
    obtain ⟨b', hb', hbe⟩ := hms
    rw [List.mem_filter] at hb'
    have := lookup_of_mem hs hb'.1
    simp only [Prod.mk.injEq] at hbe
    rw [hbe.1] at this
    exact ⟨b', this, hb'.2, hbe.2, hb'.1, hbe.1⟩
  by_cases h0 : low = 0 ∨ high = 0 ∨ tot = 0 ∨ high ≤ low ∨ high - low ≥ tot
  · left; rw [if_pos h0]
    refine ⟨_, by simp, rfl, ?_⟩
    rintro ⟨s1, s2, hm1, hm2, hadj, htot, _⟩
    obtain ⟨b1, _, _, hb1s, hb1, hb1d⟩ := hlook _ _ hm1
    obtain ⟨b2, _, _, hb2s, hb2, hb2d⟩ := hlook _ _ hm2
    have := hi.core.pos b1 hb1
    have := hi.core.pos b2 hb2
    omega
  · rw [if_neg h0]
    cases hl1 : lookup low st.blocks with
    | none =>
      left
      refine ⟨_, by simp, rfl, ?_⟩
      rintro ⟨s1, s2, hm1, _⟩
      obtain ⟨b1, hb1, _⟩ := hlook _ _ hm1
      rw [hl1] at hb1; cases hb1
    | some l =>
      cases hl2 : lookup high st.blocks with
      | none =>
        left
        refine ⟨_, by simp, rfl, ?_⟩
        rintro ⟨s1, s2, hm1, hm2, _⟩
        obtain ⟨b1, hb1, _⟩ := hlook _ _ hm2
        rw [hl2] at hb1; cases hb1
      | some h =>
        simp only
        by_cases hu : l.used = false ∨ h.used = false
        · left; rw [if_pos hu]
          refine ⟨_, by simp, rfl, ?_⟩
          rintro ⟨s1, s2, hm1, hm2, _⟩
          obtain ⟨b1, hb1, hb1u, _⟩ := hlook _ _ hm1
          obtain ⟨b2, hb2, hb2u, _⟩ := hlook _ _ hm2
          rw [hl1] at hb1; cases hb1
          rw [hl2] at hb2; cases hb2
          rcases hu with hu | hu
          · rw [hu] at hb1u; cases hb1u
          · rw [hu] at hb2u; cases hb2u
        · rw [if_neg hu]
          have hlu : l.used = true := by
            cases hx : l.used with
            | true => rfl
            | false => exact absurd (Or.inl hx) hu
          have hhu : h.used = true := by
            cases hx : h.used with
            | true => rfl
            | false => exact absurd (Or.inr hx) hu
          obtain ⟨pre, post, hb, hld⟩ := lookup_some hl1
          obtain ⟨preh, posth, hbh, hhd⟩ := lookup_some hl2
          have hsb := hs
          rw [hb] at hsb
          have hcore := hi.core
          rw [hb] at hcore
          obtain ⟨m1, m2, m3, m4, m5⟩ := core_mid hcore
          have hnext : nextOf low st.blocks = post.head? := by
            rw [← hld, hb]; exact nextOf_mid hsb
          by_cases hadj : nextOf low st.blocks ≠ some h ∨ high ≠ low + l.size
          · left; rw [if_pos hadj]
            refine ⟨_, by simp, rfl, ?_⟩
            rintro ⟨s1, s2, hm1, hm2, he, _⟩
            obtain ⟨b1, hb1, hb1u, hb1s, _⟩ := hlook _ _ hm1
            rw [hl1] at hb1; cases hb1
            rcases hadj with hadj | hadj
            · apply hadj
              rw [hnext]
              have hmem : h ∈ pre ++ l :: post := by rw [← hb, hbh]; simp
              have hlpos := (hcore.pos l (by simp)).1
              simp only [List.mem_append, List.mem_cons] at hmem
              rcases hmem with hmem | rfl | hmem
              · have := m3 h hmem; omega
              · omega
              · cases post with
                | nil => cases hmem
                | cons q post' =>
                  rw [List.mem_cons] at hmem
                  rcases hmem with rfl | hmem
                  · rfl
                  · rw [chain_cons] at m2
                    have e1 := m2.1 h hmem
                    have e2 := m4 q (by simp)
                    have e3 := (hcore.pos q (by simp)).1
                    omega
            · omega
          · rw [if_neg hadj]
            have hadj1 : nextOf low st.blocks = some h := Classical.not_not.1 fun hn => hadj (Or.inl hn)
            have hadj2 : high = low + l.size := Classical.not_not.1 fun hn => hadj (Or.inr hn)
            by_cases ht : l.size + h.size ≠ tot
            · left; rw [if_pos ht]
              refine ⟨_, by simp, rfl, ?_⟩
              rintro ⟨s1, s2, hm1, hm2, _, htt, _⟩
              obtain ⟨b1, hb1, hb1u, hb1s, _⟩ := hlook _ _ hm1
              obtain ⟨b2, hb2, hb2u, hb2s, _⟩ := hlook _ _ hm2
              rw [hl1] at hb1; cases hb1
              rw [hl2] at hb2; cases hb2
              omega
            · rw [if_neg ht]
              rw [hnext] at hadj1
              obtain ⟨post', rfl⟩ := List.head?_eq_some_iff.1 hadj1
              rcases userBlockMerge_cases env st l h true with ⟨c1, c2, c3, c4, c5⟩ | ⟨r, hr, c5, c6⟩
              · right
                rw [c5]
                have hokl := hi.ok l (by rw [hb]; simp)
                have hokh := hi.ok h (by rw [hb]; simp)
                unfold OK at hokl hokh
                rw [hlu] at hokl
                rw [hhu] at hokh
                have hll : l.listed = false := by simpa using hokl
                have hhl : h.listed = false := by simpa using hokh
                refine ⟨pre, post', l, h, ?_, hb, hld, hhd, hlu, hhu, hadj2, by omega, ?_⟩
                · simp only [hll, hhl, Bool.false_eq_true, if_false]
                  rw [hb, modify_mid _ hsb]
                  have hs2 := sortedD_replace (c := { l with size := l.size + h.size, listed := false }) hsb rfl
                  have e2 : pre ++ { l with size := l.size + h.size, listed := false } :: h :: post' =
                      pre ++ [{ l with size := l.size + h.size, listed := false }] ++ h :: post' := by simp
                  rw [e2] at hs2
                  rw [e2, removeBlock_mid hs2]
                  have ht' : l.size + h.size = tot := by omega
                  have hleq : { l with size := l.size + h.size, listed := false } =
                      { l with size := tot } := by rw [ht', ← hll]
                  rw [hleq]
                  simp [hll]
                · have ht' : l.size + h.size = tot := by omega
                  rw [chain_cons] at m2
                  refine ⟨⟨?_, ?_, ?_⟩, ?_, ?_, ?_⟩
                  · have := chain_replace (pre := pre) (post := post')
                      (mid := [{ l with size := tot }]) (lo := l.data) (hi := h.data + h.size)
                      m1 m2.2 (by simp [Chain]) m3 m2.1 (by simp; omega)
                      (fun a ha q hq => m5 a ha q (by simp [hq]))
                    simpa using this
                  · intro b hb'
                    simp only [List.mem_append, List.mem_cons] at hb'
                    have p1 := hcore.pos l (by simp)
                    have p2 := hcore.pos h (by simp)
                    rcases hb' with hb' | rfl | hb'
                    · exact hcore.pos b (by simp [hb'])
                    · simp only; omega
                    · exact hcore.pos b (by simp [hb'])
                  · have := hcore.perm
                    simp only [keys_append, keys_cons, hll, hhl, Bool.false_eq_true, if_false,
                      List.nil_append] at this ⊢
                    exact this
                  · intro b hb'
                    simp only [List.mem_append, List.mem_cons] at hb'
                    rcases hb' with hb' | rfl | hb'
                    · exact hi.ok b (by rw [hb]; simp [hb'])
                    · simp [OK, hll, hlu]
                    · exact hi.ok b (by rw [hb]; simp [hb'])
                  · simp only
                    rw [hi.used, hb]
                    simp only [usedTotal_append, usedTotal_cons, hlu, hhu, if_true]; omega
                  · simp only
                    rw [hi.alloc, hb]
                    simp only [total_append, total_cons]; omega
              · left
                rw [c5]
                refine ⟨r, hr, rfl, ?_⟩
                rintro ⟨s1, s2, hm1, hm2, he, htt, hall⟩
                exact c6 hall ⟨hlu, hhu, by omega⟩

end Verif.Coarse
