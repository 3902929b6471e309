import Verif.Heap.Steps

/-! # The beginning and the end of a call; the invariant holds always -/
namespace Verif.Heap
open Function (update)

variable {cfg : Cfg} {s : St} {G : Gh} {t : Tid} {f : Frame}

theorem ptr_of_excl {op : Op} (h : op.excl = true) : op.ptr = 0 := by
  cases op <;> simp_all [Op.excl, Op.ptr]

theorem blk_zero (h : Inv cfg s G) : s.blk 0 = none := by
  cases hb : s.blk 0 with
  | none => rfl
  | some b =>
    obtain ⟨h1, _, h2⟩ := h.blk 0 b hb
    exact absurd h1 h2.ptr

theorem Inv.start (h : Inv cfg s G) (hsa : cfg.someAlign = true) {op : Op} (ht : s.th t = none) (hl : Legal cfg s t op) :
    ∃ G', Inv cfg { s with
        th := update s.th t (some
          { op := op, made := op.pool.bind fun x => s.made x.2, prog := op.prog
            own := if op.ptr = 0 then [] else ((s.blk op.ptr).map (·.reg)).toList
            saved := s.blk op.ptr, refused := false, freeErr := none, nested := false })
        blk := blkStart s.blk op
        made := madeStart s.made op } G' := by
  generalize hf' : ({ op := op, made := op.pool.bind fun x => s.made x.2, prog := op.prog
                      own := if op.ptr = 0 then [] else ((s.blk op.ptr).map (·.reg)).toList
                      saved := s.blk op.ptr, refused := false, freeErr := none, nested := false } : Frame) = f'
  have fop : f'.op = op := by rw [← hf']
  have fmade : f'.made = op.pool.bind fun x => s.made x.2 := by rw [← hf']
  have fprog : f'.prog = f'.op.prog := by rw [← hf']
  have fown : f'.own = if op.ptr = 0 then [] else ((s.blk op.ptr).map (·.reg)).toList := by rw [← hf']
  have fsaved : f'.saved = s.blk op.ptr := by rw [← hf']
  have hok : OpOk cfg.noWrap f'.op := by rw [fop]; exact ⟨hl.noWrap, hl.someAlign hsa, hl.word⟩
  have hev : ∀ s' : St, (s'.ev t f').Fresh := fun s' => by rw [← hf']; exact ⟨rfl, rfl, rfl⟩
  have hat : update s.th t (some f') t = some f' := by simp
  have hne : ∀ t', t' ≠ t → update s.th t (some f') t' = s.th t' := fun t' h => Function.update_of_ne h _ _
  have hblk : ∀ x b, blkStart s.blk op x = some b → s.blk x = some b ∧ x ≠ op.ptr ∧ ∀ g p, op = .destroy g p → b.pool ≠ p := by
    intro x b hx
    by_cases hd : ∃ g p, op = .destroy g p
    · obtain ⟨g, p, rfl⟩ := hd
      simp only [blkStart, Option.filter_eq_some_iff] at hx
      refine ⟨hx.1, fun e => ?_, fun g' p' e => ?_⟩
      · rw [show x = 0 from e, blk_zero h] at hx
        cases hx.1
      · cases e
        simpa using hx.2
    · have : blkStart s.blk op x = if x = op.ptr then none else s.blk x := by
        cases op <;> first | rfl | exact absurd ⟨_, _, rfl⟩ hd
      rw [this] at hx
      split at hx
      · cases hx
      · next e => exact ⟨hx, e, fun g p e => absurd ⟨g, p, e⟩ hd⟩
  have hown : ∀ y ∈ f'.own, op.ptr ≠ 0 ∧ ∃ b, s.blk op.ptr = some b ∧ y = b.reg := by
    intro y hy
    rw [fown] at hy
    split at hy
    · cases hy
    · next h0 =>
      simp only [Option.mem_toList, Option.map_eq_some_iff] at hy
      obtain ⟨b, h1, h2⟩ := hy
      exact ⟨h0, b, h1, h2.symm⟩
  -- everything except the ghost state, the pools and the threads' promises
  have fin : ∀ G', GOk s G' → (∀ p m, madeStart s.made op p = some m → PoolK (G' (.inr p)) p m) →
      (∀ p, madeStart s.made op p = none → G' (.inr p) = K.empty) → (∀ t', t' ≠ t → G' (.inl t') = G (.inl t')) →
      (op.excl = false → G' (.inl t) = K.empty) →
      (∀ p, madeStart s.made op p ≠ none → G' (.inr p) = G (.inr p)) →
      ThOk cfg { s with th := update s.th t (some f'), blk := blkStart s.blk op, made := madeStart s.made op } G' t f' →
      Inv cfg { s with th := update s.th t (some f'), blk := blkStart s.blk op, made := madeStart s.made op } G' := by
    intro G' g1 g2 g3 g4 g5 g6 g7
    have mk : ∀ p, madeStart s.made op p ≠ none → madeStart s.made op p = s.made p := by
      intro p hp
      cases op <;> try rfl
      case destroy g q =>
        simp only [madeStart] at hp ⊢
        by_cases e : p = q
        · subst e; simp at hp
        · exact Function.update_of_ne e _ _
    -- threads in shared calls use pools that stay
    have stay : ∀ t' f1 g p m, s.th t' = some f1 → f1.op.pool = some (g, p) → s.made p = some m →
        madeStart s.made op p = some m := by
      intro t' f1 g p m h1 h2 h3
      cases op <;> try exact h3
      case destroy g' q =>
        have := hl.idle g' q rfl t' f1 g h1
        simp only [madeStart]
        rw [Function.update_of_ne]
        · exact h3
        · rintro rfl; exact this h2
    refine ⟨g1.congr rfl rfl rfl rfl rfl rfl, g2, g3, ?_, ?_, ?_, ?_, ?_, ?_, ?_⟩
    · intro t' h1
      have h1 : update s.th t (some f') t' = none := h1
      by_cases e : t' = t
      · subst e; rw [hat] at h1; cases h1
      · rw [hne t' e] at h1; rw [g4 t' e]; exact h.noThread t' h1
    · intro t' f1 h1 h2
      have h1 : update s.th t (some f') t' = some f1 := h1
      by_cases e : t' = t
      · subst e; rw [hat] at h1; cases h1; rw [fop] at h2; exact g5 h2
      · rw [hne t' e] at h1; rw [g4 t' e]; exact h.shared t' f1 h1 h2
    · intro t' f1 h1
      have h1 : update s.th t (some f') t' = some f1 := h1
      by_cases e : t' = t
      · subst e; rw [hat] at h1; cases h1; exact g7
      rw [hne t' e] at h1
      have o := h.th t' f1 h1
      have gp : ∀ g p, f1.op.excl = false → f1.op.pool = some (g, p) → G' (.inr p) = G (.inr p) := by
        intro g p hx hp
        obtain ⟨g', p', m, h2, h3, _⟩ := o.shared hx
        rw [hp] at h2
        cases h2
        exact g6 p (by rw [stay t' f1 _ _ m h1 hp h3]; simp)
      refine ⟨?_, o.destr, ?_, ?_, ?_⟩
      · intro hx
        obtain ⟨g, p, m, h2, h3, h4⟩ := o.shared hx
        exact ⟨g, p, m, h2, stay t' f1 g p m h1 h2 h3, h4⟩
      · intro g p hp h0
        obtain ⟨b, h2, h3, h4⟩ := o.saved g p hp h0
        have hx : f1.op.excl = false := by
          cases hx : f1.op.excl with
          | false => rfl
          | true => exact absurd (ptr_of_excl hx) h0
        refine ⟨b, h2, ⟨h3.ptr, h3.size, h3.align, ?_⟩, h4⟩
        rw [h3.src, h4.1, gp g p hx hp]
      · rw [g4 t' e]; exact o.tabs
      · obtain ⟨pv, src, own0, zero, f0, h1', h2, h3, h4, h5, h6, h7⟩ := o.prog
        refine ⟨pv, src, own0, zero, f0, h1', h2, ?_, h4, h5, h6, ?_⟩
        · intro g p hx hp
          rw [gp g p hx hp]
          exact h3 g p hx hp
        · have hk : known G' t' f1.op = known G t' f1.op := by
            unfold known
            rw [g4 t' e]
            split
            · rfl
            · next hx =>
              split
              · next hp => exact gp _ _ (by simpa using hx) hp
              · rfl
          rw [hk]
          exact h7
    · intro x b hx0
      have hx : blkStart s.blk op x = some b := hx0
      clear hx0
      obtain ⟨h1, h2, h3⟩ := hblk x b hx
      obtain ⟨h4, h5, h6⟩ := h.blk x b h1
      have h7 : madeStart s.made op b.pool ≠ none := by
        cases op <;> try exact h5
        case destroy g q =>
          simp only [madeStart]
          rw [Function.update_of_ne (h3 g q rfl)]
          exact h5
      exact ⟨h4, h7, ⟨h6.ptr, h6.size, h6.align, by rw [h6.src, g6 _ h7]⟩⟩
    · intro x y b c hxy hx hy
      exact h.blkApart x y b c hxy (hblk x b hx).1 (hblk y c hy).1
    · intro t' f1 h1 y hy x b hx
      have h1 : update s.th t (some f') t' = some f1 := h1
      obtain ⟨h2, h3, _⟩ := hblk x b hx
      by_cases e : t' = t
      · subst e
        rw [hat] at h1
        cases h1
        obtain ⟨_, b', h4, rfl⟩ := hown y hy
        exact h.blkApart _ _ b' b (Ne.symm h3) h4 h2
      · rw [hne t' e] at h1
        exact h.ownBlk t' f1 h1 y hy x b h2
    · intro t1 t2 fa fb h12 h10 h20 y hy z hz
      have h1 : update s.th t (some f') t1 = some fa := h10
      have h2 : update s.th t (some f') t2 = some fb := h20
      clear h10 h20
      by_cases e : t1 = t
      · subst e
        rw [hat] at h1
        cases h1
        rw [hne t2 (Ne.symm h12)] at h2
        obtain ⟨_, b', h4, rfl⟩ := hown y hy
        exact (h.ownBlk t2 fb h2 z hz _ b' h4).symm
      · rw [hne t1 e] at h1
        by_cases e2 : t2 = t
        · subst e2
          rw [hat] at h2
          cases h2
          obtain ⟨_, b', h4, rfl⟩ := hown z hz
          exact h.ownBlk t1 fa h1 y hy _ b' h4
        · rw [hne t2 e2] at h2
          exact h.ownOwn t1 t2 fa fb h12 h1 h2 y hy z hz
  by_cases hc : ∃ g pv params, op = .create g pv params
  · -- creation
    obtain ⟨g, pv, params, rfl⟩ := hc
    refine ⟨G, fin G h.g h.pools h.noPool (fun _ _ => rfl) (fun _ => h.noThread t ht) (fun _ _ => rfl) ?_⟩
    have hx : f'.op.excl = true := by rw [fop]; rfl
    refine ⟨fun h => ?_, ?_, ?_, ?_, ?_⟩
    · rw [hx] at h; cases h
    · intro g' p h; rw [fop] at h; cases h
    · intro g' p h; rw [fop] at h; cases h
    · rw [h.noThread t ht]; intro a ha; exact absurd rfl ha
    · refine ⟨pv, .none, [], [], f', by rw [Frame.provider, fop], rfl, ?_, fun _ => rfl, ?_, by simp, ?_⟩
      · intro g' p h; rw [hx] at h; cases h
      · intro b h; exact absurd (ptr_of_excl hx) h
      · rw [fprog]
        refine wp_create fop ?_ ?_
        · rw [known_excl hx]; exact h.noThread t ht
        · rw [fown]; rfl
  · have hpool : ∃ g p, op.pool = some (g, p) := by
      cases op <;> first | exact ⟨_, _, rfl⟩ | exact absurd ⟨_, _, _, rfl⟩ hc
    obtain ⟨g, p, hp⟩ := hpool
    obtain ⟨m, hm, hmf⟩ := hl.pool g p hp
    obtain ⟨r, hk, hrf, hrp, hrh⟩ := h.pools p m hm
    have hprov : f'.provider = some r.pv := by
      have : f'.made = some m := by rw [fmade, hp]; exact hm
      unfold Frame.provider
      rw [fop, this, hrp]
      cases op <;> first | rfl | cases hp
    -- the memory that is passed
    have hpass : op.ptr ≠ 0 → ∃ b, s.blk op.ptr = some b ∧ b.pool = p ∧ BlkOk cfg G b ∧ b.reg.ptr = op.ptr := by
      intro h0
      obtain ⟨f2, p2, b, h1, h2, h3⟩ := hl.ptr h0
      rw [hp] at h1
      cases h1
      obtain ⟨h4, _, h5⟩ := h.blk _ b h2
      exact ⟨b, h2, h3, h5, h4⟩
    have hown0 : Own0 f'.op r.src f'.own := by
      rw [fop, fown]
      by_cases h0 : op.ptr = 0
      · exact .inl ⟨h0, by rw [if_pos h0]⟩
      · obtain ⟨b, h1, h2, h3, h4⟩ := hpass h0
        refine .inr ⟨h0, b.reg.size, ?_⟩
        rw [if_neg h0, h1]
        have hs : b.reg.src = r.src := by rw [h3.src, h2, hk, pool_src]
        rw [← h4, ← hs]
        rfl
    have hown1 : ∀ b, f'.op.ptr ≠ 0 → f'.saved = some b → f'.own = [b.reg] := by
      intro b h0 hb
      rw [fop] at h0
      rw [fsaved] at hb
      rw [fown, if_neg h0, hb]
      rfl
    have hown2 : f'.op.ptr = 0 → f'.own = [] := by
      intro h0
      rw [fop] at h0
      rw [fown, if_pos h0]
    by_cases hd : op.excl = true
    · -- destruction
      have hd' : op = .destroy g p := by
        cases op <;> first | (cases hp; done) | (cases hp; rfl) | cases hd
      subst hd'
      have hx : f'.op.excl = true := by rw [fop]; rfl
      have g1 := h.g.move (i := .inr p) (j := .inl t) (by simp) (h.noThread t ht)
      have e1 : update (update G (.inl t) (G (.inr p))) (.inr p) K.empty (.inl t) = G (.inr p) := by simp
      have e2 : update (update G (.inl t) (G (.inr p))) (.inr p) K.empty (.inr p) = K.empty := by simp
      have e3 : ∀ q, q ≠ p → update (update G (.inl t) (G (.inr p))) (.inr p) K.empty (.inr q) = G (.inr q) := by
        intro q hq
        rw [Function.update_of_ne (by simpa using hq)]
        simp
      have e4 : ∀ t', t' ≠ t → update (update G (.inl t) (G (.inr p))) (.inr p) K.empty (.inl t') = G (.inl t') := by
        intro q hq
        rw [Function.update_of_ne (by simp), Function.update_of_ne (by simpa using hq)]
      have hmk : ∀ q, madeStart s.made (.destroy g p) q ≠ none → q ≠ p := by
        rintro q hq rfl
        simp [madeStart] at hq
      refine ⟨_, fin _ g1 ?_ ?_ e4 (fun h => by cases h) (fun q hq => e3 q (hmk q hq)) ?_⟩
      · intro q m' hq
        have hqp := hmk q (by rw [hq]; simp)
        rw [e3 q hqp]
        simp only [madeStart] at hq
        rw [Function.update_of_ne hqp] at hq
        exact h.pools q m' hq
      · intro q hq
        by_cases e : q = p
        · subst e; exact e2
        · simp only [madeStart] at hq
          rw [Function.update_of_ne e] at hq
          rw [e3 q e]
          exact h.noPool q hq
      · refine ⟨fun h => ?_, ?_, ?_, ?_, ?_⟩
        · rw [hx] at h; cases h
        · intro g' p' he
          rw [fop] at he
          cases he
          exact ⟨m, by rw [fmade]; exact hm, hmf⟩
        · intro g' p' _ h0; exact absurd (ptr_of_excl hx) h0
        · intro a ha
          left
          rw [e1, hk] at ha
          simp only [K.pool] at ha
          split at ha
          · next h1 => exact ⟨p, by rw [fop, ← hmf, ← hrf, h1.1]⟩
          · exact absurd rfl ha
        · refine ⟨r.pv, r.src, f'.own, [], f', hprov, rfl, ?_, hown2, hown1, by simp, ?_⟩
          · intro g' p' h; rw [hx] at h; cases h
          · rw [fprog]
            refine wp_pool (l := ⟨_, f'.own, [], _⟩) (m := m) (p := p) ?_ rfl hrh ?_ (hev _) hok hown0
            · rw [fop, hrf, hmf]; rfl
            · rw [known_excl hx, e1, hk]
    · -- other calls
      have hxo : op.excl = false := by simpa using hd
      have hx : f'.op.excl = false := by rw [fop]; exact hxo
      have hmk : madeStart s.made op = s.made := by
        cases op <;> first | rfl | cases hxo
      refine ⟨G, fin G h.g (by rw [hmk]; exact h.pools) (by rw [hmk]; exact h.noPool) (fun _ _ => rfl)
        (fun _ => h.noThread t ht) (fun _ _ => rfl) ?_⟩
      refine ⟨fun _ => ⟨g, p, m, by rw [fop]; exact hp, by rw [hmk]; exact hm, hmf, by rw [fmade, hp]; exact hm⟩,
        ?_, ?_, ?_, ?_⟩
      · intro g' p' he; rw [he] at hx; cases hx
      · intro g' p' hp' h0
        rw [fop] at hp' h0
        rw [hp] at hp'
        cases hp'
        obtain ⟨b, h1, h2, h3, h4⟩ := hpass h0
        exact ⟨b, by rw [fsaved]; exact h1, h3, h2, by rw [fop]; exact h4⟩
      · rw [h.noThread t ht]; intro a ha; exact absurd rfl ha
      · refine ⟨r.pv, r.src, f'.own, [], f', hprov, rfl, ?_, hown2, hown1, by simp, ?_⟩
        · intro g' p' _ hp'
          rw [fop, hp] at hp'
          cases hp'
          rw [hk, pool_src]
        · rw [fprog]
          refine wp_pool (l := ⟨_, f'.own, [], _⟩) (m := m) (p := p) ?_ rfl hrh ?_ (hev _) hok hown0
          · rw [fop, hrf, hmf]; exact hp
          · unfold known
            rw [hx, fop, hp]
            exact hk

/-- What comes new to the client when a call returns. -/
theorem ret_blk (h : Inv cfg s G) (ht : s.th t = some f) {o : Out} (hp : f.prog = .ret o) {x : Nat} {b : Blk}
    (hb : blkEnd s.blk f o x = some b) :
    s.blk x = some b ∨ (f.own = [b.reg] ∧ b.reg.ptr = x ∧ s.made b.pool ≠ none ∧ BlkOk cfg G b) := by
  have ok := h.th t f ht
  obtain ⟨pv, src, own0, zero, f0, h1, h2, h3, h4, h5, h6, h7⟩ := ok.prog
  rw [hp] at h7
  obtain ⟨_, _, q3, q4, _⟩ := h7
  rw [h2] at q3 q4
  -- what is kept
  have kept : f.op.keeps o → f.op.ptr ≠ 0 → x = f.op.ptr → f.saved = some b →
      f.own = [b.reg] ∧ b.reg.ptr = x ∧ s.made b.pool ≠ none ∧ BlkOk cfg G b := by
    intro hk h0 hx hs
    have hex : f.op.excl = false := by
      cases he : f.op.excl with
      | false => rfl
      | true => exact absurd (ptr_of_excl he) h0
    obtain ⟨g, p, m, p1, p2, p3, p4⟩ := ok.shared hex
    obtain ⟨b', b1, b2, b3, b4⟩ := ok.saved g p p1 h0
    rw [hs] at b1
    cases b1
    exact ⟨(q4 hk).trans (h5 b h0 hs), by rw [b4, hx], by rw [b3, p2]; simp, b2⟩
  unfold blkEnd at hb
  cases ha : f.op.asks with
  | none =>
    rw [ha] at hb
    dsimp only at hb
    split at hb
    · next hc => exact .inr (kept hc.1 hc.2.1 hc.2.2 hb)
    · exact .inl hb
  | some w =>
    obtain ⟨p, n, a⟩ := w
    rw [ha] at hb
    dsimp only at hb
    split at hb
    · next hc =>
      obtain ⟨o1, o2⟩ := q3 p n a ha hc.1
      dsimp only at o1 o2
      rw [o1] at hb
      simp only [List.find?_cons, beq_self_eq_true, Option.getD_some, Option.some.injEq] at hb
      subst hb
      have hex : f.op.excl = false := by
        revert ha
        cases f.op <;> simp [Op.asks, Op.excl]
      have hpo : ∃ g, f.op.pool = some (g, p) := by
        revert ha
        cases f.op <;> simp only [Op.asks, Op.pool, Option.some.injEq, Prod.mk.injEq] <;>
          first | (rintro ⟨rfl, -⟩; exact ⟨_, rfl, rfl⟩) | simp
      obtain ⟨g, hpo⟩ := hpo
      obtain ⟨g', p', m, p1, p2, p3, p4⟩ := ok.shared hex
      rw [hpo] at p1
      cases p1
      refine .inr ⟨o1, hc.2.symm, by dsimp only; rw [p2]; simp, ⟨hc.1, rfl, o2, h3 _ _ hex hpo⟩⟩
    · split at hb
      · next hc => exact .inr (kept hc.1 hc.2.1 hc.2.2 hb)
      · exact .inl hb

theorem Inv.ret (h : Inv cfg s G) (ht : s.th t = some f) {o : Out} (hp : f.prog = .ret o) :
    ∃ G', Inv cfg { s with
        th := update s.th t none
        blk := blkEnd s.blk f o
        made := madeEnd s.made f.op o
        last := if f.op.isLastError then s.last else update s.last t (some f) } G' := by
  have ok := h.th t f ht
  obtain ⟨pv, src, own0, zero, f0, h1, h2, h3, h4, h5, h6, h7⟩ := ok.prog
  rw [hp] at h7
  obtain ⟨_, _, _, _, _, _, q7, q8, q9⟩ := h7
  rw [h2] at q7 q8 q9
  dsimp only at q7 q8 q9
  have hat : update s.th t (none : Option Frame) t = none := by simp
  have hne : ∀ t', t' ≠ t → update s.th t none t' = s.th t' := fun t' h => Function.update_of_ne h _ _
  have some_ne : ∀ {t' f1}, update s.th t none t' = some f1 → t' ≠ t ∧ s.th t' = some f1 := by
    intro t' f1 h1
    by_cases e : t' = t
    · subst e; rw [hat] at h1; cases h1
    · rw [hne t' e] at h1; exact ⟨e, h1⟩
  -- everything except the ghost state and the pools
  have fin : ∀ G', GOk s G' → (∀ p m, madeEnd s.made f.op o p = some m → PoolK (G' (.inr p)) p m) →
      (∀ p, madeEnd s.made f.op o p = none → G' (.inr p) = K.empty) → (∀ t', t' ≠ t → G' (.inl t') = G (.inl t')) →
      G' (.inl t) = K.empty →
      (∀ p m, s.made p = some m → madeEnd s.made f.op o p = some m ∧ G' (.inr p) = G (.inr p)) →
      Inv cfg { s with
        th := update s.th t none
        blk := blkEnd s.blk f o
        made := madeEnd s.made f.op o
        last := if f.op.isLastError then s.last else update s.last t (some f) } G' := by
    intro G' g1 g2 g3 g4 g5 g6
    have gs : ∀ p, s.made p ≠ none → madeEnd s.made f.op o p ≠ none ∧ G' (.inr p) = G (.inr p) := by
      intro p hm
      cases hm' : s.made p with
      | none => exact absurd hm' hm
      | some m =>
        obtain ⟨e1, e2⟩ := g6 p m hm'
        exact ⟨by rw [e1]; simp, e2⟩
    refine ⟨g1.congr rfl rfl rfl rfl rfl rfl, g2, g3, ?_, ?_, ?_, ?_, ?_, ?_, ?_⟩
    · intro t' h1
      by_cases e : t' = t
      · subst e; exact g5
      · rw [g4 t' e]
        exact h.noThread t' ((hne t' e).symm.trans h1)
    · intro t' f1 h1 hx
      obtain ⟨e, h1⟩ := some_ne h1
      rw [g4 t' e]
      exact h.shared t' f1 h1 hx
    · intro t' f1 h1
      obtain ⟨e, h1⟩ := some_ne h1
      have o1 := h.th t' f1 h1
      have gp : ∀ g p, f1.op.excl = false → f1.op.pool = some (g, p) → G' (.inr p) = G (.inr p) := by
        intro g p hx hpo
        obtain ⟨g', p', m, p1, p2, _⟩ := o1.shared hx
        rw [hpo] at p1
        cases p1
        exact (g6 p m p2).2
      refine ⟨?_, o1.destr, ?_, ?_, ?_⟩
      · intro hx
        obtain ⟨g, p, m, p1, p2, p3⟩ := o1.shared hx
        exact ⟨g, p, m, p1, (g6 p m p2).1, p3⟩
      · intro g p hpo h0
        obtain ⟨b, b1, b2, b3, b4⟩ := o1.saved g p hpo h0
        have hx : f1.op.excl = false := by
          cases hx : f1.op.excl with
          | false => rfl
          | true => exact absurd (ptr_of_excl hx) h0
        exact ⟨b, b1, ⟨b2.ptr, b2.size, b2.align, by rw [b2.src, b3, gp g p hx hpo]⟩, b3, b4⟩
      · rw [g4 t' e]; exact o1.tabs
      · obtain ⟨pv, src, own0, zero, f0, h1', h2, h3, h4, h5, h6, h7⟩ := o1.prog
        refine ⟨pv, src, own0, zero, f0, h1', h2, ?_, h4, h5, h6, ?_⟩
        · intro g p hx hp
          rw [gp g p hx hp]
          exact h3 g p hx hp
        · have hk : known G' t' f1.op = known G t' f1.op := by
            unfold known
            rw [g4 t' e]
            split
            · rfl
            · next hx =>
              split
              · next hp => exact gp _ _ (by simpa using hx) hp
              · rfl
          rw [hk]
          exact h7
    · intro x b hb
      have hb : blkEnd s.blk f o x = some b := hb
      have key : b.reg.ptr = x ∧ s.made b.pool ≠ none ∧ BlkOk cfg G b := by
        rcases ret_blk h ht hp hb with h1 | ⟨_, h1, h2, h3⟩
        · exact h.blk x b h1
        · exact ⟨h1, h2, h3⟩
      obtain ⟨k1, k2, k3⟩ := key
      obtain ⟨e1, e2⟩ := gs _ k2
      exact ⟨k1, e1, ⟨k3.ptr, k3.size, k3.align, by rw [k3.src, e2]⟩⟩
    · intro x y b c hxy hb hc
      rcases ret_blk h ht hp hb with b1 | ⟨b1, b2, _⟩ <;> rcases ret_blk h ht hp hc with c1 | ⟨c1, c2, _⟩
      · exact h.blkApart x y b c hxy b1 c1
      · exact (h.ownBlk t f ht c.reg (by rw [c1]; exact List.mem_cons_self) x b b1).symm
      · exact h.ownBlk t f ht b.reg (by rw [b1]; exact List.mem_cons_self) y c c1
      · rw [b1] at c1
        simp only [List.cons.injEq, and_true] at c1
        exact absurd (by rw [← b2, ← c2, c1]) hxy
    · intro t' f1 h1 y hy x b hb
      obtain ⟨e, h1⟩ := some_ne h1
      rcases ret_blk h ht hp hb with b1 | ⟨b1, _⟩
      · exact h.ownBlk t' f1 h1 y hy x b b1
      · exact h.ownOwn t' t f1 f e h1 ht y hy b.reg (by rw [b1]; exact List.mem_cons_self)
    · intro t1 t2 fa fb h12 ha hb
      exact h.ownOwn t1 t2 fa fb h12 (some_ne ha).2 (some_ne hb).2
  cases hx : f.op.excl with
  | false =>
    have hmk : madeEnd s.made f.op o = s.made := by
      revert hx
      cases f.op <;> simp [Op.excl, madeEnd]
    refine ⟨G, fin G h.g (by rw [hmk]; exact h.pools) (by rw [hmk]; exact h.noPool) (fun _ _ => rfl)
      (h.shared t f ht hx) (fun p m hm => ⟨by rw [hmk]; exact hm, rfl⟩)⟩
  | true =>
    rw [known_excl hx] at q7 q8 q9
    have e4 : ∀ (t' : Tid), t' ≠ t → update G (.inl t) K.empty (.inl t') = G (.inl t') := by
      intro q hq
      rw [Function.update_of_ne (by simpa using hq)]
    by_cases hc : ∃ g pv params, f.op = .create g pv params ∧ o.res = resSuccess
    · obtain ⟨g, pv', params, hop, hres⟩ := hc
      have hpk := q7 g pv' params hop hres
      obtain ⟨r, hr, _⟩ := id hpk
      have hnot : s.made o.val = none := by
        cases hm : s.made o.val with
        | none => rfl
        | some m =>
          obtain ⟨r', hr', _⟩ := h.pools _ m hm
          have := h.g.dRecs (.inl t) (.inr o.val) o.val (by simp) (by rw [hr, pool_recs]; simp)
          rw [hr', pool_recs] at this
          cases this
      have g1 := h.g.move (i := .inl t) (j := .inr o.val) (by simp) (h.noPool _ hnot)
      have e1 : update (update G (.inr o.val) (G (.inl t))) (.inl t) K.empty (.inr o.val) = G (.inl t) := by simp
      have e3 : ∀ q, q ≠ o.val →
          update (update G (.inr o.val) (G (.inl t))) (.inl t) K.empty (.inr q) = G (.inr q) := by
        intro q hq
        rw [Function.update_of_ne (by simp), Function.update_of_ne (by simpa using hq)]
      have e4 : ∀ t', t' ≠ t → update (update G (.inr o.val) (G (.inl t))) (.inl t) K.empty (.inl t') = G (.inl t') := by
        intro q hq
        rw [Function.update_of_ne (by simpa using hq), Function.update_of_ne (by simp)]
      have hmk : madeEnd s.made f.op o = update s.made o.val (some ⟨g, pv', params⟩) := by
        rw [hop]
        simp only [madeEnd]
        rw [if_pos hres]
      refine ⟨_, fin _ g1 ?_ ?_ e4 (by simp) ?_⟩
      · intro p m hm
        rw [hmk] at hm
        by_cases e : p = o.val
        · subst e
          simp only [Function.update_self, Option.some.injEq] at hm
          subst hm
          rw [e1]
          exact hpk
        · rw [Function.update_of_ne e] at hm
          rw [e3 p e]
          exact h.pools p m hm
      · intro p hm
        rw [hmk] at hm
        by_cases e : p = o.val
        · subst e; simp at hm
        · rw [Function.update_of_ne e] at hm
          rw [e3 p e]
          exact h.noPool p hm
      · intro p m hm
        have e : p ≠ o.val := by
          rintro rfl
          rw [hnot] at hm
          cases hm
        exact ⟨by rw [hmk, Function.update_of_ne e]; exact hm, e3 p e⟩
    · have hmk : madeEnd s.made f.op o = s.made := by
        cases hop : f.op <;> try rfl
        case create g pv' params =>
          simp only [madeEnd]
          rw [if_neg fun hres => hc ⟨g, pv', params, hop, hres⟩]
      obtain ⟨k1, k2, k3⟩ := q8 hx fun g pv' params hop hres => hc ⟨g, pv', params, hop, hres⟩
      refine ⟨_, fin _ (h.g.drop k1 k2 k3) ?_ ?_ e4 (by simp) ?_⟩
      · intro p m hm
        rw [hmk] at hm
        rw [Function.update_of_ne (by simp)]
        exact h.pools p m hm
      · intro p hm
        rw [hmk] at hm
        rw [Function.update_of_ne (by simp)]
        exact h.noPool p hm
      · intro p m hm
        exact ⟨by rw [hmk]; exact hm, Function.update_of_ne (by simp) _ _⟩

theorem Inv.init (h : Init s) : Inv cfg s fun _ => K.empty := by
  obtain ⟨h1, h2, h3, h4, h5, h6, h7, h8, h9⟩ := h
  refine ⟨?_, ?_, fun _ _ => rfl, fun _ _ => rfl, ?_, ?_, ?_, ?_, ?_, ?_⟩
  · constructor <;> simp [K.empty, h1, h3, h4]
  · intro p m hm; rw [h6] at hm; cases hm
  · intro t f ht; rw [h8] at ht; cases ht
  · intro t f ht; rw [h8] at ht; cases ht
  · intro x b hb; rw [h7] at hb; cases hb
  · intro x y b c _ hb; rw [h7] at hb; cases hb
  · intro t f ht; rw [h8] at ht; cases ht
  · intro t t' f f' _ ht; rw [h8] at ht; cases ht

theorem Inv.step {s' : St} (h : Inv cfg s G) (hcalm : cfg.calm = true) (hsa : cfg.someAlign = true) (hs : Step cfg s s') :
    ∃ G', Inv cfg s' G' := by
  cases hs with
  | start t op h1 h2 => exact h.start hsa h1 h2
  | call t f c k r h1 h2 h3 h4 h5 => exact h.call hcalm h1 h2 h4 h5
  | hook t f c k hk l o tls h1 h2 h3 h4 => exact ⟨G, h.hook h1 h2 h4⟩
  | nested t f c k tls h1 h2 => exact ⟨G, h.nested h1 h2⟩
  | write mem h1 => exact ⟨G, h.write mem h1⟩
  | setTls t f v e k h1 h2 => exact ⟨G, h.setTls h1 h2⟩
  | getTls t f v k h1 h2 => exact ⟨G, h.getTls h1 h2⟩
  | noRec t f k h1 h2 => exact ⟨G, h.noRec h1 h2⟩
  | newRec t f k p g h1 h2 h3 h4 => exact h.newRec h1 h2 h3 h4
  | setRec t f p r k h1 h2 => exact h.setRec h1 h2
  | getRec t f p r k h1 h2 h3 => exact ⟨G, h.getRec h1 h2 h3⟩
  | freeRec t f p k h1 h2 => exact h.freeRec h1 h2
  | setTab t f a v k h1 h2 => exact h.setTab h1 h2
  | ret t f o h1 h2 => exact h.ret h1 h2

theorem reach_inv (hcalm : cfg.calm = true) (hsa : cfg.someAlign = true) (h : Reach cfg s) : ∃ G, Inv cfg s G := by
  induction h with
  | init h => exact ⟨_, Inv.init h⟩
  | step _ hs ih =>
    obtain ⟨G, hG⟩ := ih
    exact hG.step hcalm hsa hs

end Verif.Heap
