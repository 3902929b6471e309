import Verif.Heap.Ops

/-! # The functions of the jemalloc pool and of the proxy pool keep their promises -/
namespace Verif.Heap
open Function (update)

variable {pv : Prov} {op : Op} {Q : Out → L → Prop} {noWrap : Bool} {f : Frame} {src : Src} {own0 : List Reg}

section je
variable {p : Pool} {m : Made} {r : Rec} {l : L} (hr : r.file = .je) (hpv : r.pv = pv)
  (hk : l.k = K.pool p m r) (hh : r.heap < 4095)

theorem je_errOk {ev : Ev} (hf : f.op.file = .je) (h1 : ev.tls (.alloc .je) = resOutOfHostMemory) :
    ErrOk { f with refused := ev.refused, freeErr := ev.freeErr, nested := ev.nested } {} ev.tls := by
  intro _
  refine ⟨?_, fun h => h1, fun h => ?_⟩
  · dsimp only; rw [hf, h1]; simp [resOutOfHostMemory, resSuccess]
  · dsimp only at h; rw [hf] at h; cases h

include hr hpv hk hh

omit hh in
theorem wp_mallocx {n x : Nat} {k : Resp → Prog} (hx : x < 64)
    (hs : ∀ v e ev, v ≠ 0 → 2 ^ x ∣ v → wp pv op Q (k ⟨e, v⟩) ⟨l.k, ⟨v, n, r.src⟩ :: l.own, [], ev⟩)
    (hf : ∀ e ev, wp pv op Q (k ⟨e, 0⟩) ⟨l.k, l.own, [], ev⟩) :
    wp pv op Q (.call (.mallocx n ((r.heap + 1) * 2 ^ 20 + 2 ^ 8 + x)) k) l := by
  refine ⟨⟨flagsPlain_eq hx, ⟨_, by rw [hk, flagsArena_eq hx]; exact pool_arena hr⟩⟩, ?_, fun y v ev hl ha _ _ _ => ?_⟩
  · rw [hk]
    refine je_callOk hr hpv rfl rfl rfl (fun a h => ?_)
    have h : a = _ := h
    rw [h, flagsArena_eq hx]
  · rw [after_plain rfl]
    obtain ⟨e, w⟩ := y
    by_cases h : w = 0
    · subst h
      rw [own_none (by simp [Call.gives]) rfl]
      exact hf e ev
    · have hg : (Call.mallocx n ((r.heap + 1) * 2 ^ 20 + 2 ^ 8 + x)).gives ⟨e, w⟩ =
          some ⟨w, n, .arena r.heap⟩ := by
        simp only [Call.gives, ne_eq, h, not_false_iff, if_true, flagsArena_eq hx]
      rw [own_give hg rfl]
      have hd := (ha.1 _ hg).2
      have := hs w e ev h (by simpa [Call.align, flagsAlign_eq hx] using hd)
      simpa [Rec.src, hr, zeroAfter] using this

theorem wp_jeMalloc {n : Nat} {k : Nat → Prog}
    (hs : ∀ v ev, v ≠ 0 → wp pv op Q (k v) ⟨l.k, ⟨v, n, r.src⟩ :: l.own, [], ev⟩)
    (hf : ∀ ev, ev.tls (.alloc .je) = resOutOfHostMemory → wp pv op Q (k 0) ⟨l.k, l.own, [], ev⟩) :
    wp pv op Q (jeMallocK p n k) l := by
  unfold jeMallocK
  refine ⟨r, by rw [hk]; exact pool_recs, ?_⟩
  dsimp only
  rw [flags0 hh]
  refine wp_mallocx (x := 0) hr hpv hk (by omega) (fun v e ev hv _ => ?_) (fun e ev => ?_)
  · dsimp only
    rw [if_neg hv]
    exact hs v ev hv
  · dsimp only
    rw [if_pos rfl]
    exact hf _ (by simp)

theorem je_malloc {n : Nat} (hop : f.op = .malloc .je p n) (hn : n < 2 ^ 64) (hown : l.own = []) :
    wp pv f.op (Post noWrap f r.src []) f.op.prog l := by
  rw [hop]
  show wp pv _ _ (jeMallocK p n fun v => .ret { val := v }) l
  refine wp_jeMalloc hr hpv hk hh (fun v ev hv => ?_) (fun ev h1 => ?_)
  · refine Post.got (by rw [hop]; rfl) hv ?_ (fun _ => Nat.one_dvd _) (by rw [hop]; simp)
    rw [hown, wrap, Nat.mod_eq_of_lt hn, ite_self]
  · exact Post.failed (by rw [hop]; rfl) (je_errOk (by rw [hop]; rfl) h1)
      (by rw [hop]; simp [Op.keeps]) (fun _ => hown)

theorem je_calloc {num n : Nat} (hop : f.op = .calloc .je p num n) (hn : noWrap = true → num * n < 2 ^ 64)
    (hown : l.own = []) : wp pv f.op (Post noWrap f r.src []) f.op.prog l := by
  have hw : (if noWrap = true then num * n else wrap (num * n)) = wrap (num * n) := by
    split
    · next h => rw [wrap, Nat.mod_eq_of_lt (hn h)]
    · rfl
  rw [hop]
  show wp _ _ _ (jeCalloc p num n) _
  unfold jeCalloc
  refine wp_jeMalloc hr hpv hk hh (fun v ev hv => ?_) (fun ev h1 => ?_)
  · rw [if_neg hv]
    refine ⟨⟨_, List.mem_cons_self, Nat.le_refl _, Nat.le_refl _⟩, ?_, fun x w ev' _ _ _ _ _ => ?_⟩
    · dsimp only
      rw [hk]
      exact prov_callOk (by simp [Call.prov]) rfl rfl (fun _ h => h)
    · dsimp only
      rw [own_none rfl rfl, after_plain rfl]
      refine Post.got (by rw [hop]; rfl) hv ?_ (fun _ => Nat.one_dvd _) ?_
      · rw [hown, hw]
      · intro g q num' n' h
        rw [hop] at h
        cases h
        rw [hw]
        simp [zeroAfter]
  · rw [if_pos rfl]
    exact Post.failed (by rw [hop]; rfl) (je_errOk (by rw [hop]; rfl) h1)
      (by rw [hop]; simp [Op.keeps]) (fun _ => hown)

theorem je_aligned {n a : Nat} (hop : f.op = .aligned .je p n a) (hn : n < 2 ^ 64) (ha0 : a ≠ 0) (ha : a < 2 ^ 64)
    (hown : l.own = []) : wp pv f.op (Post noWrap f r.src []) f.op.prog l := by
  rw [hop]
  show wp _ _ _ (jeAligned p n a) _
  unfold jeAligned
  refine ⟨r, by rw [hk]; exact pool_recs, ?_⟩
  dsimp only
  rw [flags_eq (alignBits_lt ha0 ha) hh]
  refine wp_mallocx hr hpv hk (alignBits_lt ha0 ha) (fun v e ev hv hd => ?_) (fun e ev => ?_)
  · dsimp only
    rw [if_neg hv]
    refine Post.got (by rw [hop]; rfl) hv ?_ ?_ (by rw [hop]; simp)
    · rw [hown, wrap, Nat.mod_eq_of_lt hn, ite_self]
    · rintro ⟨j, rfl, hj⟩
      rw [alignBits_pow hj] at hd
      exact hd
  · dsimp only
    rw [if_pos rfl]
    refine Post.failed (by rw [hop]; rfl)
      (je_errOk (ev := { ev with tls := update ev.tls (.alloc .je) resOutOfHostMemory }) (by rw [hop]; rfl) (by simp))
      (by rw [hop]; simp [Op.keeps]) (fun _ => hown)

omit hh in
theorem wp_dallocx {ptr n' : Nat} {k : Resp → Prog} (hown : l.own = [⟨ptr, n', r.src⟩])
    (hs : ∀ y ev, wp pv op Q (k y) ⟨l.k, [], [], ev⟩) : wp pv op Q (.call (.dallocx ptr tcacheNone) k) l := by
  refine ⟨⟨flagsPlain_none, _, by rw [hown]; exact List.mem_cons_self, rfl, r.heap, by simp [Rec.src, hr]⟩, ?_,
    fun y v ev hl ha _ _ _ => ?_⟩
  · rw [hk, hown]
    refine je_callOk hr hpv rfl rfl rfl (fun a h => ?_)
    obtain ⟨y, hy, _, h2⟩ := h
    rw [List.mem_singleton] at hy
    subst hy
    simp only [Rec.src, hr, Src.arena.injEq] at h2
    exact h2.symm
  · rw [after_plain rfl, hown, own_take rfl rfl]
    exact hs y ev

theorem je_realloc {ptr n : Nat} (hop : f.op = .realloc .je p ptr n) (hn : n < 2 ^ 64)
    (hown : Own0 f.op r.src l.own) : wp pv f.op (Post noWrap f r.src l.own) f.op.prog l := by
  rw [hop] at hown ⊢
  show wp _ _ _ (jeRealloc p ptr n) _
  unfold jeRealloc
  split
  · next hc =>
    rcases hown with ⟨h1, _⟩ | ⟨_, n', h2⟩
    · exact absurd h1 hc.2
    refine wp_dallocx hr hpv hk h2 (fun y ev => ?_)
    refine Post.failed (by rw [hop]; rfl) ?_ ?_ (fun _ => rfl)
    · intro h
      have := h.2.2 .je p ptr (by dsimp only; rw [hop, hc.1])
      simp [hc.2] at this
    · rw [hop]
      simp [Op.keeps, hc.1]
  next hc =>
  split
  · next hp =>
    have ho : l.own = [] := by
      rcases hown with ⟨_, h2⟩ | ⟨h1, _⟩
      · exact h2
      · exact absurd hp h1
    refine wp_jeMalloc hr hpv hk hh (fun v ev hv => ?_) (fun ev h1 => ?_)
    · refine Post.got (by rw [hop]; rfl) hv ?_ (fun _ => Nat.one_dvd _) (by rw [hop]; simp)
      rw [ho, wrap, Nat.mod_eq_of_lt hn, ite_self]
    · exact Post.failed (by rw [hop]; rfl) (je_errOk (by rw [hop]; rfl) h1) (fun _ => rfl) (fun _ => ho)
  · next hp =>
    have hn0 : n ≠ 0 := fun h => hc ⟨h, hp⟩
    rcases hown with ⟨h1, _⟩ | ⟨_, n', h2⟩
    · exact absurd h1 hp
    have h2 : l.own = [⟨ptr, n', r.src⟩] := h2
    refine ⟨r, by rw [hk]; exact pool_recs, ?_⟩
    dsimp only
    rw [flags0 hh]
    have hfa : flagsArena ((r.heap + 1) * 2 ^ 20 + 2 ^ 8) = r.heap := flagsArena_eq (x := 0) (by omega)
    refine ⟨⟨flagsPlain_eq (x := 0) (by omega), hn0, ⟨_, by rw [hk, hfa]; exact pool_arena hr⟩,
      ⟨_, by rw [h2]; exact List.mem_cons_self, rfl, r.heap, by simp [Rec.src, hr]⟩⟩, ?_, fun y v ev hl ha _ _ _ => ?_⟩
    · rw [hk, h2]
      refine je_callOk hr hpv rfl rfl rfl (fun a h => ?_)
      rcases h with h | ⟨y, hy, _, h2⟩
      · rw [h, hfa]
      · rw [List.mem_singleton] at hy
        subst hy
        simp only [Rec.src, hr, Src.arena.injEq] at h2
        exact h2.symm
    · rw [after_plain rfl]
      dsimp only
      split
      · next hv =>
        refine Post.failed (by rw [hop]; rfl)
          (je_errOk (ev := { ev with tls := update ev.tls (.alloc .je) resOutOfHostMemory }) (by rw [hop]; rfl) (by simp))
          (fun _ => own_none (by simp [Call.gives, hv]) (by simp [Call.takes, hv])) ?_
        rw [hop]
        simp [Op.keeps, hn0]
      · next hv =>
        refine Post.got (by rw [hop]; rfl) hv ?_ (fun _ => Nat.one_dvd _) (by rw [hop]; simp)
        rw [wrap, Nat.mod_eq_of_lt hn, ite_self]
        show ownAfter l.own _ _ = _
        rw [h2]
        refine (own_swap (x := ⟨y.val, n, .arena r.heap⟩) (by simp [Call.gives, hv, hfa])
          (by simp [Call.takes, hv])).trans ?_
        simp [Rec.src, hr]

omit hh in
theorem je_free {ptr : Nat} (hop : f.op = .free .je p ptr)
    (hown : Own0 f.op r.src l.own) : wp pv f.op (Post noWrap f r.src l.own) f.op.prog l := by
  rw [hop] at hown ⊢
  show wp _ _ _ (jeFree ptr) _
  unfold jeFree
  have hfr : ∀ fr : Frame, FreeOk fr { res := resSuccess } := fun _ _ _ _ h => absurd rfl h
  split
  · next hp =>
    rcases hown with ⟨h1, _⟩ | ⟨_, n', h2⟩
    · exact absurd h1 hp
    refine wp_dallocx hr hpv hk h2 (fun y ev => ?_)
    refine Post.plain (by rw [hop]; rfl) (by rw [hop]; rfl) (hfr _) ?_ (fun _ => rfl)
    rw [hop]
    simp [Op.keeps]
  · next hp =>
    rcases hown with ⟨_, h2⟩ | ⟨h1, _⟩
    · refine Post.plain (by rw [hop]; rfl) (by rw [hop]; rfl) (hfr _) ?_ (fun _ => h2)
      rw [hop]
      simp [Op.keeps]
    · exact absurd h1 hp

omit hh in
theorem je_usable {ptr : Nat} (hop : f.op = .usable .je p ptr)
    (hown : Own0 f.op r.src l.own) : wp pv f.op (Post noWrap f r.src l.own) f.op.prog l := by
  rw [hop] at hown ⊢
  show wp _ _ _ (jeUsable ptr) _
  unfold jeUsable
  refine ⟨fun hp => ?_, ?_, fun x v ev hl ha _ _ _ => ?_⟩
  · rcases hown with ⟨h1, _⟩ | ⟨_, n', h2⟩
    · exact absurd h1 hp
    · exact ⟨_, by rw [h2]; exact List.mem_cons_self, rfl, r.heap, by simp [Rec.src, hr]⟩
  · rw [hk]
    exact je_callOk hr hpv rfl rfl rfl (fun _ h => h.elim)
  · rw [own_none rfl rfl]
    refine Post.plain (by rw [hop]; rfl) (by rw [hop]; rfl) ?_ (fun _ => rfl) ?_
    · intro a b h
      dsimp only at h
      rw [hop] at h
      cases h
    · rw [hop]
      simp [Op.keeps]

end je

section proxy
variable {p : Pool} {m : Made} {r : Rec} {l : L} (hr : r.file = .proxy) (hpv : r.pv = pv)
  (hk : l.k = K.pool p m r)

theorem proxy_errOk {ev : Ev} (hf : f.op.file = .proxy) (h1 : ev.tls (.alloc .proxy) ≠ resSuccess) :
    ErrOk { f with refused := ev.refused, freeErr := ev.freeErr, nested := ev.nested } {} ev.tls := by
  intro _
  refine ⟨?_, fun h => ?_, fun h => ?_⟩
  · dsimp only; rw [hf]; exact h1
  · dsimp only at h; rw [hf] at h; cases h
  · dsimp only at h; rw [hf] at h; cases h

theorem proxy_refuse {x} (hasks : f.op.asks = some x) (hf : f.op.file = .proxy)
    (hk' : ¬ f.op.keeps {} → l.own = []) : wp pv f.op (Post noWrap f r.src l.own) proxyRefuse l := by
  unfold proxyRefuse
  exact Post.failed hasks (proxy_errOk (ev := { l.ev with tls := update l.ev.tls (.alloc .proxy) resNotSupported }) hf
    (by simp [resNotSupported, resSuccess])) (fun _ => rfl) hk'

include hr hpv hk

theorem proxy_alloc {n a b : Nat} {p' : Pool} (hasks : f.op.asks = some (p', n, b)) (hf : f.op.file = .proxy)
    (hb : (∃ j, b = 2 ^ j ∧ j < 64) → b ∣ (if a = 0 then 1 else a)) (hkp : ¬ f.op.keeps {})
    (hc : ∀ g p num n, f.op ≠ .calloc g p num n) (hn : n < 2 ^ 64)
    (hown : l.own = []) : wp pv f.op (Post noWrap f r.src []) (proxyAligned p n a) l := by
  unfold proxyAligned
  refine ⟨r, by rw [hk]; exact pool_recs, trivial, ?_, fun x v ev hl ha _ _ _ => ?_⟩
  · rw [hk]
    exact prov_callOk (by simp [Call.prov, hpv]) rfl rfl (fun _ h => h)
  · rw [after_plain rfl]
    dsimp only
    split
    · next he =>
      rw [own_none (by simp [Call.gives, he]) rfl]
      exact Post.failed hasks (proxy_errOk (ev := { ev with tls := update ev.tls (.alloc .proxy) x.err }) hf
        (by simpa [resSuccess] using he)) (fun h => absurd h hkp) (fun _ => hown)
    · next he =>
      have hg : (Call.provAlloc r.pv n a).gives x = some ⟨x.val, n, .prov r.pv⟩ := by
        simp only [Call.gives]; rw [if_pos (by omega)]
      rw [own_give hg rfl]
      obtain ⟨h1, h2⟩ := ha.1 _ hg
      refine Post.got hasks h1 ?_ (fun h => Nat.dvd_trans (hb h) h2) (fun g p num n h => absurd h (hc g p num n))
      simp only [hown, wrap, Nat.mod_eq_of_lt hn, ite_self, Rec.src, hr]

theorem proxy_free {ptr : Nat} (hop : f.op = .free .proxy p ptr)
    (hown : Own0 f.op r.src l.own) : wp pv f.op (Post noWrap f r.src l.own) f.op.prog l := by
  have hfr : ∀ o l, FreeOk { f with refused := (l : L).ev.refused, freeErr := l.ev.freeErr, nested := l.ev.nested } o := by
    intro o l a b h
    dsimp only at h
    rw [hop] at h
    cases h
  have hko : ∀ o : Out, f.op.keeps o ↔ o.res ≠ resSuccess := by
    intro o
    rw [hop]
    exact Iff.rfl
  rw [hop] at hown ⊢
  show wp _ _ _ (proxyFree p ptr) _
  unfold proxyFree
  split
  · next hp =>
    rcases hown with ⟨h1, _⟩ | ⟨_, n', h2⟩
    · exact absurd h1 hp
    have h2 : l.own = [⟨ptr, n', r.src⟩] := h2
    refine ⟨trivial, ?_, fun x v ev hl ha _ _ _ => ?_⟩
    · rw [hk]
      exact prov_callOk (by simp [Call.prov]) rfl rfl (fun _ h => h)
    rw [after_plain rfl, own_none rfl rfl]
    refine ⟨r, by dsimp only; rw [hk]; exact pool_recs, fun _ => ?_, ?_, fun y v ev hl ha' _ _ _ => ?_⟩
    · refine ⟨⟨ptr, n', r.src⟩, by dsimp only; rw [h2]; exact List.mem_cons_self, rfl, by simp [Rec.src, hr], ?_⟩
      dsimp only
      split
      · next he =>
        left
        exact ha.2.2.2 ptr rfl he _ (by rw [h2]; exact List.mem_cons_self) rfl
      · right; rfl
    · dsimp only
      rw [hk]
      exact prov_callOk (by simp [Call.prov, hpv]) rfl rfl (fun _ h => h)
    · rw [after_plain rfl]
      refine Post.plain (by rw [hop]; rfl) (by rw [hop]; rfl) (hfr _ _) (fun h => ?_) (fun h => ?_)
      · rw [hko] at h
        exact own_none rfl (by simp only [Call.takes]; exact if_neg h)
      · rw [hko, Decidable.not_not] at h
        dsimp only
        rw [h2]
        exact own_take rfl (by simp only [Call.takes]; exact if_pos h)
  · next hp =>
    rcases hown with ⟨_, h2⟩ | ⟨h1, _⟩
    · have hp : ptr = 0 := by simpa using hp
      refine ⟨r, by rw [hk]; exact pool_recs, fun h => absurd hp h, ?_, fun y v ev hl ha' _ _ _ => ?_⟩
      · rw [hk]
        exact prov_callOk (by simp [Call.prov, hpv]) rfl rfl (fun _ h => h)
      · refine Post.plain (by rw [hop]; rfl) (by rw [hop]; rfl) (hfr _ _) (fun _ => ?_) (fun _ => ?_)
        all_goals simp [ownAfter, h2, Call.gives]
    · exact absurd h1 hp

end proxy

theorem wp_lastError {p : Pool} {g : File} {l : L} (hop : f.op = .lastError g p) (hown : l.own = []) :
    wp pv f.op (Post noWrap f src []) f.op.prog l := by
  rw [hop]
  refine Post.plain (by rw [hop]; rfl) (by rw [hop]; rfl) ?_ (fun _ => hown) (fun _ => hown)
  intro a b h
  dsimp only at h
  rw [hop] at h
  cases h

end Verif.Heap
