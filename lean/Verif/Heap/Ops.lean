import Verif.Heap.Flags

/-! # The functions of a pool keep their promises -/
namespace Verif.Heap
open Function (update)

variable {pv : Prov} {op : Op} {Q : Out → L → Prop}

/-- The state of a call when it starts. -/
def Ev.Fresh (e : Ev) : Prop := e.refused = false ∧ e.freeErr = none ∧ e.nested = false

theorem own_none {own : List Reg} {c : Call} {r : Resp} (h1 : c.gives r = none) (h2 : c.takes r = none) :
    ownAfter own c r = own := by
  simp [ownAfter, h1, h2]

theorem own_give {own : List Reg} {c : Call} {r : Resp} {x : Reg} (h1 : c.gives r = some x) (h2 : c.takes r = none) :
    ownAfter own c r = x :: own := by
  simp [ownAfter, h1, h2]

theorem own_take {c : Call} {r : Resp} {p n s} (h1 : c.gives r = none) (h2 : c.takes r = some p) :
    ownAfter [⟨p, n, s⟩] c r = [] := by
  simp [ownAfter, h1, h2]

theorem own_swap {c : Call} {r : Resp} {p n s} {x : Reg} (h1 : c.gives r = some x) (h2 : c.takes r = some p) :
    ownAfter [⟨p, n, s⟩] c r = [x] := by
  simp [ownAfter, h1, h2]

/-- The thread-local error after a call of oneTBB that follows the reset. -/
structure TbbEv (ev : Ev) : Prop where
  err : ev.nested = false →
    (ev.refused = false ∧ ev.tls (.alloc .tbb) = resSuccess) ∨
      (ev.refused = true ∧ ev.tls (.alloc .tbb) = resOutOfHostMemory)

theorem wp_tbbCheck {v : Nat} {k : Nat → Prog} {l : L} (he : TbbEv l.ev)
    (hs : v ≠ 0 → wp pv op Q (k v) l)
    (hf : v = 0 → ∀ tls, tls (.alloc .tbb) ≠ resSuccess →
      (l.ev.nested = false → tls (.alloc .tbb) = if l.ev.refused = true then resOutOfHostMemory else resUnknown) →
      wp pv op Q (k 0) { l with ev := { l.ev with tls := tls } }) :
    wp pv op Q (tbbCheck v k) l := by
  unfold tbbCheck
  split
  · next h =>
    simp only [wp]
    split
    · next h2 =>
      simp only [wp]
      refine hf h _ (by simp [resUnknown, resSuccess]) fun hn => ?_
      rcases he.err hn with ⟨h3, h4⟩ | ⟨h3, h4⟩
      · simp [h3]
      · rw [h4] at h2
        simp [resOutOfHostMemory, resSuccess] at h2
    · next h2 =>
      refine hf h l.ev.tls h2 fun hn => ?_
      rcases he.err hn with ⟨h3, h4⟩ | ⟨h3, h4⟩
      · exact absurd h4 h2
      · simp [h3, h4]
  · next h => exact hs h

/-- A call of oneTBB that calls back only into this pool. -/
theorem tbb_callOk {p : Pool} {m : Made} {r : Rec} {own : List Reg} {c : Call} (hr : r.file = .tbb) (hpv : r.pv = pv)
    (hp : c.prov = none) (hx : c.excl = false) (hh : c.tbbHeap = some r.heap)
    (ha : ∀ a, ¬ c.usesArena own a) : CallOk pv op (K.pool p m r) own c := by
  refine ⟨fun q hq => ?_, fun h => ?_, fun h => ?_, fun a hu => absurd hu (ha a), fun h hal => ?_⟩
  · rw [hp] at hq; cases hq
  · rw [hx] at h; cases h
  · subst h; cases hh
  · rcases hal with ⟨id, hid, hh2 | ⟨g, b, rfl⟩⟩ | ⟨a, _, hu, _⟩
    · obtain ⟨h', x, h1, h2, h3⟩ := hh2
      rw [hh] at h1
      cases h1
      simp only [K.pool, hr, and_self, if_true, Option.some.injEq] at h2
      subst h2
      dsimp at h3
      subst h3
      refine ⟨fun id' hid' => ?_, fun a ha' => ?_⟩
      · rw [hid] at hid'
        cases hid'
        exact ⟨r, by simp [K.pool], hpv⟩
      · cases h <;> simp [Hook.id] at hid <;> simp [Hook.arena] at ha'
    · cases hh
    · exact absurd hu (ha a)

/-- A call of jemalloc that uses only this pool's arena. -/
theorem je_callOk {p : Pool} {m : Made} {r : Rec} {own : List Reg} {c : Call} (hr : r.file = .je) (hpv : r.pv = pv)
    (hp : c.prov = none) (hx : c.excl = false) (hh : c.tbbHeap = none)
    (ha : ∀ a, c.usesArena own a → a = r.heap) : CallOk pv op (K.pool p m r) own c := by
  refine ⟨fun q hq => ?_, fun h => ?_, fun h => ?_, fun a hu => ⟨true, by rw [ha a hu]; simp [K.pool, hr]⟩, fun h hal => ?_⟩
  · rw [hp] at hq; cases hq
  · rw [hx] at h; cases h
  · subst h; cases hx
  · rcases hal with ⟨id, hid, hh2 | ⟨g, b, rfl⟩⟩ | ⟨a, h1, hu, h3⟩
    · obtain ⟨h', x, h1, h2, h3⟩ := hh2
      rw [hh] at h1
      cases h1
    · cases hx
    · refine ⟨fun id' hid' => ?_, fun a' ha' => ?_⟩
      · cases h <;> simp [Hook.id] at hid' <;> simp [Hook.arena] at h1
      · rw [h1] at ha'
        cases ha'
        have := ha a hu
        subst this
        exact ⟨p, r, by simp [K.pool, hr], by simp [K.pool], hpv⟩

/-- A call of the provider. -/
theorem prov_callOk {p : Pool} {m : Made} {r : Rec} {own : List Reg} {c : Call}
    (hp : ∀ q, c.prov = some q → q = pv) (hx : c.excl = false) (hh : c.tbbHeap = none)
    (ha : ∀ a, ¬ c.usesArena own a) : CallOk pv op (K.pool p m r) own c := by
  refine ⟨hp, fun h => ?_, fun h => ?_, fun a hu => absurd hu (ha a), fun h hal => ?_⟩
  · rw [hx] at h; cases h
  · subst h; cases hx
  · rcases hal with ⟨id, hid, hh2 | ⟨g, b, rfl⟩⟩ | ⟨a, _, hu, _⟩
    · obtain ⟨h', x, h1, h2, h3⟩ := hh2
      rw [hh] at h1
      cases h1
    · cases hx
    · exact absurd hu (ha a)

theorem after_plain {k : K} {c : Call} {r : Resp} {v : Option Pool} (hx : c.excl = false) :
    k.after op c r v = k := by
  cases c <;> first | rfl | cases hx

theorem pool_recs {p : Pool} {m : Made} {r : Rec} : (K.pool p m r).recs p = some r := by simp [K.pool]

theorem pool_tbb {p : Pool} {m : Made} {r : Rec} (h : r.file = .tbb) :
    (K.pool p m r).tbb r.heap = some ⟨p, m.granularity, m.keepAll⟩ := by simp [K.pool, h]

theorem pool_arena {p : Pool} {m : Made} {r : Rec} (h : r.file = .je) :
    (K.pool p m r).arena r.heap = some true := by simp [K.pool, h]

theorem Ev.tbb {e e' : Ev} (h0 : e.Fresh) (h : Ev.Later { e with tls := update e.tls (.alloc .tbb) resSuccess } e') :
    TbbEv e' := by
  refine ⟨fun hn => ?_⟩
  obtain ⟨h1, h2, h3⟩ := h.2 hn
  rcases h2 with ⟨h2, h4⟩ | ⟨h2, h4⟩
  · left
    refine ⟨h2.trans h0.1, ?_⟩
    rw [h4]
    simp
  · exact .inr ⟨h2, h4⟩

section tbb
variable {p : Pool} {m : Made} {r : Rec} {l : L} (hr : r.file = .tbb) (hpv : r.pv = pv)
  (hk : l.k = K.pool p m r) (he : l.ev.Fresh)
include hr hpv hk he

theorem wp_tbbMalloc {n : Nat} {k : Nat → Prog}
    (hs : ∀ v ev, v ≠ 0 → wp pv op Q (k v) ⟨l.k, ⟨v, n, r.src⟩ :: l.own, [], ev⟩)
    (hf : ∀ ev, ev.tls (.alloc .tbb) ≠ resSuccess →
      (ev.nested = false → ev.tls (.alloc .tbb) = if ev.refused = true then resOutOfHostMemory else resUnknown) →
      wp pv op Q (k 0) ⟨l.k, l.own, [], ev⟩) :
    wp pv op Q (tbbMallocK p n k) l := by
  unfold tbbMallocK
  refine ⟨r, by rw [hk]; exact pool_recs, ?_⟩
  refine ⟨⟨_, by dsimp only; rw [hk]; exact pool_tbb hr⟩, ?_, fun x v ev hl ha _ _ _ => ?_⟩
  · dsimp only
    rw [hk]
    exact tbb_callOk hr hpv rfl rfl rfl (fun _ h => h)
  · dsimp only at hl ⊢
    rw [after_plain rfl]
    refine wp_tbbCheck (Ev.tbb he hl) (fun h => ?_) (fun h tls h1 h2 => ?_)
    · rw [own_give (x := ⟨x.val, n, .tbb r.heap⟩) (by simp [Call.gives, h]) rfl]
      have := hs x.val ev h
      simpa [Rec.src, hr, zeroAfter] using this
    · rw [own_none (by simp [Call.gives, h]) rfl]
      exact hf { ev with tls := tls } h1 h2

end tbb

variable {noWrap : Bool} {f : Frame} {src : Src} {own0 : List Reg}

theorem Post.got {p n a v l} (hasks : f.op.asks = some (p, n, a)) (hv : v ≠ 0)
    (hown : l.own = [⟨v, if noWrap then n else wrap n, src⟩]) (hal : (∃ j, a = 2 ^ j ∧ j < 64) → a ∣ v)
    (hz : ∀ g p num n, f.op = .calloc g p num n → (v, if noWrap then num * n else wrap (num * n)) ∈ l.zero) :
    Post noWrap f src own0 { val := v } l := by
  refine ⟨fun h => absurd h.2.1 hv, fun p q h => ?_, fun p' n' a' h _ => ?_, fun h => ?_, fun _ h => ?_,
    fun g p num n h _ => hz g p num n h, fun g pv params h => ?_, fun h => ?_, fun g pv params h => ?_⟩
  · dsimp only at h; rw [h] at hasks; cases hasks
  · rw [hasks] at h; cases h; exact ⟨hown, hal⟩
  · cases ho : f.op <;> rw [ho] at h hasks <;> simp [Op.keeps, Op.asks] at h hasks
    exact absurd h.1 hv
  · exact absurd (h _ hasks) hv
  · rw [h] at hasks; cases hasks
  · cases ho : f.op <;> rw [ho] at h hasks <;> simp [Op.excl, Op.asks] at h hasks
  · rw [h] at hasks; cases hasks

theorem Post.failed {x l} (hasks : f.op.asks = some x)
    (he : ErrOk { f with refused := l.ev.refused, freeErr := l.ev.freeErr, nested := l.ev.nested } {} l.ev.tls)
    (hk : f.op.keeps {} → l.own = own0) (hk' : ¬ f.op.keeps {} → l.own = []) :
    Post noWrap f src own0 { val := 0 } l := by
  refine ⟨he, fun p q h => ?_, fun p' n' a' h h0 => absurd rfl h0, hk, fun h _ => hk' h,
    fun g p num n h h0 => absurd rfl h0, fun g pv params h => ?_, fun h => ?_, fun g pv params h => ?_⟩
  · dsimp only at h; rw [h] at hasks; cases hasks
  · rw [h] at hasks; cases hasks
  · cases ho : f.op <;> rw [ho] at h hasks <;> simp [Op.excl, Op.asks] at h hasks
  · rw [h] at hasks; cases hasks

/-- A call that does not ask for memory, and is not the creation or destruction of a pool. -/
theorem Post.plain {o l} (hasks : f.op.asks = none) (hx : f.op.excl = false)
    (hfr : FreeOk { f with refused := l.ev.refused, freeErr := l.ev.freeErr, nested := l.ev.nested } o)
    (hk : f.op.keeps o → l.own = own0) (hk' : ¬ f.op.keeps o → l.own = []) :
    Post noWrap f src own0 o l := by
  refine ⟨fun h => ?_, hfr, fun p' n' a' h h0 => ?_, hk, fun h _ => hk' h,
    fun g p num n h h0 => ?_, fun g pv params h => ?_, fun h => ?_, fun g pv params h => ?_⟩
  · obtain ⟨⟨x, hx⟩, _⟩ := h; dsimp only at hx; rw [hasks] at hx; cases hx
  · rw [hasks] at h; cases h
  · rw [h] at hasks; cases hasks
  · rw [h] at hx; cases hx
  · rw [hx] at h; cases h
  · rw [h] at hx; cases hx

/-- What a call gets when it starts. -/
def Own0 (op : Op) (src : Src) (own0 : List Reg) : Prop :=
  (op.ptr = 0 ∧ own0 = []) ∨ (op.ptr ≠ 0 ∧ ∃ n, own0 = [⟨op.ptr, n, src⟩])

section tbb
variable {p : Pool} {m : Made} {r : Rec} {l : L} (hr : r.file = .tbb) (hpv : r.pv = pv)
  (hk : l.k = K.pool p m r) (he : l.ev.Fresh)
include hr hpv hk he

omit hr hpv hk he in
theorem tbb_errOk {ev : Ev} (hf : f.op.file = .tbb) (h1 : ev.tls (.alloc .tbb) ≠ resSuccess)
    (h2 : ev.nested = false → ev.tls (.alloc .tbb) = if ev.refused = true then resOutOfHostMemory else resUnknown) :
    ErrOk { f with refused := ev.refused, freeErr := ev.freeErr, nested := ev.nested } {} ev.tls := by
  intro _
  refine ⟨?_, fun h => ?_, fun _ hn => h2 hn⟩
  · dsimp only; rw [hf]; exact h1
  · dsimp only at h; rw [hf] at h; cases h

theorem tbb_malloc {n : Nat} (hop : f.op = .malloc .tbb p n) (hn : n < 2 ^ 64) (hown : l.own = []) :
    wp pv f.op (Post noWrap f r.src []) f.op.prog l := by
  rw [hop]
  refine wp_tbbMalloc hr hpv hk he (fun v ev hv => ?_) (fun ev h1 h2 => ?_)
  · refine Post.got (by rw [hop]; rfl) hv ?_ (fun _ => Nat.one_dvd _) (by rw [hop]; simp)
    rw [hown, wrap, Nat.mod_eq_of_lt hn, ite_self]
  · exact Post.failed (by rw [hop]; rfl) (tbb_errOk (by rw [hop]; rfl) h1 h2)
      (by rw [hop]; simp [Op.keeps]) (fun _ => hown)

theorem tbb_calloc {num n : Nat} (hop : f.op = .calloc .tbb p num n) (hn : noWrap = true → num * n < 2 ^ 64)
    (hown : l.own = []) : wp pv f.op (Post noWrap f r.src []) f.op.prog l := by
  have hw : (if noWrap = true then num * n else wrap (num * n)) = wrap (num * n) := by
    split
    · next h => rw [wrap, Nat.mod_eq_of_lt (hn h)]
    · rfl
  rw [hop]
  show wp _ _ _ (tbbCalloc p num n) _
  unfold tbbCalloc
  refine wp_tbbMalloc hr hpv hk he (fun v ev hv => ?_) (fun ev h1 h2 => ?_)
  · rw [if_neg hv]
    refine ⟨⟨_, List.mem_cons_self, Nat.le_refl _, Nat.le_refl _⟩, ?_, fun x w ev' _ _ _ _ _ => ?_⟩
    · dsimp only
      rw [hk]
      exact prov_callOk (by simp [Call.prov]) rfl rfl (fun _ h => h)
    · dsimp only
      rw [own_none rfl rfl, after_plain rfl]
      refine Post.got (by rw [hop]; rfl) hv ?_ (fun _ => Nat.one_dvd _) ?_
      · rw [hown, hw]
      · intro g q num' n' h
        rw [hop] at h
        cases h
        rw [hw]
        simp [zeroAfter]
  · rw [if_pos rfl]
    exact Post.failed (by rw [hop]; rfl) (tbb_errOk (by rw [hop]; rfl) h1 h2)
      (by rw [hop]; simp [Op.keeps]) (fun _ => hown)

theorem tbb_aligned {n a : Nat} (hop : f.op = .aligned .tbb p n a) (hn : n < 2 ^ 64) (hown : l.own = []) :
    wp pv f.op (Post noWrap f r.src []) f.op.prog l := by
  rw [hop]
  show wp _ _ _ (tbbAligned p n a) _
  unfold tbbAligned
  refine ⟨r, by rw [hk]; exact pool_recs, ?_⟩
  refine ⟨⟨_, by dsimp only; rw [hk]; exact pool_tbb hr⟩, ?_, fun x v ev hl ha _ _ _ => ?_⟩
  · dsimp only
    rw [hk]
    exact tbb_callOk hr hpv rfl rfl rfl (fun _ h => h)
  · dsimp only at hl ⊢
    rw [after_plain rfl]
    refine wp_tbbCheck (Ev.tbb he hl) (fun h => ?_) (fun h tls h1 h2 => ?_)
    · have hg : (Call.tbbAligned r.heap n a).gives x = some ⟨x.val, n, .tbb r.heap⟩ := by simp [Call.gives, h]
      rw [own_give hg rfl]
      refine Post.got (by rw [hop]; rfl) h ?_ (fun _ => (ha.1 _ hg).2) (by rw [hop]; simp)
      simp only [hown, wrap, Nat.mod_eq_of_lt hn, ite_self, Rec.src, hr]
    · rw [own_none (by simp [Call.gives, h]) rfl]
      exact Post.failed (by rw [hop]; rfl)
        (tbb_errOk (ev := { ev with tls := tls }) (by rw [hop]; rfl) h1 h2)
        (by rw [hop]; simp [Op.keeps]) (fun _ => hown)

theorem tbb_realloc {ptr n : Nat} (hop : f.op = .realloc .tbb p ptr n) (hn : n < 2 ^ 64)
    (hown : Own0 f.op r.src l.own) : wp pv f.op (Post noWrap f r.src l.own) f.op.prog l := by
  rw [hop] at hown ⊢
  show wp _ _ _ (tbbRealloc p ptr n) _
  unfold tbbRealloc
  refine ⟨r, by rw [hk]; exact pool_recs, ?_⟩
  refine ⟨⟨⟨_, by dsimp only; rw [hk]; exact pool_tbb hr⟩, fun hp => ?_⟩, ?_, fun x v ev hl ha _ _ _ => ?_⟩
  · rcases hown with ⟨h1, _⟩ | ⟨_, n', h2⟩
    · exact absurd h1 hp
    · exact ⟨_, by dsimp only; rw [h2]; exact List.mem_cons_self, rfl, by simp [Rec.src, hr]⟩
  · dsimp only
    rw [hk]
    exact tbb_callOk hr hpv rfl rfl rfl (fun _ h => h)
  · dsimp only at hl ⊢
    rw [after_plain rfl]
    refine wp_tbbCheck (Ev.tbb he hl) (fun h => ?_) (fun h tls h1 h2 => ?_)
    · have hg : (Call.tbbRealloc r.heap ptr n).gives x = some ⟨x.val, n, .tbb r.heap⟩ := by simp [Call.gives, h]
      have ht : (Call.tbbRealloc r.heap ptr n).takes x = some ptr := by simp [Call.takes, h]
      refine Post.got (by rw [hop]; rfl) h ?_ (fun _ => Nat.one_dvd _) (by rw [hop]; simp)
      simp only [wrap, Nat.mod_eq_of_lt hn, ite_self]
      rcases hown with ⟨h1, h2⟩ | ⟨_, n', h2⟩
      · simp [ownAfter, hg, h2, Rec.src, hr]
      · rw [h2]
        refine (own_swap hg ht).trans ?_
        simp [Rec.src, hr]
    · refine Post.failed (by rw [hop]; rfl)
        (tbb_errOk (ev := { ev with tls := tls }) (by rw [hop]; rfl) h1 h2) (fun hkp => ?_) (fun hkp => ?_)
      · rw [hop] at hkp
        simp only [Op.keeps, reduceCtorEq, or_false, true_and] at hkp
        exact own_none (by simp [Call.gives, h]) (by simp [Call.takes, h, hkp])
      · rw [hop] at hkp
        simp only [Op.keeps, reduceCtorEq, or_false, true_and, Decidable.not_not] at hkp
        rcases hown with ⟨h1, h2⟩ | ⟨_, n', h2⟩
        · simp [ownAfter, Call.gives, h, h2]
        · dsimp only
          rw [h2]
          exact own_take (by simp [Call.gives, h]) (by simp [Call.takes, hkp, Op.ptr])

theorem tbb_free {ptr : Nat} (hop : f.op = .free .tbb p ptr)
    (hown : Own0 f.op r.src l.own) : wp pv f.op (Post noWrap f r.src l.own) f.op.prog l := by
  rw [hop] at hown ⊢
  show wp _ _ _ (tbbFree p ptr) _
  unfold tbbFree
  split
  · next h0 =>
    rcases hown with ⟨h1, h2⟩ | ⟨h1, _⟩
    · refine Post.plain (by rw [hop]; rfl) (by rw [hop]; rfl) (fun _ _ _ h => absurd rfl h) ?_ (fun _ => h2)
      rw [hop]
      simp [Op.keeps]
    · exact absurd h0 h1
  next hp =>
  rcases hown with ⟨h1, h2⟩ | ⟨_, n', h2⟩
  · exact absurd h1 hp
  refine ⟨r, by dsimp only; rw [hk]; exact pool_recs, ?_⟩
  refine ⟨⟨⟨_, by dsimp only; rw [hk]; exact pool_tbb hr⟩,
    ⟨_, by dsimp only; rw [h2]; exact List.mem_cons_self, rfl, by simp [Rec.src, hr]⟩⟩, ?_,
    fun x v ev hl ha _ _ _ => ?_⟩
  · dsimp only
    rw [hk]
    exact tbb_callOk hr hpv rfl rfl rfl (fun _ h => h)
  · dsimp only at hl ⊢
    rw [after_plain rfl]
    split
    · next hv =>
      refine Post.plain (by rw [hop]; rfl) (by rw [hop]; rfl) (fun _ _ _ h => absurd rfl h) ?_ (fun _ => ?_)
      · rw [hop]
        simp [Op.keeps]
      · rw [h2]
        exact own_take rfl (by simp [Call.takes, hv, Op.ptr])
    · next hv =>
      have ho : ownAfter l.own (Call.tbbFree r.heap ptr) x = l.own := own_none rfl (by simp [Call.takes] at hv ⊢; exact hv)
      have hlast : ev.nested = false →
          (ev.freeErr = none ∧ ev.tls .free = resSuccess) ∨ (ev.freeErr = some (ev.tls .free) ∧ ev.tls .free ≠ resSuccess) := by
        intro hn
        obtain ⟨_, _, h3⟩ := hl.2 hn
        rcases h3 with ⟨h3, h4⟩ | h3
        · exact .inl ⟨h3.trans he.2.1, by rw [h4]; simp⟩
        · exact .inr h3
      simp only [wp]
      split
      · next h5 =>
        refine Post.plain (by rw [hop]; rfl) (by rw [hop]; rfl) (fun _ _ _ _ hn => ?_) (fun _ => ho) ?_
        · rcases hlast hn with ⟨_, h3⟩ | ⟨h3, _⟩
          · exact absurd h3 h5
          · dsimp only
            rw [h3]
            rfl
        · rw [hop]
          simp [Op.keeps, h5]
      · next h5 =>
        refine Post.plain (by rw [hop]; rfl) (by rw [hop]; rfl) (fun _ _ _ _ hn => ?_) (fun _ => ho) ?_
        · rcases hlast hn with ⟨h3, _⟩ | ⟨_, h3⟩
          · dsimp only
            rw [h3]
            rfl
          · exact absurd h3 h5
        · rw [hop]
          simp [Op.keeps, resUnknown, resSuccess]

omit he in
theorem tbb_usable {ptr : Nat} (hop : f.op = .usable .tbb p ptr)
    (hown : Own0 f.op r.src l.own) : wp pv f.op (Post noWrap f r.src l.own) f.op.prog l := by
  rw [hop] at hown ⊢
  show wp _ _ _ (tbbUsable p ptr) _
  unfold tbbUsable
  refine ⟨r, by rw [hk]; exact pool_recs, ?_⟩
  refine ⟨⟨⟨_, by rw [hk]; exact pool_tbb hr⟩, fun hp => ?_⟩, ?_, fun x v ev hl ha _ _ _ => ?_⟩
  · rcases hown with ⟨h1, _⟩ | ⟨_, n', h2⟩
    · exact absurd h1 hp
    · exact ⟨_, by rw [h2]; exact List.mem_cons_self, rfl, by simp [Rec.src, hr]⟩
  · rw [hk]
    exact tbb_callOk hr hpv rfl rfl rfl (fun _ h => h)
  · rw [own_none rfl rfl]
    refine Post.plain (by rw [hop]; rfl) (by rw [hop]; rfl) ?_ (fun _ => rfl) ?_
    · intro a b h
      dsimp only at h
      rw [hop] at h
      cases h
    · rw [hop]
      simp [Op.keeps]

end tbb

end Verif.Heap
