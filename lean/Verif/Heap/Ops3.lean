import Verif.Heap.Ops2

/-! # Creation and destruction keep their promises, and so do all functions -/
namespace Verif.Heap
open Function (update)

variable {pv : Prov} {op : Op} {Q : Out → L → Prop} {noWrap : Bool} {f : Frame} {src : Src} {own0 : List Reg}

theorem Post.excl {o : Out} {l : L} (hx : f.op.excl = true) (hown : l.own = [])
    (h1 : ∀ g pv params, f.op = .create g pv params → o.res = resSuccess → PoolK l.k o.val ⟨g, pv, params⟩)
    (h2 : (∀ g pv params, f.op = .create g pv params → o.res ≠ resSuccess) →
      l.k.recs = K.empty.recs ∧ l.k.tbb = K.empty.tbb ∧ l.k.arena = K.empty.arena)
    (h3 : ∀ g pv params, f.op = .create g pv params → o.res ≠ resSuccess → l.k.tab = K.empty.tab) :
    Post noWrap f src own0 o l := by
  have ha : f.op.asks = none := by
    revert hx
    cases f.op <;> simp [Op.excl, Op.asks]
  have hk : ¬ f.op.keeps o := by
    revert hx
    cases f.op <;> simp [Op.excl, Op.keeps]
  refine ⟨?_, ?_, ?_, fun h => absurd h hk, fun _ _ => hown, ?_, h1, fun _ => h2, h3⟩
  · rintro ⟨⟨x, hx'⟩, _⟩
    dsimp only at hx'
    rw [ha] at hx'
    cases hx'
  · intro a b h
    dsimp only at h
    rw [h] at hx
    cases hx
  · intro p n a h
    rw [ha] at h
    cases h
  · intro g p num n h
    rw [h] at hx
    cases hx

theorem Post.made {o : Out} {l : L} {g : File} {pv : Prov} {params : Option Params} (hop : f.op = .create g pv params)
    (hown : l.own = []) (ho : o.res = resSuccess) (h : PoolK l.k o.val ⟨g, pv, params⟩) :
    Post noWrap f src own0 o l := by
  refine Post.excl (by rw [hop]; rfl) hown (fun g' pv' params' h' _ => ?_) (fun h' => ?_) (fun g' pv' params' h' hn => ?_)
  · rw [hop] at h'
    cases h'
    exact h
  · exact absurd ho (h' _ _ _ hop)
  · exact absurd ho hn

theorem Post.notMade {o : Out} {l : L} {g : File} {pv : Prov} {params : Option Params}
    (hop : f.op = .create g pv params)
    (hown : l.own = []) (ho : o.res ≠ resSuccess) (h1 : l.k.recs = K.empty.recs) (h2 : l.k.tbb = K.empty.tbb)
    (h3 : l.k.arena = K.empty.arena) (h4 : l.k.tab = K.empty.tab) : Post noWrap f src own0 o l :=
  Post.excl (by rw [hop]; rfl) hown (fun _ _ _ _ h => absurd h ho) (fun _ => ⟨h1, h2, h3⟩) (fun _ _ _ _ _ => h4)

theorem Post.gone {o : Out} {l : L} {g : File} {p : Pool} (hop : f.op = .destroy g p)
    (hown : l.own = []) (h1 : l.k.recs = K.empty.recs) (h2 : l.k.tbb = K.empty.tbb)
    (h3 : l.k.arena = K.empty.arena) : Post noWrap f src own0 o l :=
  Post.excl (by rw [hop]; rfl) hown (fun _ _ _ h => by rw [hop] at h; cases h) (fun _ => ⟨h1, h2, h3⟩)
    (fun _ _ _ h => by rw [hop] at h; cases h)

/-- A call that causes no callbacks. -/
theorem quiet_callOk {k : K} {own : List Reg} {c : Call} (hp : c.prov = none) (hx : op.excl = true)
    (hd : c = .arenasCreate → op.isDestroy = false)
    (ht : c.tbbHeap = none) (hc : ∀ id g b, c ≠ .tbbCreate id g b) (ha : ∀ a, c.usesArena own a → k.arena a = some false) :
    CallOk pv op k own c := by
  refine ⟨fun q hq => ?_, fun _ => hx, hd, fun a hu => ⟨_, ha a hu⟩, fun h hal => ?_⟩
  · rw [hp] at hq; cases hq
  · rcases hal with ⟨id, hid, hh2 | ⟨g, b, h2⟩⟩ | ⟨a, _, hu, h3⟩
    · obtain ⟨h', x, h1, _⟩ := hh2
      rw [ht] at h1
      cases h1
    · exact absurd h2 (hc _ _ _)
    · rw [ha a hu] at h3; cases h3

theorem K.recs_gone (p : Pool) (g : Option Rec) :
    update (update K.empty.recs p g) p none = K.empty.recs := by
  funext q
  by_cases h : q = p <;> simp [Function.update_apply, K.empty, h]

theorem wp_tbbInit {l : L} {params : Option Params} (hop : f.op = .create .tbb pv params) (hk : l.k = K.empty)
    (hown : l.own = []) : wp pv f.op (Post noWrap f src own0) f.op.prog l := by
  have hx : f.op.excl = true := by rw [hop]; rfl
  obtain ⟨k, own, zero, ev⟩ := l
  dsimp only at hk hown
  subst hk hown
  have key : ∀ (h : Pool → Option Rec) (g : Rec) (p : Pool), update h p (some g) p = some g := fun _ _ _ => by simp
  have hprog : f.op.prog = tbbInit pv params := by rw [hop]; rfl
  rw [hprog]
  unfold tbbInit
  refine ⟨hx, Post.notMade hop rfl (by simp [resOutOfHostMemory, resSuccess]) rfl rfl rfl rfl, fun p g _ _ => ?_⟩
  refine ⟨trivial, quiet_callOk rfl hx (by simp) rfl (by simp) (fun _ h => h.elim), fun x v ev _ _ _ _ _ => ?_⟩
  rw [after_plain rfl, own_none rfl rfl]
  dsimp only
  split
  · refine ⟨hx, ⟨g, key _ _ _⟩, ?_⟩
    exact Post.notMade hop rfl (by simp [resDependencyUnavailable, resSuccess]) (K.recs_gone _ _) rfl rfl rfl
  refine ⟨g, key _ _ _, hx, ⟨g, key _ _ _⟩, trivial, ?_, fun y v ev _ _ _ _ _ => ?_⟩
  · refine ⟨fun q hq => by simp [Call.prov] at hq, fun _ => hx, by simp, fun a hu => hu.elim, fun h hal => ?_⟩
    rcases hal with ⟨id, hid, hh2 | ⟨g', b, h2⟩⟩ | ⟨a, _, hu, h3⟩
    · obtain ⟨h', x, h1, _⟩ := hh2
      cases h1
    · cases h2
      refine ⟨fun id' hid' => ?_, fun a ha => ?_⟩
      · rw [hid] at hid'
        cases hid'
        exact ⟨_, key _ _ _, rfl⟩
      · cases h <;> simp [Hook.id] at hid <;> simp [Hook.arena] at ha
    · exact hu.elim
  rw [own_none rfl rfl]
  dsimp only
  split
  · next he =>
    refine ⟨hx, ⟨_, key _ _ _⟩, ?_⟩
    refine Post.notMade hop rfl (by simp [resSpecific, resSuccess]) ?_ ?_ rfl rfl
    · show update (update (update K.empty.recs p _) p _) p none = _
      rw [Function.update_idem]
      exact K.recs_gone _ _
    · simp [K.after, Call.tbbAfter, he]
  · next he =>
    have he : y.err = 0 := by omega
    refine ⟨_, key _ _ _, hx, ⟨_, key _ _ _⟩, ?_⟩
    refine Post.made hop rfl rfl ⟨⟨.tbb, pv, y.val⟩, ?_, rfl, rfl, by simp⟩
    simp only [K.after, Call.tbbAfter, he, if_true, K.pool, K.mk.injEq, Call.arenaAfter]
    refine ⟨?_, ?_, ?_, ?_⟩
    · funext q
      by_cases h : q = p <;> simp [K.empty, h]
    · funext q
      by_cases h : q = y.val
      · subst h
        simp [Made.granularity, Made.keepAll, defaultGranularity]
        cases params <;> simp
      · simp [K.empty, h]
    · funext q; simp [K.empty]
    · funext q; simp [K.empty]

theorem wp_jeInit {l : L} {params : Option Params} (hop : f.op = .create .je pv params) (hk : l.k = K.empty)
    (hown : l.own = []) : wp pv f.op (Post noWrap f src own0) f.op.prog l := by
  have hx : f.op.excl = true := by rw [hop]; rfl
  have hd : f.op.isDestroy = false := by rw [hop]; rfl
  obtain ⟨k, own, zero, ev⟩ := l
  dsimp only at hk hown
  subst hk hown
  have key : ∀ (h : Pool → Option Rec) (g : Rec) (p : Pool), update h p (some g) p = some g := fun _ _ _ => by simp
  have hprog : f.op.prog = jeInit pv := by rw [hop]; rfl
  rw [hprog]
  unfold jeInit
  refine ⟨hx, Post.notMade hop rfl (by simp [resOutOfHostMemory, resSuccess]) rfl rfl rfl rfl, fun p g _ _ => ?_⟩
  refine ⟨g, key _ _ _, hx, ⟨g, key _ _ _⟩, trivial, quiet_callOk rfl hx (fun _ => hd) rfl (by simp) (fun _ h => h.elim),
    fun x v ev _ ha _ _ _ => ?_⟩
  rw [own_none rfl rfl]
  dsimp only
  have hrec : ∀ g' : Rec, update (update (update K.empty.recs p (some g)) p (some g')) p none = K.empty.recs := by
    intro g'
    rw [Function.update_idem]
    exact K.recs_gone _ _
  split
  · next he =>
    refine ⟨hx, ⟨_, key _ _ _⟩, ?_⟩
    exact Post.notMade hop rfl (by simp [resSpecific, resSuccess]) (hrec _) rfl
      (by simp [K.after, Call.arenaAfter, he]) (by simp [K.after, he])
  next he =>
  have he : x.err = 0 := by omega
  have hlt : x.val < 4095 := ha.2.2.1 rfl he
  refine ⟨⟨false, by simp [K.after, Call.arenaAfter, he]⟩, quiet_callOk rfl hx (by simp) rfl (by simp) (fun _ h => h.elim),
    fun y w ev _ _ _ _ _ => ?_⟩
  rw [own_none rfl rfl]
  dsimp only
  split
  · next hy =>
    refine ⟨⟨false, by simp [K.after, Call.arenaAfter, he, hy]⟩, quiet_callOk rfl hx (by simp) rfl (by simp) ?_,
      fun z u ev _ _ _ _ _ => ?_⟩
    · intro a h
      have h : a = x.val := h
      subst h
      simp [K.after, Call.arenaAfter, he, hy]
    · rw [own_none rfl rfl]
      refine ⟨hx, ⟨_, key _ _ _⟩, ?_⟩
      refine Post.notMade hop rfl (by simp [resSpecific, resSuccess]) (hrec _) rfl ?_ ?_
      · funext a
        by_cases h : a = x.val <;> simp [K.after, Call.arenaAfter, he, hy, h, K.empty]
      · funext a
        by_cases h : a = x.val <;> simp [K.after, he, hd, h, K.empty]
  · next hy =>
    have hy : y.err = 0 := by omega
    refine ⟨_, key _ _ _, hx, ⟨_, key _ _ _⟩, hx, ⟨v, by simp [K.after, he]⟩, ?_⟩
    refine Post.made hop rfl rfl ⟨⟨.je, pv, x.val⟩, ?_, rfl, rfl, fun _ => hlt⟩
    simp only [K.after, Call.tbbAfter, he, hy, if_true, K.pool, K.mk.injEq, Call.arenaAfter]
    refine ⟨?_, ?_, ?_, ?_⟩ <;> funext q
    · by_cases h : q = p <;> simp [Function.update_apply, K.empty, h]
    · simp [K.empty]
    · by_cases h : q = x.val <;> simp [Function.update_apply, K.empty, h]
    · by_cases h : q = x.val <;> simp [Function.update_apply, K.empty, h]

theorem wp_proxyInit {l : L} {params : Option Params} (hop : f.op = .create .proxy pv params) (hk : l.k = K.empty)
    (hown : l.own = []) : wp pv f.op (Post noWrap f src own0) f.op.prog l := by
  have hx : f.op.excl = true := by rw [hop]; rfl
  obtain ⟨k, own, zero, ev⟩ := l
  dsimp only at hk hown
  subst hk hown
  have key : ∀ (h : Pool → Option Rec) (g : Rec) (p : Pool), update h p (some g) p = some g := fun _ _ _ => by simp
  have hprog : f.op.prog = proxyInit pv := by rw [hop]; rfl
  rw [hprog]
  unfold proxyInit
  refine ⟨hx, Post.notMade hop rfl (by simp [resOutOfHostMemory, resSuccess]) rfl rfl rfl rfl, fun p g _ _ => ?_⟩
  refine ⟨g, key _ _ _, hx, ⟨g, key _ _ _⟩, ?_⟩
  refine Post.made hop rfl rfl ⟨⟨.proxy, pv, g.heap⟩, ?_, rfl, rfl, by simp⟩
  simp only [K.pool, K.mk.injEq]
  refine ⟨?_, ?_, ?_, ?_⟩ <;> funext q
  · by_cases h : q = p <;> simp [Function.update_apply, K.empty, h]
  all_goals simp [K.empty]

theorem pool_recs_gone {p : Pool} {m : Made} {r : Rec} : update (K.pool p m r).recs p none = K.empty.recs := by
  funext q
  by_cases h : q = p <;> simp [Function.update_apply, K.empty, K.pool, h]

theorem wp_tbbFini {p : Pool} {m : Made} {r : Rec} {l : L} (hop : f.op = .destroy .tbb p) (hr : r.file = .tbb)
    (hpv : r.pv = pv) (hk : l.k = K.pool p m r) (hown : l.own = []) :
    wp pv f.op (Post noWrap f src own0) f.op.prog l := by
  have hx : f.op.excl = true := by rw [hop]; rfl
  obtain ⟨k, own, zero, ev⟩ := l
  dsimp only at hk hown
  subst hk hown
  have hprog : f.op.prog = tbbFini p := by rw [hop]; rfl
  rw [hprog]
  unfold tbbFini
  refine ⟨r, pool_recs, ⟨_, pool_tbb hr⟩, ?_, fun x v ev _ _ _ _ _ => ?_⟩
  · refine ⟨fun q hq => by simp [Call.prov] at hq, fun _ => hx, by simp, fun a hu => hu.elim, fun h hal => ?_⟩
    rcases hal with ⟨id, hid, hh2 | ⟨g', b, h2⟩⟩ | ⟨a, _, hu, h3⟩
    · obtain ⟨h', x, h1, h2, h3⟩ := hh2
      cases h1
      rw [pool_tbb hr] at h2
      cases h2
      dsimp only at h3
      subst h3
      refine ⟨fun id' hid' => ?_, fun a ha => ?_⟩
      · rw [hid] at hid'
        cases hid'
        exact ⟨r, pool_recs, hpv⟩
      · cases h <;> simp [Hook.id] at hid <;> simp [Hook.arena] at ha
    · cases h2
    · exact hu.elim
  · rw [own_none rfl rfl]
    refine ⟨hx, ⟨r, pool_recs (m := m)⟩, ?_⟩
    refine Post.gone hop rfl (pool_recs_gone (m := m)) ?_ ?_ <;> funext q
    · by_cases h : q = r.heap <;> simp [K.after, Call.tbbAfter, h, K.pool, K.empty]
    · simp [K.after, Call.arenaAfter, K.pool, hr, K.empty]

theorem wp_jeFini {p : Pool} {m : Made} {r : Rec} {l : L} (hop : f.op = .destroy .je p) (hr : r.file = .je)
    (hpv : r.pv = pv) (hk : l.k = K.pool p m r) (hown : l.own = []) :
    wp pv f.op (Post noWrap f src own0) f.op.prog l := by
  have hx : f.op.excl = true := by rw [hop]; rfl
  have hd : f.op.isDestroy = true := by rw [hop]; rfl
  obtain ⟨k, own, zero, ev⟩ := l
  dsimp only at hk hown
  subst hk hown
  have hprog : f.op.prog = jeFini p := by rw [hop]; rfl
  rw [hprog]
  unfold jeFini
  refine ⟨r, pool_recs, ⟨_, pool_arena hr⟩, ?_, fun x v ev _ _ _ _ _ => ?_⟩
  · refine ⟨fun q hq => by simp [Call.prov] at hq, fun _ => hx, by simp, fun a hu => ⟨true, by rw [show a = r.heap from hu]; exact pool_arena hr⟩, fun h hal => ?_⟩
    rcases hal with ⟨id, hid, hh2 | ⟨g', b, h2⟩⟩ | ⟨a, ha1, hu, h3⟩
    · obtain ⟨h', x, h1, h2, h3⟩ := hh2
      cases h1
    · cases h2
    · refine ⟨fun id' hid' => ?_, fun a' ha' => ?_⟩
      · cases h <;> simp [Hook.id] at hid' <;> simp [Hook.arena] at ha1
      · rw [ha1] at ha'
        cases ha'
        have hu : a = r.heap := hu
        subst hu
        exact ⟨p, r, by simp [K.pool, hr], by simp [K.pool], hpv⟩
  · rw [own_none rfl rfl]
    refine ⟨hx, ⟨some p, by simp [K.after, hd, K.pool, hr]⟩, hx, ⟨r, pool_recs (m := m)⟩, ?_⟩
    refine Post.gone hop rfl (pool_recs_gone (m := m)) ?_ ?_ <;> funext q
    · simp [K.after, Call.tbbAfter, K.pool, hr, K.empty]
    · by_cases h : q = r.heap <;> simp [K.after, h, K.pool, K.empty]

theorem wp_proxyFini {p : Pool} {m : Made} {r : Rec} {l : L} (hop : f.op = .destroy .proxy p) (hr : r.file = .proxy)
    (hk : l.k = K.pool p m r) (hown : l.own = []) :
    wp pv f.op (Post noWrap f src own0) f.op.prog l := by
  have hx : f.op.excl = true := by rw [hop]; rfl
  obtain ⟨k, own, zero, ev⟩ := l
  dsimp only at hk hown
  subst hk hown
  have hprog : f.op.prog = proxyFini p := by rw [hop]; rfl
  rw [hprog]
  unfold proxyFini
  refine ⟨hx, ⟨r, pool_recs⟩, ?_⟩
  refine Post.gone hop rfl pool_recs_gone ?_ ?_ <;> funext q <;> simp [K.pool, hr, K.empty]

/-- What the client has to respect. -/
structure OpOk (noWrap : Bool) (op : Op) : Prop where
  noWrap : noWrap = true → ∀ f p num n, op = .calloc f p num n → num * n < 2 ^ 64
  someAlign : ∀ p n, op ≠ .aligned .je p n 0
  word : ∀ x, op.asks = some x → (∀ f p num n, op ≠ .calloc f p num n) → x.2.1 < 2 ^ 64 ∧ x.2.2 < 2 ^ 64

/-- All calls on a pool keep their promises. -/
theorem wp_pool {p : Pool} {m : Made} {r : Rec} {l : L} (hp : f.op.pool = some (r.file, p)) (hpv : r.pv = pv)
    (hh : r.file = .je → r.heap < 4095) (hk : l.k = K.pool p m r) (he : l.ev.Fresh)
    (hok : OpOk noWrap f.op) (hown : Own0 f.op r.src l.own) :
    wp pv f.op (Post noWrap f r.src l.own) f.op.prog l := by
  have hn : f.op.ptr = 0 → l.own = [] := by
    rcases hown with ⟨_, h⟩ | ⟨h, _⟩
    · exact fun _ => h
    · exact fun h' => absurd h' h
  obtain ⟨rf, rp, rh⟩ := r
  dsimp only at hpv hh hp
  rcases hop : f.op with ⟨g, q, params⟩ | ⟨g, q⟩ | ⟨g, q, n⟩ | ⟨g, q, num, n⟩ | ⟨g, q, ptr, n⟩ | ⟨g, q, n, a⟩ | ⟨g, q, ptr⟩ |
    ⟨g, q, ptr⟩ | ⟨g, q⟩ <;> rw [hop] at hp <;> cases hp
  all_goals rw [← hop]
  · have ho := hn (by rw [hop]; rfl)
    cases rf
    · exact wp_tbbFini hop rfl hpv hk ho
    · exact wp_jeFini hop rfl hpv hk ho
    · exact wp_proxyFini hop rfl hk ho
  · have ho := hn (by rw [hop]; rfl)
    have hw := (hok.word _ (by rw [hop]; rfl) (by rw [hop]; simp)).1
    rw [ho]
    cases rf
    · exact tbb_malloc rfl hpv hk he hop hw ho
    · exact je_malloc rfl hpv hk (hh rfl) hop hw ho
    · have : f.op.prog = proxyAligned p n 0 := by rw [hop]; rfl
      rw [this]
      exact proxy_alloc rfl hpv hk (by rw [hop]; rfl) (by rw [hop]; rfl) (fun _ => Nat.one_dvd _) (by rw [hop]; exact id)
        (by rw [hop]; simp) hw ho
  · have ho := hn (by rw [hop]; rfl)
    have hw := fun h => hok.noWrap h _ _ _ _ hop
    cases rf
    · rw [ho]; exact tbb_calloc rfl hpv hk he hop hw ho
    · rw [ho]; exact je_calloc rfl hpv hk (hh rfl) hop hw ho
    · have : f.op.prog = proxyRefuse := by rw [hop]; rfl
      rw [this]
      exact proxy_refuse (by rw [hop]; rfl) (by rw [hop]; rfl) (fun _ => ho)
  · have hw := (hok.word _ (by rw [hop]; rfl) (by rw [hop]; simp)).1
    cases rf
    · exact tbb_realloc rfl hpv hk he hop hw hown
    · exact je_realloc rfl hpv hk (hh rfl) hop hw hown
    · have : f.op.prog = proxyRefuse := by rw [hop]; rfl
      rw [this]
      exact proxy_refuse (by rw [hop]; rfl) (by rw [hop]; rfl) (fun h => absurd (by rw [hop]; exact ⟨rfl, .inr rfl⟩) h)
  · have ho := hn (by rw [hop]; rfl)
    have hw := hok.word _ (by rw [hop]; rfl) (by rw [hop]; simp)
    rw [ho]
    cases rf
    · exact tbb_aligned rfl hpv hk he hop hw.1 ho
    · exact je_aligned rfl hpv hk (hh rfl) hop hw.1 (fun h => hok.someAlign p n (by rw [hop, h])) hw.2 ho
    · have : f.op.prog = proxyAligned p n a := by rw [hop]; rfl
      rw [this]
      refine proxy_alloc rfl hpv hk (by rw [hop]; rfl) (by rw [hop]; rfl) ?_ (by rw [hop]; exact id)
        (by rw [hop]; simp) hw.1 ho
      rintro ⟨j, rfl, _⟩
      rw [if_neg (by have := Nat.two_pow_pos j; omega)]
      exact Nat.dvd_refl _
  · cases rf
    · exact tbb_free rfl hpv hk he hop hown
    · exact je_free rfl hpv hk hop hown
    · exact proxy_free rfl hpv hk hop hown
  · cases rf
    · exact tbb_usable rfl hpv hk hop hown
    · exact je_usable rfl hpv hk hop hown
    · have : f.op.prog = proxyUsable := by rw [hop]; rfl
      rw [this]
      refine Post.plain (by rw [hop]; rfl) (by rw [hop]; rfl) ?_ (fun _ => rfl) (fun h => absurd (by rw [hop]; trivial) h)
      intro a b h
      dsimp only at h
      rw [hop] at h
      cases h
  · have ho := hn (by rw [hop]; rfl)
    rw [ho]
    exact wp_lastError hop ho

theorem wp_create {l : L} {g : File} {params : Option Params} (hop : f.op = .create g pv params) (hk : l.k = K.empty)
    (hown : l.own = []) : wp pv f.op (Post noWrap f src own0) f.op.prog l := by
  cases g
  · exact wp_tbbInit hop hk hown
  · exact wp_jeInit hop hk hown
  · exact wp_proxyInit hop hk hown

end Verif.Heap
