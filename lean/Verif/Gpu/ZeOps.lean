import Verif.Gpu.CuOps2
import Mathlib.Tactic.Tauto

/-! # The programs of the Level Zero provider keep their promises -/
namespace Verif.Gpu
open Function (update)

variable {pid : Nat} {op : Op} {Q : Option Out → L → Prop} {E : Env}

/-- The thread's context is untouched. -/
structure Same (l l' : L) : Prop where
  cur : l'.cur = l.cur
  user : l'.user = l.user
  lost : l'.lost = l.lost

theorem Same.rfl' {l : L} : Same l l := ⟨rfl, rfl, rfl⟩

theorem Same.trans {a b c : L} (h : Same a b) (h' : Same b c) : Same a c :=
  ⟨h'.cur.trans h.cur, h'.user.trans h.user, h'.lost.trans h.lost⟩

theorem Same.ctx {l l' : L} (h : Same l l') (hl : l.lost = false → l.cur = l.user) :
    l'.lost = false → l'.cur = l'.user := by
  rw [h.cur, h.user, h.lost]
  exact hl

theorem wp_zeResidents {ctx ptr size : Nat} {k : Res → Prog} : ∀ {devs : List Nat} {l : L} {i : Info},
    l.own (.gpu .ze ptr) = some i → i.call.zeAllocIn ctx →
    (∀ l' i', Same l l' → l'.refused = l.refused → i'.call = i.call →
      (∀ d, d ∈ i'.resident ↔ d ∈ devs ∨ d ∈ i.resident) →
      (∀ x, l'.own x = if x = .gpu .ze ptr then some i' else l.own x) → wp pid op Q (k .success) l') →
    (∀ u l' c e, Same l l' → u ≠ .success → c.probes = true → c.mustWork = true → c.isCtx = false →
      l'.refused = (c, e) :: l.refused → (u = .specific → l'.tls .ze = e ∧ ¬ mapped .ze e) →
      wp pid op Q (k u) l') →
    wp pid op Q (zeResidents ctx ptr size k devs) l := by
  intro devs
  induction devs with
  | nil =>
    intro l i hown _ hs _
    exact hs l i .rfl' rfl rfl (by simp) (fun x => by split <;> simp_all)
  | cons d ds ih =>
    intro l i hown hin hs hf
    unfold zeResidents
    refine ⟨⟨i, hown, hin⟩, callOk_plain rfl (by simp), fun r _ => ?_⟩
    dsimp only
    split
    · next he =>
      rw [after_refused he rfl rfl]
      refine wp_ze2umf fun u tls hu hsp => ?_
      exact hf u _ (.zeMakeResident ctx d ptr size) r.err ⟨rfl, rfl, rfl⟩ (fun h => he (hu.1 h)) rfl rfl rfl rfl hsp
    · next he =>
      have he : r.err = 0 := by simpa using he
      have hown' : ∀ x, (l.after (.zeMakeResident ctx d ptr size) r).own x =
          if x = .gpu .ze ptr then some { i with resident := d :: i.resident } else l.own x := by
        intro x
        show Call.liveAfter l.own l.cur _ r x = _
        unfold Call.liveAfter Info.after
        simp only [Call.makes, Call.kills, Call.residency, he, reduceCtorEq, and_false, if_false, true_and]
        by_cases hx : x = .gpu .ze ptr
        · simp [hx, hown]
        · have hx' : ¬(Rsrc.gpu .ze ptr = x) := fun h => hx h.symm
          simp [hx, hx']
      have hsame : Same l (l.after (.zeMakeResident ctx d ptr size) r) :=
        ⟨rfl, rfl, by simp [L.after, Call.isCtx]⟩
      have href : (l.after (.zeMakeResident ctx d ptr size) r).refused = l.refused := by simp [L.after, he]
      refine ih (i := { i with resident := d :: i.resident }) (by rw [hown', if_pos rfl]) hin ?_ ?_
      · intro l' i' h1 h2 h3 h4 h5
        refine hs l' i' (hsame.trans h1) (h2.trans href) h3 ?_ ?_
        · intro x
          rw [h4]
          simp only [List.mem_cons]
          tauto
        · intro x
          rw [h5, hown']
          split <;> simp_all
      · intro u l' c e h1 h2 h3 h4 h5 h6 h7
        exact hf u l' c e (hsame.trans h1) h2 h3 h4 h5 (by rw [h6, href]) h7

theorem wp_zeAllocK {p : ZeProv} {size align : Nat} {k : Res → Nat → Prog} {l : L}
    (ht : p.type = 1 ∨ p.type = 2 ∨ p.type = 3)
    (hs : ∀ ptr l' i, Same l l' → l'.refused = l.refused → ptr ≠ 0 → ZeFits p size align ptr i →
      l.own (.gpu .ze ptr) = none →
      (∀ x, l'.own x = if x = .gpu .ze ptr then some i else l.own x) → wp pid op Q (k .success ptr) l')
    (hf : ∀ u ptr l' c e, Same l l' → u ≠ .success → c.probes = true → c.isCtx = false →
      l'.refused = (c, e) :: l.refused → (u = .specific → l'.tls .ze = e ∧ ¬ mapped .ze e) →
      (Clean l'.refused → l'.own = l.own) → wp pid op Q (k u ptr) l') :
    wp pid op Q (zeAllocK p size align k) l := by
  unfold zeAllocK
  have key : ∀ c : Call, c.kills = none → c.residency = none → (∀ r, c.makes r = some (.gpu .ze r.val)) →
      c.killsAnyway = false → c.isCtx = false → c.probes = true → (∀ x r, c.curAfter x r = x) →
      c.zeAllocIn p.ctx → (∀ v, c.alignOk v → (align ≠ 0 → align ∣ v)) →
      (∀ v i, i.call = c → (align ≠ 0 → align ∣ v) → (∀ d, d ∈ i.resident ↔ d ∈ p.resident) →
        ZeFits p size align v i) →
      (∀ own, c.Valid own) → CallOk l.own l.cur pid op c →
      wp pid op Q (.call c fun r =>
        if r.err ≠ 0 then ze2umf r.err fun u => k u 0
        else zeResidents p.ctx r.val size (fun u => k u r.val) p.resident) l := by
    intro c hc1 hc2 hc3 hc4 hc5 hc6 hc7 hc8 hc9 hc10 hv hok
    refine ⟨hv _, hok, fun r hr => ?_⟩
    dsimp only
    split
    · next he =>
      rw [after_refused he hc4 hc5]
      refine wp_ze2umf fun u tls hu hsp => ?_
      exact hf u 0 _ c r.err ⟨rfl, rfl, rfl⟩ (fun h => he (hu.1 h)) hc6 hc5 rfl hsp (fun _ => rfl)
    next he =>
    have he : r.err = 0 := by simpa using he
    have hown' : ∀ x, (l.after c r).own x =
        if x = .gpu .ze r.val then some { call := c, ctx := l.cur } else l.own x := by
      intro x
      show Call.liveAfter l.own l.cur _ r x = _
      rw [liveAfter_make he hc1 (hc3 r) hc2]
    have hsame : Same l (l.after c r) := ⟨hc7 _ _, rfl, by simp [L.after, hc5]⟩
    have href : (l.after c r).refused = l.refused := by simp [L.after, he]
    have hnew := (hr.1 he).1 _ (hc3 r)
    refine wp_zeResidents (i := { call := c, ctx := l.cur }) (by rw [hown', if_pos rfl]) hc8 ?_ ?_
    · intro l' i' h1 h2 h3 h4 h5
      refine hs r.val l' i' (hsame.trans h1) (h2.trans href) hnew.2 ?_ hnew.1 ?_
      · refine hc10 _ _ h3 (hc9 _ (hr.1 he).2) fun d => ?_
        rw [h4]
        simp
      · intro x
        rw [h5, hown']
        split <;> simp_all
    · intro u l' c' e h1 h2 h3 h4 h5 h6 h7
      refine hf u r.val l' c' e (hsame.trans h1) h2 h3 h5 (by rw [h6, href]) h7 ?_
      intro hcl
      have := hcl (c', e) (by rw [h6]; simp)
      rw [h4] at this
      cases this
  rcases ht with ht | ht | ht
  · have : zeAllocCall p size align = some (.zeMemAllocHost p.ctx size align) := by
      unfold zeAllocCall
      rw [if_pos (by rw [ht]; rfl)]
    rw [this]
    refine key _ rfl rfl (fun _ => rfl) rfl rfl rfl (fun _ _ => rfl) rfl (fun _ h => h) ?_ (fun _ => trivial)
      (callOk_plain rfl (by simp))
    exact fun v i h1 h2 h3 => ⟨.inl ⟨ht, h1⟩, h2, h3⟩
  · have : zeAllocCall p size align =
        some (.zeMemAllocDevice p.ctx p.dev p.ordinal (decide (size > p.maxAlloc)) size align) := by
      unfold zeAllocCall
      rw [if_neg (by rw [ht]; decide), if_pos (by rw [ht]; rfl)]
    rw [this]
    refine key _ rfl rfl (fun _ => rfl) rfl rfl rfl (fun _ _ => rfl) rfl (fun _ h => h) ?_ (fun _ => trivial)
      (callOk_plain rfl (by simp))
    exact fun v i h1 h2 h3 => ⟨.inr (.inl ⟨ht, _, h1, by simp⟩), h2, h3⟩
  · have : zeAllocCall p size align =
        some (.zeMemAllocShared p.ctx p.dev p.ordinal (decide (size > p.maxAlloc)) size align) := by
      unfold zeAllocCall
      rw [if_neg (by rw [ht]; decide), if_neg (by rw [ht]; decide), if_pos (by rw [ht]; rfl)]
    rw [this]
    refine key _ rfl rfl (fun _ => rfl) rfl rfl rfl (fun _ _ => rfl) rfl (fun _ h => h) ?_ (fun _ => trivial)
      (callOk_plain rfl (by simp))
    exact fun v i h1 h2 h3 => ⟨.inr (.inr ⟨ht, _, h1, by simp⟩), h2, h3⟩

theorem ZeFits.zeAllocIn {p : ZeProv} {n a v : Nat} {i : Info} (h : ZeFits p n a v i) : i.call.zeAllocIn p.ctx := by
  obtain ⟨h, -⟩ := h
  rcases h with ⟨_, h⟩ | ⟨_, r, h, _⟩ | ⟨_, r, h, _⟩ <;> rw [h] <;> rfl

theorem wp_zeFreeK {p : ZeProv} {ptr : Nat} {i : Info} {k : Res → Prog} {l : L} (hp : ptr ≠ 0)
    (hown : l.own (.gpu .ze ptr) = some i) (hin : i.call.zeAllocIn p.ctx)
    (hub : E.freeExt = false → p.policy ≠ 0 → Q none l)
    (hs : ∀ l', Same l l' → l'.refused = l.refused →
      (∀ x, l'.own x = if x = .gpu .ze ptr then none else l.own x) → wp pid op Q (k .success) l')
    (hf : ∀ u l' c e, Same l l' → u ≠ .success → c.mustWork = true → c.isCtx = false →
      l'.refused = (c, e) :: l.refused → (u = .specific → l'.tls .ze = e ∧ ¬ mapped .ze e) →
      l'.own = l.own → wp pid op Q (k u) l') :
    wp pid op Q (zeFreeK E p ptr k) l := by
  unfold zeFreeK
  rw [if_neg hp]
  have key : ∀ c : Call, c.kills = some (.gpu .ze ptr) → c.residency = none → (∀ r, c.makes r = none) →
      c.killsAnyway = false → c.isCtx = false → c.mustWork = true → (∀ x r, c.curAfter x r = x) →
      c.Valid l.own → CallOk l.own l.cur pid op c →
      wp pid op Q (.call c fun r => ze2umf r.err k) l := by
    intro c hc1 hc2 hc3 hc4 hc5 hc6 hc7 hv hok
    refine ⟨hv, hok, fun r _ => ?_⟩
    dsimp only
    by_cases he : r.err = 0
    · refine wp_ze2umf fun u tls hu hsp => ?_
      rw [hu.2 he]
      refine hs _ ⟨hc7 _ _, rfl, by simp [L.after, hc5]⟩ (by simp [L.after, he]) fun x => ?_
      exact liveAfter_kill he hc1 (hc3 r) hc2 x
    · rw [after_refused he hc4 hc5]
      refine wp_ze2umf fun u tls hu hsp => ?_
      exact hf u _ c r.err ⟨rfl, rfl, rfl⟩ (fun h => he (hu.1 h)) hc6 hc5 rfl hsp rfl
  split
  · exact key (.zeMemFree p.ctx ptr) rfl rfl (fun _ => rfl) rfl rfl rfl (fun _ _ => rfl) ⟨i, hown, hin⟩
      (callOk_plain rfl (by simp))
  next hpol =>
  split
  · exact key (.zeMemFreeExt p.ctx p.policy ptr) rfl rfl (fun _ => rfl) rfl rfl rfl (fun _ _ => rfl) ⟨i, hown, hin⟩
      (callOk_plain rfl (by simp))
  · next hE => exact hub (by simpa using hE) hpol

theorem zeAlloc_ok {p : ZeProv} {size align : Nat} {l : L} (ht : p.type = 1 ∨ p.type = 2 ∨ p.type = 3)
    (hown : ∀ x, l.own x = none) (hl : l.lost = false → l.cur = l.user) :
    wp pid (.zeAlloc p size align) (Post E (.zeAlloc p size align) l.own) (zeAlloc p size align) l := by
  unfold zeAlloc
  refine wp_zeAllocK ht ?_ ?_
  · intro ptr l' i h1 h2 h3 h4 _ h5
    refine ⟨h1.ctx hl, nativeOk_of (by simp), ?_, by simp, ?_⟩
    · intro x hx
      simp only [Op.gives, if_true, List.mem_singleton] at hx
      exact ⟨i, by rw [h5, if_pos hx], ptr, hx, h3, h4⟩
    · intro _ _ x i' hx
      rw [h5, hown x] at hx
      split at hx
      · next h => left; simp [Op.gives, h]
      · cases hx
  · intro u ptr l' c e h1 h2 h3 h4 h5 h6 h7
    refine ⟨h1.ctx hl, nativeOk_one h4 (by rw [h5]; simp) h6, by simp [Op.gives, h2],
      fun _ => ⟨by simp [Op.takes], by simp [Op.gives, h2]⟩, ?_⟩
    intro hcl _ x i hx
    rw [h7 hcl, hown x] at hx
    cases hx

theorem zeFree_ok {p : ZeProv} {ptr n a : Nat} {i : Info} {l : L}
    (hown : ∀ x, l.own x = if ptr ≠ 0 ∧ x = .gpu .ze ptr then some i else none)
    (hfit : ptr ≠ 0 → ZeFits p n a ptr i) (hl : l.lost = false → l.cur = l.user) :
    wp pid (.zeFree p ptr) (Post E (.zeFree p ptr) l.own) (zeFree E p ptr) l := by
  unfold zeFree
  by_cases hp : ptr = 0
  · unfold zeFreeK
    rw [if_pos hp]
    exact post_nothing hl (fun x => by rw [hown]; simp [hp]) (by simp [Op.gives]) (.inr rfl) (nativeOk_of (by simp))
  refine wp_zeFreeK hp (i := i) (by rw [hown]; simp [hp]) (hfit hp).zeAllocIn ?_ ?_ ?_
  · intro h1 h2
    exact .inr ⟨p, ptr, rfl, h1, h2⟩
  · intro l' h1 h2 h3
    refine post_nothing (h1.ctx hl) (fun x => ?_) (by simp [Op.gives]) (.inr rfl) (nativeOk_of (by simp))
    rw [h3, hown]
    split <;> simp_all
  · intro u l' c e h1 h2 h3 h4 h5 h6 h7
    refine ⟨h1.ctx hl, nativeOk_one h4 (by rw [h5]; simp) h6, by simp [Op.gives],
      fun _ => ⟨fun x _ => by rw [h7], by simp [Op.gives]⟩, ?_⟩
    intro hcl
    have := hcl (c, e) (by rw [h5]; simp)
    rw [h3] at this
    cases this

theorem zeDestroy_ok {p : ZeProv} {i j : Info} {l : L}
    (hown : ∀ x, l.own x = if x = .ba p.addr then some i
      else if p.resAddr ≠ 0 ∧ x = .ba p.resAddr then some j else none)
    (hne : p.addr ≠ p.resAddr) (hl : l.lost = false → l.cur = l.user) :
    wp pid (.zeDestroy p) (Post E (.zeDestroy p) l.own) (zeDestroy p) l := by
  unfold zeDestroy
  split
  · next h0 =>
    refine ⟨⟨i, by rw [hown]; simp⟩, callOk_plain rfl (by simp), fun r _ => ?_⟩
    dsimp only
    rw [after_baFree]
    refine post_nothing hl (fun x => ?_) (by simp [Op.gives]) (.inr rfl) (nativeOk_of (by simp))
    show (if x = .ba p.addr then none else l.own x) = none
    rw [hown]
    split <;> simp_all
  · next h0 =>
    refine ⟨⟨j, by rw [hown]; simp [h0, Ne.symm hne]⟩, callOk_plain rfl (by simp), fun r _ => ?_⟩
    dsimp only
    rw [after_baFree]
    refine ⟨⟨i, ?_⟩, callOk_plain rfl (by simp), fun r _ => ?_⟩
    · show (if Rsrc.ba p.addr = .ba p.resAddr then none else l.own (.ba p.addr)) = _
      rw [if_neg (by simpa using hne), hown, if_pos rfl]
    dsimp only
    rw [after_baFree]
    refine post_nothing hl (fun x => ?_) (by simp [Op.gives]) (.inr rfl) (nativeOk_of (by simp))
    show (if x = .ba p.addr then none else if x = .ba p.resAddr then none else l.own x) = none
    rw [hown]
    by_cases h1 : x = .ba p.addr
    · rw [if_pos h1]
    · rw [if_neg h1, if_neg h1]
      by_cases h2 : x = .ba p.resAddr
      · rw [if_pos h2]
      · rw [if_neg h2, if_neg (by simp [h2])]

/-- One call whose error is translated. -/
theorem ze_one_call {c : Call} {k : Resp → Prog} {l : L} (hm : ∀ r, c.makes r = none) (hk : c.kills = none)
    (hr : c.residency = none) (hc : c.isCtx = false) (hv : ∀ own, c.Valid own)
    (hok : CallOk l.own l.cur pid op c) (ht : op.takes = []) (hg : ∀ o, op.gives o = [])
    (hown : ∀ x, l.own x = none) (hl : l.lost = false → l.cur = l.user) (hb : op.be = .ze)
    (hs : ∀ r, ∃ o : Out, o.res = .success ∧ (k r = if r.err ≠ 0 then ze2umf r.err .done else .ret o)) :
    wp pid op (Post E op l.own) (.call c k) l := by
  refine ⟨hv _, hok, fun r _ => ?_⟩
  rw [after_plain (hm r) hk hr hc]
  obtain ⟨o, ho, hkr⟩ := hs r
  rw [hkr]
  split
  · next he =>
    refine wp_ze2umf fun u tls hu hsp => post_nothing hl hown (hg _) (.inl ht) ?_
    exact nativeOk_one (c := c) (e := r.err) hc (by simp) (by rw [hb]; exact hsp)
  · exact post_nothing hl hown (hg _) (.inl ht) (nativeOk_of (by simp [ho]))

theorem zePageSize_ok {p : ZeProv} {q : Nat} {l : L} (hown : ∀ x, l.own x = none)
    (hl : l.lost = false → l.cur = l.user) :
    wp pid (.zePageSize p q) (Post E (.zePageSize p q) l.own) (zePageSize p q) l := by
  unfold zePageSize
  split
  · exact post_nothing hl hown rfl (.inl rfl) (nativeOk_of (by simp))
  · exact ze_one_call (fun _ => rfl) rfl rfl rfl (fun _ => trivial) (callOk_plain rfl (by simp)) rfl (fun _ => rfl)
      hown hl rfl fun r => ⟨{ res := .success, ptr := r.val }, rfl, rfl⟩

theorem zeIpcClose_ok {p : ZeProv} {q : Nat} {l : L} (hown : ∀ x, l.own x = none)
    (hl : l.lost = false → l.cur = l.user) :
    wp pid (.zeIpcClose p q) (Post E (.zeIpcClose p q) l.own) (zeIpcClose p q) l :=
  ze_one_call (fun _ => rfl) rfl rfl rfl (fun _ => trivial) (callOk_plain rfl (by simp)) rfl (fun _ => rfl)
    hown hl rfl fun _ => ⟨{ res := .success }, rfl, rfl⟩

theorem zeIpcPut_ok {p : ZeProv} {d : ZeIpc} {l : L} (hown : ∀ x, l.own x = none)
    (hl : l.lost = false → l.cur = l.user) :
    wp pid (.zeIpcPut p d) (Post E (.zeIpcPut p d) l.own) (zeIpcPut E p d) l := by
  unfold zeIpcPut
  split
  · exact post_nothing hl hown rfl (.inl rfl) (nativeOk_of (by simp))
  · exact ze_one_call (fun _ => rfl) rfl rfl rfl (fun _ => trivial) (callOk_plain rfl (by simp)) rfl (fun _ => rfl)
      hown hl rfl fun r => ⟨{ res := .success }, rfl, rfl⟩

theorem zeIpcGet_ok {p : ZeProv} {q : Nat} {l : L} (hown : ∀ x, l.own x = none)
    (hl : l.lost = false → l.cur = l.user) :
    wp pid (.zeIpcGet p q) (Post E (.zeIpcGet p q) l.own) (zeIpcGet p q) l := by
  unfold zeIpcGet
  refine ⟨trivial, callOk_plain rfl (by simp), fun r _ => ?_⟩
  dsimp only
  rw [after_plain (c := .zeMemGetIpcHandle p.ctx q) rfl rfl rfl rfl]
  split
  · next he =>
    refine wp_ze2umf fun u tls hu hsp => post_nothing hl hown rfl (.inl rfl) ?_
    exact nativeOk_one (c := .zeMemGetIpcHandle p.ctx q) (e := r.err) rfl (by simp) hsp
  · refine ⟨trivial, callOk_plain rfl (by simp), fun g _ => ?_⟩
    dsimp only
    rw [after_plain (c := .getpid) rfl rfl rfl rfl]
    exact post_nothing hl hown rfl (.inl rfl) (nativeOk_of (by simp))

/-- Closing a descriptor. -/
theorem after_closeFd {l : L} {r : Resp} {n : Nat} :
    l.after (.closeFd n) r = { l with
      own := fun x => if x = .fd n then none else l.own x
      refused := if r.err = 0 then l.refused else (.closeFd n, r.err) :: l.refused } := by
  unfold L.after
  have : (Call.closeFd n).liveAfter l.own l.cur r = fun x => if x = .fd n then none else l.own x := by
    funext x
    unfold Call.liveAfter Info.after
    simp only [Call.makes, Call.kills, Call.killsAnyway, Call.residency, reduceCtorEq, and_false, if_false, or_true,
      true_and, Option.some.injEq]
    by_cases hx : x = .fd n
    · simp [hx]
    · rw [if_neg (fun h => hx h.symm), if_neg hx]
      simp
  rw [this]
  simp [Call.isCtx, Call.curAfter]

theorem errnoRes_ne {e : Nat} : errnoRes e ≠ .specific ∧ errnoRes e ≠ .success := by
  unfold errnoRes
  split
  · simp
  split
  · simp
  split <;> simp

theorem zeIpcOpen_ok {p : ZeProv} {d : ZeIpc} {l : L} (hown : ∀ x, l.own x = none)
    (hl : l.lost = false → l.cur = l.user) :
    wp pid (.zeIpcOpen p d) (Post E (.zeIpcOpen p d) l.own) (zeIpcOpen p d) l := by
  unfold zeIpcOpen
  refine ⟨trivial, callOk_plain rfl (by simp), fun g hg => ?_⟩
  obtain ⟨hge, hgv⟩ := hg.2.2 rfl
  dsimp only
  rw [after_plain (c := .getpid) rfl rfl rfl rfl, hgv]
  simp only [hge, if_true]
  split
  · next hpid =>
    refine ⟨trivial, callOk_plain rfl (by simp), fun f hf => ?_⟩
    dsimp only
    split
    · next he =>
      rw [after_refused he rfl rfl]
      exact post_nothing hl hown rfl (.inl rfl) (nativeOk_of errnoRes_ne.1)
    next he =>
    have he : f.err = 0 := by simpa using he
    have hown' : ∀ x, (l.after (.dupFd d.pid d.h.fd) f).own x =
        if x = .fd f.val then some { call := .dupFd d.pid d.h.fd, ctx := l.cur } else none := by
      intro x
      show Call.liveAfter l.own l.cur _ f x = _
      rw [liveAfter_make he rfl rfl rfl, hown x]
    have hl' : (l.after (.dupFd d.pid d.h.fd) f).lost = false →
        (l.after (.dupFd d.pid d.h.fd) f).cur = (l.after (.dupFd d.pid d.h.fd) f).user := by
      simpa [L.after, Call.isCtx, Call.curAfter] using hl
    generalize l.after (.dupFd d.pid d.h.fd) f = l1 at *
    refine ⟨trivial, ⟨by simp [Call.usesCtx], ?_⟩, fun r _ => ?_⟩
    · intro ctx dev h heq
      simp only [Call.zeMemOpenIpcHandle.injEq] at heq
      obtain ⟨rfl, rfl, rfl⟩ := heq
      refine ⟨p, d, rfl, rfl, rfl, rfl, fun h => absurd h hpid, fun _ => ?_⟩
      exact ⟨_, (hown' _).trans (if_pos rfl), rfl⟩
    dsimp only
    rw [after_plain (c := .zeMemOpenIpcHandle p.ctx p.dev { d.h with fd := f.val }) rfl rfl rfl rfl]
    refine ⟨⟨_, by show l1.own (.fd f.val) = _; rw [hown', if_pos rfl]⟩, callOk_plain rfl (by simp), fun c _ => ?_⟩
    dsimp only
    rw [after_closeFd]
    have hnone : ∀ x, (if x = Rsrc.fd f.val then none else l1.own x) = none := by
      intro x
      rw [hown']
      split <;> simp_all
    split
    · next hre =>
      refine wp_ze2umf fun u tls hu hsp => post_nothing hl' hnone rfl (.inl rfl) ?_
      refine nativeOk_one (c := .zeMemOpenIpcHandle p.ctx p.dev { d.h with fd := f.val }) (e := r.err) rfl ?_ hsp
      simp
      split <;> simp
    · exact post_nothing hl' hnone rfl (.inl rfl) (nativeOk_of (by simp))
  · next hpid =>
    have hpid : d.pid = pid := by simpa using hpid
    refine ⟨trivial, ⟨by simp [Call.usesCtx], ?_⟩, fun r _ => ?_⟩
    · intro ctx dev h heq
      simp only [Call.zeMemOpenIpcHandle.injEq] at heq
      obtain ⟨rfl, rfl, rfl⟩ := heq
      exact ⟨p, d, rfl, rfl, rfl, rfl, fun _ => rfl, fun h => absurd hpid h⟩
    dsimp only
    rw [after_plain (c := .zeMemOpenIpcHandle p.ctx p.dev d.h) rfl rfl rfl rfl]
    split
    · next hre =>
      refine wp_ze2umf fun u tls hu hsp => post_nothing hl hown rfl (.inl rfl) ?_
      exact nativeOk_one (c := .zeMemOpenIpcHandle p.ctx p.dev d.h) (e := r.err) rfl (by simp) hsp
    · exact post_nothing hl hown rfl (.inl rfl) (nativeOk_of (by simp))

end Verif.Gpu
