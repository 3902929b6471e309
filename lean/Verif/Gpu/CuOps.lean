import Verif.Gpu.Wp

/-! # The programs of the CUDA provider keep their promises -/
namespace Verif.Gpu
open Function (update)

variable {pid : Nat} {op : Op} {Q : Option Out → L → Prop} {E : Env}

/-- What freeing does. -/
structure FreeDone (ptr : Nat) (l : L) (u : Res) (l' : L) : Prop where
  user : l'.user = l.user
  lost : (l.lost = false → l.cur = l.user) → l'.lost = false → l'.cur = l'.user
  ok : u = .success → ∀ x, l'.own x = if x = .gpu .cu ptr then none else l.own x
  bad : u ≠ .success → l'.own = l.own ∧ ∃ x ∈ l'.refused, x.1.mustWork = true
  native : u = .specific → l.refused = [] →
    ∃ c, (c, l'.tls .cu) ∈ l'.refused ∧ ¬ mapped .cu (l'.tls .cu) ∧
      ((∃ x ∈ l'.refused, x.1.isCtx = false) → c.isCtx = false)

theorem mustWork_of_isCtx {c : Call} (h : c.isCtx = true) : c.mustWork = true := by
  cases c <;> simp_all [Call.isCtx, Call.mustWork]

theorem liveAfter_kill {live cur} {r : Resp} {c : Call} {y : Rsrc} (h : r.err = 0)
    (hk : c.kills = some y) (hm : c.makes r = none) (hr : c.residency = none) (x : Rsrc) :
    c.liveAfter live cur r x = if x = y then none else live x := by
  unfold Call.liveAfter Info.after
  rw [hm, hk, hr, if_neg (by simp)]
  by_cases hx : x = y
  · rw [if_pos ⟨.inl h, by rw [hx]⟩, if_pos hx]
  · rw [if_neg (by rintro ⟨_, h2⟩; exact hx (Option.some.inj h2).symm), if_neg hx]
    simp

theorem liveAfter_make {live cur} {r : Resp} {c : Call} {y : Rsrc} (h : r.err = 0)
    (hk : c.kills = none) (hm : c.makes r = some y) (hr : c.residency = none) (x : Rsrc) :
    c.liveAfter live cur r x = if x = y then some { call := c, ctx := cur } else live x := by
  unfold Call.liveAfter Info.after
  rw [hm, hk, hr]
  by_cases hx : x = y
  · rw [if_pos ⟨h, by rw [hx]⟩, if_pos hx]
  · rw [if_neg (by rintro ⟨_, h2⟩; exact hx (Option.some.inj h2).symm), if_neg hx]
    simp

/-- The part after the driver's call: the context is restored, the result translated. -/
theorem wp_restore {restore e : Nat} {k : Res → Prog} {l : L}
    (h : ∀ u l', l'.own = l.own → l'.user = l.user → (u = .success ↔ e = 0) →
      (l.lost = false → restore = l.user) ∨ (l.lost = false → l.cur = l.user) →
      ((l.lost = false → restore = l.user) → l'.lost = false → l'.cur = l'.user) →
      (∀ x ∈ l.refused, x ∈ l'.refused) → (u = .specific → l'.tls .cu = e ∧ ¬ mapped .cu e) →
      u ≠ .invalidAlignment →
      wp pid op Q (k u) l') (hr : l.lost = false → restore = l.user) :
    wp pid op Q (setContext restore fun _ _ => cu2umf e k) l := by
  refine wp_setContext ?_ ?_
  · refine wp_cu2umf fun u tls hu hsp hal => ?_
    exact h u _ rfl rfl hu (.inl hr) (fun hr hl => hr hl) (fun x hx => hx) hsp hal
  · intro v rs tls c e' hv _ hc he' hsp'
    refine wp_cu2umf fun u tls hu hsp hal => ?_
    refine h u _ rfl rfl hu (.inl hr) ?_ (fun x hx => List.mem_cons_of_mem _ hx) hsp hal
    intro _ hl
    simp only [Bool.or_eq_false_iff, decide_eq_false_iff_not, ne_eq, not_not] at hl
    exact hl.2

theorem wp_cuFreeK {p : CuProv} {ptr n a : Nat} {i : Info} {k : Res → Prog} {l : L} (hp : ptr ≠ 0)
    (ho : op.cuProv = some p) (hown : l.own (.gpu .cu ptr) = some i) (hfit : CuFits p n a ptr i)
    (hl : l.lost = false → l.cur = l.user)
    (hk : ∀ u l', FreeDone ptr l u l' → wp pid op Q (k u) l') : wp pid op Q (cuFreeK p ptr k) l := by
  unfold cuFreeK
  rw [if_neg hp]
  refine wp_setContext ?_ ?_
  · rw [if_neg (by simp)]
    -- the call, for both kinds of memory
    have key : ∀ c : Call, c.kills = some (.gpu .cu ptr) → c.residency = none → (∀ r, c.makes r = none) →
        c.killsAnyway = false → c.isCtx = false → c.mustWork = true → (∀ x r, c.curAfter x r = x) →
        c.Valid l.own →
        (∀ ctx dev h, c ≠ .zeMemOpenIpcHandle ctx dev h) →
        wp pid op Q (.call c fun r => setContext l.cur fun _ _ => cu2umf r.err k) { l with cur := p.ctx } := by
      intro c hc1 hc2 hc3 hc4 hc5 hc6 hc7 hv hz
      refine ⟨hv, ⟨?_, ?_⟩, fun r _ => ?_⟩
      · intro _
        exact ⟨p, ho, rfl⟩
      · intro ctx dev h heq
        exact absurd heq (hz ctx dev h)
      · dsimp only
        refine wp_restore ?_ ?_
        · intro u l' h1 h2 h3 _ h5 h6 h7 h8
          have hlost : (L.after { l with cur := p.ctx } c r).lost = l.lost := by simp [L.after, hc5]
          have huser : (L.after { l with cur := p.ctx } c r).user = l.user := rfl
          refine hk u l' ⟨by rw [h2, huser], ?_, ?_, ?_, ?_⟩
          · intro h0 h9
            exact h5 (by rw [hlost, huser]; exact h0) h9
          · intro hu x
            rw [h1]
            exact liveAfter_kill (h3.1 hu) hc1 (hc3 r) hc2 x
          · intro hu
            have he : r.err ≠ 0 := fun h => hu (h3.2 h)
            refine ⟨?_, (c, r.err), h6 _ ?_, hc6⟩
            · rw [h1]
              exact liveAfter_refused he hc4
            · simp [L.after, he]
          · intro hu _
            have he : r.err ≠ 0 := fun h => by rw [h3.2 h] at hu; cases hu
            obtain ⟨h9, h10⟩ := h7 hu
            refine ⟨c, ?_, by rw [h9]; exact h10, fun _ => hc5⟩
            rw [h9]
            exact h6 _ (by simp [L.after, he])
        · intro h
          have hlost : (L.after { l with cur := p.ctx } c r).lost = l.lost := by simp [L.after, hc5]
          rw [hlost] at h
          exact hl h
    obtain ⟨hkind, hctx, _⟩ := hfit
    rcases hkind with ⟨ht, hc⟩ | ⟨ht, hc⟩ | ⟨ht, hc⟩
    · rw [if_pos (by rw [ht]; rfl)]
      refine key (.cuMemFreeHost ptr) rfl rfl (fun _ => rfl) rfl rfl rfl (fun _ _ => rfl) ?_ (by simp)
      exact ⟨i, hown, _, _, hc⟩
    · rw [if_neg (by rw [ht]; decide), if_pos (by rw [ht]; decide)]
      refine key (.cuMemFree ptr) rfl rfl (fun _ => rfl) rfl rfl rfl (fun _ _ => rfl) ?_ (by simp)
      exact ⟨i, hown, .inl ⟨_, hc⟩⟩
    · rw [if_neg (by rw [ht]; decide), if_pos (by rw [ht]; decide)]
      refine key (.cuMemFree ptr) rfl rfl (fun _ => rfl) rfl rfl rfl (fun _ _ => rfl) ?_ (by simp)
      exact ⟨i, hown, .inr ⟨_, _, hc⟩⟩
  · intro u rs tls c e hu _ hc he hsp
    rw [if_pos hu]
    refine hk u _ ⟨rfl, ?_, fun h => absurd h hu, fun _ => ⟨rfl, (c, e), by simp, mustWork_of_isCtx hc⟩, ?_⟩
    · intro h0 h1
      simp only [Bool.or_eq_false_iff] at h1
      exact h0 h1.1
    · intro h1 h2
      obtain ⟨h3, h4⟩ := hsp h1
      refine ⟨c, ?_, by show ¬ mapped .cu (tls .cu); rw [h3]; exact h4, ?_⟩
      · show (c, tls .cu) ∈ _
        rw [h3]
        simp
      · rintro ⟨x, hx, hx2⟩
        simp only [h2, List.mem_singleton] at hx
        rw [hx] at hx2
        rw [hc] at hx2
        cases hx2

theorem cuFree_ok {p : CuProv} {ptr n a : Nat} {i : Info} {l : L}
    (hown : ∀ x, l.own x = if ptr ≠ 0 ∧ x = .gpu .cu ptr then some i else none)
    (hfit : ptr ≠ 0 → CuFits p n a ptr i)
    (hl : l.lost = false → l.cur = l.user) (href : l.refused = []) :
    wp pid (.cuFree p ptr) (Post E (.cuFree p ptr) l.own) (cuFree p ptr) l := by
  unfold cuFree
  by_cases hp : ptr = 0
  · unfold cuFreeK
    rw [if_pos hp]
    refine ⟨hl, by simp [NativeOk], by simp [Op.gives], by simp, ?_⟩
    intro _ _ x i' hx
    rw [hown x] at hx
    simp [hp] at hx
  · refine wp_cuFreeK hp rfl (by rw [hown]; simp [hp]) (hfit hp) hl fun u l' h => ?_
    refine ⟨h.lost hl, fun hu => h.native hu href, by simp [Op.gives], ?_, ?_⟩
    · intro hu
      exact ⟨fun x _ => by rw [(h.bad hu).1], rfl⟩
    · intro hcl _ x i' hx
      by_cases hu : u = .success
      · rw [h.ok hu, hown x] at hx
        by_cases hxe : x = .gpu .cu ptr
        · simp [hxe] at hx
        · simp [hxe] at hx
      · obtain ⟨_, y, hy, hy2⟩ := h.bad hu
        have := hcl y hy
        rw [hy2] at this
        cases this

theorem cuAlloc_ok {p : CuProv} {size align : Nat} {l : L} (ht : p.type = 1 ∨ p.type = 2 ∨ p.type = 3)
    (hown : ∀ x, l.own x = none) (hl : l.lost = false → l.cur = l.user) (href : l.refused = []) :
    wp pid (.cuAlloc p size align) (Post E (.cuAlloc p size align) l.own) (cuAlloc p size align) l := by
  -- a failure with nothing made
  have fail : ∀ u q (l' : L), u ≠ .success → (l'.lost = false → l'.cur = l'.user) → (∀ x, l'.own x = none) →
      NativeOk (.cuAlloc p size align) { res := u, ptr := q } l'.refused l'.tls →
      wp pid (.cuAlloc p size align) (Post E (.cuAlloc p size align) l.own) (.ret { res := u, ptr := q }) l' := by
    intro u q l' hu h1 h2 h3
    refine ⟨h1, h3, by simp [Op.gives, hu], fun _ => ⟨by simp [Op.takes], by simp [Op.gives, hu]⟩, ?_⟩
    intro _ _ x i hx
    rw [h2 x] at hx
    cases hx
  unfold cuAlloc
  split
  · exact fail _ 0 l (by simp) hl hown (by simp [NativeOk])
  refine wp_setContext ?_ ?_
  · rw [if_neg (by simp)]
    have key : ∀ c : Call, c.kills = none → c.residency = none → (∀ r, c.makes r = some (.gpu .cu r.val)) →
        c.killsAnyway = false → c.isCtx = false → (∀ v, CuFits p size 0 v { call := c, ctx := p.ctx }) →
        (∀ own, c.Valid own) → (∀ ctx dev h, c ≠ .zeMemOpenIpcHandle ctx dev h) →
        wp pid (.cuAlloc p size align) (Post E (.cuAlloc p size align) l.own)
          (.call c fun r => setContext l.cur fun _ _ => cu2umf r.err fun u =>
            if u ≠ .success then .done u
            else if align > 0 ∧ r.val % align ≠ 0 then
              cuFreeK p r.val fun _ => .ret { res := .invalidAlignment, ptr := r.val }
            else .ret { res := u, ptr := r.val }) { l with cur := p.ctx } := by
      intro c hc1 hc2 hc3 hc4 hc5 hc6 hv hz
      refine ⟨hv _, ⟨?_, fun ctx dev h heq => absurd heq (hz ctx dev h)⟩, fun r hr => ?_⟩
      · intro _
        exact ⟨p, rfl, rfl⟩
      dsimp only
      have hlost : (L.after { l with cur := p.ctx } c r).lost = l.lost := by simp [L.after, hc5]
      refine wp_restore ?_ (by rw [hlost]; exact hl)
      intro u l' h1 h2 h3 _ h5 h6 h7 h8
      have hl' : l'.lost = false → l'.cur = l'.user := h5 (by rw [hlost]; exact hl)
      split
      · next hu =>
        have he : r.err ≠ 0 := fun h => hu (h3.2 h)
        refine fail u 0 l' hu hl' ?_ ?_
        · intro x
          rw [h1]
          show c.liveAfter l.own p.ctx r x = none
          rw [liveAfter_refused he hc4]
          exact hown x
        · intro hs
          obtain ⟨h9, h10⟩ := h7 hs
          refine ⟨c, ?_, by show ¬ mapped .cu (l'.tls .cu); rw [h9]; exact h10, fun _ => hc5⟩
          show (c, l'.tls .cu) ∈ _
          rw [h9]
          exact h6 _ (by simp [L.after, he])
      next hu =>
      have hu : u = .success := by simpa using hu
      have he : r.err = 0 := h3.1 hu
      have hnz : r.val ≠ 0 := ((hr.1 he).1 _ (hc3 r)).2
      have hown' : ∀ x, l'.own x = if x = .gpu .cu r.val then some { call := c, ctx := p.ctx } else none := by
        intro x
        rw [h1]
        show c.liveAfter l.own p.ctx r x = _
        rw [liveAfter_make he hc1 (hc3 r) hc2, hown x]
      split
      · refine wp_cuFreeK (n := size) (a := 0) hnz rfl (by rw [hown']; simp) (hc6 _) hl' fun v l2 hf => ?_
        by_cases hv : v = .success
        · refine fail _ r.val l2 (by simp) (hf.lost hl') ?_ (by simp [NativeOk])
          intro x
          rw [hf.ok hv, hown']
          split <;> simp_all
        · refine ⟨hf.lost hl', by simp [NativeOk], by simp [Op.gives], ?_, ?_⟩
          · exact fun _ => ⟨by simp [Op.takes], by simp [Op.gives]⟩
          · intro hcl
            obtain ⟨_, y, hy, hy2⟩ := hf.bad hv
            have := hcl y hy
            rw [hy2] at this
            cases this
      · next hal =>
        refine ⟨hl', by simp [NativeOk, hu], ?_, by simp [hu], ?_⟩
        · intro x hx
          simp only [Op.gives, hu, if_true, List.mem_singleton] at hx
          refine ⟨_, by rw [hown', if_pos hx], ?_⟩
          refine ⟨r.val, hx, hnz, (hc6 r.val).1, rfl, fun ha => ?_⟩
          refine Nat.dvd_of_mod_eq_zero ?_
          by_contra hm
          exact hal ⟨by omega, hm⟩
        · intro _ _ x i hx
          rw [hown'] at hx
          split at hx
          · next hxe => left; simp [Op.gives, hu, hxe]
          · cases hx
    rcases ht with ht | ht | ht
    · have : cuAllocCall p size = some (.cuMemHostAlloc size p.flags) := by
        unfold cuAllocCall
        rw [if_pos (by rw [ht]; rfl)]
      rw [this]
      exact key _ rfl rfl (fun _ => rfl) rfl rfl (fun v => ⟨.inl ⟨ht, rfl⟩, rfl, by simp⟩) (fun _ => trivial)
        (by simp)
    · have : cuAllocCall p size = some (.cuMemAlloc size) := by
        unfold cuAllocCall
        rw [if_neg (by rw [ht]; decide), if_pos (by rw [ht]; rfl)]
      rw [this]
      exact key _ rfl rfl (fun _ => rfl) rfl rfl (fun v => ⟨.inr (.inl ⟨ht, rfl⟩), rfl, by simp⟩)
        (fun _ => trivial) (by simp)
    · have : cuAllocCall p size = some (.cuMemAllocManaged size p.flags) := by
        unfold cuAllocCall
        rw [if_neg (by rw [ht]; decide), if_neg (by rw [ht]; decide), if_pos (by rw [ht]; rfl)]
      rw [this]
      exact key _ rfl rfl (fun _ => rfl) rfl rfl (fun v => ⟨.inr (.inr ⟨ht, rfl⟩), rfl, by simp⟩)
        (fun _ => trivial) (by simp)
  · intro u rs tls c e hu _ hc he hsp
    rw [if_pos hu]
    refine fail u 0 _ hu ?_ hown ?_
    · intro h1
      simp only [Bool.or_eq_false_iff] at h1
      exact hl h1.1
    · intro hs
      obtain ⟨h3, h4⟩ := hsp hs
      refine ⟨c, ?_, by show ¬ mapped .cu (tls .cu); rw [h3]; exact h4, ?_⟩
      · show (c, tls .cu) ∈ _
        rw [h3]
        simp
      · rintro ⟨x, hx, hx2⟩
        simp only [href, List.mem_singleton] at hx
        rw [hx] at hx2
        rw [hc] at hx2
        cases hx2

end Verif.Gpu
