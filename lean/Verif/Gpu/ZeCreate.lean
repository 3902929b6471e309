import Verif.Gpu.ZeOps

/-! # Creating a Level Zero provider -/
namespace Verif.Gpu
open Function (update)

variable {pid : Nat} {op : Op} {Q : Option Out → L → Prop} {E : Env}

theorem wp_zeQuery {p : ZeProv} {k : Res → Nat → Prog} {l : L} (ht : p.type = 1 ∨ p.type = 2 ∨ p.type = 3)
    (hub : ∀ l', Same l l' → E.freeExt = false → p.policy ≠ 0 → Q none l')
    (hs : ∀ page l', Same l l' → l'.own = l.own → wp pid op Q (k .success page) l')
    (hb : ∀ page l', Same l l' → ¬ Clean l'.refused → (∀ x, (∃ b a, x = .gpu b a) ∨ l'.own x = l.own x) →
      wp pid op Q (k .success page) l')
    (hf : ∀ u page l' c e, u ≠ .success → c.probes = true → (c, e) ∈ l'.refused → wp pid op Q (k u page) l') :
    wp pid op Q (zeQuery E p k) l := by
  unfold zeQuery
  refine wp_zeAllocK ht ?_ ?_
  · intro ptr l1 i h1 h2 h3 h4 hnone h5
    rw [if_neg (by simp)]
    refine ⟨trivial, callOk_plain rfl (by simp), fun r _ => ?_⟩
    dsimp only
    rw [after_plain (c := .zeMemGetAllocProperties p.ctx ptr) rfl rfl rfl rfl]
    refine wp_zeFreeK h3 (i := i) (by show l1.own _ = _; rw [h5, if_pos rfl]) h4.zeAllocIn ?_ ?_ ?_
    · intro h6 h7
      exact hub _ ⟨h1.cur, h1.user, h1.lost⟩ h6 h7
    · intro l2 h6 h7 h8
      have hown2 : l2.own = l.own := by
        funext x
        rw [h8]
        show (if x = .gpu .ze ptr then none else l1.own x) = _
        rw [h5]
        split
        · next h => rw [h, hnone]
        · rfl
      refine wp_ze2umf fun u tls hu hsp => ?_
      by_cases hsu : u = .success
      · rw [hsu]
        exact hs r.val _ ⟨h6.cur.trans h1.cur, h6.user.trans h1.user, h6.lost.trans h1.lost⟩ hown2
      · have hr0 : r.err ≠ 0 := fun h => hsu (hu.2 h)
        refine hf u r.val _ (.zeMemGetAllocProperties p.ctx ptr) r.err hsu rfl ?_
        show _ ∈ l2.refused
        rw [h7]
        simp [hr0]
    · intro v l2 c e h6 h7 h8 h9 h10 h11 h12
      refine wp_ze2umf fun u tls hu hsp => ?_
      by_cases hsu : u = .success
      · rw [hsu]
        refine hb r.val _ ⟨h6.cur.trans h1.cur, h6.user.trans h1.user, h6.lost.trans h1.lost⟩ ?_ ?_
        · intro hcl
          have := hcl (c, e) (by show _ ∈ l2.refused; rw [h10]; simp)
          rw [h8] at this
          cases this
        · intro x
          by_cases hx : x = .gpu .ze ptr
          · exact .inl ⟨_, _, hx⟩
          · refine .inr ?_
            show l2.own x = _
            rw [h12]
            show l1.own x = _
            rw [h5, if_neg hx]
      · have hr0 : r.err ≠ 0 := fun h => hsu (hu.2 h)
        refine hf u r.val _ (.zeMemGetAllocProperties p.ctx ptr) r.err hsu rfl ?_
        show _ ∈ l2.refused
        rw [h10]
        simp [hr0]
  · intro u ptr l1 c e h1 h2 h3 h4 h5 h6 h7
    rw [if_pos h2]
    exact hf u 0 l1 c e h2 h3 (by rw [h5]; simp)

theorem zeCreateEnd_ok {P : ZeParams} {p : ZeProv} {l : L} {own0 : Rsrc → Option Info} {i j : Info}
    (hl : l.lost = false → l.cur = l.user)
    (ht : (p.type = 1 ∨ p.type = 2 ∨ p.type = 3) → ZeMatches P p) (hpt : p.type = P.type)
    (haddr : p.addr ≠ p.resAddr)
    (hpol : p.policy ≠ 0 → P.policy = 1 ∨ P.policy = 2)
    (hown : ∀ x, l.own x = if x = .ba p.addr then some i
      else if p.resAddr ≠ 0 ∧ x = .ba p.resAddr then some j else none) :
    wp pid (.zeCreate (some P)) (Post E (.zeCreate (some P)) own0) (zeCreateEnd E p) l := by
  unfold zeCreateEnd
  by_cases hty : p.type = 1 ∨ p.type = 2 ∨ p.type = 3
  · have fin : ∀ page (l' : L), Same l l' → (∀ x, (∃ b a, x = .gpu b a) ∨ l'.own x = l.own x) →
        (Clean l'.refused → l'.own = l.own) →
        wp pid (.zeCreate (some P)) (Post E (.zeCreate (some P)) own0)
          (if Res.success ≠ .success then .ub
            else .ret { res := .success, zeProv := some { p with minPage := page } }) l' := by
      intro page l' h1 h2 h3
      rw [if_neg (by simp)]
      refine ⟨h1.ctx hl, nativeOk_of (by simp), ?_, by simp, ?_⟩
      · intro x hx
        have hba : x = .ba p.addr ∨ (p.resAddr ≠ 0 ∧ x = .ba p.resAddr) := by
          simp only [Op.gives] at hx
          split at hx
          · left; simpa using hx
          · next h0 =>
            simp only [List.mem_cons, List.not_mem_nil, or_false] at hx
            rcases hx with hx | hx
            · exact .inl hx
            · exact .inr ⟨h0, hx⟩
        have hx2 : ∃ i', l'.own x = some i' := by
          rcases h2 x with ⟨b, a, h⟩ | h
          · rcases hba with hba | ⟨_, hba⟩ <;> rw [h] at hba <;> cases hba
          · rw [h, hown]
            rcases hba with hba | ⟨h0, hba⟩
            · exact ⟨i, if_pos hba⟩
            · by_cases hxa : x = .ba p.addr
              · exact ⟨i, if_pos hxa⟩
              · exact ⟨j, by rw [if_neg hxa, if_pos ⟨h0, hba⟩]⟩
        obtain ⟨i', hi'⟩ := hx2
        exact ⟨i', hi', P, _, rfl, rfl, ht hty, haddr⟩
      · intro hcl _ x i' hx
        rw [h3 hcl, hown] at hx
        left
        simp only [Op.gives]
        by_cases h0 : p.resAddr = 0
        · rw [if_pos h0]
          split at hx
          · next h => simp [h]
          · simp [h0] at hx
        · rw [if_neg h0]
          split at hx
          · next h => simp [h]
          · split at hx
            · next h => simp [h.2]
            · cases hx
    refine wp_zeQuery hty ?_ ?_ ?_ ?_
    · intro l' _ h1 h2
      exact .inl ⟨P, rfl, .inr (.inr ⟨h1, hpol h2⟩)⟩
    · intro page l' h1 h2
      exact fin page l' h1 (fun x => .inr (by rw [h2])) (fun _ => h2)
    · intro page l' h1 h2 h3
      exact fin page l' h1 h3 (fun h => absurd h h2)
    · intro u page l' c e h1 h2 h3
      rw [if_pos h1]
      exact .inl ⟨P, rfl, .inr (.inl ⟨(c, e), h3, h2⟩)⟩
  · unfold zeQuery zeAllocK
    have : zeAllocCall p 1 0 = none := by
      unfold zeAllocCall
      rw [if_neg (c := p.type = .host) (fun h => hty (.inl h)),
        if_neg (c := p.type = .device) (fun h => hty (.inr (.inl h))),
        if_neg (c := p.type = .shared) (fun h => hty (.inr (.inr h)))]
    rw [this]
    dsimp only
    rw [if_pos (by simp), if_pos (by simp)]
    exact .inl ⟨P, rfl, .inl (by rw [← hpt]; exact hty)⟩

theorem zePolicy_ok {P : ZeParams} {q : Nat} (h : q = zePolicy P.policy) :
    (P.policy = 1 ∨ P.policy = 2 → q = P.policy) ∧ (¬(P.policy = 1 ∨ P.policy = 2) → q = 0) ∧
    (q ≠ 0 → P.policy = 1 ∨ P.policy = 2) := by
  subst h
  unfold zePolicy
  generalize P.policy = n
  split
  · next h => simp [h]
  split
  · next h => simp [h]
  · omega

theorem zeCreateResidents_ok {P : ZeParams} {p : ZeProv} {l : L} {own0 : Rsrc → Option Info} {i : Info}
    (hl : l.lost = false → l.cur = l.user) (hctx : P.ctx ≠ 0)
    (hdev : ¬(decide (P.type = 1) = decide (P.dev ≠ 0)))
    (hres : P.count ≠ 0 → P.resident ≠ none) (hlen : ∀ d, P.resident = some d → P.count ≤ d.length)
    (h1 : p.ctx = P.ctx) (h2 : p.dev = P.dev) (h3 : p.type = P.type) (h4 : p.ordinal = P.ordinal)
    (h5 : p.policy = zePolicy P.policy) (h6 : p.resAddr = 0) (h7 : p.resident = [])
    (hz : p.addr ≠ 0) (hown : ∀ x, l.own x = if x = .ba p.addr then some i else none) :
    wp pid (.zeCreate (some P)) (Post E (.zeCreate (some P)) own0) (zeCreateResidents E P p) l := by
  have hm : ∀ ty : Nat, ty = 1 ∨ ty = 2 ∨ ty = 3 → ¬(decide (ty = 1) = decide (P.dev ≠ 0)) →
      (ty = 1 ∧ P.dev = 0) ∨ ((ty = 2 ∨ ty = 3) ∧ P.dev ≠ 0) := by
    intro ty h hd
    by_cases h0 : P.dev = 0
    · simp [h0] at hd
      omega
    · simp [h0] at hd
      omega
  unfold zeCreateResidents
  split
  · next hc =>
    refine ⟨trivial, callOk_plain rfl (by simp), fun a ha => ?_⟩
    dsimp only
    split
    · next he =>
      rw [after_refused he rfl rfl]
      refine ⟨⟨i, by show l.own _ = _; rw [hown, if_pos rfl]⟩, callOk_plain rfl (by simp), fun r _ => ?_⟩
      dsimp only
      rw [after_baFree]
      refine post_nothing hl (fun x => ?_) rfl (.inl rfl) (nativeOk_of (by simp))
      show (if x = .ba p.addr then none else l.own x) = none
      rw [hown]
      split <;> simp_all
    next he =>
    have he : a.err = 0 := by simpa using he
    have hnew := (ha.1 he).1 _ rfl
    have hne : a.val ≠ p.addr := by
      intro h
      have := hnew.1
      rw [hown, h, if_pos rfl] at this
      cases this
    split
    · next hn => exact absurd hn (hres hc)
    next d hd =>
    rw [if_neg (by have := hlen d hd; omega)]
    refine zeCreateEnd_ok (P := P) (i := i) (j := { call := .baAlloc (8 * P.count), ctx := l.cur }) ?_ ?_ h3 hne.symm ?_ ?_
    · simpa [L.after, Call.isCtx, Call.curAfter] using hl
    · intro ht
      have ht : p.type = 1 ∨ p.type = 2 ∨ p.type = 3 := ht
      refine ⟨h1, h2, h3, h4, hctx, ?_, .inr ⟨d, hd, rfl⟩, (zePolicy_ok h5).1, (zePolicy_ok h5).2.1⟩
      exact hm _ (by rw [← h3]; exact ht) hdev
    · exact (zePolicy_ok h5).2.2
    · intro x
      show Call.liveAfter l.own l.cur _ a x = _
      rw [liveAfter_make he rfl rfl rfl, hown]
      have hnz : a.val ≠ 0 := hnew.2
      by_cases hx : x = .ba a.val
      · have : x ≠ .ba p.addr := by
          rw [hx]
          intro h
          exact hne (Rsrc.ba.inj h)
        rw [if_pos hx, if_neg this, if_pos ⟨hnz, hx⟩]
      · rw [if_neg hx]
        have : ¬(a.val ≠ 0 ∧ x = .ba a.val) := fun h => hx h.2
        rw [if_neg this]
  · next hc =>
    refine zeCreateEnd_ok (P := P) (i := i) (j := i) hl ?_ h3 (by rw [h6]; exact hz) (zePolicy_ok h5).2.2 ?_
    · intro ht
      refine ⟨h1, h2, h3, h4, hctx, ?_, .inl ⟨by simpa using hc, h7⟩, (zePolicy_ok h5).1, (zePolicy_ok h5).2.1⟩
      exact hm _ (by rw [← h3]; exact ht) hdev
    · intro x
      rw [hown]
      simp [h6]

theorem zeCreate_ok {P : Option ZeParams} {l : L} (hown : ∀ x, l.own x = none)
    (hl : l.lost = false → l.cur = l.user)
    (hlen : ∀ Q d, P = some Q → Q.resident = some d → Q.count ≤ d.length) :
    wp pid (.zeCreate P) (Post E (.zeCreate P) l.own) (zeCreate E P) l := by
  have fail : ∀ u, u ≠ .specific →
      wp pid (.zeCreate P) (Post E (.zeCreate P) l.own) (.done u) l := by
    intro u hu
    exact post_nothing hl hown (by simp [Op.gives]) (.inl rfl) (nativeOk_of hu)
  unfold zeCreate
  split
  · exact fail _ (by simp)
  next P =>
  split
  · exact fail _ (by simp)
  next h1 =>
  split
  · exact fail _ (by simp)
  next h2 =>
  split
  · exact fail _ (by simp)
  next h3 =>
  split
  · exact fail _ (by simp)
  refine ⟨trivial, callOk_plain rfl (by simp), fun m hm => ?_⟩
  dsimp only
  split
  · next he =>
    rw [after_refused he rfl rfl]
    exact post_nothing hl hown (by simp [Op.gives]) (.inl rfl) (nativeOk_of (by simp))
  next he =>
  have he : m.err = 0 := by simpa using he
  have hown' : ∀ x, (l.after (.baAlloc 472) m).own x =
      if x = .ba m.val then some { call := .baAlloc 472, ctx := l.cur } else none := by
    intro x
    show Call.liveAfter l.own l.cur _ m x = _
    rw [liveAfter_make he rfl rfl rfl, hown x]
  have hl' : (l.after (.baAlloc 472) m).lost = false →
      (l.after (.baAlloc 472) m).cur = (l.after (.baAlloc 472) m).user := by
    simpa [L.after, Call.isCtx, Call.curAfter] using hl
  have hz : m.val ≠ 0 := ((hm.1 he).1 _ rfl).2
  generalize l.after (.baAlloc 472) m = l1 at *
  have hres : P.count ≠ 0 → P.resident ≠ none := fun hc hn => h3 ⟨hc, hn⟩
  split
  · refine ⟨trivial, callOk_plain rfl (by simp), fun r _ => ?_⟩
    dsimp only
    rw [after_plain (c := .zeDeviceGetProperties P.dev) rfl rfl rfl rfl]
    refine wp_ze2umf fun u tls hu hsp => ?_
    split
    · next hsu =>
      refine ⟨⟨_, by show l1.own (.ba m.val) = _; rw [hown', if_pos rfl]⟩, callOk_plain rfl (by simp), fun f _ => ?_⟩
      dsimp only
      rw [after_baFree]
      refine post_nothing hl' (fun x => ?_) (by simp [Op.gives]) (.inl rfl) ?_
      · show (if x = .ba m.val then none else l1.own x) = none
        rw [hown']
        split <;> simp_all
      · refine nativeOk_one (c := .zeDeviceGetProperties P.dev) (e := r.err) rfl ?_ hsp
        have he : r.err ≠ 0 := fun h => hsu (hu.2 h)
        simp [he]
        split <;> simp
    · exact zeCreateResidents_ok hl' h1 h2 hres (fun d hd => hlen P d rfl hd) rfl rfl rfl rfl rfl rfl rfl hz hown'
  · exact zeCreateResidents_ok hl' h1 h2 hres (fun d hd => hlen P d rfl hd) rfl rfl rfl rfl rfl rfl rfl hz hown'

end Verif.Gpu
