import Verif.DjHost.Create
/-!
# Lemmas for the disjoint pool's own memory: a pool is made, continued
-/
namespace Verif.DjHost

/-- A new pool, with its radix tree, its limits, its array and its buckets. -/
theorem inv_created {s s' : St} {A : World} {p known lim arr : Addr} {q : Params} {n : Nat} {v : Limits} {L : List Addr} (h : Inv0 s A)
    (hp0 : p ≠ 0) (hlim0 : lim ≠ 0) (hp : s.pools p = none) (hk : s.crits known = none) (hl : s.lims lim = none) (ha : s.arrs arr = none)
    (hsh : q.shared = 0 ∨ A.lims q.shared = true)
    (e1 : s'.pools = upd s.pools p (some ⟨known, arr, n, q.slabMin, q.capacity, q.trace, q.shared, lim⟩))
    (e2 : s'.crits = upd s.crits known (some []))
    (e3 : s'.lims = upd s.lims lim (some v)) (e4 : s'.arrs = upd s.arrs arr (some (L.map some))) (e5 : s'.slabs = s.slabs)
    (e6 : s'.prov = s.prov) (hlen : L.length = n) (hnd : L.Nodup) (hcl : n = classesOf q.minBucket)
    (hm : ∀ b ∈ L, s.bucks b = none ∧ ∃ size, 0 < size ∧ s'.bucks b = some ⟨size, 0, 0, 0, p, if q.shared ≠ 0 then q.shared else lim, 0⟩)
    (ho : ∀ b, b ∉ L → s'.bucks b = s.bucks b) :
    A.pools p = none ∧ A.lims lim = false ∧ Inv0 s' { A with pools := upd A.pools p (some ⟨classesOf q.minBucket, q.shared, []⟩) } := by
  have hAp : A.pools p = none := by
    cases e : A.pools p with
    | none => rfl
    | some I =>
      obtain ⟨P, _, h1, _⟩ := h.shape.pool p I e
      rw [hp] at h1
      cases h1
  have hAl : A.lims lim = false := by
    cases e : A.lims lim with
    | false => rfl
    | true =>
      have := h.shape.lims lim e
      simp [St.hasLim, hl] at this
  refine ⟨hAp, hAl, ?_⟩
  have known_pool : ∀ p' P', s.pools p' = some P' → p' ≠ p ∧ ∃ I, A.pools p' = some I := by
    intro p' P' h1
    refine ⟨?_, ?_⟩
    · rintro rfl
      rw [hp] at h1
      cases h1
    · cases e : A.pools p' with
      | some I => exact ⟨I, rfl⟩
      | none =>
        rw [h.shape.known p' e] at h1
        cases h1
  have kold : ∀ b c, s.frame b = some c → b ∉ L ∧ s'.frame b = some c := by
    intro b c hc
    obtain ⟨c', h1, rfl⟩ := frame_back hc
    have : b ∉ L := by
      intro hb
      rw [(hm b hb).1] at h1
      cases h1
    refine ⟨this, frame_some ?_⟩
    rw [ho b this]
    exact h1
  have knew : ∀ b c, s'.frame b = some c → (b ∈ L ∧ c.pool = p ∧ c.limits = (if q.shared ≠ 0 then q.shared else lim) ∧ 0 < c.size) ∨
      (b ∉ L ∧ s.frame b = some c) := by
    intro b c hc
    by_cases hb : b ∈ L
    · obtain ⟨_, size, h2, h3⟩ := hm b hb
      rw [frame_some h3] at hc
      cases hc
      exact Or.inl ⟨hb, rfl, rfl, h2⟩
    · right
      obtain ⟨c', h1, rfl⟩ := frame_back hc
      rw [ho b hb] at h1
      exact ⟨hb, frame_some h1⟩
  have hD : s'.data = s.data := by unfold St.data; rw [e5]
  have notp : ∀ b c, s.frame b = some c → c.pool ≠ p := by
    intro b c hc e
    obtain ⟨I, hI⟩ := h.shape.buck b c hc
    rw [e, hAp] at hI
    cases hI
  have kD : ∀ x d c, s.data x = some d → s'.frame d.bucket = some c → s.frame d.bucket = some c := by
    intro x d c hx hc
    obtain ⟨c', h1, _⟩ := h.data.buck x d hx
    have := (kold _ _ h1).2
    rw [hc] at this
    cases this
    exact h1
  have pback : ∀ p' P', s'.pools p' = some P' → (p' = p ∧ P' = ⟨known, arr, n, q.slabMin, q.capacity, q.trace, q.shared, lim⟩) ∨
      (p' ≠ p ∧ s.pools p' = some P') := by
    intro p' P' h1
    rw [e1] at h1
    by_cases e : p' = p
    · rw [e, upd_same] at h1
      cases h1
      exact Or.inl ⟨e, rfl⟩
    · rw [upd_ne _ _ e] at h1
      exact Or.inr ⟨e, h1⟩
  have pfwd : ∀ p' P', s.pools p' = some P' → s'.pools p' = some P' := by
    intro p' P' h1
    rw [e1, upd_ne _ _ (known_pool p' P' h1).1]
    exact h1
  have pself : s'.pools p = some ⟨known, arr, n, q.slabMin, q.capacity, q.trace, q.shared, lim⟩ := by rw [e1, upd_same]
  have knownNe : ∀ p' P', s.pools p' = some P' → P'.known ≠ known := by
    intro p' P' h1 e
    obtain ⟨l, h2, _⟩ := h.data.crit p' P' h1
    rw [e, hk] at h2
    cases h2
  have defNe : ∀ p' P', s.pools p' = some P' → P'.default ≠ lim := by
    intro p' P' h1 e
    obtain ⟨_, I, hI⟩ := known_pool p' P' h1
    obtain ⟨P, M, h2, h3⟩ := h.shape.pool p' I hI
    rw [h1] at h2
    cases h2
    have := h3.dflt
    rw [e] at this
    simp [St.hasLim, hl] at this
  have lmfwd : ∀ l, s.hasLim l = true → s'.hasLim l = true := by
    intro l h1
    unfold St.hasLim at h1 ⊢
    rw [e3]
    by_cases e : l = lim
    · rw [e, upd_same]
      rfl
    · rw [upd_ne _ _ e]
      exact h1
  refine ⟨⟨?_, ?_, ?_, h.shape.lim0, ?_, ?_, ?_, ?_, ?_⟩, ⟨?_, ?_, ?_, ?_, ?_, ?_, ?_, ?_, ?_⟩, ?_⟩
  · intro p' hp'
    by_cases e : p' = p
    · rw [e] at hp'
      dsimp only at hp'
      rw [upd_same] at hp'
      cases hp'
    · dsimp only at hp'
      rw [upd_ne _ _ e] at hp'
      rw [e1, upd_ne _ _ e]
      exact h.shape.known p' hp'
  · intro p' J hJ
    dsimp only at hJ
    by_cases e : p' = p
    · rw [e, upd_same] at hJ
      cases hJ
      rw [e]
      refine ⟨_, L, pself, ⟨hp0, by rw [e4]; exact upd_same _ _ _, hlen, hcl, hnd, ?_, ?_, ?_, hAl, rfl, hsh⟩⟩
      · intro b hb
        obtain ⟨_, size, h2, h3⟩ := hm b hb
        exact ⟨_, frame_some h3, rfl, rfl, h2⟩
      · intro b c hc hcp
        rcases knew b c hc with h1 | h1
        · exact h1.1
        · exact absurd hcp (notp b c h1.2)
      · unfold St.hasLim
        rw [e3, upd_same]
        rfl
    · rw [upd_ne _ _ e] at hJ
      obtain ⟨P, M, h1, hk'⟩ := h.shape.pool p' J hJ
      refine ⟨P, M, pfwd p' P h1, ⟨hk'.nz, ?_, hk'.len, hk'.classes, hk'.nodup, ?_, ?_, lmfwd _ hk'.dflt, hk'.mine, hk'.shared, hk'.limit⟩⟩
      · rw [e4, upd_ne]
        · exact hk'.arr
        · intro e'
          have := hk'.arr
          rw [e', ha] at this
          cases this
      · intro b hb
        obtain ⟨c, h2, h3⟩ := hk'.buck b hb
        exact ⟨c, (kold b c h2).2, h3⟩
      · intro b c hc hcp
        rcases knew b c hc with h2 | h2
        · exact absurd (hcp.symm.trans h2.2.1) e
        · exact hk'.onto b c h2.2 hcp
  · intro b c hc
    dsimp only
    rcases knew b c hc with h2 | h2
    · rw [h2.2.1]
      exact ⟨_, upd_same _ _ _⟩
    · obtain ⟨J, hJ⟩ := h.shape.buck b c h2.2
      exact ⟨J, by rw [upd_ne _ _ (notp b c h2.2)]; exact hJ⟩
  · exact fun l h1 => lmfwd l (h.shape.lims l h1)
  · intro l h1
    by_cases e : l = lim
    · exact Or.inr ⟨p, _, pself, e.symm⟩
    · unfold St.hasLim at h1
      rw [e3, upd_ne _ _ e] at h1
      rcases h.shape.limOwner l h1 with h2 | ⟨p', P', h2, h3⟩
      · exact Or.inl h2
      · exact Or.inr ⟨p', P', pfwd p' P' h2, h3⟩
  · intro t h1
    by_cases e : t = known
    · exact ⟨p, _, pself, e.symm⟩
    · unfold St.hasCrit at h1
      rw [e2, upd_ne _ _ e] at h1
      obtain ⟨p', P', h2, h3⟩ := h.shape.critOwner t h1
      exact ⟨p', P', pfwd p' P' h2, h3⟩
  · intro p1 p2 P1 P2 h1 h2 h3
    rcases pback p1 P1 h1 with ⟨g1, g2⟩ | ⟨g1, g2⟩ <;> rcases pback p2 P2 h2 with ⟨g3, g4⟩ | ⟨g3, g4⟩
    · rw [g1, g3]
    · rw [g2] at h3
      exact absurd h3.symm (knownNe p2 P2 g4)
    · rw [g4] at h3
      exact absurd h3 (knownNe p1 P1 g2)
    · exact h.shape.knownInj p1 p2 P1 P2 g2 g4 h3
  · intro p1 p2 P1 P2 h1 h2 h3
    rcases pback p1 P1 h1 with ⟨g1, g2⟩ | ⟨g1, g2⟩ <;> rcases pback p2 P2 h2 with ⟨g3, g4⟩ | ⟨g3, g4⟩
    · rw [g1, g3]
    · rw [g2] at h3
      exact absurd h3.symm (defNe p2 P2 g4)
    · rw [g4] at h3
      exact absurd h3 (defNe p1 P1 g2)
    · exact h.shape.defInj p1 p2 P1 P2 g2 g4 h3
  · rw [hD]
    exact h.data.nz
  · rw [hD]
    intro x d hx
    obtain ⟨c, h1, h2⟩ := h.data.buck x d hx
    exact ⟨c, (kold _ _ h1).2, h2⟩
  · rw [hD, e6]
    exact h.data.mem
  · rw [hD]
    exact h.data.total
  · rw [hD]
    exact h.data.memInj
  · rw [hD, e6]
    exact h.data.prov
  · rw [hD]
    intro x d c J hx hc hJ
    have hc := kD x d c hx hc
    dsimp only at hJ
    rw [upd_ne _ _ (notp _ _ hc)] at hJ
    exact h.data.live x d c J hx hc hJ
  · rw [hD]
    intro p' J x hJ hx
    dsimp only at hJ
    by_cases e : p' = p
    · rw [e, upd_same] at hJ
      cases hJ
      cases hx
    · rw [upd_ne _ _ e] at hJ
      obtain ⟨d, c, h1, h2, h3⟩ := h.data.liveMem p' J x hJ hx
      exact ⟨d, c, h1, (kold _ _ h2).2, h3⟩
  · rw [hD]
    intro p' P' h1
    rcases pback p' P' h1 with ⟨g1, g2⟩ | ⟨g1, g2⟩
    · rw [g2, g1]
      refine ⟨[], by rw [e2]; exact upd_same _ _ _, fun k y => ⟨by simp, ?_⟩⟩
      rintro ⟨d, c, f1, f2, f3, f4⟩
      exact absurd f4 (notp _ _ (kD y d c f1 f3))
    · obtain ⟨l, f1, f2⟩ := h.data.crit p' P' g2
      refine ⟨l, by rw [e2, upd_ne _ _ (knownNe p' P' g2)]; exact f1, fun k y => ?_⟩
      rw [f2]
      constructor
      · rintro ⟨d, c, k1, k2, k3, k4⟩
        exact ⟨d, c, k1, k2, (kold _ _ k3).2, k4⟩
      · rintro ⟨d, c, k1, k2, k3, k4⟩
        exact ⟨d, c, k1, k2, kD y d c k1 k3, k4⟩
  · rw [e5]
    intro b c hc
    by_cases hb : b ∈ L
    · obtain ⟨h1, size, _, h3⟩ := hm b hb
      rw [h3] at hc
      cases hc
      refine ⟨[], [], ⟨⟨rfl, trivial, by simp, by simp⟩, ⟨rfl, trivial, by simp, by simp⟩, rfl, by simp, by simp, ?_, rfl⟩⟩
      intro x d hx hd
      obtain ⟨c, g1, _⟩ := h.data.buck x d.data (data_some hx)
      rw [show d.data.bucket = b from hd] at g1
      obtain ⟨c', g2, _⟩ := frame_back g1
      rw [h1] at g2
      cases g2
    · rw [ho b hb] at hc
      exact h.lists b c hc

end Verif.DjHost
