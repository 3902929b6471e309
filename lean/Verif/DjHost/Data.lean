import Verif.DjHost.Inv
/-!
# Lemmas for the disjoint pool's own memory: slabs that come, go and change their counters
-/
namespace Verif.DjHost

variable {D : Addr → Option Slab} {K : Addr → Option Bucket} {pools : Addr → Option Pool}
  {crits : Addr → Option (List (Addr × Addr))} {prov : Addr → Option Nat} {A : World}

/-- A new slab. -/
theorem Data.new (h : Data D K pools crits prov A) {x : Addr} {d : Slab} {c : Bucket} {P : Pool} {l : List (Addr × Addr)}
    (hinj : ∀ p p' P P', pools p = some P → pools p' = some P' → P.known = P'.known → p = p')
    (hx : D x = none) (hx0 : x ≠ 0) (ha : d.alloc = 0) (ht : 0 < d.total) (hK : K d.bucket = some c)
    (hsz : d.total * c.size ≤ d.size) (hp : prov d.mem = none) (hm0 : d.mem ≠ 0) (hP : pools c.pool = some P)
    (hl : crits P.known = some l) :
    Data (upd D x (some d)) K pools (upd crits P.known (some ((d.mem, x) :: l))) (upd prov d.mem (some d.size)) A := by
  have hmem : ∀ y d', D y = some d' → d'.mem ≠ d.mem := by
    intro y d' hy e
    have := (h.mem y d' hy).1
    rw [e, hp] at this
    cases this
  have hne : ∀ y d', D y = some d' → y ≠ x := by
    rintro y d' hy rfl
    rw [hx] at hy
    cases hy
  refine ⟨?_, ?_, ?_, ?_, ?_, ?_, ?_, ?_, ?_⟩
  · rw [upd_ne _ _ (Ne.symm hx0)]
    exact h.nz
  · intro y d' hy
    by_cases e : y = x
    · rw [e, upd_same] at hy
      cases hy
      exact ⟨c, hK, hsz⟩
    · rw [upd_ne _ _ e] at hy
      exact h.buck y d' hy
  · intro y d' hy
    by_cases e : y = x
    · rw [e, upd_same] at hy
      cases hy
      exact ⟨upd_same _ _ _, hm0⟩
    · rw [upd_ne _ _ e] at hy
      rw [upd_ne _ _ (hmem y d' hy)]
      exact h.mem y d' hy
  · intro y d' hy
    by_cases e : y = x
    · rw [e, upd_same] at hy
      cases hy
      exact ⟨ht, by omega⟩
    · rw [upd_ne _ _ e] at hy
      exact h.total y d' hy
  · intro y z d1 d2 hy hz hm
    by_cases e : y = x
    · by_cases e' : z = x
      · rw [e, e']
      · rw [e, upd_same] at hy
        cases hy
        rw [upd_ne _ _ e'] at hz
        exact absurd hm.symm (hmem z d2 hz)
    · rw [upd_ne _ _ e] at hy
      by_cases e' : z = x
      · rw [e', upd_same] at hz
        cases hz
        exact absurd hm (hmem y d1 hy)
      · rw [upd_ne _ _ e'] at hz
        exact h.memInj y z d1 d2 hy hz hm
  · intro m n hmn
    by_cases e : m = d.mem
    · exact ⟨x, d, upd_same _ _ _, e.symm⟩
    · rw [upd_ne _ _ e] at hmn
      obtain ⟨y, d', h1, h2⟩ := h.prov m n hmn
      exact ⟨y, d', by rw [upd_ne _ _ (hne y d' h1)]; exact h1, h2⟩
  · intro y d' c' I hy hc hI
    by_cases e : y = x
    · rw [e, upd_same] at hy
      cases hy
      rw [ha, e, List.count_eq_zero]
      intro hm
      obtain ⟨d'', _, h1, _⟩ := h.liveMem _ I x hI hm
      rw [hx] at h1
      cases h1
    · rw [upd_ne _ _ e] at hy
      exact h.live y d' c' I hy hc hI
  · intro p I y hI hy
    obtain ⟨d', c', h1, h2⟩ := h.liveMem p I y hI hy
    exact ⟨d', c', by rw [upd_ne _ _ (hne y d' h1)]; exact h1, h2⟩
  · intro p Q hQ
    by_cases e : p = c.pool
    · subst e
      rw [hP] at hQ
      cases hQ
      refine ⟨_, upd_same _ _ _, fun k y => ?_⟩
      obtain ⟨l', h1, h2⟩ := h.crit _ _ hP
      rw [hl] at h1
      cases h1
      rw [List.mem_cons, h2]
      constructor
      · rintro (h3 | ⟨d', c', h3, h4⟩)
        · simp only [Prod.mk.injEq] at h3
          obtain ⟨rfl, rfl⟩ := h3
          exact ⟨d, c, upd_same _ _ _, rfl, hK, rfl⟩
        · exact ⟨d', c', by rw [upd_ne _ _ (hne y d' h3)]; exact h3, h4⟩
      · rintro ⟨d', c', h3, h4⟩
        by_cases e : y = x
        · rw [e, upd_same] at h3
          cases h3
          exact Or.inl (by rw [e, h4.1])
        · rw [upd_ne _ _ e] at h3
          exact Or.inr ⟨d', c', h3, h4⟩
    · obtain ⟨l', h1, h2⟩ := h.crit _ _ hQ
      refine ⟨l', ?_, fun k y => ?_⟩
      · rw [upd_ne]
        · exact h1
        · intro e'
          exact e (hinj _ _ _ _ hQ hP e')
      · rw [h2]
        constructor
        · rintro ⟨d', c', h3, h4⟩
          exact ⟨d', c', by rw [upd_ne _ _ (hne y d' h3)]; exact h3, h4⟩
        · rintro ⟨d', c', h3, h4, h5, h6⟩
          by_cases e' : y = x
          · rw [e', upd_same] at h3
            cases h3
            rw [hK] at h5
            cases h5
            exact absurd h6.symm e
          · rw [upd_ne _ _ e'] at h3
            exact ⟨d', c', h3, h4, h5, h6⟩

/-- Another counter, and as many live allocations. -/
theorem Data.count (h : Data D K pools crits prov A) {x : Addr} {d : Slab} {c : Bucket} {I : Info} {k : Nat} {L : List Addr}
    (hx : D x = some d) (hK : K d.bucket = some c) (hI : A.pools c.pool = some I) (hk : k ≤ d.total)
    (hL : L.count x = k) (hL' : ∀ y, y ≠ x → L.count y = I.live.count y) :
    Data (upd D x (some { d with alloc := k })) K pools crits prov
      { A with pools := upd A.pools c.pool (some { I with live := L }) } := by
  have get : ∀ y d', upd D x (some { d with alloc := k }) y = some d' →
      ∃ d0, D y = some d0 ∧ d'.mem = d0.mem ∧ d'.size = d0.size ∧ d'.total = d0.total ∧ d'.bucket = d0.bucket := by
    intro y d' hy
    by_cases e : y = x
    · rw [e, upd_same] at hy
      cases hy
      exact ⟨d, by rw [e]; exact hx, rfl, rfl, rfl, rfl⟩
    · rw [upd_ne _ _ e] at hy
      exact ⟨d', hy, rfl, rfl, rfl, rfl⟩
  have put : ∀ y d', D y = some d' → ∃ d0, upd D x (some { d with alloc := k }) y = some d0 ∧ d0.mem = d'.mem ∧
      d0.bucket = d'.bucket := by
    intro y d' hy
    by_cases e : y = x
    · rw [e] at hy ⊢
      rw [hx] at hy
      cases hy
      exact ⟨_, upd_same _ _ _, rfl, rfl⟩
    · exact ⟨d', by rw [upd_ne _ _ e]; exact hy, rfl, rfl⟩
  refine ⟨?_, ?_, ?_, ?_, ?_, ?_, ?_, ?_, ?_⟩
  · rw [upd_ne]
    · exact h.nz
    · rintro rfl
      rw [h.nz] at hx
      cases hx
  · intro y d' hy
    obtain ⟨d0, h0, h1, h2, h3, h4⟩ := get y d' hy
    rw [h4, h3, h2]
    exact h.buck y d0 h0
  · intro y d' hy
    obtain ⟨d0, h0, h1, h2, h3, h4⟩ := get y d' hy
    rw [h1, h2]
    exact h.mem y d0 h0
  · intro y d' hy
    by_cases e : y = x
    · rw [e, upd_same] at hy
      cases hy
      exact ⟨(h.total x d hx).1, hk⟩
    · rw [upd_ne _ _ e] at hy
      exact h.total y d' hy
  · intro y z d1 d2 hy hz hm
    obtain ⟨e0, h0, h1, _⟩ := get y d1 hy
    obtain ⟨f0, g0, g1, _⟩ := get z d2 hz
    exact h.memInj y z e0 f0 h0 g0 (by rw [← h1, ← g1, hm])
  · intro m n hmn
    obtain ⟨y, d', h1, h2⟩ := h.prov m n hmn
    obtain ⟨d0, h3, h4, _⟩ := put y d' h1
    exact ⟨y, d0, h3, by rw [h4, h2]⟩
  · intro y d' c' J hy hc hJ
    by_cases e : y = x
    · rw [e, upd_same] at hy
      cases hy
      rw [show ({ d with alloc := k } : Slab).bucket = d.bucket from rfl, hK] at hc
      cases hc
      simp only [upd_same, Option.some.injEq] at hJ
      subst hJ
      rw [e]
      exact hL
    · rw [upd_ne _ _ e] at hy
      by_cases e' : c'.pool = c.pool
      · rw [e'] at hJ
        simp only [upd_same, Option.some.injEq] at hJ
        subst hJ
        rw [← h.live y d' c' I hy hc (by rw [e']; exact hI)]
        exact hL' y e
      · exact h.live y d' c' J hy hc (by dsimp only at hJ; rw [upd_ne _ _ e'] at hJ; exact hJ)
  · intro p J y hJ hy
    by_cases e : p = c.pool
    · subst e
      simp only [upd_same, Option.some.injEq] at hJ
      subst hJ
      by_cases e' : y = x
      · rw [e']
        exact ⟨_, c, upd_same _ _ _, hK, rfl⟩
      · have hy' : y ∈ I.live := by
          rw [← List.count_pos_iff, ← hL' y e', List.count_pos_iff]
          exact hy
        obtain ⟨d', c', h1, h2⟩ := h.liveMem _ I y hI hy'
        exact ⟨d', c', by rw [upd_ne _ _ e']; exact h1, h2⟩
    · dsimp only at hJ
      rw [upd_ne _ _ e] at hJ
      obtain ⟨d', c', h1, h2⟩ := h.liveMem p J y hJ hy
      obtain ⟨d0, h3, h4, h5⟩ := put y d' h1
      exact ⟨d0, c', h3, by rw [h5]; exact h2⟩
  · intro p Q hQ
    obtain ⟨l', h1, h2⟩ := h.crit _ _ hQ
    refine ⟨l', h1, fun k' y => ?_⟩
    rw [h2]
    constructor
    · rintro ⟨d', c', h3, h4, h5, h6⟩
      obtain ⟨d0, g1, g2, g3⟩ := put y d' h3
      exact ⟨d0, c', g1, by rw [g2, h4], by rw [g3]; exact h5, h6⟩
    · rintro ⟨d', c', h3, h4, h5, h6⟩
      obtain ⟨d0, g0, g1, _, _, g4⟩ := get y d' h3
      exact ⟨d0, c', g0, by rw [← g1, h4], by rw [← g4]; exact h5, h6⟩

/-- An unused slab goes. -/
theorem Data.del (h : Data D K pools crits prov A) {x : Addr} {d : Slab} {c : Bucket} {P : Pool} {l : List (Addr × Addr)}
    (hinj : ∀ p p' P P', pools p = some P → pools p' = some P' → P.known = P'.known → p = p')
    (hA : ∀ p, A.pools p = none → pools p = none)
    (hx : D x = some d) (ha : d.alloc = 0) (hK : K d.bucket = some c) (hP : pools c.pool = some P)
    (hl : crits P.known = some l) :
    Data (upd D x none) K pools (upd crits P.known (some (l.filter fun e => e.1 ≠ d.mem))) (upd prov d.mem none) A := by
  have hmem : ∀ y d', D y = some d' → y ≠ x → d'.mem ≠ d.mem := by
    intro y d' hy e e'
    exact e (h.memInj y x d' d hy hx e')
  have get : ∀ y d', upd D x none y = some d' → D y = some d' ∧ y ≠ x := by
    intro y d' hy
    by_cases e : y = x
    · rw [e, upd_same] at hy
      cases hy
    · rw [upd_ne _ _ e] at hy
      exact ⟨hy, e⟩
  refine ⟨?_, ?_, ?_, ?_, ?_, ?_, ?_, ?_, ?_⟩
  · rw [upd_ne]
    · exact h.nz
    · rintro rfl
      rw [h.nz] at hx
      cases hx
  · intro y d' hy
    exact h.buck y d' (get y d' hy).1
  · intro y d' hy
    obtain ⟨h1, h2⟩ := get y d' hy
    rw [upd_ne _ _ (hmem y d' h1 h2)]
    exact h.mem y d' h1
  · intro y d' hy
    exact h.total y d' (get y d' hy).1
  · intro y z d1 d2 hy hz hm
    exact h.memInj y z d1 d2 (get y d1 hy).1 (get z d2 hz).1 hm
  · intro m n hmn
    by_cases e : m = d.mem
    · rw [e, upd_same] at hmn
      cases hmn
    · rw [upd_ne _ _ e] at hmn
      obtain ⟨y, d', h1, h2⟩ := h.prov m n hmn
      refine ⟨y, d', ?_, h2⟩
      rw [upd_ne]
      · exact h1
      · rintro rfl
        rw [hx] at h1
        cases h1
        exact e h2.symm
  · intro y d' c' I hy hc hI
    exact h.live y d' c' I (get y d' hy).1 hc hI
  · intro p I y hI hy
    obtain ⟨d', c', h1, h2⟩ := h.liveMem p I y hI hy
    refine ⟨d', c', ?_, h2⟩
    rw [upd_ne]
    · exact h1
    · rintro rfl
      rw [hx] at h1
      cases h1
      have := h.live y d c' I hx h2.1 (by rw [h2.2]; exact hI)
      rw [ha, List.count_eq_zero] at this
      exact this hy
  · intro p Q hQ
    by_cases e : p = c.pool
    · subst e
      rw [hP] at hQ
      cases hQ
      refine ⟨_, upd_same _ _ _, fun k y => ?_⟩
      obtain ⟨l', h1, h2⟩ := h.crit _ _ hP
      rw [hl] at h1
      cases h1
      rw [List.mem_filter, h2]
      simp only [ne_eq, decide_not, Bool.not_eq_eq_eq_not, Bool.not_true, decide_eq_false_iff_not]
      constructor
      · rintro ⟨⟨d', c', h3, h4, h5⟩, h6⟩
        refine ⟨d', c', ?_, h4, h5⟩
        rw [upd_ne]
        · exact h3
        · rintro rfl
          rw [hx] at h3
          cases h3
          exact h6 h4.symm
      · rintro ⟨d', c', h3, h4, h5⟩
        obtain ⟨g1, g2⟩ := get y d' h3
        exact ⟨⟨d', c', g1, h4, h5⟩, by rw [← h4]; exact hmem y d' g1 g2⟩
    · obtain ⟨l', h1, h2⟩ := h.crit _ _ hQ
      refine ⟨l', ?_, fun k y => ?_⟩
      · rw [upd_ne]
        · exact h1
        · intro e'
          exact e (hinj _ _ _ _ hQ hP e')
      · rw [h2]
        constructor
        · rintro ⟨d', c', h3, h4, h5, h6⟩
          refine ⟨d', c', ?_, h4, h5, h6⟩
          rw [upd_ne]
          · exact h3
          · rintro rfl
            rw [hx] at h3
            cases h3
            rw [hK] at h5
            cases h5
            exact e h6.symm
        · rintro ⟨d', c', h3, h4⟩
          exact ⟨d', c', (get y d' h3).1, h4⟩

/-- More or fewer live allocations do not change the shape. -/
theorem Shape.live {arrs : Addr → Option (List (Option Addr))} {lm cr : Addr → Bool}
    (h : Shape pools arrs K lm cr A) {p : Addr} {I : Info} {L : List Addr} (hI : A.pools p = some I) :
    Shape pools arrs K lm cr { A with pools := upd A.pools p (some { I with live := L }) } := by
  refine ⟨?_, ?_, ?_, h.lim0, h.lims, h.limOwner, h.critOwner, h.knownInj, h.defInj⟩
  · intro p' hp'
    by_cases e : p' = p
    · rw [e] at hp'
      simp [upd_same] at hp'
    · dsimp only at hp'
      rw [upd_ne _ _ e] at hp'
      exact h.known p' hp'
  · intro p' J hJ
    by_cases e : p' = p
    · subst e
      simp only [upd_same, Option.some.injEq] at hJ
      subst hJ
      obtain ⟨P, M, h1, h2⟩ := h.pool p' I hI
      exact ⟨P, M, h1, ⟨h2.nz, h2.arr, h2.len, h2.classes, h2.nodup, h2.buck, h2.onto, h2.dflt, h2.mine, h2.shared, h2.limit⟩⟩
    · dsimp only at hJ
      rw [upd_ne _ _ e] at hJ
      obtain ⟨P, M, h1, h2⟩ := h.pool p' J hJ
      exact ⟨P, M, h1, ⟨h2.nz, h2.arr, h2.len, h2.classes, h2.nodup, h2.buck, h2.onto, h2.dflt, h2.mine, h2.shared, h2.limit⟩⟩
  · intro b c hc
    obtain ⟨J, hJ⟩ := h.buck b c hc
    by_cases e : c.pool = p
    · rw [e]
      exact ⟨_, upd_same _ _ _⟩
    · exact ⟨J, by dsimp only; rw [upd_ne _ _ e]; exact hJ⟩

end Verif.DjHost
