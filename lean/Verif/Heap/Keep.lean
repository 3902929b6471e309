import Verif.Heap.Hooks

/-! # Every step of a thread inside a call keeps the invariant -/
namespace Verif.Heap
open Function (update)

variable {cfg : Cfg} {s s' : St} {G G' : Gh} {t : Tid} {f f' : Frame}

theorem GOk.congr (h : GOk s G) (h1 : s'.recs = s.recs) (h2 : s'.tbb = s.tbb) (h3 : s'.arena = s.arena)
    (h4 : s'.table = s.table) (h5 : s'.stuck = s.stuck) (h6 : s'.used = s.used) : GOk s' G := by
  constructor
  · rw [h1]; exact h.recs
  · rw [h2]; exact h.tbb
  · rw [h3]; exact h.arena
  · rw [h4]; exact h.tab
  · exact h.dRecs
  · exact h.dTbb
  · exact h.dArena
  · exact h.dTab
  · rw [h1]; exact h.cRecs
  · rw [h2]; exact h.cTbb
  · rw [h3, h5]; exact h.cArena
  · rw [h1, h6]; exact h.used

theorem opt_em {α : Type} {x y : Option α} (h : y ≠ none) : x ≠ none ∨ (y ≠ none ∧ x = none) := by
  by_cases hx : x = none
  · exact .inr ⟨h, hx⟩
  · exact .inl hx

/-- Only structures change. -/
theorem GOk.setRecs (h : GOk s G) {i : Sum Tid Pool} {k : Pool → Option Rec}
    (h1 : ∀ q r, k q = some r → s'.recs q = some r)
    (h2 : ∀ q, k q ≠ none → (G i).recs q ≠ none ∨ ∀ j, j ≠ i → (G j).recs q = none)
    (h3 : ∀ q, s'.recs q = s.recs q ∨ (G i).recs q ≠ none ∨ ∀ j, j ≠ i → (G j).recs q = none)
    (h4 : ∀ q, s'.recs q ≠ none → k q ≠ none ∨ (s.recs q ≠ none ∧ (G i).recs q = none))
    (hu : ∀ q, s'.recs q ≠ none → s'.used q = true)
    (e2 : s'.tbb = s.tbb) (e3 : s'.arena = s.arena) (e4 : s'.table = s.table) (e5 : s'.stuck = s.stuck) :
    GOk s' (update G i { G i with recs := k }) := by
  refine h.set h1 ?_ ?_ ?_ h2 (fun _ => .inl) (fun _ => .inl) (fun _ => .inl) h3 ?_ ?_ ?_ h4 ?_ ?_ ?_ hu
  · rw [e2]; exact h.tbb i
  · rw [e3]; exact h.arena i
  · rw [e4]; exact h.tab i
  · rw [e2]; exact fun _ => .inl rfl
  · rw [e3]; exact fun _ => .inl rfl
  · rw [e4]; exact fun _ => .inl rfl
  · rw [e2]; exact fun _ => opt_em
  · rw [e3]; exact fun _ hq => (opt_em hq).imp id .inl
  · rw [e5]; exact fun _ => id

/-- Only pools of oneTBB change. -/
theorem GOk.setTbb (h : GOk s G) {i : Sum Tid Pool} {k : Nat → Option TbbHeap}
    (h1 : ∀ q r, k q = some r → s'.tbb q = some r)
    (h2 : ∀ q, k q ≠ none → (G i).tbb q ≠ none ∨ ∀ j, j ≠ i → (G j).tbb q = none)
    (h3 : ∀ q, s'.tbb q = s.tbb q ∨ (G i).tbb q ≠ none ∨ ∀ j, j ≠ i → (G j).tbb q = none)
    (h4 : ∀ q, s'.tbb q ≠ none → k q ≠ none ∨ (s.tbb q ≠ none ∧ (G i).tbb q = none))
    (e1 : s'.recs = s.recs) (e3 : s'.arena = s.arena) (e4 : s'.table = s.table) (e5 : s'.stuck = s.stuck)
    (e6 : s'.used = s.used) : GOk s' (update G i { G i with tbb := k }) := by
  refine h.set ?_ h1 ?_ ?_ (fun _ => .inl) h2 (fun _ => .inl) (fun _ => .inl) ?_ h3 ?_ ?_ ?_ h4 ?_ ?_ ?_
  · rw [e1]; exact h.recs i
  · rw [e3]; exact h.arena i
  · rw [e4]; exact h.tab i
  · rw [e1]; exact fun _ => .inl rfl
  · rw [e3]; exact fun _ => .inl rfl
  · rw [e4]; exact fun _ => .inl rfl
  · rw [e1]; exact fun _ => opt_em
  · rw [e3]; exact fun _ hq => (opt_em hq).imp id .inl
  · rw [e5]; exact fun _ => id
  · rw [e1, e6]; exact h.used

/-- Only arenas and the table change. -/
theorem GOk.setArena (h : GOk s G) {i : Sum Tid Pool} {k : Nat → Option Bool} {v : Nat → Option (Option Pool)}
    (ha1 : ∀ q r, k q = some r → s'.arena q = some r)
    (hb1 : ∀ q w, v q = some w → s'.table q = w)
    (ha2 : ∀ q, k q ≠ none → (G i).arena q ≠ none ∨ ∀ j, j ≠ i → (G j).arena q = none)
    (hb2 : ∀ q, v q ≠ none → (G i).tab q ≠ none ∨ ∀ j, j ≠ i → (G j).tab q = none)
    (ha3 : ∀ q, s'.arena q = s.arena q ∨ (G i).arena q ≠ none ∨ ∀ j, j ≠ i → (G j).arena q = none)
    (hb3 : ∀ q, s'.table q = s.table q ∨ (G i).tab q ≠ none ∨ ∀ j, j ≠ i → (G j).tab q = none)
    (ha4 : ∀ q, s'.arena q ≠ none → k q ≠ none ∨ (s.arena q ≠ none ∧ (G i).arena q = none) ∨ s'.stuck q = true)
    (hs : ∀ q, s.stuck q = true → s'.stuck q = true)
    (e1 : s'.recs = s.recs) (e2 : s'.tbb = s.tbb)
    (e6 : s'.used = s.used) : GOk s' (update G i { G i with arena := k, tab := v }) := by
  refine h.set ?_ ?_ ha1 hb1 (fun _ => .inl) (fun _ => .inl) ha2 hb2 ?_ ?_ ha3 hb3 ?_ ?_ ha4 hs ?_
  · rw [e1]; exact h.recs i
  · rw [e2]; exact h.tbb i
  · rw [e1]; exact fun _ => .inl rfl
  · rw [e2]; exact fun _ => .inl rfl
  · rw [e1]; exact fun _ => opt_em
  · rw [e2]; exact fun _ => opt_em
  · rw [e1, e6]; exact h.used

theorem known_sound (h : GOk s G) (t : Tid) (op : Op) :
    (∀ p r, (known G t op).recs p = some r → s.recs p = some r) ∧
    (∀ p r, (known G t op).tbb p = some r → s.tbb p = some r) ∧
    (∀ p r, (known G t op).arena p = some r → s.arena p = some r) ∧
    (∀ a v, (known G t op).tab a = some v → s.table a = v) := by
  unfold known
  split
  · exact ⟨h.recs _, h.tbb _, h.arena _, h.tab _⟩
  · split
    · exact ⟨h.recs _, h.tbb _, h.arena _, h.tab _⟩
    · simp [K.empty]

theorem known_excl (hx : f.op.excl = true) : known G t f.op = G (.inl t) := by simp [known, hx]

theorem known_set (hx : f.op.excl = true) (k : K) : known (update G (.inl t) k) t f.op = k := by simp [known, hx]

def ZeroOk (s : St) (own : List Reg) (zero : List (Nat × Nat)) : Prop :=
  ∀ x ∈ zero, (∃ y ∈ own, y.ptr ≤ x.1 ∧ x.1 + x.2 ≤ y.ptr + y.size) ∧
      ∀ i, x.1 ≤ i → i < x.1 + x.2 → s.mem i = 0

/-- A thread inside a call makes a step. -/
theorem Inv.advance (h : Inv cfg s G) (ht : s.th t = some f) (hth : s'.th = update s.th t (some f'))
    (hop : f'.op = f.op) (hmade : f'.made = f.made) (hsaved : f'.saved = f.saved)
    (hm : s'.made = s.made) (hb : s'.blk = s.blk)
    (hG : G' = G ∨ (f.op.excl = true ∧ ∃ k, G' = update G (.inl t) k)) (hg : GOk s' G')
    (htls : ∀ t', t' ≠ t → s'.tls t' = s.tls t')
    (hmem : ∀ t' g, t' ≠ t → s.th t' = some g → ∀ y ∈ g.own, ∀ i, y.ptr ≤ i → i < y.ptr + y.size → s'.mem i = s.mem i)
    (hown : ∀ y ∈ f'.own, y ∈ f.own ∨ ((∀ x b, s.blk x = some b → Apart y b.reg) ∧
      ∀ t' g, t' ≠ t → s.th t' = some g → ∀ z ∈ g.own, Apart y z))
    (htabs : ∀ a, (G' (.inl t)).tab a ≠ none → (∃ p, f.op = .destroy .je p) ∨
      (f.op.isDestroy = false ∧ (G' (.inl t)).arena a ≠ none))
    (hprog : ∀ pv Q zero, ZeroOk s f.own zero → f.provider = some pv →
      wp pv f.op Q f.prog ⟨known G t f.op, f.own, zero, s.ev t f⟩ →
      ∃ zero', ZeroOk s' f'.own zero' ∧ wp pv f.op Q f'.prog ⟨known G' t f.op, f'.own, zero', s'.ev t f'⟩) :
    Inv cfg s' G' := by
  have g1 : ∀ p, G' (.inr p) = G (.inr p) := by
    intro p
    rcases hG with rfl | ⟨_, k, rfl⟩
    · rfl
    · simp
  have g2 : ∀ t', t' ≠ t → G' (.inl t') = G (.inl t') := by
    intro t' hne
    rcases hG with rfl | ⟨_, k, rfl⟩
    · rfl
    · rw [Function.update_of_ne (by simpa using hne)]
  have hat : s'.th t = some f' := by rw [hth]; simp
  have hne : ∀ t', t' ≠ t → s'.th t' = s.th t' := fun t' h => by rw [hth, Function.update_of_ne h]
  have blkOk : ∀ b, BlkOk cfg G b → BlkOk cfg G' b := fun b hb => ⟨hb.ptr, hb.size, hb.align, by rw [g1]; exact hb.src⟩
  have getown : ∀ t' g, s'.th t' = some g → ∃ g0, s.th t' = some g0 ∧ (t' ≠ t → g0 = g) ∧ (t' = t → g0 = f ∧ g = f') := by
    intro t' g hg
    by_cases e : t' = t
    · subst e
      rw [hat] at hg
      cases hg
      exact ⟨f, ht, fun h => absurd rfl h, fun _ => ⟨rfl, rfl⟩⟩
    · rw [hne t' e] at hg
      exact ⟨g, hg, fun _ => rfl, fun h => absurd h e⟩
  have th' : ∀ t' g, s'.th t' = some g → ThOk cfg s' G' t' g := by
    intro t' g hg'
    by_cases e : t' = t
    · subst e
      rw [hat] at hg'
      cases hg'
      have o := h.th t' f ht
      refine ⟨?_, ?_, ?_, ?_, ?_⟩
      · rw [hop, hm, hmade]; exact o.shared
      · rw [hop, hmade]; exact o.destr
      · rw [hop, hsaved]
        intro g p h1 h2
        obtain ⟨b, h3, h4, h5⟩ := o.saved g p h1 h2
        exact ⟨b, h3, blkOk b h4, h5⟩
      · rw [hop]; exact htabs
      · obtain ⟨pv, src, own0, zero, f0, h1, h2, h3, h4, h5, h6, h7⟩ := o.prog
        obtain ⟨zero', h8, h9⟩ := hprog pv _ zero h6 h1 h7
        refine ⟨pv, src, own0, zero', f0, ?_, ?_, ?_, ?_, ?_, h8, ?_⟩
        · rw [← h1]; simp only [Frame.provider, hop, hmade]
        · rw [hop]; exact h2
        · rw [hop]
          intro g p hx hp
          rw [g1]
          exact h3 g p hx hp
        · rw [hop]; exact h4
        · rw [hop, hsaved]; exact h5
        · rw [hop]; exact h9
    · rw [hne t' e] at hg'
      have o := h.th t' g hg'
      refine ⟨?_, o.destr, ?_, ?_, ?_⟩
      · rw [hm]; exact o.shared
      · intro g p h1 h2
        obtain ⟨b, h3, h4, h5⟩ := o.saved g p h1 h2
        exact ⟨b, h3, blkOk b h4, h5⟩
      · rw [g2 t' e]; exact o.tabs
      · obtain ⟨pv, src, own0, zero, f0, h1, h2, h3, h4, h5, h6, h7⟩ := o.prog
        refine ⟨pv, src, own0, zero, f0, h1, h2, ?_, h4, h5, ?_, ?_⟩
        · intro g p hx hp
          rw [g1]
          exact h3 g p hx hp
        · intro x hx
          obtain ⟨⟨y, hy, h8, h9⟩, h10⟩ := h6 x hx
          refine ⟨⟨y, hy, h8, h9⟩, fun i hi1 hi2 => ?_⟩
          rw [hmem t' g e hg' y hy i (by omega) (by omega)]
          exact h10 i hi1 hi2
        · have hk : known G' t' g.op = known G t' g.op := by
            simp only [known, g2 t' e]
            split
            · rfl
            · split
              · exact g1 _
              · rfl
          have he : s'.ev t' g = s.ev t' g := by simp only [St.ev, htls t' e]
          rw [hk, he]
          exact h7
  refine ⟨hg, ?_, ?_, ?_, ?_, th', ?_, ?_, ?_, ?_⟩
  · intro p m hp
    rw [hm] at hp
    rw [g1]
    exact h.pools p m hp
  · intro p hp
    rw [hm] at hp
    rw [g1]
    exact h.noPool p hp
  · intro t' h1
    by_cases e : t' = t
    · subst e
      rw [hat] at h1
      cases h1
    · rw [hne t' e] at h1
      rw [g2 t' e]
      exact h.noThread t' h1
  · intro t' g h1 hx
    by_cases e : t' = t
    · subst e
      rw [hat] at h1
      cases h1
      rw [hop] at hx
      rcases hG with rfl | ⟨h2, _⟩
      · exact h.shared t' f ht hx
      · rw [h2] at hx; cases hx
    · rw [hne t' e] at h1
      rw [g2 t' e]
      exact h.shared t' g h1 hx
  · intro x b h1
    rw [hb] at h1
    obtain ⟨h2, h3, h4⟩ := h.blk x b h1
    exact ⟨h2, by rw [hm]; exact h3, blkOk b h4⟩
  · rw [hb]; exact h.blkApart
  · rw [hb]
    intro t' g h1 y hy x b h2
    by_cases e : t' = t
    · subst e
      rw [hat] at h1
      cases h1
      rcases hown y hy with h3 | ⟨h3, _⟩
      · exact h.ownBlk t' f ht y h3 x b h2
      · exact h3 x b h2
    · rw [hne t' e] at h1
      exact h.ownBlk t' g h1 y hy x b h2
  · intro t1 t2 fa fb h12 h1 h2 y hy z hz
    by_cases e : t1 = t
    · subst e
      rw [hat] at h1
      cases h1
      rw [hne t2 (Ne.symm h12)] at h2
      rcases hown y hy with h3 | ⟨_, h3⟩
      · exact h.ownOwn t1 t2 f fb h12 ht h2 y h3 z hz
      · exact h3 t2 fb (Ne.symm h12) h2 z hz
    · rw [hne t1 e] at h1
      by_cases e2 : t2 = t
      · subst e2
        rw [hat] at h2
        cases h2
        rcases hown z hz with h3 | ⟨_, h3⟩
        · exact h.ownOwn t1 t2 fa f h12 h1 ht y hy z h3
        · exact (h3 t1 fa e h1 y hy).symm
      · rw [hne t2 e2] at h2
        exact h.ownOwn t1 t2 fa fb h12 h1 h2 y hy z hz

end Verif.Heap
