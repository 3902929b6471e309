import Verif.DjHost.Witness
/-!
# C73: the disjoint pool's own memory
-/
namespace Verif.DjHost

/-- After every history of legal calls, every further legal call is defined: it reads and writes only blocks that exist, frees
each block once, fails no assertion and finishes, whatever the base allocator, the provider and the radix tree answer. It
returns one of the documented results. -/
theorem C73_defined {s : St} {A : World} {op : Op} (a : Answers) (h : Reach s A) (hL : Legal A op) :
    ∃ out s', Runs s op a out s' ∧ Answered A op out := by
  obtain ⟨out, s', e1, e2, _⟩ := step_ok (a := a) (reach_inv h) hL
  exact ⟨out, s', e1, e2⟩

example : ∃ out s', Runs Wit.s2 (.free 10 20) ⟨[], [], []⟩ out s' ∧ Answered Wit.w2 (.free 10 20) out :=
  C73_defined _ Wit.reach2 ⟨_, Wit.live2, by decide⟩

/-- A creation that does not succeed leaves no block and no memory of the provider behind, and touches nothing that was there. -/
theorem C73_failed_create {s s' : St} {A : World} {args : Bool} {q : Params} {a : Answers} {out : Out} (h : Reach s A)
    (hL : Legal A (.create args q)) (hr : Runs s (.create args q) a out s') (hf : out.1 ≠ .success) :
    s'.pools = s.pools ∧ s'.crits = s.crits ∧ s'.lims = s.lims ∧ s'.arrs = s.arrs ∧ s'.bucks = s.bucks ∧ s'.slabs = s.slabs ∧
    s'.prov = s.prov := by
  have h' : Inv0 { s with host := a.host, give := a.give, room := a.room } A := (reach_inv h).ans _ _ _
  obtain ⟨o, t, e1, e2⟩ := initialize_ok (args := args) (q := q) h' hL
  obtain ⟨rfl, rfl⟩ := runs_det hr ⟨29, e1⟩
  rcases e2 with ⟨_, ⟨_, e3⟩ | ⟨e3, _⟩⟩ | ⟨_, _, e3⟩
  · obtain ⟨_, _, _, rfl⟩ := e3
    exact ⟨rfl, rfl, rfl, rfl, rfl, rfl, rfl⟩
  · exact absurd e3 hf
  · rw [e3]
    exact ⟨rfl, rfl, rfl, rfl, rfl, rfl, rfl⟩

/-- The last block of a creation is refused. -/
example : Wit.ans Wit.s2 (.create true Wit.prm) ⟨[30, 31, 32, 33, 0], [], []⟩ = some (.oom, 0) := by decide +kernel

/-- An allocation that is refused leaves everything as it was. -/
theorem C73_failed_malloc {s s' : St} {A : World} {p : Addr} {i : Nat} {a : Answers} {out : Out} (h : Reach s A)
    (hL : Legal A (.malloc p i)) (hr : Runs s (.malloc p i) a out s') (hf : out.1 ≠ .success) :
    s'.pools = s.pools ∧ s'.crits = s.crits ∧ s'.lims = s.lims ∧ s'.arrs = s.arrs ∧ s'.bucks = s.bucks ∧ s'.slabs = s.slabs ∧
    s'.prov = s.prov := by
  have h' : Inv0 { s with host := a.host, give := a.give, room := a.room } A := (reach_inv h).ans _ _ _
  obtain ⟨I, hI, hi⟩ := hL
  obtain ⟨o, t, e1, e2⟩ := malloc_ok h' hI hi
  obtain ⟨rfl, rfl⟩ := runs_det hr ⟨0, fun _ _ => e1⟩
  rcases e2 with ⟨_, ⟨_, _, _, rfl⟩, _⟩ | ⟨e3, _⟩
  · exact ⟨rfl, rfl, rfl, rfl, rfl, rfl, rfl⟩
  · exact absurd e3 hf

/-- The radix tree has no memory for the slab. -/
example : Wit.ans Wit.s1 (.malloc 10 0) ⟨[20], [65536], [false]⟩ = some (.oom, 0) := by decide +kernel

/-- An allocation succeeds whenever there is memory for one slab: it is refused only when the base allocator, the provider or
the radix tree refused. -/
theorem C73_enough {s s' : St} {A : World} {p : Addr} {i : Nat} {a : Answers} {out : Out} (h : Reach s A)
    (hL : Legal A (.malloc p i)) (ha : OneSlab s a) (hr : Runs s (.malloc p i) a out s') : out.1 = .success := by
  have h' : Inv0 { s with host := a.host, give := a.give, room := a.room } A := (reach_inv h).ans _ _ _
  obtain ⟨I, hI, hi⟩ := hL
  obtain ⟨o, t, e1, e2⟩ := malloc_ok h' hI hi
  obtain ⟨rfl, rfl⟩ := runs_det hr ⟨0, fun _ _ => e1⟩
  rcases e2 with ⟨_, _, e3⟩ | ⟨e3, _⟩
  · refine absurd ?_ e3
    obtain ⟨⟨x, l, hx, hx0, hxf⟩, ⟨m, l', hm, hm0, hmf⟩, hroom⟩ := ha
    unfold Enough
    dsimp only
    rw [hx, hm, hroom]
    exact ⟨⟨hx0, hxf⟩, ⟨hm0, hmf⟩, rfl⟩
  · exact e3

example : OneSlab Wit.s1 Wit.a2 := ⟨⟨20, [], rfl, by decide, by decide +kernel⟩, ⟨65536, [], rfl, by decide, by decide +kernel⟩, rfl⟩

/-- The memory of a live allocation is memory that the provider has handed out and not got back, in a slab of its pool that has
room for all the live allocations in it. -/
theorem C73_live {s : St} {A : World} {p x : Addr} {I : Info} (h : Reach s A) (hI : A.pools p = some I) (hx : x ∈ I.live) :
    ∃ d b, s.slabs x = some d ∧ s.bucks d.bucket = some b ∧ b.pool = p ∧ s.prov d.mem = some d.size ∧
      I.live.count x ≤ d.total ∧ d.total * b.size ≤ d.size := by
  have hi := reach_inv h
  obtain ⟨d, c, h1, h2, h3⟩ := hi.data.liveMem p I x hI hx
  obtain ⟨d', h4, h5⟩ := data_back h1
  obtain ⟨c', h6, h7⟩ := frame_back h2
  obtain ⟨c2, h8, h9⟩ := hi.data.buck x d h1
  rw [h2] at h8
  cases h8
  have h10 := hi.data.live x d c I h1 h2 (by rw [h3]; exact hI)
  have h11 := hi.data.mem x d h1
  have h12 := hi.data.total x d h1
  subst h5 h7
  refine ⟨d', c', h4, h6, h3, h11.1, ?_, h9⟩
  rw [h10]
  exact h12.2

example : ∃ d b, Wit.s2.slabs 20 = some d ∧ Wit.s2.bucks d.bucket = some b ∧ b.pool = 10 ∧ Wit.s2.prov d.mem = some d.size ∧
    [20].count 20 ≤ d.total ∧ d.total * b.size ≤ d.size :=
  C73_live Wit.reach2 Wit.live2 (by decide)

/-- The slabs of different live allocations lie in different memory of the provider. -/
theorem C73_live_apart {s : St} {A : World} {x y : Addr} {d d' : Slab} (h : Reach s A) (hx : s.slabs x = some d)
    (hy : s.slabs y = some d') (hm : d.mem = d'.mem) : x = y :=
  (reach_inv h).data.memInj x y d.data d'.data (by simp [St.data, hx]) (by simp [St.data, hy]) hm

/-- When the user has destroyed every pool and every shared limits object they made, with or without freeing the allocations,
the provider has got back all its memory and the base allocator all its blocks, except for the bucket arrays.
Missing: the bucket arrays (`C73_array_violated`). -/
theorem C73_noleak_partial {s : St} {A : World} (h : Reach s A) (hp : ∀ p, A.pools p = none) (hl : ∀ l, A.lims l = false) :
    (∀ a, s.prov a = none) ∧ (∀ a, s.slabs a = none) ∧ (∀ a, s.bucks a = none) ∧ (∀ a, s.pools a = none) ∧
    (∀ a, s.crits a = none) ∧ (∀ a, s.lims a = none) := by
  have hi := reach_inv h
  have h1 : ∀ a, s.pools a = none := fun a => hi.shape.known a (hp a)
  have h2 : ∀ b, s.frame b = none := by
    intro b
    cases e : s.frame b with
    | none => rfl
    | some c =>
      obtain ⟨I, hI⟩ := hi.shape.buck b c e
      rw [hp] at hI
      cases hI
  have h3 : ∀ x, s.data x = none := by
    intro x
    cases e : s.data x with
    | none => rfl
    | some d =>
      obtain ⟨c, hc, _⟩ := hi.data.buck x d e
      rw [h2] at hc
      cases hc
  refine ⟨?_, ?_, ?_, h1, ?_, ?_⟩
  · intro a
    cases e : s.prov a with
    | none => rfl
    | some n =>
      obtain ⟨x, d, hd, _⟩ := hi.data.prov a n e
      rw [h3] at hd
      cases hd
  · intro a
    have := h3 a
    simpa [St.data] using this
  · intro a
    have := h2 a
    simpa [St.frame] using this
  · intro a
    cases e : s.crits a with
    | none => rfl
    | some l =>
      obtain ⟨p, P, hP, _⟩ := hi.shape.critOwner a (by simp [St.hasCrit, e])
      rw [h1] at hP
      cases hP
  · intro a
    cases e : s.lims a with
    | none => rfl
    | some l =>
      rcases hi.shape.limOwner a (by simp [St.hasLim, e]) with h4 | ⟨p, P, hP, _⟩
      · rw [hl] at h4
        cases h4
      · rw [h1] at hP
        cases hP

/-- Destroying a pool frees no bucket array. -/
theorem C73_array_violated {s s' : St} {A : World} {p : Addr} {a : Answers} {out : Out} (h : Reach s A)
    (hL : Legal A (.destroy p)) (hr : Runs s (.destroy p) a out s') :
    ∃ P, s.pools p = some P ∧ s'.pools p = none ∧ s'.arrs P.buckets ≠ none := by
  have h' : Inv0 { s with host := a.host, give := a.give, room := a.room } A := (reach_inv h).ans _ _ _
  obtain ⟨I, hI⟩ := hL
  obtain ⟨n, t, e1, e2, e3⟩ := finalize_ok h' hI
  obtain ⟨rfl, rfl⟩ := runs_det hr ⟨n, e1⟩
  obtain ⟨P, L, hP, hk⟩ := h'.shape.pool p I hI
  refine ⟨P, hP, e2.shape.known p (upd_same _ _ _), ?_⟩
  rw [e3, hk.arr]
  exact fun e => nomatch e

/-- A pool is created, an allocation made, and the pool destroyed: nothing is left but the bucket array. -/
theorem C73_leak_violated : ∃ s A, Reach s A ∧ (∀ p, A.pools p = none) ∧ (∀ l, A.lims l = false) ∧ ∃ a, s.arrs a ≠ none := by
  have hL : Legal Wit.w2 (.destroy 10) := ⟨_, Wit.live2⟩
  obtain ⟨out, s', e1, _⟩ := C73_defined ⟨[], [], []⟩ Wit.reach2 hL
  obtain ⟨P, _, _, h3⟩ := C73_array_violated Wit.reach2 hL e1
  refine ⟨s', _, Reach.step Wit.reach2 hL e1, ?_, fun l => rfl, P.buckets, h3⟩
  intro p
  show (if p = 10 then none else Wit.w2.pools p) = none
  split
  · rfl
  · rename_i hp
    show (if p = 10 then _ else Wit.w1.pools p) = none
    rw [if_neg hp]
    show (if p = 10 then _ else none) = none
    rw [if_neg hp]

end Verif.DjHost
