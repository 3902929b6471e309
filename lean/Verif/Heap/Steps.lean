import Verif.Heap.Keep

/-! # The steps inside calls -/
namespace Verif.Heap
open Function (update)

variable {cfg : Cfg} {s : St} {G : Gh} {t : Tid} {f : Frame}

theorem Inv.wpOf (h : Inv cfg s G) (ht : s.th t = some f) : ∃ pv Q zero, f.provider = some pv ∧ ZeroOk s f.own zero ∧
    wp pv f.op Q f.prog ⟨known G t f.op, f.own, zero, s.ev t f⟩ := by
  obtain ⟨pv, src, own0, zero, f0, h1, h2, h3, h4, h5, h6, h7⟩ := (h.th t f ht).prog
  exact ⟨pv, _, zero, h1, h6, h7⟩

theorem Inv.write (h : Inv cfg s G) (mem : Nat → Nat)
    (hm : ∀ t f, s.th t = some f → ∀ y ∈ f.own, ∀ i, y.ptr ≤ i → i < y.ptr + y.size → mem i = s.mem i) :
    Inv cfg { s with mem := mem } G := by
  refine ⟨h.g.congr rfl rfl rfl rfl rfl rfl, h.pools, h.noPool, h.noThread, h.shared, fun t f ht => ?_, h.blk, h.blkApart,
    h.ownBlk, h.ownOwn⟩
  have o := h.th t f ht
  refine ⟨o.shared, o.destr, o.saved, o.tabs, ?_⟩
  obtain ⟨pv, src, own0, zero, f0, h1, h2, h3, h4, h5, h6, h7⟩ := o.prog
  refine ⟨pv, src, own0, zero, f0, h1, h2, h3, h4, h5, fun x hx => ?_, h7⟩
  obtain ⟨⟨y, hy, h8, h9⟩, h10⟩ := h6 x hx
  refine ⟨⟨y, hy, h8, h9⟩, fun i hi1 hi2 => ?_⟩
  show mem i = 0
  rw [hm t f ht y hy i (by omega) (by omega)]
  exact h10 i hi1 hi2

theorem Inv.hook (h : Inv cfg s G) {c : Call} {k : Resp → Prog} {hk : Hook} {l : List (Call × Resp)} {o : Out}
    {tls : Var → Res} (ht : s.th t = some f) (hp : f.prog = .call c k)
    (hr : Runs s.recs s.table hk.prog (s.tls t) l (some o) tls) :
    Inv cfg { s with
        tls := update s.tls t tls
        th := update s.th t (some { f with
          refused := f.refused || (hk.id.isSome && refusedIn l)
          freeErr := if hk.id.isSome then (freeErrIn l).or f.freeErr else f.freeErr }) } G := by
  refine h.advance ht rfl rfl rfl rfl rfl rfl (.inl rfl) (h.g.congr rfl rfl rfl rfl rfl rfl)
    (fun t' ht' => Function.update_of_ne ht' _ _) (fun _ _ _ _ _ _ _ _ _ => rfl) (fun y hy => .inl hy) (h.th t f ht).tabs ?_
  intro pv Q zero h1 _ h2
  refine ⟨zero, h1, ?_⟩
  have hl := hook_later hr f.refused f.nested f.freeErr
  rw [hp] at h2
  have h3 := wp_later h2 (ev := ⟨tls, _, _, f.nested⟩) hl
  simp only [St.ev, Function.update_self, hp]
  exact h3

theorem Inv.nested (h : Inv cfg s G) {c : Call} {k : Resp → Prog} {tls : Var → Res} (ht : s.th t = some f)
    (hp : f.prog = .call c k) : Inv cfg { s with
        tls := update s.tls t tls
        th := update s.th t (some { f with nested := true }) } G := by
  refine h.advance ht rfl rfl rfl rfl rfl rfl (.inl rfl) (h.g.congr rfl rfl rfl rfl rfl rfl)
    (fun t' ht' => Function.update_of_ne ht' _ _) (fun _ _ _ _ _ _ _ _ _ => rfl) (fun y hy => .inl hy) (h.th t f ht).tabs ?_
  intro pv Q zero h1 _ h2
  refine ⟨zero, h1, ?_⟩
  rw [hp] at h2
  have h3 := wp_later h2 (ev := ⟨tls, f.refused, f.freeErr, true⟩) ⟨id, fun h => by cases h⟩
  simp only [St.ev, Function.update_self, hp]
  exact h3

theorem Inv.setTls (h : Inv cfg s G) {v : Var} {e : Res} {k : Prog} (ht : s.th t = some f)
    (hp : f.prog = .setTls v e k) : Inv cfg { s with
        th := update s.th t (some { f with prog := k })
        tls := update s.tls t (update (s.tls t) v e) } G := by
  refine h.advance ht rfl rfl rfl rfl rfl rfl (.inl rfl) (h.g.congr rfl rfl rfl rfl rfl rfl)
    (fun t' ht' => Function.update_of_ne ht' _ _) (fun _ _ _ _ _ _ _ _ _ => rfl) (fun y hy => .inl hy) (h.th t f ht).tabs ?_
  intro pv Q zero h1 _ h2
  refine ⟨zero, h1, ?_⟩
  rw [hp] at h2
  simp only [St.ev, Function.update_self]
  exact h2

theorem Inv.getTls (h : Inv cfg s G) {v : Var} {k : Res → Prog} (ht : s.th t = some f)
    (hp : f.prog = .getTls v k) :
    Inv cfg { s with th := update s.th t (some { f with prog := k (s.tls t v) }) } G := by
  refine h.advance ht rfl rfl rfl rfl rfl rfl (.inl rfl) (h.g.congr rfl rfl rfl rfl rfl rfl)
    (fun t' ht' => rfl) (fun _ _ _ _ _ _ _ _ _ => rfl) (fun y hy => .inl hy) (h.th t f ht).tabs ?_
  intro pv Q zero h1 _ h2
  refine ⟨zero, h1, ?_⟩
  rw [hp] at h2
  exact h2

theorem Inv.noRec (h : Inv cfg s G) {k : Option Pool → Prog} (ht : s.th t = some f)
    (hp : f.prog = .newRec k) :
    Inv cfg { s with th := update s.th t (some { f with prog := k none }) } G := by
  refine h.advance ht rfl rfl rfl rfl rfl rfl (.inl rfl) (h.g.congr rfl rfl rfl rfl rfl rfl)
    (fun t' ht' => rfl) (fun _ _ _ _ _ _ _ _ _ => rfl) (fun y hy => .inl hy) (h.th t f ht).tabs ?_
  intro pv Q zero h1 _ h2
  refine ⟨zero, h1, ?_⟩
  rw [hp] at h2
  exact h2.2.1

theorem Inv.getRec (h : Inv cfg s G) {p : Pool} {r : Rec} {k : Rec → Prog} (ht : s.th t = some f)
    (hp : f.prog = .getRec p k) (hr : s.recs p = some r) :
    Inv cfg { s with th := update s.th t (some { f with prog := k r }) } G := by
  refine h.advance ht rfl rfl rfl rfl rfl rfl (.inl rfl) (h.g.congr rfl rfl rfl rfl rfl rfl)
    (fun t' ht' => rfl) (fun _ _ _ _ _ _ _ _ _ => rfl) (fun y hy => .inl hy) (h.th t f ht).tabs ?_
  intro pv Q zero h1 _ h2
  refine ⟨zero, h1, ?_⟩
  rw [hp] at h2
  obtain ⟨r', h3, h4⟩ := h2
  have h5 := (known_sound h.g t f.op).1 p r' h3
  rw [hr] at h5
  cases h5
  exact h4

theorem fresh_recs (h : GOk s G) {p : Pool} (hu : s.used p = false) : s.recs p = none ∧ ∀ i, (G i).recs p = none := by
  have h1 : s.recs p = none := by
    by_contra hc
    rw [h.used p hc] at hu
    cases hu
  refine ⟨h1, fun i => ?_⟩
  cases hg : (G i).recs p with
  | none => rfl
  | some r =>
    rw [h.recs i p r hg] at h1
    cases h1

theorem Inv.newRec (h : Inv cfg s G) {p : Pool} {g : Rec} {k : Option Pool → Prog} (ht : s.th t = some f)
    (hp : f.prog = .newRec k) (hu : s.used p = false) (h0 : p ≠ 0) : ∃ G', Inv cfg { s with
        th := update s.th t (some { f with prog := k (some p) })
        recs := update s.recs p (some g)
        used := update s.used p true } G' := by
  obtain ⟨_, _, _, _, _, hw⟩ := h.wpOf ht
  rw [hp] at hw
  have hx := hw.1
  obtain ⟨hf1, hf2⟩ := fresh_recs h.g hu
  refine ⟨update G (.inl t) { G (.inl t) with recs := update (G (.inl t)).recs p (some g) }, ?_⟩
  refine h.advance ht rfl rfl rfl rfl rfl rfl (.inr ⟨hx, _, rfl⟩) ?_ (fun t' ht' => rfl) (fun _ _ _ _ _ _ _ _ _ => rfl)
    (fun y hy => .inl hy) (by simpa using (h.th t f ht).tabs) ?_
  · refine h.g.setRecs ?_ ?_ ?_ ?_ ?_ rfl rfl rfl rfl
    · intro q r hq
      by_cases e : q = p
      · subst e; simpa using hq
      · rw [Function.update_of_ne e] at hq
        show update s.recs p (some g) q = _
        rw [Function.update_of_ne e]
        exact h.g.recs _ q r hq
    · intro q hq
      by_cases e : q = p
      · subst e; exact .inr fun j _ => hf2 j
      · rw [Function.update_of_ne e] at hq; exact .inl hq
    · intro q
      by_cases e : q = p
      · subst e; exact .inr (.inr fun j _ => hf2 j)
      · exact .inl (Function.update_of_ne e _ _)
    · intro q hq
      by_cases e : q = p
      · subst e; left; simp
      · have hq : update s.recs p (some g) q ≠ none := hq
        rw [Function.update_of_ne e] at hq ⊢
        exact opt_em hq
    · intro q hq
      show update s.used p true q = true
      by_cases e : q = p
      · subst e; simp
      · have hq : update s.recs p (some g) q ≠ none := hq
        rw [Function.update_of_ne e] at hq ⊢
        exact h.g.used q hq
  · intro pv Q zero h1 _ h2
    refine ⟨zero, h1, ?_⟩
    rw [hp] at h2
    rw [known_set hx]
    rw [known_excl hx] at h2
    exact h2.2.2 p g (hf2 _) h0

theorem Inv.setRec (h : Inv cfg s G) {p : Pool} {r : Rec} {k : Prog} (ht : s.th t = some f)
    (hp : f.prog = .setRec p r k) : ∃ G', Inv cfg { s with
        th := update s.th t (some { f with prog := k })
        recs := update s.recs p (some r) } G' := by
  obtain ⟨_, _, _, _, _, hw⟩ := h.wpOf ht
  rw [hp] at hw
  obtain ⟨hx, ⟨g, hg⟩, _⟩ := hw
  rw [known_excl hx] at hg
  have hg : (G (.inl t)).recs p = some g := hg
  refine ⟨update G (.inl t) { G (.inl t) with recs := update (G (.inl t)).recs p (some r) }, ?_⟩
  refine h.advance ht rfl rfl rfl rfl rfl rfl (.inr ⟨hx, _, rfl⟩) ?_ (fun t' ht' => rfl) (fun _ _ _ _ _ _ _ _ _ => rfl)
    (fun y hy => .inl hy) (by simpa using (h.th t f ht).tabs) ?_
  · refine h.g.setRecs ?_ ?_ ?_ ?_ ?_ rfl rfl rfl rfl
    · intro q r' hq
      by_cases e : q = p
      · subst e; simpa using hq
      · rw [Function.update_of_ne e] at hq
        show update s.recs p (some r) q = _
        rw [Function.update_of_ne e]
        exact h.g.recs _ q r' hq
    · intro q hq
      by_cases e : q = p
      · subst e; exact .inl (by rw [hg]; simp)
      · rw [Function.update_of_ne e] at hq; exact .inl hq
    · intro q
      by_cases e : q = p
      · subst e; exact .inr (.inl (by rw [hg]; simp))
      · exact .inl (Function.update_of_ne e _ _)
    · intro q hq
      by_cases e : q = p
      · subst e; left; simp
      · have hq : update s.recs p (some r) q ≠ none := hq
        rw [Function.update_of_ne e] at hq ⊢
        exact opt_em hq
    · intro q hq
      by_cases e : q = p
      · subst e
        exact h.g.used q (by rw [h.g.recs _ q g hg]; simp)
      · have hq : update s.recs p (some r) q ≠ none := hq
        rw [Function.update_of_ne e] at hq
        exact h.g.used q hq
  · intro pv Q zero h1 _ h2
    refine ⟨zero, h1, ?_⟩
    rw [hp] at h2
    rw [known_set hx]
    rw [known_excl hx] at h2
    exact h2.2.2

theorem Inv.freeRec (h : Inv cfg s G) {p : Pool} {k : Prog} (ht : s.th t = some f)
    (hp : f.prog = .freeRec p k) : ∃ G', Inv cfg { s with
        th := update s.th t (some { f with prog := k })
        recs := update s.recs p none } G' := by
  obtain ⟨_, _, _, _, _, hw⟩ := h.wpOf ht
  rw [hp] at hw
  obtain ⟨hx, ⟨g, hg⟩, _⟩ := hw
  rw [known_excl hx] at hg
  have hg : (G (.inl t)).recs p = some g := hg
  refine ⟨update G (.inl t) { G (.inl t) with recs := update (G (.inl t)).recs p none }, ?_⟩
  refine h.advance ht rfl rfl rfl rfl rfl rfl (.inr ⟨hx, _, rfl⟩) ?_ (fun t' ht' => rfl) (fun _ _ _ _ _ _ _ _ _ => rfl)
    (fun y hy => .inl hy) (by simpa using (h.th t f ht).tabs) ?_
  · refine h.g.setRecs ?_ ?_ ?_ ?_ ?_ rfl rfl rfl rfl
    · intro q r' hq
      by_cases e : q = p
      · subst e; simp at hq
      · rw [Function.update_of_ne e] at hq
        show update s.recs p none q = _
        rw [Function.update_of_ne e]
        exact h.g.recs _ q r' hq
    · intro q hq
      by_cases e : q = p
      · subst e; simp at hq
      · rw [Function.update_of_ne e] at hq; exact .inl hq
    · intro q
      by_cases e : q = p
      · subst e; exact .inr (.inl (by rw [hg]; simp))
      · exact .inl (Function.update_of_ne e _ _)
    · intro q hq
      have hq : update s.recs p none q ≠ none := hq
      by_cases e : q = p
      · subst e; simp at hq
      · rw [Function.update_of_ne e] at hq ⊢
        exact opt_em hq
    · intro q hq
      have hq : update s.recs p none q ≠ none := hq
      by_cases e : q = p
      · subst e; simp at hq
      · rw [Function.update_of_ne e] at hq
        exact h.g.used q hq
  · intro pv Q zero h1 _ h2
    refine ⟨zero, h1, ?_⟩
    rw [hp] at h2
    rw [known_set hx]
    rw [known_excl hx] at h2
    exact h2.2.2

theorem Inv.setTab (h : Inv cfg s G) {a : Nat} {v : Option Pool} {k : Prog} (ht : s.th t = some f)
    (hp : f.prog = .setTab a v k) : ∃ G', Inv cfg { s with
        th := update s.th t (some { f with prog := k })
        table := update s.table a v } G' := by
  obtain ⟨_, _, _, _, _, hw⟩ := h.wpOf ht
  rw [hp] at hw
  obtain ⟨hx, ⟨g, hg⟩, _⟩ := hw
  rw [known_excl hx] at hg
  have hg : (G (.inl t)).tab a = some g := hg
  refine ⟨update G (.inl t) { G (.inl t) with tab := update (G (.inl t)).tab a (some v) }, ?_⟩
  refine h.advance ht rfl rfl rfl rfl rfl rfl (.inr ⟨hx, _, rfl⟩) ?_ (fun t' ht' => rfl) (fun _ _ _ _ _ _ _ _ _ => rfl)
    (fun y hy => .inl hy) ?_ ?_
  · refine h.g.setArena (k := (G (.inl t)).arena) (h.g.arena _) ?_ (fun _ => .inl) ?_ (fun _ => .inl rfl) ?_
      (fun _ hq => (opt_em hq).imp id .inl) (fun _ => id) rfl rfl rfl
    · intro q w hq
      show update s.table a v q = w
      by_cases e : q = a
      · subst e; simpa using hq
      · rw [Function.update_of_ne e] at hq ⊢
        exact h.g.tab _ q w hq
    · intro q hq
      by_cases e : q = a
      · subst e; exact .inl (by rw [hg]; simp)
      · rw [Function.update_of_ne e] at hq; exact .inl hq
    · intro q
      by_cases e : q = a
      · subst e; exact .inr (.inl (by rw [hg]; simp))
      · exact .inl (Function.update_of_ne e _ _)
  · intro q hq
    simp only [Function.update_self] at hq ⊢
    refine (h.th t f ht).tabs q ?_
    by_cases e : q = a
    · subst e; rw [hg]; simp
    · rw [Function.update_of_ne e] at hq; exact hq
  · intro pv Q zero h1 _ h2
    refine ⟨zero, h1, ?_⟩
    rw [hp] at h2
    rw [known_set hx]
    rw [known_excl hx] at h2
    exact h2.2.2

/-- Calls that change nothing that others rely on. -/
theorem plain_after {c : Call} {r : Resp} (hx : c.excl = false) : c.tbbAfter s.tbb r = s.tbb ∧
    c.arenaAfter s.arena r = s.arena ∧ c.stuckAfter s.stuck r = s.stuck := by
  cases c <;> first | exact ⟨rfl, rfl, rfl⟩ | cases hx

/-- The knowledge after a call. -/
theorem GOk.call {s' : St} (h : GOk s G) {op : Op} {c : Call} {r : Resp}
    (hv : c.Valid (G (.inl t)).tbb (G (.inl t)).arena f.own)
    (ha : c.Answer s t f.own r) (hcalm : c = .arenasCreate → r.err = 0 → ∀ j, j ≠ .inl t → (G j).tab r.val = none)
    (e1 : s'.recs = s.recs) (e2 : s'.tbb = c.tbbAfter s.tbb r) (e3 : s'.arena = c.arenaAfter s.arena r)
    (e4 : s'.table = s.table) (e5 : s'.stuck = c.stuckAfter s.stuck r) (e6 : s'.used = s.used) :
    GOk s' (update G (.inl t) ((G (.inl t)).after op c r (s.table r.val))) := by
  by_cases hx : c.excl = false
  · obtain ⟨p1, p2, p3⟩ := plain_after (s := s) (r := r) hx
    rw [after_plain hx, Function.update_eq_self]
    exact h.congr e1 (e2.trans p1) (e3.trans p2) e4 (e5.trans p3) e6
  have hgT : ∀ q x, (G (.inl t)).tbb q = some x → (G (.inl t)).tbb q ≠ none := fun q x h => by rw [h]; simp
  have hgA : ∀ q x, (G (.inl t)).arena q = some x → (G (.inl t)).arena q ≠ none := fun q x h => by rw [h]; simp
  have noT : ∀ q, s.tbb q = none → ∀ j, (G j).tbb q = none := by
    intro q hq j
    cases hg : (G j).tbb q with
    | none => rfl
    | some x => rw [h.tbb j q x hg] at hq; cases hq
  have noA : ∀ q, s.arena q = none → ∀ j, (G j).arena q = none := by
    intro q hq j
    cases hg : (G j).arena q with
    | none => rfl
    | some x => rw [h.arena j q x hg] at hq; cases hq
  cases c <;> try exact absurd rfl hx
  case tbbCreate id g b =>
    have hfr : r.err = 0 → s.tbb r.val = none := ha.2.2.1 id g b rfl
    refine h.setTbb (k := Call.tbbAfter (G (.inl t)).tbb (.tbbCreate id g b) r) ?_ ?_ ?_ ?_ e1 e3 e4 e5 e6
    all_goals (try rw [e2])
    all_goals try simp only [Call.tbbAfter]
    all_goals by_cases he : r.err = 0
    all_goals try simp only [he, if_true, if_false]
    · intro q x hq
      by_cases e : q = r.val
      · subst e; simpa using hq
      · rw [Function.update_of_ne e] at hq ⊢; exact h.tbb _ q x hq
    · exact h.tbb _
    · intro q hq
      by_cases e : q = r.val
      · subst e; exact .inr fun j _ => noT _ (hfr he) j
      · rw [Function.update_of_ne e] at hq; exact .inl hq
    · exact fun _ => .inl
    · intro q
      by_cases e : q = r.val
      · subst e; exact .inr (.inr fun j _ => noT _ (hfr he) j)
      · exact .inl (Function.update_of_ne e _ _)
    · exact fun _ => .inl (by trivial)
    · intro q hq
      by_cases e : q = r.val
      · subst e; left; simp
      · rw [Function.update_of_ne e] at hq ⊢; exact opt_em hq
    · exact fun _ => opt_em
  case tbbDestroy hh =>
    obtain ⟨x, hx'⟩ := hv
    refine h.setTbb (k := update (G (.inl t)).tbb hh none) ?_ ?_ ?_ ?_ e1 e3 e4 e5 e6
    all_goals (try rw [e2])
    all_goals try simp only [Call.tbbAfter]
    · intro q x hq
      by_cases e : q = hh
      · subst e; simp at hq
      · rw [Function.update_of_ne e] at hq ⊢; exact h.tbb _ q x hq
    · intro q hq
      by_cases e : q = hh
      · subst e; simp at hq
      · rw [Function.update_of_ne e] at hq; exact .inl hq
    · intro q
      by_cases e : q = hh
      · subst e; exact .inr (.inl (hgT _ _ hx'))
      · exact .inl (Function.update_of_ne e _ _)
    · intro q hq
      by_cases e : q = hh
      · subst e; simp at hq
      · rw [Function.update_of_ne e] at hq ⊢; exact opt_em hq
  case arenasCreate =>
    have hfr : r.err = 0 → s.arena r.val = none := ha.2.2.2 rfl
    refine h.setArena (k := Call.arenaAfter (G (.inl t)).arena .arenasCreate r)
      (v := if r.err = 0 then update (G (.inl t)).tab r.val (some (s.table r.val)) else (G (.inl t)).tab)
      ?_ ?_ ?_ ?_ ?_ ?_ ?_ (by rw [e5]; exact fun _ => id) e1 e2 e6
    all_goals first | rw [e3] | rw [e4] | skip
    all_goals try simp only [Call.arenaAfter]
    all_goals by_cases he : r.err = 0
    all_goals try simp only [he, if_true, if_false]
    · intro q x hq
      by_cases e : q = r.val
      · subst e; simpa using hq
      · rw [Function.update_of_ne e] at hq ⊢; exact h.arena _ q x hq
    · exact h.arena _
    · intro q x hq
      by_cases e : q = r.val
      · subst e; simpa using hq
      · rw [Function.update_of_ne e] at hq; exact h.tab _ q x hq
    · exact h.tab _
    · intro q hq
      by_cases e : q = r.val
      · subst e; exact .inr fun j _ => noA _ (hfr he) j
      · rw [Function.update_of_ne e] at hq; exact .inl hq
    · exact fun _ => .inl
    · intro q hq
      by_cases e : q = r.val
      · subst e; exact .inr (hcalm rfl he)
      · rw [Function.update_of_ne e] at hq; exact .inl hq
    · exact fun _ => .inl
    · intro q
      by_cases e : q = r.val
      · subst e; exact .inr (.inr fun j _ => noA _ (hfr he) j)
      · exact .inl (Function.update_of_ne e _ _)
    · exact fun _ => .inl (by trivial)
    · exact fun _ => .inl (by trivial)
    · exact fun _ => .inl (by trivial)
    · intro q hq
      by_cases e : q = r.val
      · subst e; left; simp
      · rw [Function.update_of_ne e] at hq ⊢; exact (opt_em hq).imp id .inl
    · exact fun _ hq => (opt_em hq).imp id .inl
  case setHooks a =>
    obtain ⟨b, hb⟩ := hv
    refine h.setArena (k := Call.arenaAfter (G (.inl t)).arena (.setHooks a) r) (v := (G (.inl t)).tab)
      ?_ (by rw [e4]; exact h.tab _) ?_ (fun _ => .inl) ?_ (by rw [e4]; exact fun _ => .inl rfl) ?_
      (by rw [e5]; exact fun _ => id) e1 e2 e6
    all_goals first | rw [e3] | rw [e4] | skip
    all_goals try simp only [Call.arenaAfter]
    all_goals by_cases he : r.err = 0
    all_goals try simp only [he, if_true, if_false]
    · intro q x hq
      by_cases e : q = a
      · subst e; simpa using hq
      · rw [Function.update_of_ne e] at hq ⊢; exact h.arena _ q x hq
    · exact h.arena _
    · intro q hq
      by_cases e : q = a
      · subst e; exact .inl (hgA _ _ hb)
      · rw [Function.update_of_ne e] at hq; exact .inl hq
    · exact fun _ => .inl
    · intro q
      by_cases e : q = a
      · subst e; exact .inr (.inl (hgA _ _ hb))
      · exact .inl (Function.update_of_ne e _ _)
    · exact fun _ => .inl (by trivial)
    · intro q hq
      by_cases e : q = a
      · subst e; left; simp
      · rw [Function.update_of_ne e] at hq ⊢; exact (opt_em hq).imp id .inl
    · exact fun _ hq => (opt_em hq).imp id .inl
  case arenaDestroy a =>
    obtain ⟨b, hb⟩ := hv
    refine h.setArena (k := update (G (.inl t)).arena a none)
      (v := if op.isDestroy then (G (.inl t)).tab else update (G (.inl t)).tab a none)
      ?_ ?_ ?_ ?_ ?_ (by rw [e4]; exact fun _ => .inl rfl) ?_ ?_ e1 e2 e6
    · intro q x hq
      rw [e3]
      simp only [Call.arenaAfter]
      by_cases e : q = a
      · subst e; simp at hq
      · rw [Function.update_of_ne e] at hq
        split
        · rw [Function.update_of_ne e]; exact h.arena _ q x hq
        · exact h.arena _ q x hq
    · rw [e4]
      intro q x hq
      split at hq
      · exact h.tab _ q x hq
      · by_cases e : q = a
        · subst e; simp at hq
        · rw [Function.update_of_ne e] at hq; exact h.tab _ q x hq
    · intro q hq
      by_cases e : q = a
      · subst e; simp at hq
      · rw [Function.update_of_ne e] at hq; exact .inl hq
    · intro q hq
      left
      split at hq
      · exact hq
      · by_cases e : q = a
        · subst e; simp at hq
        · rw [Function.update_of_ne e] at hq; exact hq
    · intro q
      by_cases e : q = a
      · subst e; exact .inr (.inl (hgA _ _ hb))
      · left
        rw [e3]
        simp only [Call.arenaAfter]
        split
        · exact Function.update_of_ne e _ _
        · rfl
    · intro q hq
      rw [e3] at hq
      rw [e5]
      simp only [Call.arenaAfter, Call.stuckAfter] at hq ⊢
      by_cases e : q = a
      · subst e
        split at hq
        · simp at hq
        · next he => right; right; rw [if_neg he]; simp
      · rw [Function.update_of_ne e]
        split at hq
        · rw [Function.update_of_ne e] at hq; exact (opt_em hq).imp id .inl
        · exact (opt_em hq).imp id .inl
    · rw [e5]
      intro q hq
      simp only [Call.stuckAfter]
      split
      · exact hq
      · by_cases e : q = a
        · subst e; simp
        · rw [Function.update_of_ne e]; exact hq

theorem Call.Valid.mono {tbb tbb' : Nat → Option TbbHeap} {arena arena' : Nat → Option Bool} {own : List Reg} {c : Call}
    (h : c.Valid tbb arena own) (h1 : ∀ q x, tbb q = some x → tbb' q = some x)
    (h2 : ∀ q x, arena q = some x → arena' q = some x) : c.Valid tbb' arena' own := by
  cases c <;> simp only [Call.Valid] at h ⊢ <;> try exact h
  all_goals first
    | exact h.imp fun x => h1 _ x
    | exact h.imp fun x => h2 _ x
    | exact ⟨h.1.imp fun x => h1 _ x, h.2⟩
    | exact ⟨h.1, h.2.imp fun x => h2 _ x⟩
    | exact ⟨h.1, h.2.1, h.2.2.1.imp fun x => h2 _ x, h.2.2.2⟩

theorem mem_ownAfter {own : List Reg} {c : Call} {r : Resp} {y : Reg} (h : y ∈ ownAfter own c r) :
    c.gives r = some y ∨ y ∈ own := by
  simp only [ownAfter, List.mem_append, Option.mem_toList, List.mem_filter] at h
  rcases h with h | h
  · exact .inl h
  · exact .inr h.1

theorem Inv.call (h : Inv cfg s G) (hcfg : cfg.calm = true) {c : Call} {k : Resp → Prog} {r : Resp} (ht : s.th t = some f)
    (hp : f.prog = .call c k) (ha : c.Answer s t f.own r)
    (hcalm : cfg.calm = true → c = .arenasCreate → ∀ t' f' p, s.th t' = some f' → f'.op ≠ .destroy .je p) :
    ∃ G', Inv cfg { s with
        th := update s.th t (some { f with prog := k r, own := ownAfter f.own c r })
        tbb := c.tbbAfter s.tbb r
        arena := c.arenaAfter s.arena r
        stuck := c.stuckAfter s.stuck r
        mem := c.memAfter s.mem } G' := by
  obtain ⟨_, _, _, _, _, hw⟩ := h.wpOf ht
  rw [hp] at hw
  obtain ⟨hv, hok, _⟩ := hw
  obtain ⟨ks1, ks2, ks3, ks4⟩ := known_sound h.g t f.op
  -- the memory that is written is in the hands of this thread
  have hmem : ∀ i, c.memAfter s.mem i ≠ s.mem i → ∃ y ∈ f.own, y.ptr ≤ i ∧ i < y.ptr + y.size := by
    intro i hi
    cases c <;> try exact absurd rfl hi
    case memset ptr n =>
      obtain ⟨y, hy, h1, h2⟩ := hv
      simp only [Call.memAfter] at hi
      split at hi
      · next h3 => exact ⟨y, hy, by omega, by omega⟩
      · exact absurd rfl hi
  have hmem' : ∀ t' g, t' ≠ t → s.th t' = some g → ∀ y ∈ g.own, ∀ i, y.ptr ≤ i → i < y.ptr + y.size →
      c.memAfter s.mem i = s.mem i := by
    intro t' g hne hg y hy i h1 h2
    by_contra hc
    obtain ⟨z, hz, h3, h4⟩ := hmem i hc
    rcases h.ownOwn t t' f g (Ne.symm hne) ht hg z hz y hy with h5 | h5 <;> omega
  have hown : ∀ y ∈ ownAfter f.own c r, y ∈ f.own ∨ ((∀ x b, s.blk x = some b → Apart y b.reg) ∧
      ∀ t' g, t' ≠ t → s.th t' = some g → ∀ z ∈ g.own, Apart y z) := by
    intro y hy
    rcases mem_ownAfter hy with h1 | h1
    · obtain ⟨h2, _, h3⟩ := ha.2.1 y h1
      exact .inr ⟨h2, h3⟩
    · exact .inl h1
  have hzero : ∀ s' : St, s'.mem = c.memAfter s.mem → ZeroOk s' (ownAfter f.own c r) (zeroAfter c) := by
    intro s' hs' x hx
    cases c <;> simp only [zeroAfter, List.not_mem_nil, List.mem_singleton] at hx
    case memset ptr n =>
      subst hx
      rw [own_none rfl rfl]
      refine ⟨hv, fun i h1 h2 => ?_⟩
      rw [hs']
      simp only [Call.memAfter]
      rw [if_pos ⟨h1, h2⟩]
  -- the rest of the program
  have hrest : ∀ pv Q zero, wp pv f.op Q f.prog ⟨known G t f.op, f.own, zero, s.ev t f⟩ →
      wp pv f.op Q (k r) ⟨(known G t f.op).after f.op c r (s.table r.val), ownAfter f.own c r, zeroAfter c, s.ev t f⟩ := by
    intro pv Q zero hw
    rw [hp] at hw
    refine hw.2.2 r (s.table r.val) _ (Ev.Later.refl _) ha.1 (fun x hx => (ha.2.1 x hx).2.1) ?_ ?_
    · intro id g b hc he
      cases hg : (known G t f.op).tbb r.val with
      | none => rfl
      | some x =>
        have := ks2 _ _ hg
        rw [ha.2.2.1 id g b hc he] at this
        cases this
    · intro hc he
      cases hg : (known G t f.op).arena r.val with
      | none => rfl
      | some x =>
        have := ks3 _ _ hg
        rw [ha.2.2.2 hc he] at this
        cases this
  by_cases hx : c.excl = false
  · obtain ⟨p1, p2, p3⟩ := plain_after (s := s) (r := r) hx
    refine ⟨G, h.advance ht rfl rfl rfl rfl rfl rfl (.inl rfl) (h.g.congr rfl p1 p2 rfl p3 rfl) (fun _ _ => rfl) hmem' hown
      (h.th t f ht).tabs ?_⟩
    intro pv Q zero _ _ h2
    have h3 := hrest pv Q zero h2
    rw [after_plain hx] at h3
    exact ⟨_, hzero _ rfl, h3⟩
  · have hx : c.excl = true := by simpa using hx
    have hopx := hok.2.1 hx
    have hkn : known G t f.op = G (.inl t) := known_excl hopx
    refine ⟨update G (.inl t) ((G (.inl t)).after f.op c r (s.table r.val)), ?_⟩
    refine h.advance ht rfl rfl rfl rfl rfl rfl (.inr ⟨hopx, _, rfl⟩) ?_ (fun _ _ => rfl) hmem' hown ?_ ?_
    · refine h.g.call (f := f) (by rw [← hkn]; exact hv) ha ?_ rfl rfl rfl rfl rfl rfl
      intro hc he j hj
      by_contra hcon
      have hfr := ha.2.2.2 hc he
      have noA : ∀ j, (G j).arena r.val = none := by
        intro j
        cases hg : (G j).arena r.val with
        | none => rfl
        | some x => rw [h.g.arena j _ x hg] at hfr; cases hfr
      rcases j with t' | p
      · cases ht' : s.th t' with
        | none => rw [h.noThread t' ht'] at hcon; exact hcon rfl
        | some f' =>
          rcases (h.th t' f' ht').tabs _ hcon with ⟨p, hd⟩ | h4
          · exact hcalm hcfg hc t' f' p ht' hd
          · exact h4.2 (noA _)
      · cases hm : s.made p with
        | none => rw [h.noPool p hm] at hcon; exact hcon rfl
        | some m =>
          obtain ⟨r', h5, _⟩ := h.pools p m hm
          have h6 := noA (.inr p)
          rw [h5] at hcon h6
          simp only [K.pool] at hcon h6
          split at hcon
          · next h7 => rw [if_pos h7] at h6; cases h6
          · exact hcon rfl
    · intro a
      simp only [Function.update_self]
      have hold := (h.th t f ht).tabs a
      rcases c with _ | _ | _ | _ | _ | _ | _ | _ | _ | b | b <;> simp only [K.after, Call.arenaAfter] <;> try exact hold
      · have hnd := hok.2.2.1 rfl
        split
        · by_cases e : a = r.val
          · subst e; intro _; right; exact ⟨hnd, by simp⟩
          · rw [Function.update_of_ne e, Function.update_of_ne e]; exact hold
        · exact hold
      · split
        · by_cases e : a = b
          · subst e
            intro hq
            exact (hold hq).imp id fun h1 => ⟨h1.1, by simp⟩
          · rw [Function.update_of_ne e]; exact hold
        · exact hold
      · intro hq
        split at hq
        · next hd =>
          rcases hold hq with h1 | h1
          · exact .inl h1
          · rw [h1.1] at hd; cases hd
        · by_cases e : a = b
          · subst e; simp at hq
          · rw [Function.update_of_ne e] at hq ⊢; exact hold hq
    · intro pv Q zero _ _ h2
      have h3 := hrest pv Q zero h2
      rw [hkn] at h3
      rw [known_set hopx]
      exact ⟨_, hzero _ rfl, h3⟩

end Verif.Heap
