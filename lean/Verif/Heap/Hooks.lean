import Verif.Heap.Inv

/-! # What a hook does to the thread it runs in -/
namespace Verif.Heap
open Function (update)

theorem Ev.Later.refl (e : Ev) : e.Later e := ⟨id, fun h => ⟨h, .inl ⟨rfl, rfl⟩, .inl ⟨rfl, rfl⟩⟩⟩

theorem Ev.Later.trans {a b c : Ev} (h1 : a.Later b) (h2 : b.Later c) : a.Later c := by
  refine ⟨fun h => h2.1 (h1.1 h), fun h => ?_⟩
  obtain ⟨hb, h3, h4⟩ := h2.2 h
  obtain ⟨ha, h5, h6⟩ := h1.2 hb
  refine ⟨ha, ?_, ?_⟩
  · rcases h3 with ⟨h3, h7⟩ | h3
    · rw [h3, h7]; exact h5
    · exact .inr h3
  · rcases h4 with ⟨h4, h7⟩ | h4
    · rw [h4, h7]; exact h6
    · exact .inr h4

theorem wp_later {pv : Prov} {op : Op} {Q : Out → L → Prop} {c : Call} {k : Resp → Prog} {l : L} {ev : Ev}
    (h : wp pv op Q (.call c k) l) (he : l.ev.Later ev) : wp pv op Q (.call c k) { l with ev := ev } :=
  ⟨h.1, h.2.1, fun r v ev' hl => h.2.2 r v ev' (he.trans hl)⟩

/-- A program that does not change thread-local variables. -/
def Prog.Quiet : Prog → Prop
  | .ret _ | .crash => True
  | .call _ k => ∀ r, (k r).Quiet
  | .setTls _ _ _ => False
  | .getTls _ k => ∀ e, (k e).Quiet
  | .newRec k => ∀ p, (k p).Quiet
  | .setRec _ _ k => k.Quiet
  | .getRec _ k => ∀ r, (k r).Quiet
  | .freeRec _ k => k.Quiet
  | .getTab _ k => ∀ p, (k p).Quiet
  | .setTab _ _ k => k.Quiet

theorem Prog.Quiet.runs {recs table prog tls l o tls'} (hr : Runs recs table prog tls l o tls') (h : prog.Quiet) :
    tls' = tls := by
  induction hr with
  | ret | crash | noRec => rfl
  | call _ ih | getTls _ ih | getTab _ ih => exact ih (h _)
  | setTls => exact h.elim
  | getRec _ _ ih => exact ih (h _)

theorem byArena_quiet {a : Nat} {k : Rec → Prog} (h : ∀ r, (k r).Quiet) : (byArena a k).Quiet := by
  intro p
  cases p
  · trivial
  · exact h

theorem hook_quiet {h : Hook} (hid : h.id = none) : h.prog.Quiet := by
  cases h <;> simp only [Hook.id] at hid <;> simp only [Hook.prog] <;> try cases hid
  case alloc =>
    refine byArena_quiet fun r x => ?_
    dsimp only
    split
    · trivial
    split
    · exact fun _ => trivial
    split
    · exact fun _ => trivial
    · trivial
  all_goals first | trivial | exact byArena_quiet fun r x => trivial

/-- Hooks change the thread as described by `Ev.Later`. -/
theorem hook_later {recs : Pool → Option Rec} {table : Nat → Option Pool} {h : Hook} {tls tls' : Var → Res}
    {l : List (Call × Resp)} {o : Out} (hr : Runs recs table h.prog tls l (some o) tls') (refused nested : Bool)
    (freeErr : Option Res) :
    Ev.Later ⟨tls, refused, freeErr, nested⟩
      ⟨tls', refused || (h.id.isSome && refusedIn l), if h.id.isSome then (freeErrIn l).or freeErr else freeErr, nested⟩ := by
  refine ⟨fun h => by simp [show refused = true from h], fun hn => ⟨hn, ?_⟩⟩
  dsimp only
  cases hid : h.id with
  | none =>
    have := (hook_quiet hid).runs hr
    subst this
    exact ⟨.inl ⟨by simp, rfl⟩, .inl ⟨by simp, rfl⟩⟩
  | some id =>
    cases h <;> simp only [Hook.id] at hid <;> try cases hid
    case some.rawAlloc.refl n =>
      cases hr with
      | getRec _ hr =>
      cases hr with
      | @call _ _ _ x l _ _ hr =>
      dsimp only at hr
      by_cases he : x.err = 0
      · rw [if_neg (by simpa using he)] at hr
        cases hr
        exact ⟨.inl ⟨by simp [refusedIn, he], rfl⟩, .inl ⟨by simp [freeErrIn], rfl⟩⟩
      · rw [if_pos he] at hr
        cases hr with
        | setTls hr =>
        cases hr
        exact ⟨.inr ⟨by simp [refusedIn, he], by simp⟩, .inl ⟨by simp [freeErrIn], by simp⟩⟩
    case some.rawFree.refl ptr n =>
      cases hr with
      | getRec _ hr =>
      cases hr with
      | @call _ _ _ x l _ _ hr =>
      dsimp only at hr
      by_cases he : x.err = 0
      · rw [if_neg (by simpa using he)] at hr
        cases hr
        exact ⟨.inl ⟨by simp [refusedIn], rfl⟩, .inl ⟨by simp [freeErrIn, he], rfl⟩⟩
      · rw [if_pos he] at hr
        cases hr with
        | setTls hr =>
        cases hr
        exact ⟨.inl ⟨by simp [refusedIn], by simp⟩, .inr ⟨by simp [freeErrIn, he], by simpa [resSuccess] using he⟩⟩

/-- The calls of a hook that finds the structure of its pool all go to the provider of the pool, and it does not crash. -/
theorem byArena_runs {recs : Pool → Option Rec} {table : Nat → Option Pool} {a : Nat} {k : Rec → Prog} {tls tls' : Var → Res}
    {l : List (Call × Resp)} {o : Option Out} {p : Pool} {r : Rec} (hr : Runs recs table (byArena a k) tls l o tls')
    (h1 : table a = some p) (h2 : recs p = some r) : Runs recs table (k r) tls l o tls' := by
  cases hr with
  | getTab hr =>
  rw [h1] at hr
  dsimp only at hr
  cases hr with
  | getRec h3 hr =>
    rw [h2] at h3
    cases h3
    exact hr
  | noRec h3 => rw [h2] at h3; cases h3

/-- All runs end, and all calls go to one provider. -/
def Prog.Only (pv : Prov) : Prog → Prop
  | .ret _ => True
  | .call c k => (∀ q, c.prov = some q → q = pv) ∧ ∀ r, (k r).Only pv
  | .setTls _ _ k => k.Only pv
  | _ => False

theorem Prog.Only.runs {pv : Prov} {recs table prog tls l o tls'} (hr : Runs recs table prog tls l o tls')
    (h : prog.Only pv) : o ≠ none ∧ ∀ x ∈ l, ∀ q, x.1.prov = some q → q = pv := by
  induction hr with
  | ret => exact ⟨by simp, by simp⟩
  | crash | noRec | getTls | getTab | getRec => exact h.elim
  | call _ ih =>
    refine ⟨(ih (h.2 _)).1, fun x hx => ?_⟩
    rcases List.mem_cons.1 hx with rfl | hx
    · exact h.1
    · exact (ih (h.2 _)).2 x hx
  | setTls _ ih => exact ih h

theorem hook_runs {recs : Pool → Option Rec} {table : Nat → Option Pool} {h : Hook} {tls tls' : Var → Res}
    {l : List (Call × Resp)} {o : Option Out} {pv : Prov} (hr : Runs recs table h.prog tls l o tls')
    (h1 : ∀ id, h.id = some id → ∃ r, recs id = some r ∧ r.pv = pv)
    (h2 : ∀ a, h.arena = some a → ∃ p r, table a = some p ∧ recs p = some r ∧ r.pv = pv) :
    o ≠ none ∧ ∀ x ∈ l, ∀ q, x.1.prov = some q → q = pv := by
  have hraw : ∀ {id k}, h.id = some id → Runs recs table (.getRec id k) tls l o tls' →
      ∃ r, r.pv = pv ∧ Runs recs table (k r) tls l o tls' := by
    intro id k hid hr
    obtain ⟨r, h3, h4⟩ := h1 id hid
    cases hr with
    | getRec h5 hr =>
      rw [h3] at h5
      cases h5
      exact ⟨r, h4, hr⟩
    | noRec h5 => rw [h3] at h5; cases h5
  have hby : ∀ {a k}, h.arena = some a → Runs recs table (byArena a k) tls l o tls' →
      ∃ r, r.pv = pv ∧ Runs recs table (k r) tls l o tls' := by
    intro a k ha hr
    obtain ⟨p, r, h3, h4, h5⟩ := h2 a ha
    exact ⟨r, h5, byArena_runs hr h3 h4⟩
  cases h with
  | rawAlloc id n =>
    obtain ⟨r, rfl, hr⟩ := hraw rfl hr
    refine Prog.Only.runs hr ⟨by simp [Call.prov], fun x => ?_⟩
    dsimp only
    split <;> trivial
  | rawFree id ptr n =>
    obtain ⟨r, rfl, hr⟩ := hraw rfl hr
    refine Prog.Only.runs hr ⟨by simp [Call.prov], fun x => ?_⟩
    dsimp only
    split <;> trivial
  | alloc a new n al zero =>
    obtain ⟨r, rfl, hr⟩ := hby rfl hr
    refine Prog.Only.runs hr ⟨by simp [Call.prov], fun x => ?_⟩
    dsimp only
    split
    · trivial
    split
    · exact ⟨by simp [Call.prov], fun _ => trivial⟩
    split
    · exact ⟨by simp [Call.prov], fun _ => trivial⟩
    · trivial
  | commit a | decommit a => exact Prog.Only.runs hr trivial
  | _ =>
    obtain ⟨r, rfl, hr⟩ := hby rfl hr
    exact Prog.Only.runs hr ⟨by simp [Call.prov], fun x => trivial⟩

end Verif.Heap
