import Verif.CtlMem.Exec
/-!
# Whole queries in memory
-/
namespace Verif.CtlMem
open Verif.Ctl (Node Call Field Val QType Index Arg isSpace strtoll)
variable {H : Type}

theorem Grown.old {m m' : Mem H} {ids : List Nat} {L : List Index} {cs : List (Call H)}
    (g : Grown m m' (fun _ => False) ids L cs) : ∀ b, b < m.cnt → m'.heap b = m.heap b := fun b hb =>
  g.keep b (fun hm => by
    have := g.range b hm
    omega) (fun h => h)

theorem heap_lt {m : Mem H} (hw : WF m) {b : Nat} {k : Blk} (h : m.heap b = some k) : b < m.cnt := by
  by_cases hc : b < m.cnt
  · exact hc
  · rw [hw b (by omega)] at h
    cases h

theorem Stored.keep {m m' : Mem H} (hw : WF m) {p : Nat × Nat} {s : List Char} (h : Stored m p s)
    (hk : ∀ b, b < m.cnt → m'.heap b = m.heap b) : Stored m' p s := by
  obtain ⟨l, h1, h2⟩ := h
  exact ⟨l, by rw [hk _ (heap_lt hw h1), h1], h2⟩

theorem SrcIs.keep {m m' : Mem H} (hw : WF m) {src : Src} {psrc : Ctl.Source} (h : SrcIs m src psrc)
    (hk : ∀ b, b < m.cnt → m'.heap b = m.heap b) : SrcIs m' src psrc := by
  cases src <;> cases psrc <;> first | exact h | exact Stored.keep hw h hk

theorem SrcIs.lt {m : Mem H} (hw : WF m) {src : Src} {psrc : Ctl.Source} (h : SrcIs m src psrc) :
    ∀ b, srcBlk src b → b < m.cnt := by
  intro b hb
  cases src with
  | program a => exact hb.elim
  | config v =>
    cases psrc with
    | program a => exact h.elim
    | config s =>
      obtain ⟨l, h1, _⟩ := h
      rw [show b = v.1 from hb]
      exact heap_lt hw h1

theorem deleteIndexes_one {m : Mem H} {e : Nat} {i : Index} (h : m.heap e = some (.entry i none)) (n : Nat) :
    deleteIndexes (n + 1) m (some e) = some { m with heap := upd m.heap e none } := by
  rw [deleteIndexes, h]
  dsimp only
  unfold free
  rw [h]
  dsimp only [Option.bind_some]
  rw [deleteIndexes.eq_def]

theorem WF.alloc {m : Mem H} (hw : WF m) (k : Blk) :
    WF ({ m with heap := upd m.heap m.cnt (some k), cnt := m.cnt + 1 } : Mem H) := by
  intro c hc
  dsimp only at hc ⊢
  rw [upd_ne _ _ (by omega)]
  exact hw c (by omega)

/-- What a query in memory has to do with a query in lists. -/
def QueryRes (w : World H) (glob : List (Node H)) (ctl : Option (List (Node H))) (m : Mem H) (src : Src) (psrc : Ctl.Source)
    (s : List Char) (t : QType) (res : Option (Mem H × Int)) : Prop :=
  match res with
  | none => (Ctl.findNode glob s = none ∨ ∃ root, ctl = some root ∧ Ctl.findNode root s = none) ∧
      ((∀ k, w.ok k = true) → Ctl.query w.run glob ctl psrc s t = none)
  | some (m', r) => ∃ ids L cs, Grown m m' (srcBlk src) ids L cs ∧ Text m m' src psrc ∧
      (∀ i ∈ L, ∃ x ∈ Ctl.toks '.' s, (strtoll x.2).isSome = true) ∧
      ((r = -1 ∧ cs = []) ∨ (∃ L', Ctl.query w.run glob ctl psrc s t = some ⟨r, cs, L'⟩) ∨
        ∃ L', Ctl.query w.run [] ctl psrc s t = some ⟨r, cs, L'⟩) ∧
      ((∀ k, w.ok k = true) → Ctl.query w.run glob ctl psrc s t = some ⟨r, cs, L⟩)

theorem query_spec (w : World H) (glob : List (Node H)) (ctl : Option (List (Node H))) (hg : Sound w glob)
    (hc : ∀ root, ctl = some root → Sound w root) {m : Mem H} (hw : WF m) {src : Src} {psrc : Ctl.Source}
    (hs : SrcIs m src psrc) {name : Nat × Nat} {s : List Char} (hn : Stored m name s) (t : QType) :
    QueryRes w glob ctl m src psrc s t (query w glob ctl m src name t) := by
  have hlt := hs.lt hw
  unfold query
  rcases alloc_cases w m (.entry ⟨[], 0⟩ none) with ⟨hok, ha⟩ | ⟨hok, ha⟩
  swap
  · rw [ha]
    refine ⟨[], [], [], Grown.refused _ hw, Text.keep fun _ _ => rfl, by simp, .inl ⟨rfl, rfl⟩, fun h => ?_⟩
    rw [h] at hok
    cases hok
  rw [ha]
  dsimp only
  have hw1 := hw.alloc (.entry ⟨[], 0⟩ none)
  generalize hm1 : ({ m with heap := upd m.heap m.cnt (some (.entry ⟨[], 0⟩ none)), cnt := m.cnt + 1 } : Mem H) = m1 at *
  have hc1 : m1.cnt = m.cnt + 1 := by rw [← hm1]
  have k1 : ∀ b, b < m.cnt → m1.heap b = m.heap b := fun b hb => by
    rw [← hm1]
    dsimp only
    rw [upd_ne _ _ (by omega)]
  have d1 : m1.heap m.cnt = some (.entry ⟨[], 0⟩ none) := by
    rw [← hm1]
    dsimp only
    rw [upd_same]
  have hn1 := hn.keep hw k1
  have hs1 := hs.keep hw k1
  obtain ⟨l, hl, hh⟩ := id hn1
  have hf := findNode_spec w hw1 glob (bytes_heap.2 hl) hh (some m.cnt)
  rw [show ((name.1, name.2) : Nat × Nat) = name from rfl] at hf
  generalize findNode w m1 glob name (some m.cnt) = r1 at hf ⊢
  match r1, hf with
  | none, hf =>
    refine ⟨.inl hf, fun _ => ?_⟩
    unfold Ctl.query
    rw [hf]
  | some (m2, some n), ⟨ids, L, g2, hL, hf, hall⟩ =>
    obtain ⟨L', hf⟩ := hf.resolve_left (by simp)
    rw [Option.bind_some]
    dsimp only
    have k2 := g2.old
    have hq : ∀ lk, Ctl.findNode glob s = some (some n, lk) →
        Ctl.query w.run glob ctl psrc s t = some (Ctl.exec w.run (some n) (some []) psrc s t lk) := fun lk h => by
      unfold Ctl.query
      rw [h]
    have d2 : m2.heap m.cnt = some (.entry ⟨[], 0⟩ none) := by rw [k2 _ (by omega), d1]
    obtain ⟨m3, r, cs, e1, e2, e3, e4, e5⟩ := exec_spec w g2.wf (hs1.keep hw1 k2) (hn1.keep hw1 k2) (some n)
      (fun k o e => by cases e; exact findNode_off hf)
      (fun nm cb proto o h e hcb => by cases e; exact hg nm cb proto h (findNode_within hf) hcb)
      (ix := some m.cnt) (ixl := some []) (.inr ⟨m.cnt, rfl, d2, rfl⟩) t
    rw [e1, Option.bind_some]
    have d3 : m3.heap m.cnt = some (.entry ⟨[], 0⟩ none) := by
      rw [e2.keep _ (by simp) (fun h => by have := hlt _ h; omega), d2]
    dsimp only
    rw [deleteIndexes_one d3]
    have g := (g2.mono (y := fun b => srcBlk src b ∨ b = m.cnt) (fun _ h => h.elim)).trans
      (e2.mono (y := fun b => srcBlk src b ∨ b = m.cnt) (fun _ h => .inl h)) (fun b hb => by
        rcases hb with h | h
        · have := hlt b h
          omega
        · omega)
    refine ⟨ids, L, cs, Grown.temp hm1.symm g hw, ?_, hL, ?_, ?_⟩
    · refine (Text.keep fun b hb => k1 b (hlt b hb)).trans ((Text.keep fun b hb => k2 b ?_).trans (e3.trans
        (Text.keep fun b hb => ?_)))
      · have := hlt b hb
        omega
      · have := hlt b hb
        dsimp only
        rw [upd_ne _ _ (by omega)]
    · rcases e4 with h | h
      · exact .inl h
      · exact .inr (.inl ⟨L', by rw [hq _ hf, h]⟩)
    · intro hok
      rw [hq _ (hall hok), e5 hok]
  | some (m2, none), ⟨ids, L, g2, hL, _, hall⟩ =>
    rw [Option.bind_some]
    dsimp only
    have k2 := g2.old
    have d2 : m2.heap m.cnt = some (.entry ⟨[], 0⟩ none) := by rw [k2 _ (by omega), d1]
    have g3 : Grown m { m2 with heap := upd m2.heap m.cnt none } (fun _ => False) ids L [] :=
      Grown.temp hm1.symm (g2.mono fun _ h => h.elim) hw
    cases ctl with
    | none =>
      dsimp only
      have hex : exec w m2 none (some m.cnt) src name t = some (m2, -1) := rfl
      rw [hex, Option.bind_some]
      dsimp only
      rw [deleteIndexes_one d2]
      refine ⟨ids, L, [], g3.mono fun _ h => h.elim, Text.keep fun b hb => g3.old b (hlt b hb), hL, .inl ⟨rfl, rfl⟩, ?_⟩
      intro hok
      unfold Ctl.query
      rw [hall hok]
      rfl
    | some root =>
      dsimp only
      rw [deleteIndexes_one d2, Option.bind_some]
      generalize ({ m2 with heap := upd m2.heap m.cnt none } : Mem H) = m3 at *
      have k3 := g3.old
      have hn3 := hn.keep hw k3
      have hs3 := hs.keep hw k3
      obtain ⟨l, hl, hh⟩ := id hn3
      have hf := findNode_spec w g3.wf root (bytes_heap.2 hl) hh none
      rw [show ((name.1, name.2) : Nat × Nat) = name from rfl] at hf
      generalize findNode w m3 root name none = r3 at hf ⊢
      match r3, hf with
      | none, hf =>
        refine ⟨.inr ⟨root, rfl, hf⟩, fun hok => ?_⟩
        unfold Ctl.query
        rw [hall hok]
        dsimp only
        rw [hf]
      | some (m4, f), ⟨ids', L', g4, hL', hf, hall'⟩ =>
        rw [Option.bind_some]
        dsimp only
        have k4 := g4.old
        have hpure : ∀ k o, f = some (k, o) → ∃ L'', Ctl.findNode root s = some (some (k, o), L'') := by
          intro k o e
          subst e
          exact hf.resolve_left (by simp)
        obtain ⟨m5, r, cs, e1, e2, e3, e4, e5⟩ := exec_spec w g4.wf (hs3.keep g3.wf k4) (hn3.keep g3.wf k4) f
          (fun k o e => by
            obtain ⟨L'', h⟩ := hpure k o e
            exact findNode_off h)
          (fun nm cb proto o h e hcb => by
            obtain ⟨L'', h'⟩ := hpure _ o e
            exact hc root rfl nm cb proto h (findNode_within h') hcb)
          (ix := none) (ixl := none) (.inl ⟨rfl, rfl⟩) t
        rw [e1, Option.bind_some]
        have hdel : deleteIndexes (m5.cnt + 1) m5 none = some m5 := by rw [deleteIndexes.eq_def]
        dsimp only
        rw [hdel]
        dsimp only [Option.map_some]
        have g34 := (g3.mono (y := srcBlk src) fun _ h => h.elim).trans (g4.mono (y := srcBlk src) fun _ h => h.elim) hlt
        have g := g34.trans e2 hlt
        refine ⟨ids' ++ ids, L' ++ L, cs, g, ?_, ?_, ?_, ?_⟩
        · refine (Text.keep fun b hb => k3 b (hlt b hb)).trans ((Text.keep fun b hb => k4 b ?_).trans e3)
          have := hlt b hb
          have := g3.cnt
          omega
        · intro i hi
          rcases List.mem_append.1 hi with h | h
          · exact hL' i h
          · exact hL i h
        · rcases e4 with h | h
          · exact .inl h
          · cases f with
            | none =>
              left
              have := h []
              change (⟨-1, [], []⟩ : Ctl.Out H) = _ at this
              simp only [Ctl.Out.mk.injEq] at this
              exact ⟨this.1.symm, this.2.1.symm⟩
            | some n =>
              obtain ⟨L'', hr⟩ := hpure n.1 n.2 rfl
              obtain ⟨ixn, hnil⟩ := findNode_nil (H := H) s
              refine .inr (.inr ⟨L'' ++ ixn, ?_⟩)
              unfold Ctl.query
              rw [hnil]
              dsimp only
              rw [hr]
              dsimp only
              rw [h]
        · intro hok
          unfold Ctl.query
          rw [hall hok]
          dsimp only
          rw [hall' hok]
          dsimp only
          rw [e5 hok]

end Verif.CtlMem
