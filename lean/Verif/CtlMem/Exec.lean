import Verif.CtlMem.Query
/-!
# Calls of handlers in memory
-/
namespace Verif.CtlMem
open Verif.Ctl (Node Call Field Val QType Index Arg isSpace strtoll)
variable {H : Type}

theorem Stored.str {m : Mem H} {p : Nat × Nat} {s : List Char} (h : Stored m p s) : str m p = some s := by
  obtain ⟨l, h1, h2⟩ := h
  exact h2.str (bytes_heap.2 h1)

theorem Text.refl (m : Mem H) (src : Src) (psrc : Ctl.Source) : Text m m src psrc := by
  cases src <;> cases psrc <;> first | trivial | exact fun l h => ⟨l, h, Same.refl _ _ _⟩

theorem Text.trans {m m1 m2 : Mem H} {src : Src} {psrc : Ctl.Source} (h : Text m m1 src psrc) (h' : Text m1 m2 src psrc) :
    Text m m2 src psrc := by
  cases src <;> cases psrc <;> first | trivial | skip
  intro l hl
  obtain ⟨l1, a, b⟩ := h l hl
  obtain ⟨l2, c, d⟩ := h' l1 a
  exact ⟨l2, c, b.trans d⟩

/-- A step that leaves the block of the argument alone. -/
theorem Text.keep {m m1 : Mem H} {src : Src} {psrc : Ctl.Source} (h : ∀ b, srcBlk src b → m1.heap b = m.heap b) :
    Text m m1 src psrc := by
  cases src <;> cases psrc <;> first | trivial | skip
  intro l hl
  exact ⟨l, by rw [h _ rfl, hl], Same.refl _ _ _⟩

theorem callH_spec (w : World H) {m : Mem H} (hw : WF m) {src : Src} {psrc : Ctl.Source} (hs : SrcIs m src psrc) (c : Call H)
    (hc : c.arg = psrc.raw ∨ ∃ vs, c.arg = .parsed vs) :
    ∃ m', callH w m c src = some (m', w.run c) ∧ Grown m m' (srcBlk src) [] [] [c] ∧ Text m m' src psrc := by
  have dflt : Grown m { m with calls := m.calls ++ [c] } (srcBlk src) [] [] [c] := Grown.call _ hw c
  unfold callH
  split
  · rename_i s v h1
    cases psrc with
    | program a => exact hs.elim
    | config s' =>
      have hss : s = s' := by
        rcases hc with h | ⟨vs, h⟩
        · rw [h1] at h
          simpa [Ctl.Source.raw] using h
        · rw [h1] at h
          cases h
      subst hss
      obtain ⟨l, hl, hh⟩ := hs
      rw [bytes_heap.2 hl]
      refine ⟨_, rfl, ?_, ?_⟩
      · have g1 : Grown m (setBytes m v.1 (overwrite l v.2 s.length (w.scribble c))) (srcBlk (.config v)) [] [] [] :=
          Grown.set hw (bytes_lt hw (bytes_heap.2 hl)) rfl
        have g2 := Grown.call (srcBlk (.config v)) g1.wf c
        have := g1.trans g2 fun b hb => by
          rw [show b = v.1 from hb]
          exact bytes_lt hw (bytes_heap.2 hl)
        exact this
      · intro l' hl'
        rw [hl] at hl'
        cases hl'
        exact ⟨overwrite l v.2 s.length (w.scribble c), by simp [setBytes, upd_same], overwrite_same _ _ _ _⟩
  · exact ⟨_, rfl, dflt, Text.keep fun _ _ => rfl⟩

/-- The list of indexes that the handlers get. -/
def IxIs (m : Mem H) (ix : Option Nat) (ixl : Option (List Index)) : Prop :=
  (ix = none ∧ ixl = none) ∨ ∃ e, ix = some e ∧ m.heap e = some (.entry ⟨[], 0⟩ none) ∧ ixl = some []

theorem IxIs.seen {m : Mem H} {ix : Option Nat} {ixl : Option (List Index)} (h : IxIs m ix ixl) : seenIndexes m ix = some ixl := by
  rcases h with ⟨rfl, rfl⟩ | ⟨e, rfl, h, rfl⟩
  · rfl
  · unfold seenIndexes
    dsimp only
    rw [readIndexes, h]
    simp [readIndexes]

theorem IxIs.keep {m m' : Mem H} {ix : Option Nat} {ixl : Option (List Index)} (h : IxIs m ix ixl)
    (hk : ∀ e i nx, m.heap e = some (.entry i nx) → m'.heap e = m.heap e) : IxIs m' ix ixl := by
  rcases h with ⟨rfl, rfl⟩ | ⟨e, rfl, h, rfl⟩
  · exact .inl ⟨rfl, rfl⟩
  · exact .inr ⟨e, rfl, by rw [hk _ _ _ h, h], rfl⟩

theorem SrcIs.raw {m : Mem H} {src : Src} {psrc : Ctl.Source} (hs : SrcIs m src psrc) : raw m src = some psrc.raw := by
  cases src with
  | program a =>
    cases psrc with
    | program a' =>
      cases hs
      cases a <;> rfl
    | config s => exact hs.elim
  | config v =>
    cases psrc with
    | program a' => exact hs.elim
    | config s =>
      unfold CtlMem.raw
      dsimp only
      rw [Stored.str hs]
      rfl

theorem callRaw_spec (w : World H) {m : Mem H} (hw : WF m) {src : Src} {psrc : Ctl.Source} (hs : SrcIs m src psrc) (h : H)
    {ix : Option Nat} {ixl : Option (List Index)} (hix : IxIs m ix ixl) (extra : Option (List Char)) (t : Option QType) :
    ∃ m', callRaw w m h src ix extra t = some (m', w.run ⟨h, psrc.raw, ixl, extra, t⟩) ∧
      Grown m m' (srcBlk src) [] [] [⟨h, psrc.raw, ixl, extra, t⟩] ∧ Text m m' src psrc := by
  unfold callRaw
  rw [hs.raw, Option.bind_some, hix.seen, Option.bind_some]
  exact callH_spec w hw hs _ (.inl rfl)

theorem callParsed_spec (w : World H) {m : Mem H} (hw : WF m) {v : Nat × Nat} {s : List Char} (hs : Stored m v s) (h : H)
    (proto : List Field) (hp : ∀ f ∈ proto, f.off + (if f.parser = .boolean then 4 else f.size) ≤ w.dsize h)
    {ix : Option Nat} {ixl : Option (List Index)} (hix : IxIs m ix ixl) :
    ∃ m' r cs, callParsed w m h proto v ix = some (m', r) ∧ Grown m m' (srcBlk (.config v)) [] [] cs ∧
      Text m m' (.config v) (.config s) ∧
      ((r = -1 ∧ cs = []) ∨ ∃ vs, Ctl.parseArgs proto s = some vs ∧ cs = [⟨h, .parsed vs, ixl, none, none⟩] ∧
        r = w.run ⟨h, .parsed vs, ixl, none, none⟩) ∧
      ((∀ k, w.ok k = true) → ∀ vs, Ctl.parseArgs proto s = some vs → cs = [⟨h, .parsed vs, ixl, none, none⟩] ∧
        r = w.run ⟨h, .parsed vs, ixl, none, none⟩) := by
  obtain ⟨vb, vp⟩ := v
  obtain ⟨l, hl, hh⟩ := hs
  simp only at hl hh
  unfold callParsed
  rcases parseArgs_spec w hw (w.dsize h) proto hp (bytes_heap.2 hl) hh with
    ⟨m', l', h1, h2, h3, h4, h5⟩ | ⟨m', l', vs, h1, h2, h3, h4, h5, h6⟩
  · rw [h1, Option.bind_some]
    refine ⟨m', -1, [], rfl, h2, ?_, .inl ⟨rfl, rfl⟩, fun hok vs hvs => ?_⟩
    · intro l0 hl0
      simp only at hl0
      rw [hl] at hl0
      cases hl0
      exact ⟨l', bytes_heap.1 h3, h4⟩
    · rw [h5 hok] at hvs
      cases hvs
  · rw [h1, Option.bind_some]
    dsimp only
    rw [h6]
    dsimp only
    have hvb := bytes_lt hw (bytes_heap.2 hl)
    have hix' : IxIs m' ix ixl := hix.keep fun e i nx he => by
      have hlt : e < m.cnt := by
        by_cases hc : e < m.cnt
        · exact hc
        · rw [hw e (by omega)] at he
          cases he
      have hne : e ≠ vb := fun e' => by
        subst e'
        rw [hl] at he
        cases he
      rw [h2.keep e (by simp) (by omega)]
      dsimp only
      rw [upd_ne _ _ (by omega)]
    rw [hix'.seen, Option.bind_some]
    -- the text may have been cut, but it still ends where it ended
    generalize hc : (⟨h, .parsed vs, ixl, none, none⟩ : Call H) = c
    have hcall : callH w m' c (.config (vb, vp)) = some ({ m' with calls := m'.calls ++ [c] }, w.run c) := by
      unfold callH
      rw [← hc]
    rw [hcall, Option.bind_some]
    have hfree : free ({ m' with calls := m'.calls ++ [c] } : Mem H) m.cnt =
        some { m' with calls := m'.calls ++ [c], heap := upd m'.heap m.cnt none } := by
      unfold free
      dsimp only
      rw [h6]
    dsimp only
    rw [hfree]
    refine ⟨_, w.run c, [c], rfl, ?_, ?_, .inr ⟨vs, h5, by rw [hc], by rw [hc]⟩, ?_⟩
    · have g1 := Grown.call (fun b => b = vb ∨ b = m.cnt) h2.wf c
      have g := h2.trans g1 (by
        intro b hb
        dsimp only
        rcases hb with e | e <;> omega)
      exact Grown.temp (x := srcBlk (.config (vb, vp))) rfl g hw
    · intro l0 hl0
      simp only at hl0
      rw [hl] at hl0
      cases hl0
      refine ⟨l', ?_, h4⟩
      dsimp only
      rw [upd_ne _ _ (by omega), bytes_heap.1 h3]
    · intro _ vs' hvs'
      rw [h5] at hvs'
      cases hvs'
      exact ⟨by rw [hc], by rw [hc]⟩

theorem exec_spec (w : World H) {m : Mem H} (hw : WF m) {src : Src} {psrc : Ctl.Source} (hs : SrcIs m src psrc)
    {name : Nat × Nat} {s : List Char} (hn : Stored m name s) (found : Option (Node H × Nat))
    (hoff : ∀ k o, found = some (k, o) → o ≤ s.length)
    (hfit : ∀ nm cb proto o h, found = some (.leaf nm cb proto, o) → cb .write = some h →
      ∀ f ∈ proto, f.off + (if f.parser = .boolean then 4 else f.size) ≤ w.dsize h)
    {ix : Option Nat} {ixl : Option (List Index)} (hix : IxIs m ix ixl) (t : QType) :
    ∃ m' r cs, exec w m found ix src name t = some (m', r) ∧ Grown m m' (srcBlk src) [] [] cs ∧ Text m m' src psrc ∧
      ((r = -1 ∧ cs = []) ∨ ∀ lk, Ctl.exec w.run found ixl psrc s t lk = ⟨r, cs, lk⟩) ∧
      ((∀ k, w.ok k = true) → ∀ lk, Ctl.exec w.run found ixl psrc s t lk = ⟨r, cs, lk⟩) := by
  have fail : ∀ (_ : ∀ lk, Ctl.exec w.run found ixl psrc s t lk = ⟨-1, [], lk⟩),
      exec w m found ix src name t = some (m, -1) →
      ∃ m' r cs, exec w m found ix src name t = some (m', r) ∧ Grown m m' (srcBlk src) [] [] cs ∧ Text m m' src psrc ∧
      ((r = -1 ∧ cs = []) ∨ ∀ lk, Ctl.exec w.run found ixl psrc s t lk = ⟨r, cs, lk⟩) ∧
      ((∀ k, w.ok k = true) → ∀ lk, Ctl.exec w.run found ixl psrc s t lk = ⟨r, cs, lk⟩) := fun h e =>
    ⟨m, -1, [], e, Grown.refl hw _, Text.refl _ _ _, .inl ⟨rfl, rfl⟩, fun _ => h⟩
  have rawcase : ∀ h extra t', exec w m found ix src name t = callRaw w m h src ix extra t' →
      (∀ lk, Ctl.exec w.run found ixl psrc s t lk = ⟨w.run ⟨h, psrc.raw, ixl, extra, t'⟩, [⟨h, psrc.raw, ixl, extra, t'⟩], lk⟩) →
      ∃ m' r cs, exec w m found ix src name t = some (m', r) ∧ Grown m m' (srcBlk src) [] [] cs ∧ Text m m' src psrc ∧
      ((r = -1 ∧ cs = []) ∨ ∀ lk, Ctl.exec w.run found ixl psrc s t lk = ⟨r, cs, lk⟩) ∧
      ((∀ k, w.ok k = true) → ∀ lk, Ctl.exec w.run found ixl psrc s t lk = ⟨r, cs, lk⟩) := fun h extra t' e he => by
    obtain ⟨m', h1, h2, h3⟩ := callRaw_spec w hw hs h hix extra t'
    exact ⟨m', _, _, e.trans h1, h2, h3, .inr he, fun _ => he⟩
  match found, hoff, hfit with
  | none, _, _ => exact fail (fun _ => rfl) rfl
  | some (.named _ _, _), _, _ => exact fail (fun _ => rfl) rfl
  | some (.indexed _ _, _), _, _ => exact fail (fun _ => rfl) rfl
  | some (.subtree _ none, _), _, _ => exact fail (fun _ => rfl) rfl
  | some (.subtree nm (some h), off), hoff, _ =>
    refine rawcase h (some (s.drop off)) (some t) ?_ fun _ => rfl
    unfold exec
    dsimp only
    obtain ⟨l, hl, hh⟩ := hn
    rw [(hh.drop (hoff _ _ rfl)).str (bytes_heap.2 hl), Option.bind_some]
  | some (.leaf nm cb proto, o), _, hfit =>
    cases hcb : cb t with
    | none =>
      refine fail (fun _ => ?_) ?_
      · unfold Ctl.exec
        dsimp only
        rw [hcb]
      · unfold exec
        dsimp only
        rw [hcb]
    | some h =>
      have hpure : ∀ lk, Ctl.exec w.run (some (.leaf nm cb proto, o)) ixl psrc s t lk =
          match Ctl.realArg t psrc proto with
          | none => ⟨-1, [], lk⟩
          | some a => ⟨w.run ⟨h, a, ixl, none, none⟩, [⟨h, a, ixl, none, none⟩], lk⟩ := by
        intro lk
        unfold Ctl.exec
        dsimp only
        rw [hcb]
        rfl
      cases t with
      | run =>
        refine rawcase h none none ?_ fun lk => by rw [hpure]; rfl
        unfold exec
        dsimp only
        rw [hcb]
      | read =>
        cases src with
        | program a =>
          cases psrc with
          | config s => exact hs.elim
          | program a' =>
            cases hs
            cases a with
            | none =>
              refine fail (fun lk => by rw [hpure]; rfl) ?_
              unfold exec
              dsimp only
              rw [hcb]
            | some a =>
              refine rawcase h none none ?_ fun lk => by rw [hpure]; rfl
              unfold exec
              dsimp only
              rw [hcb]
        | config v =>
          cases psrc with
          | program a => exact hs.elim
          | config s =>
            refine rawcase h none none ?_ fun lk => by rw [hpure]; rfl
            unfold exec
            dsimp only
            rw [hcb]
      | write =>
        cases src with
        | program a =>
          cases psrc with
          | config s => exact hs.elim
          | program a' =>
            cases hs
            cases a with
            | none =>
              refine fail (fun lk => by rw [hpure]; rfl) ?_
              unfold exec
              dsimp only
              rw [hcb]
            | some a =>
              refine rawcase h none none ?_ fun lk => by rw [hpure]; rfl
              unfold exec
              dsimp only
              rw [hcb]
        | config v =>
          cases psrc with
          | program a => exact hs.elim
          | config s =>
            have he : exec w m (some (.leaf nm cb proto, o)) ix (.config v) name .write = callParsed w m h proto v ix := by
              unfold exec
              dsimp only
              rw [hcb]
            obtain ⟨m', r, cs, h1, h2, h3, h4, h5⟩ := callParsed_spec w hw hs h proto (hfit nm cb proto o h rfl hcb) hix
            have hra : Ctl.realArg .write (.config s) proto = (Ctl.parseArgs proto s).map .parsed := rfl
            refine ⟨m', r, cs, he.trans h1, h2, h3, ?_, ?_⟩
            · rcases h4 with h4 | ⟨vs, e1, e2, e3⟩
              · exact .inl h4
              · right
                intro lk
                rw [hpure, hra, e1, e2, e3]
                rfl
            · intro hok lk
              rw [hpure, hra]
              cases hpa : Ctl.parseArgs proto s with
              | none =>
                rcases h4 with ⟨e1, e2⟩ | ⟨vs, e1, _⟩
                · rw [e1, e2]
                  rfl
                · rw [hpa] at e1
                  cases e1
              | some vs =>
                obtain ⟨e1, e2⟩ := h5 hok vs hpa
                rw [e1, e2]
                rfl

end Verif.CtlMem
