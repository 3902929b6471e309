import Verif.CtlMem.Grown
/-!
# The search for a node in memory
-/
namespace Verif.CtlMem
open Verif.Ctl (Node Call Field Val QType Index Arg isSpace strtoll)
variable {H : Type}

/-- A loop over tokens is at the token `node`, and `toks` are this token and the following ones, all between `lo` and
`hi`. -/
def TokState (sep : Char) (l : List Char) (node : Option Nat) (save : Nat) (toks : List (Nat × List Char)) (fuel : Nat)
    (lo hi : Nat) : Prop :=
  match node with
  | none => toks = [] ∧ 1 ≤ fuel
  | some p => ∃ t rest F pos, Holds l p t ∧ Holds l save rest ∧ toks = (p, t) :: Ctl.tokens sep F pos rest ∧
      rest.length < F ∧ (rest = [] ∨ pos = save) ∧ rest.length + 2 ≤ fuel ∧ p + t.length ≤ save ∧ lo ≤ p ∧
      save + rest.length ≤ hi

/-- The next call of `strtok_r` in such a loop. -/
theorem tokState_next {m : Mem H} (hw : WF m) {b save : Nat} {l rest : List Char} (hl : bytes m b = some l)
    (h : Holds l save rest) {sep : Char} (hsep : sep ≠ nul) {F pos fuel : Nat} (hF : rest.length < F)
    (hpos : rest = [] ∨ pos = save) (hfuel : rest.length + 1 ≤ fuel) {lo hi : Nat} (hlo : lo ≤ save)
    (hhi : save + rest.length ≤ hi) :
    ∃ m' node save' l', strtok m b sep save = some (m', node, save') ∧ bytes m' b = some l' ∧
      Grown m m' (· = b) [] [] [] ∧ TokState sep l' node save' (Ctl.tokens sep F pos rest) fuel lo hi ∧
      Same l l' lo hi := by
  obtain ⟨F, rfl⟩ : ∃ k, F = k + 1 := ⟨F - 1, by omega⟩
  rcases strtok_spec hw hl h hsep with ⟨h1, m', save', h2, h3, h4⟩ | ⟨o, t, r, l', save', m', h1, h2, h3, h4, h5, h6, h7, h8, h9, h10⟩
  · refine ⟨m', none, save', l, h2, h3, h4, ⟨?_, by omega⟩, Same.refl _ _ _⟩
    rw [Ctl.tokens, h1]
  · have hne : rest ≠ [] := fun e => by
      subst e
      simp [Ctl.strtok] at h1
    have hpos := hpos.resolve_left hne
    subst hpos
    have hlt := (Ctl.strtok_some h1).2.2.2.2.2.1
    refine ⟨m', some (pos + o), save', l', h2, h3, h4, ⟨t, r, F, pos + o + t.length + 1, h5, h6, ?_, by omega, ?_, by omega,
      h8, by omega, by omega⟩, h7.mono hlo (by omega)⟩
    · rw [Ctl.tokens, h1]
    · rcases h10 with h | h
      · exact .inl h
      · exact .inr h.symm

theorem Holds.str {m : Mem H} {b p : Nat} {l s : List Char} (hl : bytes m b = some l) (h : Holds l p s) :
    str m (b, p) = some s := by
  unfold CtlMem.str
  rw [hl, Option.bind_some]
  exact h.cstr

theorem upd_upd {α : Type} (f : Nat → α) (k : Nat) (a b : α) : upd (upd f k a) k b = upd f k b := by
  funext x
  unfold upd
  split <;> rfl

/-- What the search in memory has to do with the search in lists. -/
def FindRes (w : World H) (m : Mem H) (ps : Nat) (toks : List (Nat × List Char)) (ixP : List Index)
    (pure : Option (Option (Node H × Nat) × List Index)) (res : Option (Mem H × Option (Node H × Nat))) : Prop :=
  match res with
  | none => pure = none
  | some (m', f) => ∃ ids L l', Grown m m' (· = ps) ids L [] ∧ bytes m' ps = some l' ∧
      (∀ i ∈ L, ∃ t ∈ toks, (strtoll t.2).isSome = true) ∧ (f = none ∨ ∃ L', pure = some (f, L')) ∧
      ((∀ k, w.ok k = true) → pure = some (f, L ++ ixP))

/-- A step before the rest of the search. -/
theorem FindRes.step {w : World H} {m m1 : Mem H} {ps : Nat} {toks toks' : List (Nat × List Char)} {ixP : List Index}
    {pure : Option (Option (Node H × Nat) × List Index)} {res : Option (Mem H × Option (Node H × Nat))} {ids1 : List Nat}
    {L1 : List Index} (g : Grown m m1 (· = ps) ids1 L1 []) (hps : ps < m.cnt)
    (h1 : ∀ i ∈ L1, ∃ t ∈ toks, (strtoll t.2).isSome = true) (h2 : ∀ t ∈ toks', t ∈ toks)
    (h : FindRes w m1 ps toks' (L1 ++ ixP) pure res) : FindRes w m ps toks ixP pure res := by
  match res, h with
  | none, h => exact h
  | some (m', f), ⟨ids, L, l', g', hl, hL, hf, hok⟩ =>
    refine ⟨ids ++ ids1, L ++ L1, l', g.trans g' (fun b e => e ▸ hps), hl, ?_, hf, ?_⟩
    · intro i hi
      rcases List.mem_append.1 hi with h | h
      · obtain ⟨t, ht, hs⟩ := hL i h
        exact ⟨t, h2 t ht, hs⟩
      · exact h1 i h
    · intro h
      rw [List.append_assoc]
      exact hok h

theorem findLoop_spec (w : World H) (ps : Nat) (fuel : Nat) {m : Mem H} {l : List Char} {node : Option Nat} {save : Nat}
    {nodes : Option (List (Node H))} {n : Option (Node H)} {off : Nat} {ix : Option Nat} {toks : List (Nat × List Char)}
    {ixP : List Index} {lo hi : Nat} (hw : WF m) (hl : bytes m ps = some l) (ht : TokState '.' l node save toks fuel lo hi) :
    FindRes w m ps toks ixP (Ctl.findLoop toks nodes n off ixP) (findLoop w ps fuel m node save nodes n off ix) := by
  induction fuel generalizing m l node save nodes n off ix toks ixP with
  | zero =>
    cases node with
    | none => exact absurd ht.2 (by omega)
    | some p =>
      obtain ⟨_, _, _, _, _, _, _, _, _, h, _⟩ := ht
      omega
  | succ fuel ih =>
    have hps := bytes_lt hw hl
    cases node with
    | none =>
      obtain ⟨rfl, _⟩ := ht
      rw [findLoop, Ctl.findLoop]
      exact ⟨[], [], l, Grown.refl hw _, hl, by simp, .inr ⟨_, rfl⟩, fun _ => rfl⟩
    | some p =>
      obtain ⟨t, rest, F, pos, h1, h2, rfl, h4, h5, h6, h7, h8, h9⟩ := ht
      rw [findLoop, Ctl.findLoop]
      by_cases hsub : (n.map Node.isSubtree).getD false = true
      · rw [if_pos hsub, if_pos hsub]
        exact ⟨[], [], l, Grown.refl hw _, hl, by simp, .inr ⟨_, rfl⟩, fun _ => rfl⟩
      rw [if_neg hsub, if_neg hsub, h1.str hl, Option.bind_some]
      dsimp only
      cases hv : (strtoll t).map Prod.fst with
      | some v =>
        have hsome : (strtoll t).isSome = true := by
          cases hst : strtoll t with
          | none => rw [hst] at hv; cases hv
          | some _ => rfl
        dsimp only
        rcases alloc_cases w m (.entry ⟨[], v⟩ ix) with ⟨hok, ha⟩ | ⟨hok, ha⟩
        · rw [ha]
          dsimp only
          have ge := fun nm => Grown.entry (· = ps) hw ⟨nm, v⟩ ix
          cases nodes with
          | none => rfl
          | some nodes =>
            dsimp only
            rw [show (some v : Option Int).isSome = true from rfl]
            cases hsc : Ctl.scan nodes t true with
            | none =>
              dsimp only
              refine ⟨[m.cnt], [⟨[], v⟩], l, ge _, ?_, ?_, .inl rfl, fun _ => rfl⟩
              · rw [bytes_heap] at hl ⊢
                dsimp only
                rw [upd_ne _ _ (by omega), hl]
              · intro i _
                exact ⟨(p, t), by simp, hsome⟩
            | some k =>
              dsimp only
              have hn : nameEntry (H := H) { m with heap := upd m.heap m.cnt (some (.entry ⟨[], v⟩ ix)), cnt := m.cnt + 1 }
                  m.cnt k.name =
                  some { m with heap := upd m.heap m.cnt (some (.entry ⟨k.name, v⟩ ix)), cnt := m.cnt + 1 } := by
                unfold nameEntry
                dsimp only
                rw [upd_same]
                dsimp only
                rw [upd_upd]
              rw [hn, Option.bind_some]
              have hw1 := (ge k.name).wf
              have hl1 : bytes (H := H) { m with heap := upd m.heap m.cnt (some (.entry ⟨k.name, v⟩ ix)), cnt := m.cnt + 1 }
                  ps = some l := by
                rw [bytes_heap] at hl ⊢
                dsimp only
                rw [upd_ne _ _ (by omega), hl]
              obtain ⟨m', node', save', l', e1, e2, e3, e4, _⟩ := tokState_next hw1 hl1 h2 (sep := '.') (by decide) h4 h5
                (fuel := fuel) (by omega) (lo := lo) (hi := hi) (by omega) h9
              rw [e1, Option.bind_some]
              have := ih (nodes := k.children) (n := some k) (off := p) (ix := some m.cnt)
                (ixP := [⟨k.name, v⟩] ++ ixP) e3.wf e2 e4
              exact FindRes.step ((ge k.name).trans e3 (fun b e => e ▸ hps)) hps
                (fun i _ => ⟨(p, t), by simp, hsome⟩) (fun t ht => List.mem_cons_of_mem _ ht) this
        · rw [ha]
          dsimp only
          refine ⟨[], [], l, Grown.refused _ hw, ?_, by simp, .inl rfl, fun h => ?_⟩
          · exact hl
          · rw [h] at hok
            cases hok
      | none =>
        dsimp only
        cases nodes with
        | none => rfl
        | some nodes =>
          dsimp only
          rw [show (none : Option Int).isSome = false from rfl]
          cases hsc : Ctl.scan nodes t false with
          | none => exact ⟨[], [], l, Grown.refl hw _, hl, by simp, .inl rfl, fun _ => rfl⟩
          | some k =>
            dsimp only
            obtain ⟨m', node', save', l', e1, e2, e3, e4, _⟩ := tokState_next hw hl h2 (sep := '.') (by decide) h4 h5
              (fuel := fuel) (by omega) (lo := lo) (hi := hi) (by omega) h9
            rw [e1, Option.bind_some]
            have := ih (nodes := k.children) (n := some k) (off := p) (ix := ix) (ixP := ixP) e3.wf e2 e4
            exact FindRes.step e3 hps (by simp) (fun t ht => List.mem_cons_of_mem _ ht) this

/-- `ctl_find_node`: its copy of the name is freed, and only entries stay. -/
theorem findNode_spec (w : World H) {m : Mem H} (hw : WF m) (nodes : List (Node H)) {b p : Nat} {l s : List Char}
    (hl : bytes m b = some l) (h : Holds l p s) (ix : Option Nat) :
    match findNode w m nodes (b, p) ix with
    | none => Ctl.findNode nodes s = none
    | some (m', f) => ∃ ids L, Grown m m' (fun _ => False) ids L [] ∧
        (∀ i ∈ L, ∃ t ∈ Ctl.toks '.' s, (strtoll t.2).isSome = true) ∧ (f = none ∨ ∃ L', Ctl.findNode nodes s = some (f, L')) ∧
        ((∀ k, w.ok k = true) → Ctl.findNode nodes s = some (f, L)) := by
  unfold findNode strdup
  rw [h.str hl]
  dsimp only [Option.map_some, Option.bind_some]
  rcases alloc_cases w m (.bytes (s ++ [nul])) with ⟨hok, ha⟩ | ⟨hok, ha⟩
  · rw [ha]
    dsimp only
    generalize hm1 : ({ m with heap := upd m.heap m.cnt (some (.bytes (s ++ [nul]))), cnt := m.cnt + 1 } : Mem H) = m1
    have hl1 : bytes m1 m.cnt = some (s ++ [nul]) := by
      rw [bytes_heap, ← hm1]
      dsimp only
      rw [upd_same]
    have hw1 : WF m1 := by
      intro c hc
      rw [← hm1] at hc ⊢
      dsimp only at hc ⊢
      rw [upd_ne _ _ (by omega)]
      exact hw c (by omega)
    rw [hl1, Option.bind_some]
    obtain ⟨m2, node, save, l2, e1, e2, e3, e4, _⟩ := tokState_next hw1 hl1 (holds_dup s h.1) (sep := '.') (by decide)
      (F := s.length + 1) (pos := 0) (fuel := (s ++ [nul]).length + 1) (by omega) (.inr rfl) (by simp)
      (lo := 0) (hi := s.length) (Nat.zero_le _) (by omega)
    rw [e1, Option.bind_some]
    have := findLoop_spec (n := none) (off := 0) (nodes := some nodes) (ixP := []) (ix := ix) w m.cnt
      ((s ++ [nul]).length + 1) e3.wf e2 e4
    have := FindRes.step e3 (bytes_lt hw1 hl1) (by simp) (fun t h => h) this
    change FindRes w m1 m.cnt (Ctl.toks '.' s) [] (Ctl.findNode nodes s) _ at this
    dsimp only
    generalize findLoop w m.cnt ((s ++ [nul]).length + 1) m2 node save (some nodes) none 0 ix = res at this ⊢
    match res, this with
    | none, h => exact h
    | some (m', f), ⟨ids, L, l', g, hl', hL, hf, hok⟩ =>
      rw [Option.bind_some]
      dsimp only
      have hfree : free m' m.cnt = some { m' with heap := upd m'.heap m.cnt none } := by
        unfold free
        rw [bytes_heap.1 hl']
      rw [hfree]
      dsimp only [Option.map_some]
      refine ⟨ids, L, Grown.temp hm1.symm (g.mono fun b h => .inr h) hw, hL, hf, fun h => ?_⟩
      have := hok h
      rwa [List.append_nil] at this
  · rw [ha]
    dsimp only
    refine ⟨[], [], Grown.refused _ hw, by simp, .inl rfl, fun h => ?_⟩
    rw [h] at hok
    cases hok

end Verif.CtlMem
