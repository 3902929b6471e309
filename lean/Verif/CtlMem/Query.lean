import Verif.CtlMem.Find
/-!
# Arguments and queries in memory
-/
namespace Verif.CtlMem
open Verif.Ctl (Node Call Field Val QType Index Arg isSpace strtoll)
variable {H : Type}

/-! ## Facts about the search in lists -/

theorem tokens_le (sep : Char) (F pos : Nat) (s : List Char) : ∀ x ∈ Ctl.tokens sep F pos s, x.1 ≤ pos + s.length := by
  induction F generalizing pos s with
  | zero => simp [Ctl.tokens]
  | succ F ih =>
    intro x hx
    rw [Ctl.tokens] at hx
    split at hx
    · simp at hx
    · rename_i o t rest h
      obtain ⟨_, htne, _, _, _, _, hr, _, ht, _⟩ := Ctl.strtok_some h
      have hlt : o + t.length ≤ s.length := by
        have := congrArg List.length ht
        simp only [List.length_take, List.length_drop] at this
        have : 0 < t.length := List.length_pos_iff.2 htne
        omega
      rcases List.mem_cons.1 hx with e | hm
      · subst e
        simp only
        omega
      · have := ih _ _ x hm
        have hl := congrArg List.length hr
        simp only [List.length_drop] at hl
        by_cases h0 : rest = []
        · subst h0
          rw [Ctl.tokens.eq_def] at hm
          cases F with
          | zero => simp at hm
          | succ F => simp [Ctl.strtok] at hm
        · have : 0 < rest.length := List.length_pos_iff.2 h0
          omega

theorem findLoop_off {toks : List (Nat × List Char)} {nodes : Option (List (Node H))} {n : Option (Node H)} {off : Nat}
    {ix : List Index} {k : Node H} {o : Nat} {L : List Index} (h : Ctl.findLoop toks nodes n off ix = some (some (k, o), L)) :
    o = off ∨ ∃ t, (o, t) ∈ toks := by
  induction toks generalizing nodes n off ix with
  | nil =>
    rw [Ctl.findLoop] at h
    simp only [Option.some.injEq, Prod.mk.injEq] at h
    cases n with
    | none => simp at h
    | some n =>
      simp only [Option.map_some, Option.some.injEq, Prod.mk.injEq] at h
      exact .inl h.1.2.symm
  | cons x ts ih =>
    obtain ⟨p, t⟩ := x
    rw [Ctl.findLoop] at h
    split at h
    · simp only [Option.some.injEq, Prod.mk.injEq] at h
      cases n with
      | none => simp at h
      | some n =>
        simp only [Option.map_some, Option.some.injEq, Prod.mk.injEq] at h
        exact .inr ⟨t, by simp [h.1.2]⟩
    · dsimp only at h
      split at h
      · cases h
      · split at h
        · cases h
        · rcases ih h with e | ⟨t', ht'⟩
          · exact .inr ⟨t, by simp [e]⟩
          · exact .inr ⟨t', List.mem_cons_of_mem _ ht'⟩

theorem findNode_off {nodes : List (Node H)} {s : List Char} {k : Node H} {o : Nat} {L : List Index}
    (h : Ctl.findNode nodes s = some (some (k, o), L)) : o ≤ s.length := by
  rcases findLoop_off h with e | ⟨t, ht⟩
  · omega
  · have := tokens_le _ _ _ _ _ ht
    simpa using this

theorem Within.child {root : List (Node H)} {m n : Node H} {cs : List (Node H)} (h : Within root m) (hc : m.children = some cs)
    (hn : n ∈ cs) : Within root n := by
  induction h with
  | @here nodes m hm =>
    cases m with
    | named name c =>
      cases hc
      exact .named hm (.here hn)
    | indexed name c =>
      cases hc
      exact .indexed hm (.here hn)
    | leaf => cases hc
    | subtree => cases hc
  | named h1 _ ih => exact .named h1 (ih hc)
  | indexed h1 _ ih => exact .indexed h1 (ih hc)

theorem findLoop_within {root : List (Node H)} {toks : List (Nat × List Char)} {nodes : Option (List (Node H))}
    {n : Option (Node H)} {off : Nat} {ix : List Index} {k : Node H} {o : Nat} {L : List Index}
    (hn : ∀ m, n = some m → Within root m) (hc : ∀ cs, nodes = some cs → ∀ m ∈ cs, Within root m)
    (h : Ctl.findLoop toks nodes n off ix = some (some (k, o), L)) : Within root k := by
  induction toks generalizing nodes n off ix with
  | nil =>
    rw [Ctl.findLoop] at h
    simp only [Option.some.injEq, Prod.mk.injEq] at h
    cases n with
    | none => simp at h
    | some n =>
      simp only [Option.map_some, Option.some.injEq, Prod.mk.injEq] at h
      exact h.1.1 ▸ hn n rfl
  | cons x ts ih =>
    obtain ⟨p, t⟩ := x
    rw [Ctl.findLoop] at h
    split at h
    · simp only [Option.some.injEq, Prod.mk.injEq] at h
      cases n with
      | none => simp at h
      | some n =>
        simp only [Option.map_some, Option.some.injEq, Prod.mk.injEq] at h
        exact h.1.1 ▸ hn n rfl
    · dsimp only at h
      split at h
      · cases h
      · rename_i cs
        split at h
        · cases h
        · rename_i m hs
          have hm : Within root m := hc cs rfl m (List.mem_of_find?_eq_some hs)
          exact ih (fun m' e => by cases e; exact hm) (fun cs' e m' hm' => hm.child e hm') h

theorem findNode_within {nodes : List (Node H)} {s : List Char} {k : Node H} {o : Nat} {L : List Index}
    (h : Ctl.findNode nodes s = some (some (k, o), L)) : Within nodes k :=
  findLoop_within (fun m e => by cases e) (fun cs e m hm => by cases e; exact .here hm) h

theorem findNode_nil (s : List Char) : ∃ ix, Ctl.findNode ([] : List (Node H)) s = some (none, ix) := by
  unfold Ctl.findNode
  cases Ctl.toks '.' s with
  | nil => exact ⟨_, rfl⟩
  | cons x ts =>
    obtain ⟨p, t⟩ := x
    rw [Ctl.findLoop]
    exact ⟨_, rfl⟩

/-! ## Arguments -/

theorem store_spec {m : Mem H} {d size : Nat} {vals : List (Nat × Val)} (h : m.heap d = some (.dest size vals)) (f : Field)
    (v : Val) (hf : f.off + (if f.parser = .boolean then 4 else f.size) ≤ size) :
    store m d f v = some { m with heap := upd m.heap d (some (.dest size (vals ++ [(f.off, v)]))) } := by
  unfold store
  rw [h]
  dsimp only
  rw [if_pos]
  unfold width
  cases hp : f.parser <;> simp_all

theorem parseLoop_spec {d vb size : Nat} (hdv : d ≠ vb) (fs : List Field)
    (hfs : ∀ f ∈ fs, f.off + (if f.parser = .boolean then 4 else f.size) ≤ size) {m : Mem H} (hw : WF m) {l : List Char}
    (hl : bytes m vb = some l) {vals : List (Nat × Val)} (hd : m.heap d = some (.dest size vals)) {node : Option Nat}
    {save fuel lo hi : Nat} {toks : List (Nat × List Char)} (ht : TokState ',' l node save toks fuel lo hi) :
    ∃ m' res l', parseLoop d vb fs m node save = some (m', res) ∧ Grown m m' (fun b => b = vb ∨ b = d) [] [] [] ∧
      bytes m' vb = some l' ∧ Same l l' lo hi ∧
      (match Ctl.parseFields fs (toks.map Prod.snd) with
       | some vs => res = true ∧ m'.heap d = some (.dest size (vals ++ vs))
       | none => res = false ∧ ∃ vs, m'.heap d = some (.dest size vs)) := by
  induction fs generalizing m l vals node save fuel toks with
  | nil =>
    refine ⟨m, true, l, by rw [parseLoop], Grown.refl hw _, hl, Same.refl _ _ _, ?_⟩
    rw [Ctl.parseFields]
    exact ⟨rfl, by simp [hd]⟩
  | cons f fs ih =>
    cases node with
    | none =>
      obtain ⟨rfl, _⟩ := ht
      refine ⟨m, false, l, by rw [parseLoop], Grown.refl hw _, hl, Same.refl _ _ _, ?_⟩
      exact ⟨rfl, _, hd⟩
    | some p =>
      obtain ⟨t, rest, F, pos, h1, h2, rfl, h4, h5, h6, h7, h8, h9⟩ := ht
      rw [parseLoop, h1.str hl, Option.bind_some]
      simp only [List.map_cons]
      rw [Ctl.parseFields]
      cases hp : Ctl.parse f t with
      | none => exact ⟨m, false, l, rfl, Grown.refl hw _, hl, Same.refl _ _ _, rfl, _, hd⟩
      | some v =>
        dsimp only
        rw [store_spec hd f v (hfs f (by simp)), Option.bind_some]
        generalize hm1 : ({ m with heap := upd m.heap d (some (.dest size (vals ++ [(f.off, v)]))) } : Mem H) = m1
        have hdc : d < m.cnt := by
          by_cases hc : d < m.cnt
          · exact hc
          · rw [hw d (by omega)] at hd
            cases hd
        have g1 : Grown m m1 (fun b => b = vb ∨ b = d) [] [] [] := hm1 ▸ Grown.set hw hdc (.inr rfl)
        have hl1 : bytes m1 vb = some l := by
          rw [bytes_heap] at hl ⊢
          rw [← hm1]
          dsimp only
          rw [upd_ne _ _ (Ne.symm hdv), hl]
        have hd1 : m1.heap d = some (.dest size (vals ++ [(f.off, v)])) := by
          rw [← hm1]
          dsimp only
          rw [upd_same]
        obtain ⟨m2, node', save', l2, e1, e2, e3, e4, e5⟩ := tokState_next g1.wf hl1 h2 (sep := ',') (by decide) h4 h5
          (fuel := rest.length + 1) (Nat.le_refl _) (lo := lo) (hi := hi) (by omega) h9
        rw [e1, Option.bind_some]
        have hd2 : m2.heap d = some (.dest size (vals ++ [(f.off, v)])) := by
          rw [e3.keep d (by simp) hdv, hd1]
        obtain ⟨m3, res, l3, i1, i2, i3, i4, i5⟩ := ih (fun f hf => hfs f (List.mem_cons_of_mem _ hf)) e3.wf e2 hd2 e4
        have hx : ∀ b, (b = vb ∨ b = d) → b < m.cnt := by
          intro b hb
          rcases hb with e | e
          · rw [e]; exact bytes_lt hw hl
          · omega
        refine ⟨m3, res, l3, i1, ?_, i3, e5.trans i4, ?_⟩
        · have g2 : Grown m1 m2 (fun b => b = vb ∨ b = d) [] [] [] := e3.mono fun b h => .inl h
          have g12 := g1.trans g2 hx
          exact g12.trans i2 hx
        · generalize Ctl.parseFields fs ((Ctl.tokens ',' F pos rest).map Prod.snd) = r at i5 ⊢
          cases r with
          | none => exact i5
          | some vs =>
            refine ⟨i5.1, ?_⟩
            rw [i5.2, List.append_assoc]
            rfl

/-- `ctl_parse_args`: the structure is there exactly if the text can be parsed, and freed otherwise. The structure is block
`m.cnt`. -/
theorem parseArgs_spec (w : World H) {m : Mem H} (hw : WF m) (size : Nat) (proto : List Field)
    (hp : ∀ f ∈ proto, f.off + (if f.parser = .boolean then 4 else f.size) ≤ size) {vb vp : Nat} {l v : List Char}
    (hl : bytes m vb = some l) (h : Holds l vp v) :
    (∃ m' l', parseArgs w m size proto (vb, vp) = some (m', none) ∧ Grown m m' (· = vb) [] [] [] ∧ bytes m' vb = some l' ∧
      Same l l' vp (vp + v.length) ∧ ((∀ k, w.ok k = true) → Ctl.parseArgs proto v = none)) ∨
    (∃ m' l' vs, parseArgs w m size proto (vb, vp) = some (m', some m.cnt) ∧
      Grown { m with heap := upd m.heap m.cnt (some (.dest size [])), cnt := m.cnt + 1 } m' (fun b => b = vb ∨ b = m.cnt) [] [] [] ∧
      bytes m' vb = some l' ∧ Same l l' vp (vp + v.length) ∧ Ctl.parseArgs proto v = some vs ∧
      m'.heap m.cnt = some (.dest size vs)) := by
  have hvb := bytes_lt hw hl
  unfold parseArgs
  rcases alloc_cases w m (.dest size []) with ⟨hok, ha⟩ | ⟨hok, ha⟩
  · rw [ha]
    dsimp only
    generalize hm1 : ({ m with heap := upd m.heap m.cnt (some (.dest size [])), cnt := m.cnt + 1 } : Mem H) = m1
    have hl1 : bytes m1 vb = some l := by
      rw [bytes_heap] at hl ⊢
      rw [← hm1]
      dsimp only
      rw [upd_ne _ _ (by omega), hl]
    have hd1 : m1.heap m.cnt = some (.dest size []) := by
      rw [← hm1]
      dsimp only
      rw [upd_same]
    have hw1 : WF m1 := by
      intro c hc
      rw [← hm1] at hc ⊢
      dsimp only at hc ⊢
      rw [upd_ne _ _ (by omega)]
      exact hw c (by omega)
    have hc1 : m1.cnt = m.cnt + 1 := by rw [← hm1]
    obtain ⟨m2, node, save, l2, e1, e2, e3, e4, e5⟩ := tokState_next hw1 hl1 h (sep := ',') (by decide)
      (F := v.length + 1) (pos := vp) (fuel := v.length + 1) (by omega) (.inr rfl) (Nat.le_refl _)
      (lo := vp) (hi := vp + v.length) (Nat.le_refl _) (Nat.le_refl _)
    rw [e1, Option.bind_some]
    have hd2 : m2.heap m.cnt = some (.dest size []) := by
      rw [e3.keep _ (by simp) (by omega), hd1]
    obtain ⟨m3, res, l3, i1, i2, i3, i4, i5⟩ := parseLoop_spec (d := m.cnt) (vb := vb) (by omega) proto hp e3.wf e2 hd2 e4
    rw [i1, Option.bind_some]
    have hpure : (Ctl.tokens ',' (v.length + 1) vp v).map Prod.snd = (Ctl.toks ',' v).map Prod.snd := by
      rw [Ctl.tokens_snd _ _ _ _ (by omega), Ctl.toks_snd]
    have hx : ∀ b, (b = vb ∨ b = m.cnt) → b < m1.cnt := by
      intro b hb
      rcases hb with e | e <;> omega
    have g : Grown m1 m3 (fun b => b = vb ∨ b = m.cnt) [] [] [] := (e3.mono fun b h => .inl h).trans i2 hx
    rw [hpure] at i5
    change (match Ctl.parseArgs proto v with
       | some vs => _
       | none => _) at i5
    cases hpa : Ctl.parseArgs proto v with
    | none =>
      rw [hpa] at i5
      obtain ⟨rfl, vs, hvs⟩ := i5
      left
      have hfree : free m3 m.cnt = some { m3 with heap := upd m3.heap m.cnt none } := by
        unfold free
        rw [hvs]
      dsimp only
      rw [hfree]
      refine ⟨_, l3, rfl, Grown.temp hm1.symm g hw, ?_, e5.trans i4, fun _ => rfl⟩
      rw [bytes_heap] at i3 ⊢
      dsimp only
      rw [upd_ne _ _ (by omega), i3]
    | some vs =>
      rw [hpa] at i5
      obtain ⟨rfl, hvs⟩ := i5
      right
      exact ⟨m3, l3, vs, rfl, g, i3, e5.trans i4, rfl, by rw [hvs]; rfl⟩
  · rw [ha]
    dsimp only
    left
    refine ⟨_, l, rfl, Grown.refused _ hw, hl, Same.refl _ _ _, fun h => ?_⟩
    rw [h] at hok
    cases hok

end Verif.CtlMem
