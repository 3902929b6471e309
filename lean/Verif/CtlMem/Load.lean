import Verif.CtlMem.Whole
/-!
# Configurations in memory
-/
namespace Verif.CtlMem
open Verif.Ctl (Node Call Field Val QType Index Arg isSpace strtoll)
variable {H : Type}

theorem tokens_none {sep : Char} {s : List Char} (h : Ctl.strtok sep s = none) (F pos : Nat) : Ctl.tokens sep F pos s = [] := by
  cases F with
  | zero => rfl
  | succ F => rw [Ctl.tokens, h]

theorem tokens_some {sep : Char} {s t r : List Char} {o : Nat} (h : Ctl.strtok sep s = some (o, t, r)) {F : Nat}
    (hF : s.length < F) (pos : Nat) :
    ∃ F' pos', r.length < F' ∧ Ctl.tokens sep F pos s = (pos + o, t) :: Ctl.tokens sep F' pos' r := by
  obtain ⟨F, rfl⟩ : ∃ k, F = k + 1 := ⟨F - 1, by omega⟩
  have := (Ctl.strtok_some h).2.2.2.2.2.1
  refine ⟨F, pos + o + t.length + 1, by omega, ?_⟩
  rw [Ctl.tokens, h]

theorem strtok_nil (sep : Char) : Ctl.strtok sep [] = none := by simp [Ctl.strtok]

theorem parseQuery_spec {m : Mem H} (hw : WF m) {b p : Nat} {l q : List Char} (hl : bytes m b = some l) (h : Holds l p q) :
    ∃ m' l' res, parseQuery m b p = some (m', res) ∧ Grown m m' (· = b) [] [] [] ∧ bytes m' b = some l' ∧
      Same l l' p (p + q.length) ∧
      (match Ctl.parseQuery q with
       | none => res = none
       | some (nm, v) => ∃ a c, res = some (a, c) ∧ Holds l' a nm ∧ Holds l' c v ∧ p ≤ c ∧ c + v.length ≤ p + q.length) := by
  have hb := bytes_lt hw hl
  have hx : ∀ x, x = b → x < m.cnt := fun x e => e ▸ hb
  unfold parseQuery Ctl.parseQuery Ctl.toks
  rcases strtok_spec hw hl h (sep := '=') (by decide) with
    ⟨p1, m1, s1, e1, l1, g1⟩ | ⟨o1, t1, r1, l1, s1, m1, p1, e1, b1, g1, n1, h1, f1, c1, c2, c3⟩
  · rw [e1, tokens_none p1]
    exact ⟨m1, l, none, rfl, g1, l1, Same.refl _ _ _, rfl⟩
  rw [e1, Option.bind_some]
  obtain ⟨F1, q1, hF1, k1⟩ := tokens_some p1 (Nat.lt_succ_self q.length) 0
  rw [show q.length.succ = q.length + 1 from rfl] at k1
  rw [k1]
  dsimp only
  rcases strtok_spec g1.wf b1 h1 (sep := '=') (by decide) with
    ⟨p2, m2, s2, e2, l2, g2⟩ | ⟨o2, t2, r2, l2, s2, m2, p2, e2, b2, g2, n2, h2, f2, d1, d2, d3⟩
  · rw [e2, tokens_none p2]
    exact ⟨m2, l1, none, rfl, g1.trans g2 hx, l2, f1, rfl⟩
  rw [e2, Option.bind_some]
  have hr1 : r1 ≠ [] := fun e => by
    rw [e, strtok_nil] at p2
    cases p2
  have c3 := c3.resolve_left hr1
  obtain ⟨F2, q2, hF2, k2⟩ := tokens_some p2 hF1 q1
  rw [k2]
  dsimp only
  have f12 : Same l l2 p (p + q.length) := f1.trans (f2.mono (by omega) (by omega))
  rcases strtok_spec g2.wf b2 h2 (sep := '=') (by decide) with
    ⟨p3, m3, s3, e3, l3, g3⟩ | ⟨o3, t3, r3, l3, s3, m3, p3, e3, b3, g3, n3, h3, f3, d4, d5, d6⟩
  · rw [e3, tokens_none p3]
    refine ⟨m3, l2, some (p + o1, s1 + o2), rfl, (g1.trans g2 hx).trans g3 hx, l3, f12, p + o1, s1 + o2, rfl, ?_, n2, by omega,
      by omega⟩
    exact n1.frame f2 (.inl (by omega))
  · rw [e3]
    obtain ⟨F3, q3, hF3, k3⟩ := tokens_some p3 hF2 q2
    rw [k3]
    exact ⟨m3, l3, none, rfl, (g1.trans g2 hx).trans g3 hx, b3, f12.trans (f3.mono (by omega) (by omega)), rfl⟩

/-- The query of a line, as a list of calls: with the global tree, or with the other tree only. -/
def LineCalls (w : World H) (glob : List (Node H)) (ctl : Option (List (Node H))) (q : List Char) (c : Call H) : Prop :=
  ∃ nm v out, Ctl.parseQuery q = some (nm, v) ∧ (Ctl.query w.run glob ctl (.config v) nm .write = some out ∨
    Ctl.query w.run [] ctl (.config v) nm .write = some out) ∧ c ∈ out.calls

/-- A part of the name in this line is a number. -/
def LineNumber (q : List Char) : Prop :=
  ∃ nm v, Ctl.parseQuery q = some (nm, v) ∧ ∃ x ∈ Ctl.toks '.' nm, (strtoll x.2).isSome = true

/-- The name in this line goes on after a leaf. -/
def LineTooLong (glob : List (Node H)) (ctl : Option (List (Node H))) (q : List Char) : Prop :=
  ∃ nm v, Ctl.parseQuery q = some (nm, v) ∧
    (Ctl.findNode glob nm = none ∨ ∃ root, ctl = some root ∧ Ctl.findNode root nm = none)

/-- What loading a configuration in memory has to do with loading it in lists. -/
def LoadRes (w : World H) (glob : List (Node H)) (ctl : Option (List (Node H))) (strict : Bool) (m : Mem H) (b : Nat)
    (qs : List (List Char)) (res : Option (Mem H × Int)) : Prop :=
  match res with
  | none => (∃ q ∈ qs, LineTooLong glob ctl q) ∧
      ((∀ k, w.ok k = true) → Ctl.loadLoop w.run glob ctl strict qs = none)
  | some (m', r) => ∃ ids L cs l', Grown m m' (· = b) ids L cs ∧ bytes m' b = some l' ∧
      (∀ i ∈ L, ∃ q ∈ qs, LineNumber q) ∧ (∀ c ∈ cs, ∃ q ∈ qs, LineCalls w glob ctl q c) ∧
      ((∀ k, w.ok k = true) → Ctl.loadLoop w.run glob ctl strict qs = some ⟨r, cs, L⟩)

theorem loadLoop_spec (w : World H) (glob : List (Node H)) (ctl : Option (List (Node H))) (hg : Sound w glob)
    (hc : ∀ root, ctl = some root → Sound w root) (strict : Bool) (b : Nat) (fuel : Nat) {m : Mem H} (hw : WF m)
    {l : List Char} (hl : bytes m b = some l) {node : Option Nat} {save : Nat} {toks : List (Nat × List Char)} {lo hi : Nat}
    (ht : TokState ';' l node save toks fuel lo hi) :
    LoadRes w glob ctl strict m b (toks.map Prod.snd) (loadLoop w glob ctl strict b fuel m node save) := by
  induction fuel generalizing m l node save toks with
  | zero =>
    cases node with
    | none => exact absurd ht.2 (by omega)
    | some p =>
      obtain ⟨_, _, _, _, _, _, _, _, _, h, _⟩ := ht
      omega
  | succ fuel ih =>
    have hb := bytes_lt hw hl
    have hx : ∀ x, x = b → x < m.cnt := fun x e => e ▸ hb
    cases node with
    | none =>
      obtain ⟨rfl, _⟩ := ht
      rw [loadLoop]
      exact ⟨[], [], [], l, Grown.refl hw _, hl, by simp, by simp, fun _ => rfl⟩
    | some p =>
      obtain ⟨t, rest, F, pos, h1, h2, rfl, h4, h5, h6, h7, h8, h9⟩ := ht
      rw [loadLoop]
      obtain ⟨m1, l1, res, e1, g1, b1, f1, hp⟩ := parseQuery_spec hw hl h1
      rw [e1, Option.bind_some]
      simp only [List.map_cons]
      have hpure : Ctl.loadLoop w.run glob ctl strict (t :: (Ctl.tokens ';' F pos rest).map Prod.snd) =
          match Ctl.parseQuery t with
          | none => some ⟨-1, [], []⟩
          | some (name, val) =>
            match Ctl.query w.run glob ctl (.config val) name .write with
            | none => none
            | some r =>
              if r.ret < 0 ∧ strict then some ⟨-1, r.calls, r.leaked⟩
              else (Ctl.loadLoop w.run glob ctl strict ((Ctl.tokens ';' F pos rest).map Prod.snd)).map fun r' =>
                ⟨r'.ret, r.calls ++ r'.calls, r'.leaked ++ r.leaked⟩ := by
        rw [Ctl.loadLoop]
        rfl
      cases hq : Ctl.parseQuery t with
      | none =>
        rw [hq] at hp hpure
        subst hp
        exact ⟨[], [], [], l1, g1, b1, by simp, by simp, fun _ => hpure⟩
      | some nv =>
        obtain ⟨nm, v⟩ := nv
        rw [hq] at hp hpure
        obtain ⟨a, c, rfl, ha, hcv, hpc, hcl⟩ := hp
        dsimp only at hpure ⊢
        have qr := query_spec w glob ctl hg hc g1.wf (src := .config (b, c)) (psrc := .config v)
          ⟨l1, bytes_heap.1 b1, hcv⟩ (name := (b, a)) (s := nm) ⟨l1, bytes_heap.1 b1, ha⟩ .write
        generalize query w glob ctl m1 (.config (b, c)) (b, a) .write = r1 at qr ⊢
        match r1, qr with
        | none, ⟨hr, hall⟩ =>
          refine ⟨⟨t, by simp, nm, v, hq, hr⟩, fun hok => ?_⟩
          rw [hpure, hall hok]
        | some (m2, r), ⟨ids, L, cs, g2, tx, hL, hcs, hall⟩ =>
          rw [Option.bind_some]
          dsimp only
          obtain ⟨l2, b2, f2⟩ := tx l1 (bytes_heap.1 b1)
          simp only at b2 f2
          have g12 := g1.trans (show Grown m1 m2 (· = b) ids L cs from g2) hx
          have hcs' : ∀ x ∈ cs, LineCalls w glob ctl t x := by
            intro x hxc
            rcases hcs with ⟨_, e⟩ | ⟨L', h⟩ | ⟨L', h⟩
            · rw [e] at hxc
              simp at hxc
            · exact ⟨nm, v, _, hq, .inl h, hxc⟩
            · exact ⟨nm, v, _, hq, .inr h, hxc⟩
          have hL' : ∀ i ∈ L, LineNumber t := fun i hi => ⟨nm, v, hq, hL i hi⟩
          by_cases hstop : r < 0 ∧ strict = true
          · rw [if_pos hstop]
            refine ⟨ids, L, cs, l2, by simpa using g12, bytes_heap.2 b2, fun i hi => ⟨t, by simp, hL' i hi⟩,
              fun x hx => ⟨t, by simp, hcs' x hx⟩, fun hok => ?_⟩
            rw [hpure, hall hok]
            dsimp only
            rw [if_pos hstop]
          · rw [if_neg hstop]
            have hsave : Holds l2 save rest := (h2.frame f1 (.inr h7)).frame f2 (.inr (by omega))
            obtain ⟨m3, node', save', l3, e3, b3, g3, t3, _⟩ := tokState_next g2.wf (bytes_heap.2 b2) hsave (sep := ';')
              (by decide) h4 h5 (fuel := fuel) (by omega) (lo := lo) (hi := hi) (by omega) h9
            rw [e3, Option.bind_some]
            dsimp only
            have := ih g3.wf b3 t3
            generalize loadLoop w glob ctl strict b fuel m3 node' save' = r3 at this ⊢
            match r3, this with
            | none, ⟨⟨q, hq1, hq2⟩, hall'⟩ =>
              refine ⟨⟨q, List.mem_cons_of_mem _ hq1, hq2⟩, fun hok => ?_⟩
              rw [hpure, hall hok]
              dsimp only
              rw [if_neg hstop, hall' hok]
              rfl
            | some (m4, r'), ⟨ids', L', cs', l', g4, b4, hL4, hcs4, hall'⟩ =>
              have g := (g12.trans g3 hx).trans g4 hx
              refine ⟨ids' ++ ids, L' ++ L, cs ++ cs', l', by simpa using g, b4, ?_, ?_, fun hok => ?_⟩
              · intro i hi
                rcases List.mem_append.1 hi with h | h
                · obtain ⟨q, a1, a2⟩ := hL4 i h
                  exact ⟨q, List.mem_cons_of_mem _ a1, a2⟩
                · exact ⟨t, by simp, hL' i h⟩
              · intro x hx
                rcases List.mem_append.1 hx with h | h
                · exact ⟨t, by simp, hcs' x h⟩
                · obtain ⟨q, a1, a2⟩ := hcs4 x h
                  exact ⟨q, List.mem_cons_of_mem _ a1, a2⟩
              · rw [hpure, hall hok]
                dsimp only
                rw [if_neg hstop, hall' hok]
                rfl

theorem load_spec (w : World H) (glob : List (Node H)) (ctl : Option (List (Node H))) (hg : Sound w glob)
    (hc : ∀ root, ctl = some root → Sound w root) (strict : Bool) {m : Mem H} (hw : WF m) {b : Nat} {l s : List Char}
    (hl : bytes m b = some l) (h : Holds l 0 s) :
    LoadRes w glob ctl strict m b (Ctl.parts ';' s) (load w glob ctl strict m b) := by
  have hb := bytes_lt hw hl
  have hx : ∀ x, x = b → x < m.cnt := fun x e => e ▸ hb
  unfold load
  rw [hl, Option.bind_some]
  have hlt := h.lt
  obtain ⟨m1, node, save, l1, e1, b1, g1, t1, _⟩ := tokState_next hw hl h (sep := ';') (by decide) (F := s.length + 1)
    (pos := 0) (fuel := l.length + 1) (by omega) (.inr rfl) (by omega) (lo := 0) (hi := s.length) (Nat.le_refl _) (by omega)
  rw [e1, Option.bind_some]
  dsimp only
  have := loadLoop_spec w glob ctl hg hc strict b (l.length + 1) g1.wf b1 t1
  rw [Ctl.tokens_snd _ _ _ _ (by omega)] at this
  generalize loadLoop w glob ctl strict b (l.length + 1) m1 node save = r at this ⊢
  match r, this with
  | none, h => exact h
  | some (m2, r), ⟨ids, L, cs, l', g, b2, hL, hcs, hall⟩ =>
    have g := g1.trans g hx
    exact ⟨ids, L, cs, l', by simpa using g, b2, hL, hcs, hall⟩

/-- Loading from a buffer that is allocated for the purpose and freed afterwards. -/
theorem load_temp (w : World H) (glob : List (Node H)) (ctl : Option (List (Node H))) (hg : Sound w glob)
    (hc : ∀ root, ctl = some root → Sound w root) (strict : Bool) {m m1 : Mem H} (hw : WF m) {k : List Char} {l s : List Char}
    (g1 : Grown { m with heap := upd m.heap m.cnt (some (.bytes k)), cnt := m.cnt + 1 } m1 (· = m.cnt) [] [] [])
    (hl : bytes m1 m.cnt = some l) (h : Holds l 0 s) :
    match (load w glob ctl strict m1 m.cnt).bind fun r => (free r.1 m.cnt).map (·, r.2) with
    | none => (∃ q ∈ Ctl.parts ';' s, LineTooLong glob ctl q) ∧
        ((∀ k, w.ok k = true) → Ctl.loadString w.run glob ctl strict s = none)
    | some (m', r) => ∃ ids L cs, Grown m m' (fun _ => False) ids L cs ∧
        (∀ i ∈ L, ∃ q ∈ Ctl.parts ';' s, LineNumber q) ∧ (∀ c ∈ cs, ∃ q ∈ Ctl.parts ';' s, LineCalls w glob ctl q c) ∧
        ((∀ k, w.ok k = true) → Ctl.loadString w.run glob ctl strict s = some ⟨r, cs, L⟩) := by
  have := load_spec w glob ctl hg hc strict g1.wf hl h
  have hs : Ctl.loadString w.run glob ctl strict s = Ctl.loadLoop w.run glob ctl strict (Ctl.parts ';' s) := by
    unfold Ctl.loadString
    rw [Ctl.toks_snd]
  rw [hs]
  generalize load w glob ctl strict m1 m.cnt = r at this ⊢
  match r, this with
  | none, h => exact h
  | some (m2, r), ⟨ids, L, cs, l', g, b2, hL, hcs, hall⟩ =>
    rw [Option.bind_some]
    have hfree : free m2 m.cnt = some { m2 with heap := upd m2.heap m.cnt none } := by
      unfold free
      rw [bytes_heap.1 b2]
    dsimp only
    rw [hfree]
    have g := g1.trans g (fun x e => by dsimp only; omega)
    rw [List.append_nil, List.append_nil, List.nil_append] at g
    exact ⟨ids, L, cs, Grown.temp rfl (g.mono fun b h => .inr h) hw, hL, hcs, hall⟩

theorem loadString_spec (w : World H) (glob : List (Node H)) (ctl : Option (List (Node H))) (hg : Sound w glob)
    (hc : ∀ root, ctl = some root → Sound w root) (strict : Bool) {m : Mem H} (hw : WF m) {cfg : Nat × Nat} {s : List Char}
    (h : Stored m cfg s) :
    match loadString w glob ctl strict m cfg with
    | none => (∃ q ∈ Ctl.parts ';' s, LineTooLong glob ctl q) ∧
        ((∀ k, w.ok k = true) → Ctl.loadString w.run glob ctl strict s = none)
    | some (m', r) => ∃ ids L cs, Grown m m' (fun _ => False) ids L cs ∧
        (∀ i ∈ L, ∃ q ∈ Ctl.parts ';' s, LineNumber q) ∧ (∀ c ∈ cs, ∃ q ∈ Ctl.parts ';' s, LineCalls w glob ctl q c) ∧
        ((∀ k, w.ok k = true) → Ctl.loadString w.run glob ctl strict s = some ⟨r, cs, L⟩) := by
  unfold loadString strdup
  rw [h.str]
  dsimp only [Option.map_some, Option.bind_some]
  rcases alloc_cases w m (.bytes (s ++ [nul])) with ⟨hok, ha⟩ | ⟨hok, ha⟩
  · rw [ha]
    dsimp only
    obtain ⟨l, h1, h2⟩ := h
    exact load_temp w glob ctl hg hc strict hw (k := s ++ [nul]) (l := s ++ [nul])
      (Grown.refl (hw.alloc (.bytes (s ++ [nul]))) _) (bytes_heap.2 (by dsimp only; rw [upd_same])) (holds_dup s h2.1)
  · rw [ha]
    refine ⟨[], [], [], Grown.refused _ hw, by simp, by simp, fun h => ?_⟩
    rw [h] at hok
    cases hok

/-! ## Files -/

theorem stripLoop_length (c : Bool) (f : List Char) : (Ctl.stripLoop c f).length ≤ f.length := by
  induction f generalizing c with
  | nil => simp [Ctl.stripLoop]
  | cons x t ih =>
    rw [Ctl.stripLoop]
    split
    · exact Nat.le_succ_of_le (ih _)
    split
    · exact Nat.le_succ_of_le (ih _)
    split
    · exact Nat.succ_le_succ (ih _)
    · exact Nat.le_succ_of_le (ih _)

theorem readLoop_spec (b : Nat) (f : List Char) {m : Mem H} (hw : WF m) {pre : List Char} {n : Nat} (comment : Bool)
    (hl : bytes m b = some (pre ++ List.replicate n nul)) (hn : (Ctl.stripLoop comment f).length < n) :
    ∃ m' k, readLoop b f m pre.length comment = some m' ∧ Grown m m' (· = b) [] [] [] ∧
      bytes m' b = some (pre ++ Ctl.stripLoop comment f ++ List.replicate (k + 1) nul) := by
  have hb := bytes_lt hw hl
  induction f generalizing m pre n comment with
  | nil =>
    rw [readLoop, Ctl.stripLoop] at *
    exact ⟨m, n - 1, rfl, Grown.refl hw _, by rw [hl, List.append_nil, Nat.sub_add_cancel (Nat.one_le_iff_ne_zero.2 (by rintro rfl; simp at hn))]⟩
  | cons c t ih =>
    rw [readLoop]
    rw [Ctl.stripLoop] at hn ⊢
    by_cases h1 : c = '#'
    · simp only [if_pos h1] at hn ⊢
      exact ih hw _ hl hn hb
    simp only [if_neg h1] at hn ⊢
    by_cases h2 : c = '\n'
    · simp only [if_pos h2] at hn ⊢
      exact ih hw _ hl hn hb
    simp only [if_neg h2] at hn ⊢
    by_cases h3 : (!comment && !isSpace c) = true
    · simp only [if_pos h3] at hn ⊢
      rw [hl, Option.bind_some]
      simp only [List.length_cons] at hn
      rw [if_pos (by simp; omega)]
      obtain ⟨n, rfl⟩ : ∃ k, n = k + 1 := ⟨n - 1, by omega⟩
      have hset : (pre ++ List.replicate (n + 1) nul).set pre.length c = (pre ++ [c]) ++ List.replicate n nul := by
        rw [List.set_append_right _ _ (Nat.le_refl _), Nat.sub_self, List.replicate_succ, List.append_assoc]
        rfl
      rw [hset]
      have g1 : Grown m (setBytes m b ((pre ++ [c]) ++ List.replicate n nul)) (· = b) [] [] [] := Grown.set hw hb rfl
      obtain ⟨m', k, e, g, hb'⟩ := ih (pre := pre ++ [c]) g1.wf comment (bytes_set _ _ _) (by omega) hb
      refine ⟨m', k, ?_, g1.trans g (fun x e => e ▸ hb), ?_⟩
      · rw [← e]
        simp
      · rw [hb']
        simp
    · simp only [if_neg h3] at hn ⊢
      exact ih hw _ hl hn hb

theorem holds_buffer (x : List Char) (k : Nat) : Holds (x ++ List.replicate (k + 1) nul) 0 (x.takeWhile (· != nul)) := by
  refine ⟨fun h => by have := List.mem_takeWhile_imp h; simp at this, ?_⟩
  rw [List.drop_zero]
  have hsplit := (List.takeWhile_append_dropWhile (p := (· != nul)) (l := x)).symm
  cases hd : x.dropWhile (· != nul) with
  | nil =>
    rw [hd, List.append_nil] at hsplit
    refine ⟨List.replicate k nul, ?_⟩
    rw [← hsplit, List.replicate_succ]
  | cons c r =>
    have hc : c = nul := by
      have := List.head?_dropWhile_not (· != nul) x
      rw [hd] at this
      simpa using this
    refine ⟨r ++ List.replicate (k + 1) nul, ?_⟩
    rw [hd, hc] at hsplit
    conv_lhs => rw [hsplit]
    simp

end Verif.CtlMem
