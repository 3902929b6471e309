import Verif.CtlMem.Files
/-!
# Control queries and configurations in memory: C80
-/
namespace Verif.CtlMem
open Verif.Ctl (Node Call Field Val QType Index Arg isSpace strtoll)
variable {H : Type}

/-! ## Queries -/

/-- **C80**: a query does in memory what it does with strings as lists (C38): the same result, the same calls of handlers,
and undefined behaviour in the same cases. -/
theorem C80_query_same (w : World H) (glob : List (Node H)) (ctl : Option (List (Node H))) (hg : Sound w glob)
    (hc : ∀ root, ctl = some root → Sound w root) (m : Mem H) (hw : WF m) (src : Src) (psrc : Ctl.Source)
    (hs : SrcIs m src psrc) (name : Nat × Nat) (s : List Char) (hn : Stored m name s) (t : QType)
    (hok : ∀ k, w.ok k = true) :
    (query w glob ctl m src name t).map (fun r => (r.2, r.1.calls)) =
      (Ctl.query w.run glob ctl psrc s t).map fun o => (o.ret, m.calls ++ o.calls) := by
  have := query_spec w glob ctl hg hc hw hs hn t
  generalize query w glob ctl m src name t = r at this ⊢
  match r, this with
  | none, ⟨_, h⟩ => rw [h hok]; rfl
  | some (m', r), ⟨ids, L, cs, g, _, _, _, h⟩ =>
    rw [h hok]
    simp [g.calls]

/-- **C80**: whatever the allocator refuses, a query is defined, if the name does not go on after a leaf. (Missing: names
that do, see `Ctl.C38_tooLong_violated`.) -/
theorem C80_query_defined_partial (w : World H) (glob : List (Node H)) (ctl : Option (List (Node H))) (hg : Sound w glob)
    (hc : ∀ root, ctl = some root → Sound w root) (m : Mem H) (hw : WF m) (src : Src) (psrc : Ctl.Source)
    (hs : SrcIs m src psrc) (name : Nat × Nat) (s : List Char) (hn : Stored m name s) (t : QType)
    (hl : NotTooLong glob ctl s) : ∃ m' r, query w glob ctl m src name t = some (m', r) := by
  have := query_spec w glob ctl hg hc hw hs hn t
  generalize query w glob ctl m src name t = r at this ⊢
  match r, this with
  | none, ⟨h, _⟩ =>
    rcases h with h | ⟨root, e, h⟩
    · exact (hl.1 (tooLong_of_none h)).elim
    · exact (hl.2 root e (tooLong_of_none h)).elim
  | some (m', r), _ => exact ⟨m', r, rfl⟩

/-- **C80**: whatever the allocator refuses, a query frees all it has allocated but entries of indexes, and it leaves none of
these if no part of the name is a number; of the memory of others it writes nothing but the text of the argument. (Missing:
the entries, see `C80_numbers_violated`.) -/
theorem C80_query_memory_partial (w : World H) (glob : List (Node H)) (ctl : Option (List (Node H))) (hg : Sound w glob)
    (hc : ∀ root, ctl = some root → Sound w root) (m : Mem H) (hw : WF m) (src : Src) (psrc : Ctl.Source)
    (hs : SrcIs m src psrc) (name : Nat × Nat) (s : List Char) (hn : Stored m name s) (t : QType) (m' : Mem H) (r : Int)
    (h : query w glob ctl m src name t = some (m', r)) :
    WF m' ∧ m'.files = m.files ∧ Text m m' src psrc ∧
      ∃ L, Leaves m m' (srcBlk src) L ∧ (NoNumber s → L = []) ∧
        ((∀ k, w.ok k = true) → (Ctl.query w.run glob ctl psrc s t).map Ctl.Out.leaked = some L) := by
  have := query_spec w glob ctl hg hc hw hs hn t
  rw [h] at this
  obtain ⟨ids, L, cs, g, tx, hL, _, hall⟩ := this
  refine ⟨g.wf, g.files, tx, L, g.leaves hw, fun hno => ?_, fun hok => by rw [hall hok]; rfl⟩
  cases L with
  | nil => rfl
  | cons i L => exact (number_of_tok (hL i (by simp)) hno).elim

/-- **C80**: a query of which something was refused fails and calls nothing, or it does what the query does, or what it does
without the global tree. -/
theorem C80_query_refused (w : World H) (glob : List (Node H)) (ctl : Option (List (Node H))) (hg : Sound w glob)
    (hc : ∀ root, ctl = some root → Sound w root) (m : Mem H) (hw : WF m) (src : Src) (psrc : Ctl.Source)
    (hs : SrcIs m src psrc) (name : Nat × Nat) (s : List Char) (hn : Stored m name s) (t : QType) (m' : Mem H) (r : Int)
    (h : query w glob ctl m src name t = some (m', r)) :
    ∃ cs, m'.calls = m.calls ++ cs ∧
      ((r = -1 ∧ cs = []) ∨ (∃ L, Ctl.query w.run glob ctl psrc s t = some ⟨r, cs, L⟩) ∨
        ∃ L, Ctl.query w.run [] ctl psrc s t = some ⟨r, cs, L⟩) := by
  have := query_spec w glob ctl hg hc hw hs hn t
  rw [h] at this
  obtain ⟨ids, L, cs, g, _, _, hcs, _⟩ := this
  exact ⟨cs, g.calls, hcs⟩

/-! ## Configurations from strings -/

/-- **C80**: a configuration does in memory what it does with strings as lists (C39), although its three levels of splitting
and the handlers write into the same buffer. -/
theorem C80_string_same (w : World H) (glob : List (Node H)) (ctl : Option (List (Node H))) (hg : Sound w glob)
    (hc : ∀ root, ctl = some root → Sound w root) (strict : Bool) (m : Mem H) (hw : WF m) (cfg : Nat × Nat) (s : List Char)
    (hs : Stored m cfg s) (hok : ∀ k, w.ok k = true) :
    (loadString w glob ctl strict m cfg).map (fun r => (r.2, r.1.calls)) =
      (Ctl.loadString w.run glob ctl strict s).map fun o => (o.ret, m.calls ++ o.calls) := by
  have := loadString_spec w glob ctl hg hc strict hw hs
  generalize loadString w glob ctl strict m cfg = r at this ⊢
  match r, this with
  | none, ⟨_, h⟩ => rw [h hok]; rfl
  | some (m', r), ⟨ids, L, cs, g, _, _, h⟩ =>
    rw [h hok]
    simp [g.calls]

theorem line_ok {glob : List (Node H)} {ctl : Option (List (Node H))} {s : List Char}
    (hl : ∀ name, Names s name → NotTooLong glob ctl name) : ¬ ∃ q ∈ Ctl.parts ';' s, LineTooLong glob ctl q := by
  rintro ⟨q, hq, nm, v, hp, h⟩
  have := hl nm ⟨q, hq, v, parts_of_parseQuery hp⟩
  rcases h with h | ⟨root, e, h⟩
  · exact this.1 (tooLong_of_none h)
  · exact this.2 root e (tooLong_of_none h)

theorem line_number {s : List Char} (hno : ∀ name, Names s name → NoNumber name) : ¬ ∃ q ∈ Ctl.parts ';' s, LineNumber q := by
  rintro ⟨q, hq, nm, v, hp, h⟩
  exact number_of_tok h (hno nm ⟨q, hq, v, parts_of_parseQuery hp⟩)

/-- **C80**: whatever the allocator refuses, loading a configuration is defined, if no name goes on after a leaf. (Missing:
names that do, see `Ctl.C38_tooLong_violated`.) -/
theorem C80_string_defined_partial (w : World H) (glob : List (Node H)) (ctl : Option (List (Node H))) (hg : Sound w glob)
    (hc : ∀ root, ctl = some root → Sound w root) (strict : Bool) (m : Mem H) (hw : WF m) (cfg : Nat × Nat) (s : List Char)
    (hs : Stored m cfg s) (hl : ∀ name, Names s name → NotTooLong glob ctl name) :
    ∃ m' r, loadString w glob ctl strict m cfg = some (m', r) := by
  have := loadString_spec w glob ctl hg hc strict hw hs
  generalize loadString w glob ctl strict m cfg = r at this ⊢
  match r, this with
  | none, ⟨h, _⟩ => exact (line_ok hl h).elim
  | some (m', r), _ => exact ⟨m', r, rfl⟩

/-- **C80**: whatever the allocator refuses, loading a configuration frees all it has allocated but entries of indexes, and
none of these is left if no name has a number in it; the memory of others does not change. (Missing: the entries, see
`C80_numbers_violated`.) -/
theorem C80_string_memory_partial (w : World H) (glob : List (Node H)) (ctl : Option (List (Node H))) (hg : Sound w glob)
    (hc : ∀ root, ctl = some root → Sound w root) (strict : Bool) (m : Mem H) (hw : WF m) (cfg : Nat × Nat) (s : List Char)
    (hs : Stored m cfg s) (m' : Mem H) (r : Int) (h : loadString w glob ctl strict m cfg = some (m', r)) :
    WF m' ∧ m'.files = m.files ∧ ∃ L, Leaves m m' (fun _ => False) L ∧ ((∀ name, Names s name → NoNumber name) → L = []) := by
  have := loadString_spec w glob ctl hg hc strict hw hs
  rw [h] at this
  obtain ⟨ids, L, cs, g, hL, _⟩ := this
  refine ⟨g.wf, g.files, L, g.leaves hw, fun hno => ?_⟩
  cases L with
  | nil => rfl
  | cons i L => exact (line_number hno (hL i (by simp))).elim

/-- **C80**: if something is refused, the handlers are still called only as some query of the configuration calls them, with
the global tree or without it. -/
theorem C80_string_refused (w : World H) (glob : List (Node H)) (ctl : Option (List (Node H))) (hg : Sound w glob)
    (hc : ∀ root, ctl = some root → Sound w root) (strict : Bool) (m : Mem H) (hw : WF m) (cfg : Nat × Nat) (s : List Char)
    (hs : Stored m cfg s) (m' : Mem H) (r : Int) (h : loadString w glob ctl strict m cfg = some (m', r)) :
    ∃ cs, m'.calls = m.calls ++ cs ∧ ∀ c ∈ cs, ∃ q ∈ Ctl.parts ';' s, ∃ name val out, Ctl.parts '=' q = [name, val] ∧
      (Ctl.query w.run glob ctl (.config val) name .write = some out ∨
        Ctl.query w.run [] ctl (.config val) name .write = some out) ∧ c ∈ out.calls := by
  have := loadString_spec w glob ctl hg hc strict hw hs
  rw [h] at this
  obtain ⟨ids, L, cs, g, _, hcs, _⟩ := this
  refine ⟨cs, g.calls, fun c hcc => ?_⟩
  obtain ⟨q, hq, nm, v, out, h1, h2, h3⟩ := hcs c hcc
  exact ⟨q, hq, nm, v, out, parts_of_parseQuery h1, h2, h3⟩

/-! ## Configurations from files -/

/-- **C80**: a file that does not grow while it is read does what its text does. (Missing: files that grow, see
`C80_fileGrows_violated`.) -/
theorem C80_file_same_partial (w : World H) (glob : List (Node H)) (ctl : Option (List (Node H))) (hg : Sound w glob)
    (hc : ∀ root, ctl = some root → Sound w root) (strict : Bool) (m : Mem H) (hw : WF m) (f : File)
    (ho : f.opens = true) (hse : f.seekEnd = true) (hss : f.seekSet = true) (n : Nat) (hte : f.tell = some n)
    (hf : f.contents.length ≤ n) (hn : n ≤ 2 ^ 20) (hok : ∀ k, w.ok k = true) :
    (loadFile w glob ctl strict m f).map (fun r => (r.2, r.1.calls)) =
      (Ctl.loadString w.run glob ctl strict (textOf f)).map fun o => (o.ret, m.calls ++ o.calls) := by
  have := loadFile_same w glob ctl hg hc strict hw f ho hse hss hte hf hn hok
  generalize loadFile w glob ctl strict m f = r at this ⊢
  match r, this with
  | none, h => rw [h]; rfl
  | some (m', r), ⟨ids, L, cs, g, h⟩ =>
    rw [h]
    simp [g.calls]

/-- **C80**: whatever is refused or fails, loading a file is defined, closes the file, frees its buffer and leaves nothing but
entries of indexes, of which there are none if no name has a number in it. (Missing: files that grow, names that go on after
a leaf, the entries.) -/
theorem C80_file_memory_partial (w : World H) (glob : List (Node H)) (ctl : Option (List (Node H))) (hg : Sound w glob)
    (hc : ∀ root, ctl = some root → Sound w root) (strict : Bool) (m : Mem H) (hw : WF m) (f : File)
    (hf : ∀ n, f.tell = some n → f.contents.length ≤ n)
    (hl : ∀ name, Names (textOf f) name → NotTooLong glob ctl name) :
    ∃ m' r, loadFile w glob ctl strict m f = some (m', r) ∧ WF m' ∧ m'.files = m.files ∧
      ∃ L, Leaves m m' (fun _ => False) L ∧ ((∀ name, Names (textOf f) name → NoNumber name) → L = []) := by
  have := loadFile_spec w glob ctl hg hc strict hw f hf
  generalize loadFile w glob ctl strict m f = r at this ⊢
  match r, this with
  | none, h => exact (line_ok hl h).elim
  | some (m', r), ⟨ids, L, cs, g, hL, _⟩ =>
    refine ⟨m', r, rfl, g.wf, g.files, L, g.leaves hw, fun hno => ?_⟩
    cases L with
    | nil => rfl
    | cons i L => exact (line_number hno (hL i (by simp))).elim

/-- **C80** fails if a file grows between `ftell` and the end of the reading: any text that is longer than the buffer is
written past the end of the buffer. -/
theorem C80_fileGrows_violated (w : World H) (glob : List (Node H)) (ctl : Option (List (Node H))) (strict : Bool) (m : Mem H)
    (n : Nat) (hn : n ≤ 2 ^ 20) (hok : w.ok m.cnt = true) (contents : List Char)
    (hc : ∀ c ∈ contents, c ≠ '#' ∧ isSpace c = false) (hlen : n + 1 < contents.length) :
    loadFile w glob ctl strict m ⟨true, true, some n, true, contents⟩ = none := by
  have key : ∀ (t : List Char) (m : Mem H) (b pos : Nat) (l : List Char), (∀ c ∈ t, c ≠ '#' ∧ isSpace c = false) →
      bytes m b = some l → pos ≤ l.length → l.length < pos + t.length → readLoop b t m pos false = none := by
    intro t
    induction t with
    | nil =>
      intro m b pos l _ _ h1 h2
      simp at h2
      omega
    | cons c t ih =>
      intro m b pos l ht hl h1 h2
      obtain ⟨e1, e2⟩ := ht c (by simp)
      have e3 : c ≠ '\n' := fun e => by
        subst e
        exact absurd e2 (by decide)
      rw [readLoop, if_neg e1, if_neg e3, if_pos (by simp [e2]), hl, Option.bind_some]
      split
      · rename_i hp
        refine ih _ _ _ _ (fun c hc => ht c (List.mem_cons_of_mem _ hc)) (bytes_set _ _ _) ?_ ?_
        · simp
          omega
        · simp only [List.length_set]
          simp only [List.length_cons] at h2
          omega
      · rfl
  unfold loadFile loadOpened
  dsimp only [Bool.not_true]
  rw [if_neg (by simp), if_neg (by simp), if_neg (by omega), if_neg (by simp)]
  unfold alloc
  dsimp only
  rw [if_pos hok]
  dsimp only
  rw [key contents _ m.cnt 0 (List.replicate (n + 1) nul) hc (bytes_heap.2 (by dsimp only; rw [upd_same])) (by omega)
    (by simp; omega)]
  rfl

/-! ## Numbers -/

/-- The same query, `n` times. -/
def repeatQuery (w : World H) (glob : List (Node H)) (m : Mem H) (src : Src) (name : Nat × Nat) : Nat → Option (Mem H)
  | 0 => some m
  | n + 1 => (repeatQuery w glob m src name n).bind fun m' => (query w glob none m' src name .read).map Prod.fst

theorem five (run : Call Ctl.Handler → Int) :
    Ctl.query run Ctl.globalTree none (.program (some 1)) ['5'] .read = some ⟨-1, [], [⟨[], 5⟩]⟩ := rfl

/-- **C80** fails for names with numbers: asking the library `n` times for the name "5", which does not exist, leaves `n`
blocks of memory. -/
theorem C80_numbers_violated (w : World Ctl.Handler) (hok : ∀ k, w.ok k = true) (hs : Sound w Ctl.globalTree)
    (m : Mem Ctl.Handler) (hw : WF m) (name : Nat × Nat) (hn : Stored m name ['5']) (n : Nat) :
    ∃ m', repeatQuery w Ctl.globalTree m (.program (some 1)) name n = some m' ∧
      Leaves m m' (fun _ => False) (List.replicate n ⟨[], 5⟩) := by
  suffices h : ∃ m' ids, repeatQuery w Ctl.globalTree m (.program (some 1)) name n = some m' ∧
      Grown m m' (fun _ => False) ids (List.replicate n ⟨[], 5⟩) [] by
    obtain ⟨m', ids, h1, h2⟩ := h
    exact ⟨m', h1, h2.leaves hw⟩
  induction n with
  | zero => exact ⟨m, [], rfl, Grown.refl hw _⟩
  | succ n ih =>
    obtain ⟨m', ids, h1, g⟩ := ih
    rw [repeatQuery, h1, Option.bind_some]
    have := query_spec w Ctl.globalTree none hs (fun _ e => by cases e) g.wf (src := .program (some 1))
      (psrc := .program (some 1)) rfl (hn.keep hw g.old) .read
    generalize query w Ctl.globalTree none m' (.program (some 1)) name .read = r at this ⊢
    match r, this with
    | none, ⟨_, h⟩ =>
      have := h hok
      rw [five] at this
      cases this
    | some (m2, r), ⟨ids', L, cs, g2, _, _, _, h⟩ =>
      have := h hok
      rw [five] at this
      simp only [Option.some.injEq, Ctl.Out.mk.injEq] at this
      obtain ⟨_, rfl, rfl⟩ := this
      exact ⟨m2, ids' ++ ids, rfl, g.trans (g2.mono fun _ h => h) (fun _ h => h.elim)⟩

/-! ## A case -/

/-- A tree with a leaf that takes an integer and a boolean. -/
def demoTree : List (Node Nat) :=
  [.named "debug".toList [.leaf "set".toList (fun t => if t = .write then some 7 else none)
    [⟨0, 4, .integer⟩, ⟨4, 4, .boolean⟩]]]

/-- A world in which the argument structure has 8 bytes and handlers write over what they get. -/
def demoW : World Nat := ⟨fun _ => true, fun _ => 0, fun _ _ => some '!', fun _ => 8⟩

/-- A configuration in block 0. -/
def demoM : Mem Nat := ⟨fun b => if b = 0 then some (.bytes "debug.set=3,y;;debug.set=4,n;\x00rest".toList) else none, 1, [], 0⟩

theorem demo_wf : WF demoM := fun b hb => if_neg (by
  have : demoM.cnt = 1 := rfl
  omega)

theorem demo_stored : Stored demoM (0, 0) "debug.set=3,y;;debug.set=4,n;".toList :=
  ⟨_, rfl, by decide +kernel, _, rfl⟩

theorem demo_sound : Sound demoW demoTree := by
  intro name cb proto h hw hh f hf
  have : proto = [⟨0, 4, .integer⟩, ⟨4, 4, .boolean⟩] := by
    cases hw with
    | here h => simp [demoTree] at h
    | named h1 h2 =>
      simp only [demoTree, List.mem_singleton, Node.named.injEq] at h1
      obtain ⟨_, rfl⟩ := h1
      cases h2 with
      | here h => simp at h; exact h.2.2
      | named h _ => simp at h
      | indexed h _ => simp at h
    | indexed h _ => simp [demoTree] at h
  subst this
  simp only [List.mem_cons, List.not_mem_nil, or_false] at hf
  rcases hf with rfl | rfl <;> simp [demoW]

theorem demo_names (name : List Char) (h : Names "debug.set=3,y;;debug.set=4,n;".toList name) : name = "debug.set".toList := by
  obtain ⟨q, hq, val, hv⟩ := h
  have e : Ctl.parts ';' "debug.set=3,y;;debug.set=4,n;".toList = ["debug.set=3,y".toList, "debug.set=4,n".toList] := by
    decide +kernel
  rw [e] at hq
  simp only [List.mem_cons, List.not_mem_nil, or_false] at hq
  rcases hq with rfl | rfl
  · have e : Ctl.parts '=' "debug.set=3,y".toList = ["debug.set".toList, "3,y".toList] := by decide +kernel
    rw [e] at hv
    exact ((List.cons.inj hv).1).symm
  · have e : Ctl.parts '=' "debug.set=4,n".toList = ["debug.set".toList, "4,n".toList] := by decide +kernel
    rw [e] at hv
    exact ((List.cons.inj hv).1).symm

theorem demo_parts : Ctl.parts '.' "debug.set".toList = ["debug".toList, "set".toList] := by decide +kernel

theorem demo_short : NotTooLong demoTree none "debug.set".toList := by
  refine ⟨fun h => ?_, fun _ e => by cases e⟩
  rw [demo_parts] at h
  have sel : ∀ n, Ctl.Selects demoTree "debug".toList n → n ∈ demoTree := by
    rintro n ⟨a, b, e, _⟩
    rw [e]
    simp
  cases h with
  | leaf h _ => exact absurd (sel _ h) (by simp [demoTree])
  | indexed h _ => exact absurd (sel _ h) (by simp [demoTree])
  | named h h2 =>
    have := sel _ h
    simp only [demoTree, List.mem_singleton, Node.named.injEq] at this
    obtain ⟨_, rfl⟩ := this
    cases h2 with
    | leaf _ h => exact h rfl
    | named _ h => cases h
    | indexed _ h => cases h

theorem demo_noNumber : NoNumber "debug.set".toList := by
  intro seg hs
  rw [demo_parts] at hs
  rintro ⟨ws, sign, c, rest, e, h1, h2, h3, h4⟩
  have key : ∀ x ∈ seg, Ctl.blank x = false ∧ ¬ (x ≤ '9') := by
    simp only [List.mem_cons, List.not_mem_nil, or_false] at hs
    rcases hs with rfl | rfl <;> decide
  exact (key c (by rw [e]; simp)).2 h4

/-- Both queries are executed, and nothing is left. -/
example : (loadString demoW demoTree none true demoM (0, 0)).map (fun r => (r.2, r.1.calls)) =
    some (0, [⟨7, .parsed [(0, .int 3), (4, .int 1)], some [], none, none⟩,
      ⟨7, .parsed [(0, .int 4), (4, .int 0)], some [], none, none⟩]) := by
  rw [C80_string_same demoW demoTree none demo_sound (fun _ e => by cases e) true demoM demo_wf (0, 0) _ demo_stored
    (fun _ => rfl)]
  rfl

/-- Whatever is refused, the configuration is loaded or not, and nothing is left. -/
example (ok : Nat → Bool) : ∃ m' r, loadString { demoW with ok := ok } demoTree none true demoM (0, 0) = some (m', r) ∧
    m'.heap = demoM.heap := by
  have hs : Sound { demoW with ok := ok } demoTree := demo_sound
  obtain ⟨m', r, h⟩ := C80_string_defined_partial { demoW with ok := ok } demoTree none hs (fun _ e => by cases e) true demoM
    demo_wf (0, 0) _ demo_stored fun name hn => by rw [demo_names name hn]; exact demo_short
  obtain ⟨_, _, L, ⟨ids, _, _, hf, hh⟩, hL⟩ := C80_string_memory_partial { demoW with ok := ok } demoTree none hs
    (fun _ e => by cases e) true demoM demo_wf (0, 0) _ demo_stored m' r h
  have hL := hL fun name hn => by rw [demo_names name hn]; exact demo_noNumber
  subst hL
  cases hf
  exact ⟨m', r, h, funext fun b => hh b (by simp) (by simp)⟩

/-- If the first copy of the name is refused, the query fails without a call. -/
example : (query { demoW with ok := fun _ => false } demoTree none
    ⟨fun b => if b = 0 then some (.bytes "debug.set\x003,y\x00".toList) else none, 1, [], 0⟩ (.config (0, 10)) (0, 0) .write).map
      (fun r => (r.2, r.1.calls)) = some (-1, []) := by rfl

/-- A file with two queries, a comment and white space. -/
def demoF : File := ⟨true, true, some 40, true, "debug.set = 3, y; # one\n;debug.set=4,n;".toList⟩

theorem demo_text : textOf demoF = "debug.set=3,y;;debug.set=4,n;".toList := by decide +kernel

/-- It is loaded, closed, and nothing is left. -/
example : (loadFile demoW demoTree none true demoM demoF).map (fun r => (r.2, r.1.calls)) =
      some (0, [⟨7, .parsed [(0, .int 3), (4, .int 1)], some [], none, none⟩,
        ⟨7, .parsed [(0, .int 4), (4, .int 0)], some [], none, none⟩]) ∧
    ∃ m' r, loadFile demoW demoTree none true demoM demoF = some (m', r) ∧ m'.files = 0 ∧ m'.heap = demoM.heap := by
  constructor
  · rw [C80_file_same_partial demoW demoTree none demo_sound (fun _ e => by cases e) true demoM demo_wf demoF rfl rfl rfl 40
      rfl (by decide) (by decide) (fun _ => rfl), demo_text]
    rfl
  · obtain ⟨m', r, h, _, hfi, L, ⟨ids, _, _, hf, hh⟩, hL⟩ := C80_file_memory_partial demoW demoTree none demo_sound
      (fun _ e => by cases e) true demoM demo_wf demoF (by intro n hn; cases hn; decide)
      (fun name hn => by rw [demo_text] at hn; rw [demo_names name hn]; exact demo_short)
    have hL := hL fun name hn => by rw [demo_text] at hn; rw [demo_names name hn]; exact demo_noNumber
    subst hL
    cases hf
    exact ⟨m', r, h, hfi, funext fun b => hh b (by simp) (by simp)⟩

/-- A file that was empty when its size was asked and has two characters when it is read. -/
example : loadFile demoW demoTree none true demoM ⟨true, true, some 0, true, "ab".toList⟩ = none :=
  C80_fileGrows_violated demoW demoTree none true demoM 0 (by decide) rfl _ (by decide) (by decide)

/-- The tree of the library describes its arguments rightly. -/
example (w : World Ctl.Handler) : Sound w Ctl.globalTree := by
  intro name cb proto h hw
  exfalso
  have key : ∀ l, Within l (.leaf name cb proto) → l = Ctl.globalTree → False := by
    intro l hl e
    subst e
    cases hl with
    | here h => simp [Ctl.globalTree] at h
    | indexed h _ => simp [Ctl.globalTree] at h
    | named h1 h2 =>
      simp only [Ctl.globalTree, List.mem_singleton, Node.named.injEq] at h1
      obtain ⟨_, rfl⟩ := h1
      cases h2 with
      | here h => simp at h
      | indexed h _ => simp at h
      | named h1 h2 =>
        simp only [List.mem_cons, List.not_mem_nil, or_false, Node.named.injEq] at h1
        rcases h1 with ⟨_, rfl⟩ | ⟨_, rfl⟩ <;> cases h2 <;> simp_all
  exact key _ hw rfl

end Verif.CtlMem
