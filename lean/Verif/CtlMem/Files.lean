import Verif.CtlMem.Load
import Verif.Ctl.ConfigProps
/-!
# Configuration files in memory, and the words of the specification
-/
namespace Verif.CtlMem
open Verif.Ctl (Node Call Field Val QType Index Arg isSpace strtoll)
variable {H : Type}

theorem Grown.leaves {m m' : Mem H} (hw : WF m) {x : Nat → Prop} {ids : List Nat} {L : List Index} {cs : List (Call H)}
    (g : Grown m m' x ids L cs) : Leaves m m' x L :=
  ⟨ids, g.nodup, fun b hb => hw b (g.range b hb).1, g.ent, g.keep⟩

theorem tooLong_of_none {nodes : List (Node H)} {s : List Char} (h : Ctl.findNode nodes s = none) :
    Ctl.TooLong nodes (Ctl.parts '.' s) := by
  rcases Ctl.findNode_found nodes s with ⟨_, h1⟩ | ⟨_, h2⟩ | ⟨ix, h1, _⟩ | ⟨n, o, ix, l1, l2, t, rest, h1, _⟩
  · rw [h] at h1
    cases h1
  · rwa [Ctl.toks_snd] at h2
  · rw [h] at h1
    cases h1
  · rw [h] at h1
    cases h1

theorem number_of_tok {s : List Char} (h : ∃ x ∈ Ctl.toks '.' s, (strtoll x.2).isSome = true) : ¬ NoNumber s := by
  obtain ⟨x, hx, hs⟩ := h
  intro hn
  refine hn x.2 ?_ ((Ctl.strtoll_isSome x.2).1 hs)
  rw [← Ctl.toks_snd]
  exact List.mem_map_of_mem hx

theorem parts_of_parseQuery {q nm v : List Char} (h : Ctl.parseQuery q = some (nm, v)) : Ctl.parts '=' q = [nm, v] := by
  by_cases hc : ∃ a b, Ctl.parts '=' q = [a, b]
  · obtain ⟨a, b, hab⟩ := hc
    rw [Ctl.parseQuery_some hab] at h
    cases h
    exact hab
  · rw [Ctl.parseQuery_none fun a b hab => hc ⟨a, b, hab⟩] at h
    cases h

theorem loadFile_spec (w : World H) (glob : List (Node H)) (ctl : Option (List (Node H))) (hg : Sound w glob)
    (hc : ∀ root, ctl = some root → Sound w root) (strict : Bool) {m : Mem H} (hw : WF m) (f : File)
    (hf : ∀ n, f.tell = some n → f.contents.length ≤ n) :
    match loadFile w glob ctl strict m f with
    | none => ∃ q ∈ Ctl.parts ';' (textOf f), LineTooLong glob ctl q
    | some (m', r) => ∃ ids L cs, Grown m m' (fun _ => False) ids L cs ∧
        (∀ i ∈ L, ∃ q ∈ Ctl.parts ';' (textOf f), LineNumber q) ∧
        (∀ c ∈ cs, ∃ q ∈ Ctl.parts ';' (textOf f), LineCalls w glob ctl q c) := by
  unfold loadFile
  by_cases ho : f.opens = false
  · rw [ho]
    exact ⟨[], [], [], Grown.refl hw _, by simp, by simp⟩
  rw [Bool.not_eq_false] at ho
  rw [ho]
  dsimp only [Bool.not_true]
  rw [if_neg (by simp)]
  generalize hm0 : ({ m with files := m.files + 1 } : Mem H) = m0
  have hw0 : WF m0 := hm0 ▸ hw
  have lift : ∀ {m' : Mem H} {ids L cs}, Grown m0 m' (fun _ => False) ids L cs →
      Grown m { m' with files := m'.files - 1 } (fun _ => False) ids L cs := by
    intro m' ids L cs g
    subst hm0
    exact ⟨g.cnt, g.wf, g.keep, g.nodup, g.range, g.ent, g.calls, by
      have := g.files
      dsimp only at this ⊢
      omega⟩
  have dflt : ∀ {m' : Mem H} {ids L cs} {r : Int}, Grown m0 m' (fun _ => False) ids L cs → L = [] → cs = [] →
      match (some (m', r)).map fun r : Mem H × Int => (({ r.1 with files := r.1.files - 1 } : Mem H), r.2) with
      | none => ∃ q ∈ Ctl.parts ';' (textOf f), LineTooLong glob ctl q
      | some (m', _) => ∃ ids L cs, Grown m m' (fun _ => False) ids L cs ∧
        (∀ i ∈ L, ∃ q ∈ Ctl.parts ';' (textOf f), LineNumber q) ∧
        (∀ c ∈ cs, ∃ q ∈ Ctl.parts ';' (textOf f), LineCalls w glob ctl q c) := by
    intro m' ids L cs r g e1 e2
    exact ⟨ids, L, cs, lift g, by rw [e1]; simp, by rw [e2]; simp⟩
  unfold loadOpened
  cases f.seekEnd with
  | false => exact dflt (Grown.refl hw0 _) rfl rfl
  | true =>
    rw [if_neg (by simp)]
    cases hte : f.tell with
    | none => exact dflt (Grown.refl hw0 _) rfl rfl
    | some n =>
      dsimp only
      by_cases hbig : 2 ^ 20 < n
      · rw [if_pos hbig]
        exact dflt (Grown.refl hw0 _) rfl rfl
      rw [if_neg hbig]
      cases f.seekSet with
      | false => exact dflt (Grown.refl hw0 _) rfl rfl
      | true =>
        rw [if_neg (by simp)]
        rcases alloc_cases w m0 (.bytes (List.replicate (n + 1) nul)) with ⟨hok, ha⟩ | ⟨hok, ha⟩
        swap
        · rw [ha]
          exact dflt (Grown.refused _ hw0) rfl rfl
        rw [ha]
        dsimp only
        have hlen := stripLoop_length false f.contents
        have hn := hf n hte
        obtain ⟨m2, k, e2, g2, b2⟩ := readLoop_spec (pre := []) (n := n + 1) m0.cnt f.contents
          (hw0.alloc (.bytes (List.replicate (n + 1) nul))) false
          (bytes_heap.2 (by dsimp only; rw [upd_same]; rfl)) (by omega)
        rw [List.length_nil] at e2
        rw [e2, Option.bind_some]
        rw [List.nil_append, Ctl.strip_eq] at b2
        have := load_temp w glob ctl hg hc strict hw0 g2 b2 (holds_buffer _ k)
        change (match (load w glob ctl strict m2 m0.cnt).bind fun r => (free r.1 m0.cnt).map (·, r.2) with
          | none => (∃ q ∈ Ctl.parts ';' (textOf f), LineTooLong glob ctl q) ∧ _
          | some (m', r) => ∃ ids L cs, Grown m0 m' (fun _ => False) ids L cs ∧
            (∀ i ∈ L, ∃ q ∈ Ctl.parts ';' (textOf f), LineNumber q) ∧
            (∀ c ∈ cs, ∃ q ∈ Ctl.parts ';' (textOf f), LineCalls w glob ctl q c) ∧ _) at this
        generalize ((load w glob ctl strict m2 m0.cnt).bind fun r => (free r.1 m0.cnt).map (·, r.2)) = res at this ⊢
        match res, this with
        | none, ⟨h, _⟩ => exact h
        | some (m', r), ⟨ids, L, cs, g, h1, h2, _⟩ => exact ⟨ids, L, cs, lift g, h1, h2⟩

/-- The same for a file that can be read, when the allocator grants everything. -/
theorem loadFile_same (w : World H) (glob : List (Node H)) (ctl : Option (List (Node H))) (hg : Sound w glob)
    (hc : ∀ root, ctl = some root → Sound w root) (strict : Bool) {m : Mem H} (hw : WF m) (f : File)
    (ho : f.opens = true) (hse : f.seekEnd = true) (hss : f.seekSet = true) {n : Nat} (hte : f.tell = some n)
    (hf : f.contents.length ≤ n) (hn : n ≤ 2 ^ 20) (hok : ∀ k, w.ok k = true) :
    match loadFile w glob ctl strict m f with
    | none => Ctl.loadString w.run glob ctl strict (textOf f) = none
    | some (m', r) => ∃ ids L cs, Grown m m' (fun _ => False) ids L cs ∧
        Ctl.loadString w.run glob ctl strict (textOf f) = some ⟨r, cs, L⟩ := by
  unfold loadFile loadOpened
  rw [ho, hse, hss, hte]
  dsimp only [Bool.not_true]
  rw [if_neg (by simp), if_neg (by simp), if_neg (by omega), if_neg (by simp)]
  generalize hm0 : ({ m with files := m.files + 1 } : Mem H) = m0
  have hw0 : WF m0 := hm0 ▸ hw
  have lift : ∀ {m' : Mem H} {ids L cs}, Grown m0 m' (fun _ => False) ids L cs →
      Grown m { m' with files := m'.files - 1 } (fun _ => False) ids L cs := by
    intro m' ids L cs g
    subst hm0
    exact ⟨g.cnt, g.wf, g.keep, g.nodup, g.range, g.ent, g.calls, by
      have := g.files
      dsimp only at this ⊢
      omega⟩
  rcases alloc_cases w m0 (.bytes (List.replicate (n + 1) nul)) with ⟨_, ha⟩ | ⟨hno, ha⟩
  swap
  · rw [hok] at hno
    cases hno
  rw [ha]
  dsimp only
  have hlen := stripLoop_length false f.contents
  obtain ⟨m2, k, e2, g2, b2⟩ := readLoop_spec (pre := []) (n := n + 1) m0.cnt f.contents
    (hw0.alloc (.bytes (List.replicate (n + 1) nul))) false
    (bytes_heap.2 (by dsimp only; rw [upd_same]; rfl)) (by omega)
  rw [List.length_nil] at e2
  rw [e2, Option.bind_some]
  rw [List.nil_append, Ctl.strip_eq] at b2
  have := load_temp w glob ctl hg hc strict hw0 g2 b2 (holds_buffer _ k)
  generalize ((load w glob ctl strict m2 m0.cnt).bind fun r => (free r.1 m0.cnt).map (·, r.2)) = res at this ⊢
  match res, this with
  | none, ⟨_, h⟩ => exact h hok
  | some (m', r), ⟨ids, L, cs, g, h1, h2, h⟩ => exact ⟨ids, L, cs, lift g, h hok⟩

end Verif.CtlMem
