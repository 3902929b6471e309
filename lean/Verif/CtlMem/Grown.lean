import Verif.CtlMem.Str
import Mathlib.Data.List.Forall2
/-!
# What a piece of the code may do to memory
-/
namespace Verif.CtlMem
open Verif.Ctl (Node Call Field Val QType Index Arg isSpace strtoll)
variable {H : Type}

theorem upd_same {α : Type} (f : Nat → α) (k : Nat) (v : α) : upd f k v k = v := by simp [upd]
theorem upd_ne {α : Type} (f : Nat → α) {k x : Nat} (v : α) (h : x ≠ k) : upd f k v x = f x := by simp [upd, h]

/-- From `m` to `m'` the new blocks `ids` came to stay, entries with the contents `L`; of the other blocks only those of `x`
may have changed; the handlers were called with `cs`. -/
structure Grown (m m' : Mem H) (x : Nat → Prop) (ids : List Nat) (L : List Index) (cs : List (Call H)) : Prop where
  cnt : m.cnt ≤ m'.cnt
  wf : WF m'
  keep : ∀ b, b ∉ ids → ¬ x b → m'.heap b = m.heap b
  nodup : ids.Nodup
  range : ∀ b ∈ ids, m.cnt ≤ b ∧ b < m'.cnt
  ent : List.Forall₂ (fun b i => ∃ nx, m'.heap b = some (.entry i nx)) ids L
  calls : m'.calls = m.calls ++ cs
  files : m'.files = m.files

theorem ent_congr {m m' : Mem H} {ids : List Nat} {L : List Index}
    (h : List.Forall₂ (fun b i => ∃ nx, m.heap b = some (.entry i nx)) ids L) (he : ∀ b ∈ ids, m'.heap b = m.heap b) :
    List.Forall₂ (fun b i => ∃ nx, m'.heap b = some (.entry i nx)) ids L := by
  induction h with
  | nil => exact .nil
  | cons h _ ih =>
    refine .cons ?_ (ih fun b hb => he b (List.mem_cons_of_mem _ hb))
    obtain ⟨nx, h⟩ := h
    exact ⟨nx, by rw [he _ (by simp), h]⟩

theorem Grown.refl {m : Mem H} (hw : WF m) (x : Nat → Prop) : Grown m m x [] [] [] :=
  ⟨Nat.le_refl _, hw, fun _ _ _ => rfl, List.nodup_nil, by simp, .nil, by simp, rfl⟩

theorem Grown.mono {m m' : Mem H} {x y : Nat → Prop} {ids : List Nat} {L : List Index} {cs : List (Call H)}
    (g : Grown m m' x ids L cs) (h : ∀ b, x b → y b) : Grown m m' y ids L cs :=
  { g with keep := fun b h1 h2 => g.keep b h1 fun hx => h2 (h b hx) }

theorem Grown.trans {m m1 m2 : Mem H} {x : Nat → Prop} {ids1 ids2 : List Nat} {L1 L2 : List Index} {cs1 cs2 : List (Call H)}
    (g1 : Grown m m1 x ids1 L1 cs1) (g2 : Grown m1 m2 x ids2 L2 cs2) (hx : ∀ b, x b → b < m.cnt) :
    Grown m m2 x (ids2 ++ ids1) (L2 ++ L1) (cs1 ++ cs2) := by
  have dis : ∀ b ∈ ids1, b ∉ ids2 := fun b h1 h2 => by
    have a := g1.range b h1
    have b := g2.range b h2
    omega
  refine ⟨Nat.le_trans g1.cnt g2.cnt, g2.wf, ?_, ?_, ?_, ?_, ?_, g2.files.trans g1.files⟩
  · intro b hb hxb
    simp only [List.mem_append, not_or] at hb
    rw [g2.keep b hb.1 hxb, g1.keep b hb.2 hxb]
  · rw [List.nodup_append]
    exact ⟨g2.nodup, g1.nodup, fun a ha b hb e => dis b hb (e ▸ ha)⟩
  · intro b hb
    have c1 := g1.cnt
    have c2 := g2.cnt
    rcases List.mem_append.1 hb with h | h
    · have := g2.range b h
      omega
    · have := g1.range b h
      omega
  · refine List.rel_append g2.ent ?_
    have : ∀ b ∈ ids1, m2.heap b = m1.heap b := fun b hb =>
      g2.keep b (dis b hb) fun hxb => by
        have := hx b hxb
        have := g1.range b hb
        omega
    exact ent_congr g1.ent this
  · rw [g2.calls, g1.calls, List.append_assoc]

/-- A block that is allocated at the start and freed at the end leaves no trace. -/
theorem Grown.temp {m m1 m2 : Mem H} {x : Nat → Prop} {ids : List Nat} {L : List Index} {cs : List (Call H)} {k : Blk}
    (h1 : m1 = { m with heap := upd m.heap m.cnt (some k), cnt := m.cnt + 1 })
    (g : Grown m1 m2 (fun b => x b ∨ b = m.cnt) ids L cs) (hw : WF m) :
    Grown m { m2 with heap := upd m2.heap m.cnt none } x ids L cs := by
  subst h1
  have hc := g.cnt
  simp only at hc
  have hid : ∀ b ∈ ids, b ≠ m.cnt := fun b hb e => by
    have := (g.range b hb).1
    simp only at this
    omega
  refine ⟨by simp only; omega, ?_, ?_, g.nodup, ?_, ?_, g.calls, g.files⟩
  · intro b hb
    simp only at hb ⊢
    by_cases e : b = m.cnt
    · rw [e, upd_same]
    · rw [upd_ne _ _ e]
      exact g.wf b hb
  · intro b hb hxb
    simp only
    by_cases e : b = m.cnt
    · rw [e, upd_same, hw _ (Nat.le_refl _)]
    · rw [upd_ne _ _ e, g.keep b hb (by simp [hxb, e])]
      simp only
      rw [upd_ne _ _ e]
  · intro b hb
    have := g.range b hb
    simp only at this ⊢
    omega
  · exact ent_congr g.ent fun b hb => by
      simp only
      rw [upd_ne _ _ (hid b hb)]

/-- A block of `x` changes its contents. -/
theorem Grown.set {m : Mem H} {x : Nat → Prop} {b : Nat} {k : Blk} (hw : WF m) (hb : b < m.cnt) (hx : x b) :
    Grown m { m with heap := upd m.heap b (some k) } x [] [] [] := by
  refine ⟨Nat.le_refl _, ?_, ?_, List.nodup_nil, by simp, .nil, by simp, rfl⟩
  · intro c hc
    simp only at hc ⊢
    rw [upd_ne _ _ (by omega)]
    exact hw c hc
  · intro c _ hxc
    simp only
    rw [upd_ne _ _ (fun e : c = b => hxc (e.symm ▸ hx))]

/-- A refused allocation. -/
theorem Grown.refused {m : Mem H} (x : Nat → Prop) (hw : WF m) : Grown m { m with cnt := m.cnt + 1 } x [] [] [] :=
  ⟨Nat.le_succ _, fun b hb => hw b (by simp only at hb; omega), fun _ _ _ => rfl, List.nodup_nil, by simp, .nil, by simp, rfl⟩

/-- A new entry. -/
theorem Grown.entry {m : Mem H} (x : Nat → Prop) (hw : WF m) (i : Index) (nx : Option Nat) :
    Grown m { m with heap := upd m.heap m.cnt (some (.entry i nx)), cnt := m.cnt + 1 } x [m.cnt] [i] [] := by
  refine ⟨Nat.le_succ _, ?_, ?_, by simp, by simp, ?_, by simp, rfl⟩
  · intro b hb
    simp only at hb ⊢
    rw [upd_ne _ _ (by omega)]
    exact hw b (by omega)
  · intro b hb _
    simp only [List.mem_singleton] at hb
    simp only
    rw [upd_ne _ _ hb]
  · refine .cons ⟨nx, ?_⟩ .nil
    simp only
    rw [upd_same]

/-- A call of a handler. -/
theorem Grown.call {m : Mem H} (x : Nat → Prop) (hw : WF m) (c : Call H) :
    Grown m { m with calls := m.calls ++ [c] } x [] [] [c] :=
  ⟨Nat.le_refl _, hw, fun _ _ _ => rfl, List.nodup_nil, by simp, .nil, rfl, rfl⟩

theorem alloc_cases (w : World H) (m : Mem H) (k : Blk) :
    (w.ok m.cnt = true ∧ alloc w m k = ({ m with heap := upd m.heap m.cnt (some k), cnt := m.cnt + 1 }, some m.cnt)) ∨
    (w.ok m.cnt = false ∧ alloc w m k = ({ m with cnt := m.cnt + 1 }, none)) := by
  unfold alloc
  cases h : w.ok m.cnt
  · right; simp
  · left; simp

theorem bytes_lt {m : Mem H} (hw : WF m) {b : Nat} {l : List Char} (h : bytes m b = some l) : b < m.cnt := by
  by_cases hc : b < m.cnt
  · exact hc
  · unfold bytes at h
    rw [hw b (by omega)] at h
    cases h

theorem bytes_heap {m : Mem H} {b : Nat} {l : List Char} : bytes m b = some l ↔ m.heap b = some (.bytes l) := by
  unfold bytes
  constructor
  · intro h
    split at h
    · rename_i e
      rw [e, Option.some.inj h]
    · cases h
  · intro h
    rw [h]

theorem bytes_set (m : Mem H) (b : Nat) (l : List Char) : bytes (setBytes m b l) b = some l := by
  rw [bytes_heap]
  simp [setBytes, upd_same]

/-- One call of `strtok_r` on a string in a block. -/
theorem strtok_spec {m : Mem H} (hw : WF m) {b p : Nat} {l s : List Char} (hl : bytes m b = some l) (h : Holds l p s)
    {sep : Char} (hsep : sep ≠ nul) :
    (Ctl.strtok sep s = none ∧ ∃ m' save, strtok m b sep p = some (m', none, save) ∧ bytes m' b = some l ∧
      Grown m m' (· = b) [] [] []) ∨
    ∃ o t rest l' save m', Ctl.strtok sep s = some (o, t, rest) ∧ strtok m b sep p = some (m', some (p + o), save) ∧
      bytes m' b = some l' ∧ Grown m m' (· = b) [] [] [] ∧
      Holds l' (p + o) t ∧ Holds l' save rest ∧ Same l l' p (p + s.length) ∧ p + o + t.length ≤ save ∧
      save + rest.length = p + s.length ∧ (rest = [] ∨ save = p + o + t.length + 1) := by
  have hb := bytes_lt hw hl
  rcases strtokB_spec h hsep with ⟨h1, save, h2⟩ | ⟨o, t, rest, l', save, h1, h2, h3⟩
  · left
    refine ⟨h1, setBytes m b l, save, ?_, bytes_set _ _ _, Grown.set hw hb rfl⟩
    unfold strtok
    rw [hl, Option.bind_some, h2]
    rfl
  · right
    refine ⟨o, t, rest, l', save, setBytes m b l', h1, ?_, bytes_set _ _ _, Grown.set hw hb rfl, h3⟩
    unfold strtok
    rw [hl, Option.bind_some, h2]
    rfl

end Verif.CtlMem
