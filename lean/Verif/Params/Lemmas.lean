import Verif.Params.Spec
import Verif.Utils.NatBits
/-!
# Lemmas for the parameter objects: the invariant
-/
namespace Verif.Params

/-! ## The monad -/

theorem bind_app {α β : Type} (m : M α) (f : α → M β) (s : St) :
    (m >>= f) s = match m s with
      | none => none
      | some (a, s) => f a s := rfl

theorem pure_app {α : Type} (a : α) (s : St) : (pure a : M α) s = some (a, s) := rfl

theorem upd_same {α : Type} (f : Addr → α) (a : Addr) (x : α) : upd f a x a = x := by simp [upd]

theorem upd_ne {α : Type} (f : Addr → α) {a b : Addr} (x : α) (h : b ≠ a) : upd f a x b = f b := by simp [upd, h]

/-- The heap after `free`. -/
def rel (f : Addr → Option Cell) (a : Addr) : Addr → Option Cell := if a = 0 then f else upd f a none

theorem rel_zero (f : Addr → Option Cell) : rel f 0 = f := by simp [rel]

theorem rel_ne (f : Addr → Option Cell) {a b : Addr} (h : b ≠ a) : rel f a b = f b := by
  unfold rel
  split
  · rfl
  · rw [upd_ne _ _ h]

theorem rel_same (f : Addr → Option Cell) {a : Addr} (h : a ≠ 0) : rel f a a = none := by
  unfold rel
  rw [if_neg h, upd_same]

theorem free_app (a : Addr) (s : St) (h : a ≠ 0 → s.heap a ≠ none) :
    free a s = some ((), { s with heap := rel s.heap a }) := by
  unfold free rel
  by_cases h0 : a = 0
  · simp [h0]
  · rw [if_neg h0, if_neg h0]
    cases e : s.heap a with
    | none => exact absurd e (h h0)
    | some c => rfl

theorem put_app (a : Addr) (c : Cell) (s : St) (h : s.heap a ≠ none) :
    put a c s = some ((), { s with heap := upd s.heap a (some c) }) := by
  unfold put
  cases e : s.heap a with
  | none => exact absurd e h
  | some c => rfl

theorem alloc_ok (c : Cell) (s : St) (h : s.ans.headD 0 ≠ 0) (h2 : s.heap (s.ans.headD 0) = none) :
    alloc c s = some (s.ans.headD 0, { s with heap := upd s.heap (s.ans.headD 0) (some c), ans := s.ans.tail }) := by
  unfold alloc
  dsimp only
  rw [if_pos ⟨h, h2⟩]

theorem alloc_no (c : Cell) (s : St) (h : ¬ (s.ans.headD 0 ≠ 0 ∧ s.heap (s.ans.headD 0) = none)) :
    alloc c s = some (0, { s with ans := s.ans.tail }) := by
  unfold alloc
  dsimp only
  rw [if_neg h]

/-! ## The invariant -/

/-- The copies an object owns. -/
def ptrs : Cell → List Addr
  | .os o => [o.shmName, o.numaList, o.partitions].filter (· ≠ 0)
  | .file o => [o.path].filter (· ≠ 0)
  | .dax o => [o.path].filter (· ≠ 0)
  | _ => []

def ptrsO : Option Cell → List Addr
  | some c => ptrs c
  | none => []

/-- No raw cell, no array; the name of a disjoint pool is complete. -/
def Obj : Cell → Prop
  | .rawObj | .rawArr _ | .arr _ => False
  | .dj o => o.name.length = 64 ∧ o.name.drop 63 = [0]
  | _ => True

structure Inv (s : St) : Prop where
  zero : s.heap 0 = none
  good : ∀ a c, s.heap a = some c → Obj c ∨ ∃ l, c = .arr l
  arrs : ∀ h c, s.heap h = some c → ∀ p ∈ ptrs c, ∃ l, s.heap p = some (.arr l)
  nodup : ∀ h c, s.heap h = some c → (ptrs c).Nodup
  disj : ∀ h h' c c', s.heap h = some c → s.heap h' = some c' → ∀ p, p ∈ ptrs c → p ∈ ptrs c' → h = h'
  owned : ∀ a l, s.heap a = some (.arr l) → ∃ h c, s.heap h = some c ∧ a ∈ ptrs c

structure Rel (s : St) (A : Spec) : Prop where
  inv : Inv s
  user : s.user = A.user
  vals : ∀ h, Matches (view s h) (A.vals h)
  lent : ∀ h o, s.heap h = some (.ze o) → o.residentCount ≠ 0 → o.resident ∈ A.lent
  seen : ∀ h c, s.heap h = some c → Obj c → view s h ≠ none

theorem readStr_congr {s s' : St} {p : Addr} (h : p ≠ 0 → s'.heap p = s.heap p) : readStr s' p = readStr s p := by
  unfold readStr
  by_cases h0 : p = 0
  · rw [if_pos h0, if_pos h0]
  · rw [if_neg h0, if_neg h0, h h0]

theorem readArr_congr {s s' : St} {p : Addr} {n : Nat} (h : s'.heap p = s.heap p) : readArr s' p n = readArr s p n := by
  unfold readArr
  rw [h]

theorem readUser_congr {s s' : St} {p : Addr} {n : Nat} (h : s'.user p = s.user p) : readUser s' p n = readUser s p n := by
  unfold readUser
  rw [h]

theorem mem_ptrs_ne {c : Cell} {p : Addr} (h : p ∈ ptrs c) : p ≠ 0 := by
  cases c <;> simp [ptrs] at h <;> first | exact h.2 | (rintro rfl; simp at h) | (intro e; omega)

theorem view_congr {s s' : St} {h : Addr} (hu : s'.user = s.user) (h0 : s'.heap 0 = s.heap 0)
    (hh : s'.heap h = s.heap h) (hp : ∀ c, s.heap h = some c → ∀ p ∈ ptrs c, s'.heap p = s.heap p) :
    view s' h = view s h := by
  unfold view
  rw [hh]
  cases e : s.heap h with
  | none => rfl
  | some c =>
    have hp' := hp c e
    cases c with
    | os o =>
      dsimp only
      have key : ∀ p, p ∈ [o.shmName, o.numaList, o.partitions] → s'.heap p = s.heap p := by
        intro p hm
        by_cases hz : p = 0
        · rw [hz, h0]
        · exact hp' p (by simp only [ptrs]; exact List.mem_filter.2 ⟨hm, by simpa using hz⟩)
      rw [readStr_congr (fun _ => key _ (by simp)), readArr_congr (key _ (by simp)),
        readArr_congr (key _ (by simp))]
    | file o =>
      dsimp only
      rw [readStr_congr (fun hz => hp' o.path (by simp [ptrs, hz]))]
    | dax o =>
      dsimp only
      rw [readStr_congr (fun hz => hp' o.path (by simp [ptrs, hz]))]
    | ze o =>
      dsimp only
      rw [readUser_congr (s := s) (s' := s') (p := o.resident) (by rw [hu])]
    | _ => rfl

/-- An object `h` is made, changed or removed. -/
theorem Rel.change {s s' : St} {A A' : Spec} (R : Rel s A) {h : Addr} {w : Option Val} (h0 : h ≠ 0)
    (hh : ∀ c, s.heap h = some c → Obj c) (hh' : ∀ c, s'.heap h = some c → Obj c)
    (hnew : ∀ p ∈ ptrsO (s'.heap h), p ≠ h ∧ (p ∈ ptrsO (s.heap h) ∨ s.heap p = none) ∧ ∃ l, s'.heap p = some (.arr l))
    (hnd : (ptrsO (s'.heap h)).Nodup)
    (hrem : ∀ p ∈ ptrsO (s.heap h), p ∉ ptrsO (s'.heap h) → s'.heap p = none)
    (hrest : ∀ a, a ≠ h → a ∉ ptrsO (s.heap h) → a ∉ ptrsO (s'.heap h) → s'.heap a = s.heap a)
    (hu : s'.user = s.user) (hu' : A'.user = A.user)
    (hv : Matches (view s' h) w) (hA : A'.vals = fun k => if k = h then w else A.vals k)
    (hl : ∀ x ∈ A.lent, x ∈ A'.lent)
    (hl' : ∀ o, s'.heap h = some (.ze o) → o.residentCount ≠ 0 → o.resident ∈ A'.lent)
    (hs : s'.heap h ≠ none → view s' h ≠ none) : Rel s' A' := by
  obtain ⟨⟨iz, ig, ia, ind, idj, io⟩, ru, rv, rl, rs⟩ := R
  have hP : ∀ p ∈ ptrsO (s.heap h), ∃ l, s.heap p = some (.arr l) := by
    intro p hp
    cases e : s.heap h with
    | none => rw [e] at hp; simp [ptrsO] at hp
    | some c => rw [e] at hp; exact ia h c e p hp
  have hz' : ∀ p ∈ ptrsO (s'.heap h), p ≠ 0 := by
    intro p hp
    cases e : s'.heap h with
    | none => rw [e] at hp; simp [ptrsO] at hp
    | some c => rw [e] at hp; exact mem_ptrs_ne hp
  have hz : ∀ p ∈ ptrsO (s.heap h), p ≠ 0 := by
    intro p hp
    cases e : s.heap h with
    | none => rw [e] at hp; simp [ptrsO] at hp
    | some c => rw [e] at hp; exact mem_ptrs_ne hp
  have zero' : s'.heap 0 = none := by
    rw [hrest 0 (Ne.symm h0) (fun hp => hz 0 hp rfl) (fun hp => hz' 0 hp rfl), iz]
  -- another object stays
  have stay : ∀ k c, k ≠ h → s.heap k = some c → Obj c → s'.heap k = s.heap k := by
    intro k c hk hc ho
    have h1 : k ∉ ptrsO (s.heap h) := by
      intro hp
      obtain ⟨l, hl⟩ := hP k hp
      rw [hl] at hc
      cases hc
      exact ho
    refine hrest k hk h1 ?_
    intro hp
    rcases (hnew k hp).2.1 with h2 | h2
    · exact h1 h2
    · rw [h2] at hc; cases hc
  have stayP : ∀ k c, k ≠ h → s.heap k = some c → ∀ p ∈ ptrs c, s'.heap p = s.heap p := by
    intro k c hk hc p hp
    obtain ⟨l, hl⟩ := ia k c hc p hp
    have h1 : p ∉ ptrsO (s.heap h) := by
      intro hp'
      cases e : s.heap h with
      | none => rw [e] at hp'; simp [ptrsO] at hp'
      | some c' =>
        rw [e] at hp'
        exact hk (idj k h c c' hc e p hp hp')
    refine hrest p ?_ h1 ?_
    · rintro rfl
      have := hh _ hl
      exact this
    · intro hp'
      rcases (hnew p hp').2.1 with h2 | h2
      · exact h1 h2
      · rw [h2] at hl; cases hl
  -- backwards
  have back : ∀ k c, k ≠ h → s'.heap k = some c → Obj c → s.heap k = some c := by
    intro k c hk hc ho
    have h2 : k ∉ ptrsO (s'.heap h) := by
      intro hp
      obtain ⟨l, hl⟩ := (hnew k hp).2.2
      rw [hl] at hc
      cases hc
      exact ho
    by_cases h1 : k ∈ ptrsO (s.heap h)
    · rw [hrem k h1 h2] at hc; cases hc
    · rw [hrest k hk h1 h2] at hc; exact hc
  have good' : ∀ a c, s'.heap a = some c → Obj c ∨ ∃ l, c = .arr l := by
    intro a c hc
    by_cases ha : a = h
    · subst ha; exact Or.inl (hh' c hc)
    by_cases h2 : a ∈ ptrsO (s'.heap h)
    · obtain ⟨l, hl⟩ := (hnew a h2).2.2
      rw [hl] at hc
      cases hc
      exact Or.inr ⟨l, rfl⟩
    by_cases h1 : a ∈ ptrsO (s.heap h)
    · rw [hrem a h1 h2] at hc; cases hc
    · rw [hrest a ha h1 h2] at hc; exact ig a c hc
  have objOf : ∀ c p, p ∈ ptrs c → (∃ a, s'.heap a = some c) → Obj c := by
    rintro c p hp ⟨a, hc⟩
    rcases good' a c hc with h1 | ⟨l, rfl⟩
    · exact h1
    · simp [ptrs] at hp
  have same : ∀ k, k ≠ h → view s' k = view s k := by
    intro k hk
    cases e : s.heap k with
    | none =>
      have e1 : view s k = none := by unfold view; rw [e]
      rw [e1]
      cases e' : s'.heap k with
      | none => unfold view; rw [e']
      | some c =>
        rcases good' k c e' with ho | ⟨l, rfl⟩
        · rw [back k c hk e' ho] at e; cases e
        · unfold view; rw [e']
    | some c =>
      rcases ig k c e with ho | ⟨l, rfl⟩
      · refine view_congr hu (by rw [zero', iz]) (stay k c hk e ho) ?_
        intro c' hc' p hp
        exact stayP k c' hk hc' p hp
      · have e1 : view s k = none := by unfold view; rw [e]
        rw [e1]
        cases e' : s'.heap k with
        | none => unfold view; rw [e']
        | some c =>
          rcases good' k c e' with ho | ⟨l', rfl⟩
          · rw [back k c hk e' ho] at e
            cases e
            exact absurd ho (by simp [Obj])
          · unfold view; rw [e']
  refine ⟨⟨zero', good', ?_, ?_, ?_, ?_⟩, by rw [hu, hu', ru], ?_, ?_, ?_⟩
  · intro k c hc p hp
    have ho := objOf c p hp ⟨k, hc⟩
    by_cases hk : k = h
    · subst hk
      exact (hnew p (by rw [hc]; exact hp)).2.2
    · have hb := back k c hk hc ho
      obtain ⟨l, hl⟩ := ia k c hb p hp
      exact ⟨l, by rw [stayP k c hk hb p hp, hl]⟩
  · intro k c hc
    by_cases hk : k = h
    · subst hk
      rw [hc] at hnd
      exact hnd
    · rcases good' k c hc with ho | ⟨l, rfl⟩
      · exact ind k c (back k c hk hc ho)
      · simp [ptrs]
  · intro k k' c c' hc hc' p hp hp'
    have ho := objOf c p hp ⟨k, hc⟩
    have ho' := objOf c' p hp' ⟨k', hc'⟩
    by_cases hk : k = h
    · by_cases hk' : k' = h
      · rw [hk, hk']
      · exfalso
        subst hk
        have hb := back k' c' hk' hc' ho'
        obtain ⟨l, hl⟩ := ia k' c' hb p hp'
        rcases (hnew p (by rw [hc]; exact hp)).2.1 with h2 | h2
        · cases e : s.heap k with
          | none => rw [e] at h2; simp [ptrsO] at h2
          | some c2 =>
            rw [e] at h2
            exact hk' (idj k' k c' c2 hb e p hp' h2)
        · rw [h2] at hl; cases hl
    · have hb := back k c hk hc ho
      by_cases hk' : k' = h
      · exfalso
        subst hk'
        obtain ⟨l, hl⟩ := ia k c hb p hp
        rcases (hnew p (by rw [hc']; exact hp')).2.1 with h2 | h2
        · cases e : s.heap k' with
          | none => rw [e] at h2; simp [ptrsO] at h2
          | some c2 =>
            rw [e] at h2
            exact hk (idj k k' c c2 hb e p hp h2)
        · rw [h2] at hl; cases hl
      · exact idj k k' c c' hb (back k' c' hk' hc' ho') p hp hp'
  · intro a l hc
    have ha : a ≠ h := by
      rintro rfl
      exact hh' _ hc
    by_cases h2 : a ∈ ptrsO (s'.heap h)
    · cases e : s'.heap h with
      | none => rw [e] at h2; simp [ptrsO] at h2
      | some c => exact ⟨h, c, e, by rw [e] at h2; exact h2⟩
    by_cases h1 : a ∈ ptrsO (s.heap h)
    · rw [hrem a h1 h2] at hc; cases hc
    rw [hrest a ha h1 h2] at hc
    obtain ⟨k, c, hk, hm⟩ := io a l hc
    have hkh : k ≠ h := by
      rintro rfl
      exact h1 (by rw [hk]; exact hm)
    refine ⟨k, c, ?_, hm⟩
    rw [stay k c hkh hk, hk]
    rcases ig k c hk with ho | ⟨l', rfl⟩
    · exact ho
    · simp [ptrs] at hm
  · intro k
    by_cases hk : k = h
    · subst hk
      rw [hA]
      simpa using hv
    · have hA' : A'.vals k = A.vals k := by rw [hA]; simp [hk]
      rw [hA']
      rw [same k hk]
      exact rv k
  · intro k o hc hn
    by_cases hk : k = h
    · subst hk
      exact hl' o hc hn
    · exact hl _ (rl k o (back k _ hk hc (by simp [Obj])) hn)
  · intro k c hc ho
    by_cases hk : k = h
    · subst hk
      exact hs (by rw [hc]; simp)
    · rw [same k hk]
      exact rs k c (back k c hk hc ho) ho

/-- Only the answers of the base allocator are different. -/
theorem Rel.same {s s' : St} {A : Spec} (R : Rel s A) (hh : s'.heap = s.heap) (hu : s'.user = s.user) : Rel s' A := by
  obtain ⟨⟨iz, ig, ia, ind, idj, io⟩, ru, rv, rl, rs⟩ := R
  have hv : ∀ h, view s' h = view s h := fun h => view_congr hu (by rw [hh]) (by rw [hh]) (fun _ _ _ _ => by rw [hh])
  refine ⟨⟨?_, ?_, ?_, ?_, ?_, ?_⟩, by rw [hu, ru], ?_, ?_, ?_⟩
  · rw [hh]; exact iz
  · rw [hh]; exact ig
  · rw [hh]; exact ia
  · rw [hh]; exact ind
  · rw [hh]; exact idj
  · rw [hh]; exact io
  · intro h; rw [hv]; exact rv h
  · rw [hh]; exact rl
  · intro h; rw [hh, hv]; exact rs h

/-- The caller changes memory that was not handed over. -/
theorem Rel.caller {s : St} {A : Spec} (R : Rel s A) {a : Addr} (x : Option (List Nat)) (ha : a ∉ A.lent) (ans : List Addr) :
    Rel ⟨s.heap, upd s.user a x, ans⟩ { A with user := fun k => if k = a then x else A.user k } := by
  obtain ⟨⟨iz, ig, ia, ind, idj, io⟩, ru, rv, rl, rs⟩ := R
  have hv : ∀ h, view ⟨s.heap, upd s.user a x, ans⟩ h = view s h := by
    intro h
    unfold view
    dsimp only
    cases e : s.heap h with
    | none => rfl
    | some c =>
      cases c with
      | ze o =>
        dsimp only
        have : readUser ⟨s.heap, upd s.user a x, ans⟩ o.resident o.residentCount =
            readUser s o.resident o.residentCount := by
          unfold readUser
          by_cases hn : o.residentCount = 0
          · rw [if_pos hn, if_pos hn]
          · rw [if_neg hn, if_neg hn]
            have hm := rl h o e hn
            dsimp only
            rw [upd_ne s.user x (a := a) (b := o.resident) (fun e => ha (by rw [← e]; exact hm))]
        rw [this]
      | _ => rfl
  refine ⟨⟨iz, ig, ia, ind, idj, io⟩, by rw [ru]; rfl, ?_, rl, ?_⟩
  · intro h; rw [hv]; exact rv h
  · intro h; rw [hv]; exact rs h

theorem rel_init : Rel init Spec.init := by
  refine ⟨⟨rfl, ?_, ?_, ?_, ?_, ?_⟩, rfl, ?_, ?_, ?_⟩ <;> simp [init, view, Spec.init, Matches]

/-- With no object left the heap is empty. -/
theorem Rel.empty {s : St} {A : Spec} (R : Rel s A) (h : ∀ k, A.vals k = none) (a : Addr) : s.heap a = none := by
  obtain ⟨⟨iz, ig, ia, ind, idj, io⟩, ru, rv, rl, rs⟩ := R
  have key : ∀ k c, s.heap k = some c → ¬ Obj c := by
    intro k c hc ho
    have h1 := rs k c hc ho
    have h2 := rv k
    rw [h k] at h2
    cases e : view s k with
    | none => exact h1 e
    | some v => rw [e] at h2; exact h2
  cases e : s.heap a with
  | none => rfl
  | some c =>
    rcases ig a c e with ho | ⟨l, rfl⟩
    · exact absurd ho (key a c e)
    · obtain ⟨k, c, hk, hm⟩ := io a l e
      rcases ig k c hk with ho | ⟨l', rfl⟩
      · exact absurd ho (key k c hk)
      · simp [ptrs] at hm

end Verif.Params
