import Verif.FromSpace.Spec
/-! # Providers from memspaces: lemmas -/
namespace Verif.FromSpace

theorem get_ge {h : List (Nat × Cell)} {n : Nat} (hb : ∀ e ∈ h, 0 < e.1 ∧ e.1 < n) {a : Nat} (ha : n ≤ a) : get h a = none := by
  induction h with
  | nil => rfl
  | cons e t ih =>
    obtain ⟨k, c⟩ := e
    have h1 := hb (k, c) (by simp)
    dsimp only at h1
    unfold get
    rw [if_neg (by omega)]
    exact ih fun e he => hb e (by simp [he])

theorem rm_ge {h : List (Nat × Cell)} {n : Nat} (hb : ∀ e ∈ h, 0 < e.1 ∧ e.1 < n) {a : Nat} (ha : n ≤ a) : rm h a = h := by
  induction h with
  | nil => rfl
  | cons e t ih =>
    obtain ⟨k, c⟩ := e
    have h1 := hb (k, c) (by simp)
    dsimp only at h1
    unfold rm
    rw [if_neg (by omega), ih fun e he => hb e (by simp [he])]

theorem get_lt {h : List (Nat × Cell)} {n : Nat} (hb : ∀ e ∈ h, 0 < e.1 ∧ e.1 < n) {a : Nat} {c : Cell} (ha : get h a = some c) :
    0 < a ∧ a < n := by
  induction h with
  | nil => cases ha
  | cons e t ih =>
    obtain ⟨k, d⟩ := e
    have h1 := hb (k, d) (by simp)
    unfold get at ha
    split at ha
    · rename_i h2
      subst h2
      exact h1
    · exact ih (fun e he => hb e (by simp [he])) ha

/-- The heap without a block that may be NULL. -/
def rm0 (h : List (Nat × Cell)) (a : Nat) : List (Nat × Cell) := if a = 0 then h else rm h a

/-- What the array of nodes is. -/
def ListOk (base : List (Nat × Cell)) (list len : Nat) (L : List Nat) : Prop :=
  (list = 0 ∧ len = 0 ∧ L = []) ∨ (get base list = some (.nums L) ∧ len = L.length ∧ L ≠ [])

/-- What the partitions are. -/
def PartsOk (base : List (Nat × Cell)) (c : Choice) (Q : List (Nat × Nat)) : Prop :=
  (c.partsLen = 0 ∧ Q = []) ∨ (∃ l, get base c.parts = some (.parts l) ∧ c.partsLen ≤ l.length ∧ c.partsLen ≠ 0 ∧ Q = l.take c.partsLen)

theorem withList_eff (accept : Settings → Nat) {st : St} (hok : Ok st) {list len : Nat} {L : List Nat} (hl : ListOk st.heap list len L)
    {c : Choice} {Q : List (Nat × Nat)} (hq : PartsOk st.heap c Q) :
    ∃ r out st', withList accept st list len c = some (r, out, st') ∧ st.next ≤ st'.next ∧
      ((r = 0 ∧ accept ⟨c.mode, L, c.partSize, Q⟩ = 0 ∧ st.next ≤ out ∧ out < st'.next ∧
        st'.heap = (out, .prov ⟨c.mode, L, c.partSize, Q⟩) :: rm0 st.heap list) ∨
       (out = 0 ∧ st'.heap = rm0 st.heap list ∧
        ((r = 1 ∧ false ∈ st.ans) ∨ (r = accept ⟨c.mode, L, c.partSize, Q⟩ ∧ r ≠ 0)))) := by
  obtain ⟨base, n, ans⟩ := st
  obtain ⟨h0, hb⟩ := hok
  dsimp only at h0 hb hl hq ⊢
  have hn : n ≠ 0 := by omega
  have g0 := fun a ha => get_ge hb (a := a) ha
  have r0 := fun a ha => rm_ge hb (a := a) ha
  have rn : rm base n = base := r0 n (by omega)
  have rn1 : rm base (n + 1) = base := r0 (n + 1) (by omega)
  have rn2 : rm base (n + 1 + 1) = base := r0 (n + 1 + 1) (by omega)
  have memF : ∀ (l : List Bool), granted l = false → false ∈ l := by
    intro l hl
    cases l with
    | nil => simp [granted] at hl
    | cons b t => simp [granted] at hl; simp [hl]
  have memT : ∀ (l : List Bool), false ∈ l.tail → false ∈ l := fun l => List.mem_of_mem_tail
  have m1 := memF ans
  have m2 := fun h => memT _ (memF ans.tail h)
  have m3 := fun h => memT _ (memT _ (memF ans.tail.tail h))
  have m4 := fun h => memT _ (memT _ (memT _ (memF ans.tail.tail.tail h)))
  have e1 : n + 1 + 1 ≠ n := by omega
  have e2 : n + 1 + 1 + 1 ≠ n := by omega
  have e3 : n + 1 + 1 + 1 ≠ n + 1 := by omega
  have e4 : n ≠ n + 1 + 1 := by omega
  have e5 : n ≤ n + 1 + 1 := by omega
  have e6 : n ≤ n + 1 + 1 + 1 := by omega
  have e7 : n ≤ n + 1 + 1 + 1 + 1 := by omega
  rcases hl with ⟨rfl, rfl, rfl⟩ | ⟨l1, rfl, l2⟩
  · rcases hq with ⟨q1, rfl⟩ | ⟨l, q1, q2, q3, rfl⟩
    · cases a1 : granted ans <;> cases a2 : granted ans.tail <;>
      by_cases ac : accept ⟨c.mode, [], c.partSize, []⟩ = 0 <;>
      simp [withList, parCreate, alloc, free, rm0, build, setMode, par, get, put, setList, storeList, setParts, storeParts,
      setPartSize, osProvider, readNums, readParts, List.take_take, hn, e1, e2, e3, e4, e5, e6, e7, parDestroy, rm, a1, a2, q1, ac, m1, m2]
    · obtain ⟨q4, q5⟩ := get_lt hb q1
      cases a1 : granted ans <;> cases a2 : granted ans.tail <;> cases a3 : granted ans.tail.tail <;>
      by_cases ac : accept ⟨c.mode, [], c.partSize, l.take c.partsLen⟩ = 0 <;>
      simp [withList, parCreate, alloc, free, rm0, build, setMode, par, get, put, setList, storeList, setParts, storeParts,
      setPartSize, osProvider, readNums, readParts, List.take_take, hn, e1, e2, e3, e4, e5, e6, e7, parDestroy, rm, a1, a2, a3, q1, q2, q3, ac, m1, m2, m3, show c.parts ≠ 0 by omega, show n ≠ c.parts by omega]
  · obtain ⟨l4, l5⟩ := get_lt hb l1
    have l6 : L.length ≠ 0 := by simpa using l2
    rcases hq with ⟨q1, rfl⟩ | ⟨l, q1, q2, q3, rfl⟩
    · cases a1 : granted ans <;> cases a2 : granted ans.tail <;> cases a3 : granted ans.tail.tail <;>
      by_cases ac : accept ⟨c.mode, L, c.partSize, []⟩ = 0 <;>
      simp [withList, parCreate, alloc, free, rm0, build, setMode, par, get, put, setList, storeList, setParts, storeParts,
      setPartSize, osProvider, readNums, readParts, List.take_take, hn, e1, e2, e3, e4, e5, e6, e7, parDestroy, rm, a1, a2, a3, q1, l1, l2, l6, ac, m1, m2, m3, show list ≠ 0 by omega, show n ≠ list by omega, show n + 1 ≠ list by omega, show n + 1 + 1 ≠ list by omega]
    · obtain ⟨q4, q5⟩ := get_lt hb q1
      cases a1 : granted ans <;> cases a2 : granted ans.tail <;> cases a3 : granted ans.tail.tail <;> cases a4 : granted ans.tail.tail.tail <;>
      by_cases ac : accept ⟨c.mode, L, c.partSize, l.take c.partsLen⟩ = 0 <;>
      simp [withList, parCreate, alloc, free, rm0, build, setMode, par, get, put, setList, storeList, setParts, storeParts,
      setPartSize, osProvider, readNums, readParts, List.take_take, hn, e1, e2, e3, e4, e5, e6, e7, parDestroy, rm, a1, a2, a3, a4, q1, q2, q3, l1, l2, l6, ac, m1, m2, m3, m4, show list ≠ 0 by omega, show n ≠ list by omega, show n + 1 ≠ list by omega,
        show n + 1 + 1 ≠ list by omega, show n + 1 + 1 + 1 ≠ list by omega, show c.parts ≠ 0 by omega, show n ≠ c.parts by omega, show n + 1 ≠ c.parts by omega]

theorem withList_bad (accept : Settings → Nat) {st : St} (hok : Ok st) {list len : Nat} {L : List Nat} (hl : ListOk st.heap list len L)
    {c : Choice} (q0 : c.parts = 0) (q1 : c.partsLen ≠ 0) :
    ∃ r out st', withList accept st list len c = some (r, out, st') ∧ st.next ≤ st'.next ∧
      out = 0 ∧ st'.heap = rm0 st.heap list ∧ ((r = 1 ∧ false ∈ st.ans) ∨ r = 3) := by
  obtain ⟨base, n, ans⟩ := st
  obtain ⟨h0, hb⟩ := hok
  dsimp only at h0 hb hl ⊢
  have hn : n ≠ 0 := by omega
  have g0 := fun a ha => get_ge hb (a := a) ha
  have r0 := fun a ha => rm_ge hb (a := a) ha
  have rn : rm base n = base := r0 n (by omega)
  have rn1 : rm base (n + 1) = base := r0 (n + 1) (by omega)
  have rn2 : rm base (n + 1 + 1) = base := r0 (n + 1 + 1) (by omega)
  have memF : ∀ (l : List Bool), granted l = false → false ∈ l := by
    intro l hl
    cases l with
    | nil => simp [granted] at hl
    | cons b t => simp [granted] at hl; simp [hl]
  have memT : ∀ (l : List Bool), false ∈ l.tail → false ∈ l := fun l => List.mem_of_mem_tail
  have m1 := memF ans
  have m2 := fun h => memT _ (memF ans.tail h)
  have m3 := fun h => memT _ (memT _ (memF ans.tail.tail h))
  have m4 := fun h => memT _ (memT _ (memT _ (memF ans.tail.tail.tail h)))
  have e1 : n + 1 + 1 ≠ n := by omega
  have e2 : n + 1 + 1 + 1 ≠ n := by omega
  have e3 : n + 1 + 1 + 1 ≠ n + 1 := by omega
  have e4 : n ≠ n + 1 + 1 := by omega
  have e5 : n ≤ n + 1 + 1 := by omega
  have e6 : n ≤ n + 1 + 1 + 1 := by omega
  have e7 : n ≤ n + 1 + 1 + 1 + 1 := by omega
  rcases hl with ⟨rfl, rfl, rfl⟩ | ⟨l1, rfl, l2⟩
  · cases a1 : granted ans <;>
    simp [withList, parCreate, alloc, free, rm0, build, setMode, par, get, put, setList, storeList, setParts, storeParts,
      setPartSize, osProvider, readNums, readParts, List.take_take, hn, e1, e2, e3, e4, e5, e6, e7, parDestroy, rm, a1, q0, q1, m1]
  · obtain ⟨l4, l5⟩ := get_lt hb l1
    have l6 : L.length ≠ 0 := by simpa using l2
    cases a1 : granted ans <;> cases a2 : granted ans.tail <;>
    simp [withList, parCreate, alloc, free, rm0, build, setMode, par, get, put, setList, storeList, setParts, storeParts,
      setPartSize, osProvider, readNums, readParts, List.take_take, hn, e1, e2, e3, e4, e5, e6, e7, parDestroy, rm, a1, a2, q0, q1, l1, l2, l6, m1, m2, show list ≠ 0 by omega, show n ≠ list by omega, show n + 1 ≠ list by omega]

end Verif.FromSpace
