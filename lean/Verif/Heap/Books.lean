import Verif.Heap.Ledger
import Verif.Heap.Hooks
import Mathlib.Data.List.Perm.Basic
import Mathlib.Data.List.Perm.Lattice

/-! # The books agree -/
namespace Verif.Heap

/-- What the provider has given out is what the library has, and what the provider refused to take back. -/
def Agree (prov lib lost : Book) : Prop := prov.Perm (lib ++ lost)

theorem Agree.add {prov lib lost : Book} (h : Agree prov lib lost) (x : Nat × Nat) : Agree (x :: prov) (x :: lib) lost :=
  h.cons x

theorem Agree.erase {prov lib lost : Book} (h : Agree prov lib lost) {x : Nat × Nat} (hx : x ∈ lib) :
    Agree (prov.erase x) (lib.erase x) lost := by
  unfold Agree
  rw [← List.erase_append_left _ hx]
  exact List.Perm.erase x h

theorem Agree.lose {prov lib lost : Book} (h : Agree prov lib lost) {x : Nat × Nat} (hx : x ∈ lib) :
    Agree prov (lib.erase x) (x :: lost) := by
  refine h.trans ?_
  refine ((List.perm_cons_erase hx).append_right lost).trans ?_
  exact List.perm_middle.symm

variable {recs : Pool → Option Rec} {table : Nat → Option Pool} {tls tls' : Var → Res} {l : List (Call × Resp)}
  {o : Option Out} {prov lib lost : Book}

theorem runs_call {c : Call} {k : Resp → Prog} (h : Runs recs table (.call c k) tls l o tls') :
    ∃ r l2, l = (c, r) :: l2 ∧ Runs recs table (k r) tls l2 o tls' := by
  cases h with
  | call h => exact ⟨_, _, rfl, h⟩

theorem runs_ret {o0 : Out} (h : Runs recs table (.ret o0) tls l o tls') : l = [] ∧ o = some o0 := by
  cases h; exact ⟨rfl, rfl⟩

theorem runs_setTls {v : Var} {e : Res} {k : Prog} (h : Runs recs table (.setTls v e k) tls l o tls') :
    Runs recs table k (Function.update tls v e) l o tls' := by
  cases h with
  | setTls h => exact h

theorem runs_getRec {p : Pool} {k : Rec → Prog} {r : Rec} (h : Runs recs table (.getRec p k) tls l o tls')
    (hr : recs p = some r) : Runs recs table (k r) tls l o tls' := by
  cases h with
  | getRec h1 h => rw [hr] at h1; cases h1; exact h
  | noRec h1 => rw [hr] at h1; cases h1

/-- Pieces that the provider refused to take back. -/
def Refused (pv : Prov) (l : List (Call × Resp)) (x : Nat × Nat) : Prop :=
  ∃ r : Resp, (Call.provFree pv x.1 x.2, r) ∈ l ∧ r.err ≠ 0

/-- The books after a hook. -/
def StepOk (pv : Prov) (prov lib lost : Book) (h : Hook) (l : List (Call × Resp)) (o : Out) : Prop :=
  ∃ lost', Agree (l.foldl provBook prov) (libBook lib h o) lost' ∧ lost'.length ≤ lost.length + refusals l ∧
    ∀ x ∈ lost', x ∈ lost ∨ Refused pv l x

theorem StepOk.same {pv : Prov} {h : Hook} {o : Out}
    (hA : Agree (l.foldl provBook prov) (libBook lib h o) lost) : StepOk pv prov lib lost h l o :=
  ⟨lost, hA, by omega, fun x hx => .inl hx⟩

theorem stepOk_give {pv : Prov} {h : Hook} {o : Out} {ptr n : Nat} {r : Resp} (hA : Agree prov lib lost)
    (hmem : (ptr, n) ∈ lib)
    (hb : libBook lib h o = if r.err ≠ 0 then lib else lib.erase (ptr, n)) :
    StepOk pv prov lib lost h [(.provFree pv ptr n, r)] o := by
  by_cases he : r.err = 0
  · refine .same ?_
    rw [hb, if_neg (by simpa using he)]
    simp only [List.foldl, provBook, he, ne_eq, not_true, if_false]
    exact hA.erase hmem
  · refine .same ?_
    rw [hb, if_pos he]
    simp only [List.foldl, provBook, ne_eq, he, not_false_iff, if_true]
    exact hA

theorem stepOk_lose {pv : Prov} {h : Hook} {o : Out} {ptr n : Nat} {r : Resp} (hA : Agree prov lib lost)
    (hmem : (ptr, n) ∈ lib) (hb : libBook lib h o = lib.erase (ptr, n)) :
    StepOk pv prov lib lost h [(.provFree pv ptr n, r)] o := by
  by_cases he : r.err = 0
  · refine .same ?_
    rw [hb]
    simp only [List.foldl, provBook, he, ne_eq, not_true, if_false]
    exact hA.erase hmem
  · refine ⟨(ptr, n) :: lost, ?_, ?_, ?_⟩
    · rw [hb]
      simp only [List.foldl, provBook, ne_eq, he, not_false_iff, if_true]
      exact hA.lose hmem
    · simp [refusals, he]
    · intro x hx
      rcases List.mem_cons.1 hx with rfl | hx
      · exact .inr ⟨r, List.mem_singleton.2 rfl, he⟩
      · exact .inl hx

theorem stepOk_hook {p : Pool} {r : Rec} {h : Hook} {o : Out} (hr : recs p = some r)
    (hof : h.Of table p) (hl : HookLegal lib h) (hrun : Runs recs table h.prog tls l (some o) tls')
    (hgood : ∀ x ∈ l, provGood x) (hA : Agree prov lib lost) : StepOk r.pv prov lib lost h l o := by
  have hby : ∀ {b k}, h.arena = some b → h.id = none → Runs recs table (byArena b k) tls l (some o) tls' →
      Runs recs table (k r) tls l (some o) tls' := by
    intro b k hb hid hrun
    rcases hof with h1 | ⟨a, h1, ht⟩
    · rw [hid] at h1; cases h1
    · rw [hb] at h1; cases h1; exact byArena_runs hrun ht hr
  have hraw : ∀ {id k}, h.id = some id → h.arena = none → Runs recs table (.getRec id k) tls l (some o) tls' →
      Runs recs table (k r) tls l (some o) tls' := by
    intro id k hid hb hrun
    rcases hof with h1 | ⟨a, h1, ht⟩
    · rw [hid] at h1; cases h1; exact runs_getRec hrun hr
    · rw [hb] at h1; cases h1
  cases h with
  | rawAlloc id n =>
    obtain ⟨x, l2, rfl, h2⟩ := runs_call (hraw rfl rfl hrun)
    have hg := hgood _ List.mem_cons_self
    split at h2
    · next he =>
      obtain ⟨rfl, h3⟩ := runs_ret (runs_setTls h2)
      cases h3
      refine .same ?_
      simpa [provBook, libBook, he] using hA
    · next he =>
      obtain ⟨rfl, h3⟩ := runs_ret h2
      cases h3
      have he : x.err = 0 := by simpa using he
      have hv : x.val ≠ 0 := hg he
      refine .same ?_
      simpa [provBook, libBook, he, hv] using hA.add (x.val, n)
  | rawFree id ptr n =>
    obtain ⟨x, l2, rfl, h2⟩ := runs_call (hraw rfl rfl hrun)
    have : l2 = [] := by
      split at h2
      · exact (runs_ret (runs_setTls h2)).1
      · exact (runs_ret h2).1
    subst this
    exact stepOk_lose hA hl rfl
  | alloc b new n al zero =>
    obtain ⟨x, l2, rfl, h2⟩ := runs_call (hby rfl rfl hrun)
    have hg := hgood _ List.mem_cons_self
    split at h2
    · next he =>
      obtain ⟨rfl, h3⟩ := runs_ret h2
      cases h3
      refine .same ?_
      simpa [provBook, libBook, he] using hA
    · next he =>
      have he : x.err = 0 := by simpa using he
      have hv : x.val ≠ 0 := hg he
      split at h2
      · -- the memory is elsewhere: it goes back
        obtain ⟨y, l3, rfl, h3⟩ := runs_call h2
        obtain ⟨rfl, h4⟩ := runs_ret h3
        cases h4
        by_cases hy : y.err = 0
        · refine .same ?_
          simpa [provBook, libBook, he, hy] using hA
        · refine ⟨(x.val, n) :: lost, ?_, ?_, ?_⟩
          · have : Agree ((x.val, n) :: prov) lib ((x.val, n) :: lost) :=
              (List.Perm.cons _ hA).trans List.perm_middle.symm
            simpa [provBook, libBook, he, hy] using this
          · simp [refusals, hy]
          · intro z hz
            rcases List.mem_cons.1 hz with rfl | hz
            · exact .inr ⟨y, by simp, hy⟩
            · exact .inl hz
      · split at h2
        · obtain ⟨y, l3, rfl, h3⟩ := runs_call h2
          obtain ⟨rfl, h4⟩ := runs_ret h3
          cases h4
          refine .same ?_
          have h5 : ∀ b, provBook b (.memset x.val n, y) = b := fun b => by simp [provBook]
          simpa [h5, provBook, libBook, he, hv] using hA.add (x.val, n)
        · obtain ⟨rfl, h4⟩ := runs_ret h2
          cases h4
          refine .same ?_
          simpa [provBook, libBook, he, hv] using hA.add (x.val, n)
  | destroy b ptr n =>
    obtain ⟨x, l2, rfl, h2⟩ := runs_call (hby rfl rfl hrun)
    obtain ⟨rfl, h3⟩ := runs_ret h2
    exact stepOk_lose hA hl rfl
  | dalloc b ptr n =>
    obtain ⟨x, l2, rfl, h2⟩ := runs_call (hby rfl rfl hrun)
    obtain ⟨rfl, h3⟩ := runs_ret h2
    cases h3
    refine stepOk_give hA hl ?_
    by_cases he : x.err = 0 <;> simp [libBook, he]
  | purgeLazy b addr off len =>
    obtain ⟨x, l2, rfl, h2⟩ := runs_call (hby rfl rfl hrun)
    obtain ⟨rfl, h3⟩ := runs_ret h2
    refine .same ?_
    simpa [provBook, libBook] using hA
  | purgeForced b addr off len =>
    obtain ⟨x, l2, rfl, h2⟩ := runs_call (hby rfl rfl hrun)
    obtain ⟨rfl, h3⟩ := runs_ret h2
    refine .same ?_
    simpa [provBook, libBook] using hA
  | split b addr n na nb =>
    obtain ⟨x, l2, rfl, h2⟩ := runs_call (hby rfl rfl hrun)
    obtain ⟨rfl, h3⟩ := runs_ret h2
    cases h3
    obtain ⟨hm, hs⟩ := hl
    have hnb : n - na = nb := by omega
    refine .same ?_
    by_cases he : x.err = 0
    · simpa [provBook, libBook, he, hnb] using ((hA.erase hm).add _).add _
    · simpa [provBook, libBook, he] using hA
  | merge b addrA na addrB nb =>
    obtain ⟨x, l2, rfl, h2⟩ := runs_call (hby rfl rfl hrun)
    obtain ⟨rfl, h3⟩ := runs_ret h2
    cases h3
    obtain ⟨hm, hm2, rfl, hlt⟩ := hl
    have hw : wrap (na + nb) = na + nb := Nat.mod_eq_of_lt hlt
    have e1 : addrA + na - addrA = na := by omega
    have e2 : addrA + (na + nb) - (addrA + na) = nb := by omega
    refine .same ?_
    by_cases he : x.err = 0
    · simpa [provBook, libBook, he, hw, e1, e2] using ((hA.erase hm).erase hm2).add _
    · simpa [provBook, libBook, he] using hA
  | commit b | decommit b =>
    obtain ⟨rfl, h3⟩ := runs_ret hrun
    exact .same hA

theorem hist_agree {p : Pool} {r : Rec} (hr : recs p = some r) (h : Hist recs table p l lib) :
    ∃ lost, Agree (l.foldl provBook []) lib lost ∧ lost.length ≤ refusals l ∧ ∀ x ∈ lost, Refused r.pv l x := by
  induction h with
  | nil => exact ⟨[], .nil, by simp, by simp⟩
  | hook _ hof hl hrun hgood ih =>
    obtain ⟨lost, h1, h2, h3⟩ := ih
    obtain ⟨lost', h4, h5, h6⟩ := stepOk_hook hr hof hl hrun hgood h1
    refine ⟨lost', ?_, ?_, ?_⟩
    · rw [List.foldl_append]; exact h4
    · simp only [refusals, List.countP_append] at h5 h2 ⊢
      omega
    · intro x hx
      rcases h6 x hx with h7 | ⟨y, h7, h8⟩
      · obtain ⟨y, h7, h8⟩ := h3 x h7
        exact ⟨y, List.mem_append_left _ h7, h8⟩
      · exact ⟨y, List.mem_append_right _ h7, h8⟩

end Verif.Heap
