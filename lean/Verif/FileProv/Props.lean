import Verif.FileProv.Lemmas
/-!
# C31 (file provider), C48: file ranges, handles and mappings of the file memory provider
-/
namespace Verif.FileProv
open Verif.Os (Cell W roundUp FileRange G perm_pick)

theorem pair_of {α β : Type} {x : α × β} {r : β} (h : x.2 = r) : x = (x.1, r) := by
  rw [← h]

theorem pageW {k : Nat} (h : k ≤ 64) : 2 ^ k ∣ W := Nat.pow_dvd_pow 2 h

/-- **C31**, file provider (missing: the histories outside `Reach`, for which it is false, see
`C31_fileAligned_violated`). In every reachable state no byte of one live block is backed by the same
byte of the file as a byte of another. -/
theorem C31_fileDistinct_partial {k : Nat} (hk : k ≤ 64) {m : Mode} {mem0 : Nat → Cell} {st : St}
    {live : List (Nat × Nat)} (h : Reach (2 ^ k) m mem0 st live) {l1 l2 l3 : List (Nat × Nat)}
    {a b : Nat × Nat} (hl : live = l1 ++ a :: l2 ++ b :: l3) {i j : Nat} (hi : i < a.2)
    (hj : j < b.2) :
    a.1 + i ≠ b.1 + j ∧ ∃ u v, st.mem (a.1 + i) = .file u ∧ st.mem (b.1 + j) = .file v ∧ u ≠ v := by
  obtain ⟨L, hL, hI⟩ := reach_inv (Nat.two_pow_pos k) (pageW hk) h
  subst hl
  have hp : (L.map G.live).Perm (a :: b :: (l1 ++ l2 ++ l3)) := by
    refine hL.trans ?_
    rw [List.append_assoc]
    refine List.perm_middle.trans (List.Perm.cons _ ?_)
    show (l1 ++ (l2 ++ b :: l3)).Perm _
    rw [← List.append_assoc]
    exact List.perm_middle
  obtain ⟨g, M, p1, rfl, p3⟩ := perm_pick hp
  obtain ⟨k, N, q1, rfl, q3⟩ := perm_pick p3
  have hI' := (hI.perm p1).perm (q1.cons g)
  have hg := hI'.ok g List.mem_cons_self
  have hk := hI'.ok k (List.mem_cons_of_mem _ List.mem_cons_self)
  obtain ⟨x1, x2⟩ := (List.pairwise_cons.1 hI'.apart).1 k List.mem_cons_self
  simp only [G.live] at hi hj ⊢
  exact ⟨by omega, _, _, hg.file i hi, hk.file j hj, by omega⟩

/-- **C31**, file provider (missing: as above, see `C31_fileAligned_violated`,
`C31_fileOddFail_violated`, `C31_fileMerge_violated`). The handle of every live block can be made, and the
mapping opened with it shows, byte for byte, the file bytes of the block. -/
theorem C31_fileExport_partial {k : Nat} (hk : k ≤ 64) {m : Mode} {mem0 : Nat → Cell} {st : St}
    {live : List (Nat × Nat)} (h : Reach (2 ^ k) m mem0 st live) {a : Nat × Nat} (ha : a ∈ live) :
    ∃ off, ipcOffset st a.1 = some off ∧ ∀ i, i < a.2 → st.mem (a.1 + i) = openedCell off i := by
  obtain ⟨L, hL, hI⟩ := reach_inv (Nat.two_pow_pos k) (pageW hk) h
  obtain ⟨g, hg, rfl⟩ := List.mem_map.1 (hL.mem_iff.2 ha)
  have ok := hI.ok g hg
  refine ⟨g.o, ?_, fun i hi => ok.file i hi⟩
  unfold ipcOffset
  simp only [G.live]
  rw [ok.entry]
  rfl

/-- **C48** (missing: the histories outside `Reach`, see `C48_outside_violated`). Every live block
lies in memory that maps the file, inside the size of the file. -/
theorem C48_mapped_partial {k : Nat} (hk : k ≤ 64) {m : Mode} {mem0 : Nat → Cell} {st : St}
    {live : List (Nat × Nat)} (h : Reach (2 ^ k) m mem0 st live) {a : Nat × Nat} (ha : a ∈ live) :
    0 < a.1 ∧ ∃ o, FileRange st.mem a.1 a.2 o ∧ o + a.2 ≤ st.sizeFd := by
  obtain ⟨L, hL, hI⟩ := reach_inv (Nat.two_pow_pos k) (pageW hk) h
  obtain ⟨g, hg, rfl⟩ := List.mem_map.1 (hL.mem_iff.2 ha)
  have ok := hI.ok g hg
  have := ok.fits
  have := hI.cur.fits
  exact ⟨ok.addr, g.o, ok.file, by simp only [G.live]; omega⟩

/-- **C48** (missing: alignments above the page size, see `C48_outside_violated`). A new block is
aligned, consists of mapped bytes of the file, has no byte of a live block, and no byte that was
mapped changes. -/
theorem C48_alloc_partial {k : Nat} (hk : k ≤ 64) {m : Mode} {mem0 : Nat → Cell} {st st' : St}
    {live : List (Nat × Nat)} (h : Reach (2 ^ k) m mem0 st live) {size al p : Nat} {env : Env}
    (he : EnvOk (2 ^ k) st.mem env) (h0 : 0 < size) (hsz : size < 2 ^ 64) (hal : al ≤ 2 ^ k)
    (hodd : m.odd = false → 2 ^ k ∣ size) (hf : m.full = true → env.insM = true)
    (hr : alloc (2 ^ k) st size al env = (st', some p)) :
    (0 < al → al ∣ p) ∧ (∃ o, FileRange st'.mem p size o) ∧
      (∀ a ∈ live, ∀ x, a.1 ≤ x → x < a.1 + a.2 → ¬ (p ≤ x ∧ x < p + size)) ∧
      ∀ x, st.mem x ≠ .unmapped → st'.mem x = st.mem x := by
  obtain ⟨L, hL, hI⟩ := reach_inv (Nat.two_pow_pos k) (pageW hk) h
  obtain ⟨⟨o, hI'⟩, h1, h2, h3⟩ := alloc_inv (Nat.two_pow_pos k) (pageW hk) hI he h0 hsz hal hodd hf hr
  refine ⟨h2, ⟨o, (hI'.ok _ List.mem_cons_self).file⟩, ?_, h3⟩
  intro a ha x hx1 hx2 hn
  obtain ⟨g, hg, rfl⟩ := List.mem_map.1 (hL.mem_iff.2 ha)
  have := ((List.pairwise_cons.1 hI'.apart).1 g hg).1
  simp only [G.live] at *
  omega

/-- **C48** (missing: as above, and host memory running out, see `C48_leak_violated`). Destroying the
provider restores the address space: it unmaps its mappings and nothing else. -/
theorem C48_destroy_partial {k : Nat} (hk : k ≤ 64) {m : Mode} (hm : m.full = true)
    {mem0 : Nat → Cell} {st : St} {live : List (Nat × Nat)} (h : Reach (2 ^ k) m mem0 st live)
    (x : Nat) : finalize st x = mem0 x := by
  obtain ⟨L, hL, hI⟩ := reach_inv (Nat.two_pow_pos k) (pageW hk) h
  unfold finalize
  split
  · rename_i hin
    rw [List.any_eq_true] at hin
    obtain ⟨e, he, hx⟩ := hin
    have hx : e.1 ≤ x ∧ x < e.1 + e.2 := by simpa using hx
    exact ((hI.space.maps e he).2 x hx.1 hx.2).1.symm
  · rename_i hin
    by_contra hne
    obtain ⟨e, he, hx⟩ := hI.space.all hm x hne
    apply hin
    rw [List.any_eq_true]
    exact ⟨e, he, by simpa using hx⟩

/-- Even when host memory runs out, destroying the provider unmaps nothing that was mapped before it
was created. -/
theorem C48_destroySafe_partial {k : Nat} (hk : k ≤ 64) {m : Mode} {mem0 : Nat → Cell} {st : St}
    {live : List (Nat × Nat)} (h : Reach (2 ^ k) m mem0 st live) {x : Nat}
    (hx : mem0 x ≠ .unmapped) : finalize st x = mem0 x := by
  obtain ⟨L, hL, hI⟩ := reach_inv (Nat.two_pow_pos k) (pageW hk) h
  unfold finalize
  split
  · rename_i hin
    rw [List.any_eq_true] at hin
    obtain ⟨e, he, hy⟩ := hin
    have hy : e.1 ≤ x ∧ x < e.1 + e.2 := by simpa using hy
    exact absurd ((hI.space.maps e he).2 x hy.1 hy.2).1 hx
  · rcases hI.space.ext x with h | ⟨h, _⟩
    · exact h
    · exact absurd h hx

/-! ## The hypotheses are met -/

def emptyMem : Nat → Cell := fun _ => .unmapped

/-- A kernel that answers one length and offset; the file can grow. -/
def one (len off a : Nat) : Env :=
  ⟨fun _ => true, fun l o => if l = len ∧ o = off then some a else none, true, true⟩

theorem one_ok {P : Nat} {mem : Nat → Cell} {len off a : Nat} (h0 : 0 < len) (h1 : P ∣ off)
    (h6 : off + len ≤ 2 ^ 63) (h2 : P ∣ a) (h3 : 0 < a) (h4 : a + len ≤ 2 ^ 63)
    (h5 : ∀ x, a ≤ x → x < a + len → mem x = .unmapped) : EnvOk P mem (one len off a) := by
  intro l o b h
  simp only [one] at h
  split at h
  · rename_i he
    obtain ⟨rfl, rfl⟩ := he
    cases h
    exact ⟨h0, h1, h6, h2, h3, h4, h5⟩
  · cases h

/-- The kernel that always fails. -/
def none' : Env := ⟨fun _ => true, fun _ _ => none, true, true⟩

theorem none_ok {P : Nat} {mem : Nat → Cell} : EnvOk P mem none' := by
  intro _ _ _ h; cases h

theorem none_mmap (P : Nat) (st : St) (size al : Nat) :
    (mmapAligned P st size al none').1.mem = st.mem ∧ (mmapAligned P st size al none').2 = false := by
  unfold mmapAligned
  simp only
  split
  · exact ⟨rfl, rfl⟩
  · split
    · exact ⟨rfl, rfl⟩
    · split
      · exact ⟨rfl, rfl⟩
      · split
        · exact ⟨rfl, rfl⟩
        · refine ⟨?_, rfl⟩
          simp only [none']
          split <;> split <;> rfl

theorem none_mem (P : Nat) (st : St) (size al : Nat) : (alloc P st size al none').1.mem = st.mem := by
  have key : ∀ al, (allocAligned P st size al none').1.mem = st.mem := by
    intro al
    unfold allocAligned
    simp only
    split
    · simp [none_mmap]
    · simp only [Bool.true_eq_false, if_false]
      split
      · simp [none_mmap]
      · rfl
  unfold alloc
  split
  · rfl
  · simp only
    generalize hA : (if al % P ≠ 0 then roundUp P al else al) = A
    have := key A
    split
    · rename_i h; rw [h] at this; exact this
    · rename_i h
      rw [h] at this
      split <;> exact this

/-- The address space after a first mapping `[a, a + len)`. -/
def first (size al len a : Nat) : St := (alloc 4096 (initSt emptyMem) size al (one len 0 a)).1

theorem first_mem (x : Nat) (hx : x < 2 ^ 20 ∨ 2 ^ 20 + 8192 ≤ x) :
    (first 4096 4096 8192 (2 ^ 20)).mem x = .unmapped := by
  show (if 2 ^ 20 ≤ x ∧ x < 2 ^ 20 + 8192 then _ else _) = _
  rw [if_neg (by omega)]
  rfl

/-- Two blocks from one mapping, the first one split, with sizes that are not whole pages, then a
block from a second mapping. -/
example : ∃ st, Reach (2 ^ 12) ⟨true, true⟩ emptyMem st
      ([(2 ^ 21, 5000)] ++ (2 ^ 20, 40) :: (2 ^ 20 + 40, 60) :: []) ∧
    ipcOffset st (2 ^ 21) = some 4096 ∧ ipcOffset st (2 ^ 20 + 40) = some 40 := by
  let s1 := (alloc 4096 (initSt emptyMem) 100 0 (one 4096 0 (2 ^ 20))).1
  let s2 := (alloc 4096 s1 5000 16 (one 12288 4096 (2 ^ 21))).1
  have r1 : Reach (2 ^ 12) ⟨true, true⟩ emptyMem s1 [(2 ^ 20, 100)] := by
    refine Reach.alloc (Reach.init (by simp [emptyMem])) ?_ (by decide) (by decide) (by decide)
      (fun h => absurd h (by decide)) (fun _ => rfl) (pair_of (by decide +kernel) :
        alloc (2 ^ 12) (initSt emptyMem) 100 0 (one 4096 0 (2 ^ 20)) = (s1, some (2 ^ 20)))
    exact one_ok (by decide) (by decide) (by decide) (by decide) (by decide) (by decide) (fun _ _ _ => rfl)
  have r2 : Reach (2 ^ 12) ⟨true, true⟩ emptyMem s2 [(2 ^ 21, 5000), (2 ^ 20, 100)] := by
    refine Reach.alloc r1 ?_ (by decide) (by decide) (by decide)
      (fun h => absurd h (by decide)) (fun _ => rfl) (pair_of (by decide +kernel) :
        alloc (2 ^ 12) s1 5000 16 (one 12288 4096 (2 ^ 21)) = (s2, some (2 ^ 21)))
    refine one_ok (by decide) (by decide) (by decide) (by decide) (by decide) (by decide) (fun x h1 h2 => ?_)
    show (if 2 ^ 20 ≤ x ∧ x < 2 ^ 20 + 4096 then _ else _) = _
    rw [if_neg (by omega)]
    rfl
  have r3 : Reach (2 ^ 12) ⟨true, true⟩ emptyMem (split s2 (2 ^ 20) 40 true).1
      ([(2 ^ 21, 5000)] ++ (2 ^ 20, 40) :: (2 ^ 20 + 40, 100 - 40) :: []) :=
    Reach.split (l1 := [(2 ^ 21, 5000)]) (l2 := []) r2 (by decide) (by decide)
      (pair_of (by decide +kernel) : split s2 (2 ^ 20) 40 true = ((split s2 (2 ^ 20) 40 true).1, true))
  exact ⟨_, r3, by decide +kernel, by decide +kernel⟩

/-! ## Violations -/

/-- **C31** fails for the file provider with an alignment above the page size, if the kernel's address is
not aligned: the offset recorded is that of the mapping, so the handle shows other bytes; and the next
mapping starts at file bytes that belong to the live block. -/
theorem C31_fileAligned_violated : ∃ (e1 e2 : Env) (s1 s2 : St) (p q off : Nat),
    EnvOk 4096 emptyMem e1 ∧ alloc 4096 (initSt emptyMem) 8192 8192 e1 = (s1, some p) ∧
      ipcOffset s1 p = some off ∧ s1.mem p ≠ openedCell off 0 ∧
      EnvOk 4096 s1.mem e2 ∧ alloc 4096 s1 16384 4096 e2 = (s2, some q) ∧
      p + 8192 ≤ q ∧ s2.mem (p + 4096) = s2.mem q ∧ s2.mem q = .file 8192 := by
  refine ⟨one 16384 0 (2 ^ 20 + 4096), one 20480 8192 (2 ^ 21),
    (alloc 4096 (initSt emptyMem) 8192 8192 (one 16384 0 (2 ^ 20 + 4096))).1,
    (alloc 4096 (alloc 4096 (initSt emptyMem) 8192 8192 (one 16384 0 (2 ^ 20 + 4096))).1 16384 4096
      (one 20480 8192 (2 ^ 21))).1, 2 ^ 20 + 8192, 2 ^ 21, 0, ?_, pair_of (by decide +kernel),
    by decide +kernel, by decide +kernel, ?_, pair_of (by decide +kernel), by decide,
    by decide +kernel, by decide +kernel⟩
  · exact one_ok (by decide) (by decide) (by decide) (by decide) (by decide) (by decide) (fun _ _ _ => rfl)
  · refine one_ok (by decide) (by decide) (by decide) (by decide) (by decide) (by decide) (fun x h1 h2 => ?_)
    show (if 2 ^ 20 + 4096 ≤ x ∧ x < 2 ^ 20 + 4096 + 16384 then _ else _) = _
    rw [if_neg (by omega)]
    rfl

/-- **C48** fails with an alignment above the page size after an ordinary allocation: the remaining size of
the mapping is computed without regard to the skipped bytes exceeding it, and the call returns, as a
success, memory that is not mapped. -/
theorem C48_outside_violated : ∃ (e1 e2 : Env) (s1 s2 : St) (p : Nat),
    EnvOk 4096 emptyMem e1 ∧ (∃ a, alloc 4096 (initSt emptyMem) 4096 4096 e1 = (s1, some a)) ∧
      EnvOk 4096 s1.mem e2 ∧ alloc 4096 s1 4096 (2 ^ 21) e2 = (s2, some p) ∧
      s2.mem p = .unmapped := by
  refine ⟨one 8192 0 (2 ^ 20), none', first 4096 4096 8192 (2 ^ 20),
    (alloc 4096 (first 4096 4096 8192 (2 ^ 20)) 4096 (2 ^ 21) none').1, 2 ^ 21, ?_,
    ⟨2 ^ 20, pair_of (by decide +kernel)⟩, none_ok, pair_of (by decide +kernel), by decide +kernel⟩
  exact one_ok (by decide) (by decide) (by decide) (by decide) (by decide) (by decide) (fun _ _ _ => rfl)

/-- **C31** fails after a failing request that follows an odd-sized one: the file position has
moved, the place in the mapping has not, and the next handle shows other bytes of the file. -/
theorem C31_fileOddFail_violated : ∃ (e1 e2 e3 : Env) (s1 s2 s3 : St) (p off : Nat),
    EnvOk 4096 emptyMem e1 ∧ (∃ a, alloc 4096 (initSt emptyMem) 100 4096 e1 = (s1, some a)) ∧
      EnvOk 4096 s1.mem e2 ∧ alloc 4096 s1 100000 4096 e2 = (s2, none) ∧
      EnvOk 4096 s2.mem e3 ∧ alloc 4096 s2 100 4096 e3 = (s3, some p) ∧
      ipcOffset s3 p = some off ∧ s3.mem p ≠ openedCell off 0 := by
  refine ⟨one 8192 0 (2 ^ 20), none', none', first 100 4096 8192 (2 ^ 20),
    (alloc 4096 (first 100 4096 8192 (2 ^ 20)) 100000 4096 none').1,
    (alloc 4096 (alloc 4096 (first 100 4096 8192 (2 ^ 20)) 100000 4096 none').1 100 4096 none').1,
    2 ^ 20 + 4096, 8092, ?_, ⟨2 ^ 20, pair_of (by decide +kernel)⟩, none_ok,
    pair_of (by decide +kernel), none_ok, pair_of (by decide +kernel), by decide +kernel,
    by decide +kernel⟩
  exact one_ok (by decide) (by decide) (by decide) (by decide) (by decide) (by decide) (fun _ _ _ => rfl)

/-- **C31** fails after merging two blocks that are adjacent in memory but not in the file, which
happens when the kernel puts the second mapping right below the first one: merging succeeds, and the
handle of the merged block shows other bytes of the file. -/
theorem C31_fileMerge_violated : ∃ (e1 e2 : Env) (s1 s2 s3 s4 s5 : St) (p q off : Nat),
    EnvOk 4096 emptyMem e1 ∧ alloc 4096 (initSt emptyMem) 4096 4096 e1 = (s1, some p) ∧
      alloc 4096 s1 4096 4096 none' = (s2, some (p + 4096)) ∧
      EnvOk 4096 s2.mem e2 ∧ alloc 4096 s2 4096 4096 e2 = (s3, some q) ∧
      alloc 4096 s3 4096 4096 none' = (s4, some (q + 4096)) ∧ q + 8192 = p ∧
      merge s4 p = (s5, true) ∧ ipcOffset s5 (q + 4096) = some off ∧
      s5.mem (q + 4096 + 4096) ≠ openedCell off 4096 := by
  let s1 := first 4096 4096 8192 (2 ^ 20)
  let s2 := (alloc 4096 s1 4096 4096 none').1
  let s3 := (alloc 4096 s2 4096 4096 (one 8192 8192 (2 ^ 20 - 8192))).1
  let s4 := (alloc 4096 s3 4096 4096 none').1
  refine ⟨one 8192 0 (2 ^ 20), one 8192 8192 (2 ^ 20 - 8192), s1, s2, s3, s4, (merge s4 (2 ^ 20)).1,
    2 ^ 20, 2 ^ 20 - 8192, 12288, ?_, pair_of (by decide +kernel), pair_of (by decide +kernel), ?_,
    pair_of (by decide +kernel), pair_of (by decide +kernel), by decide, pair_of (by decide +kernel),
    by decide +kernel, by decide +kernel⟩
  · exact one_ok (by decide) (by decide) (by decide) (by decide) (by decide) (by decide) (fun _ _ _ => rfl)
  · refine one_ok (by decide) (by decide) (by decide) (by decide) (by decide) (by decide) (fun x h1 h2 => ?_)
    have : s2.mem = s1.mem := none_mem _ _ _ _
    rw [this]
    exact first_mem x (by omega)

/-- **C48** fails when there is no host memory for the map of mappings: the allocation succeeds, and
destroying the provider leaves the memory mapped. -/
theorem C48_leak_violated : ∃ (env : Env) (s1 : St) (p : Nat), EnvOk 4096 emptyMem env ∧
    alloc 4096 (initSt emptyMem) 4096 4096 env = (s1, some p) ∧ finalize s1 p ≠ .unmapped := by
  refine ⟨{ one 8192 0 (2 ^ 20) with insM := false },
    (alloc 4096 (initSt emptyMem) 4096 4096 { one 8192 0 (2 ^ 20) with insM := false }).1, 2 ^ 20,
    ?_, pair_of (by decide +kernel), by decide +kernel⟩
  exact one_ok (P := 4096) (len := 8192) (off := 0) (a := 2 ^ 20) (by decide) (by decide) (by decide)
    (by decide) (by decide) (by decide) (fun _ _ _ => rfl)

end Verif.FileProv
