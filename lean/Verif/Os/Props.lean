import Verif.Os.FileLemmas
/-!
# C27, C31 (OS provider), C47: mappings and file offsets
-/
namespace Verif.Os

theorem pair_of {α β : Type} {x : α × β} {r : β} (h : x.2 = r) : x = (x.1, r) := by
  rw [← h]

/-! ## C27: a mapping is aligned, complete and leaves nothing else behind -/

/-- **C27** (missing: requests whose size plus alignment does not fit in 64 bits, for which it is
false, see `C27_overflow_violated`). For every page size, address space, configuration, request and
kernel: a successful allocation is aligned, starts a page, and maps exactly the pages of the request,
which were unmapped before; every other byte of the address space is as before. A failing
allocation changes no byte of the address space. -/
theorem C27_alloc_partial {c : Cfg} (hP : 0 < c.P) {st st' : St} {size al : Nat} {env : Env}
    (hk : EnvOk c st.mem env) (hw : size + al < 2 ^ 64) {r : Option Nat}
    (h : alloc c st size al env = (st', r)) :
    match r with
    | none => ∀ x, st'.mem x = st.mem x
    | some p => 0 < p ∧ c.P ∣ p ∧ (al ≠ 0 → al ∣ p) ∧ ∃ e, IsPageEnd c.P (p + size) e ∧
        (∀ x, p ≤ x → x < e → st.mem x = .unmapped ∧ st'.mem x ≠ .unmapped) ∧
        ∀ x, ¬ (p ≤ x ∧ x < e) → st'.mem x = st.mem x := by
  cases r with
  | none => exact fun x => congrFun (alloc_none hP hk hw h).1 x
  | some p =>
    obtain ⟨a1, a2, a3, a4, a5, a6, cut, a7, a8, a9, a10⟩ := alloc_ok hP hk hw h
    refine ⟨a2, a1, a4, p + roundUp c.P size, ?_, ?_, ?_⟩
    · obtain ⟨s1, s2, s3⟩ := roundUp_spec hP size
      exact ⟨Nat.dvd_add a1 s1, by omega, by omega⟩
    · intro x h1 h2
      refine ⟨a5 x h1 h2, ?_⟩
      rw [a10, if_pos ⟨h1, h2⟩]
      split <;> simp
    · intro x hx
      rw [a10, if_neg hx]

/-- **C27**, free: freeing an allocation succeeds and gives back exactly what it had mapped. -/
theorem C27_free_partial {c : Cfg} (hP : 0 < c.P) {st st1 st2 : St} {size al : Nat} {env : Env}
    (hk : EnvOk c st.mem env) (hw : size + al < 2 ^ 64) (h0 : 0 < size) {p : Nat} {r : Bool}
    (ha : alloc c st size al env = (st1, some p)) (hf : free c st1 p size = (st2, r)) :
    r = true ∧ ∀ x, st2.mem x = st.mem x := by
  obtain ⟨a1, a2, a3, a4, a5, a6, cut, a7, a8, a9, a10⟩ := alloc_ok hP hk hw ha
  unfold free at hf
  rw [if_neg (by omega)] at hf
  cases hf
  constructor
  · unfold unmapOk
    have hW : W = 2 ^ 64 := rfl
    have h1 : p + roundUp c.P size ≤ W := by omega
    simp [Nat.mod_eq_zero_of_dvd a1, h1]
    omega
  · intro x
    have hm : (if c.fd then { st1 with offMap := mapRemove st1.offMap p } else st1).mem = st1.mem := by
      split <;> rfl
    simp only [hm]
    exact congrFun (unmapped_restore hP a1 a3 a5 fun x hx => by rw [a10 x, if_neg hx]) x

/-- **C28**, failure: if memory is to be bound and the binding fails (with an error other than
"not implemented"), the allocation fails and nothing stays mapped. -/
theorem C28_bindFails {c : Cfg} (hP : 0 < c.P) (hb : c.bind = true) {st : St} {size al : Nat}
    {env : Env} (hk : EnvOk c st.mem env) (hw : size + al < 2 ^ 64) (he : env.bindOk = false) :
    ∃ st', alloc c st size al env = (st', none) ∧ ∀ x, st'.mem x = st.mem x := by
  cases h : alloc c st size al env with
  | mk st' r =>
    cases r with
    | none => exact ⟨st', rfl, C27_alloc_partial hP hk hw h⟩
    | some a =>
      exfalso
      unfold alloc at h
      split at h
      · cases h
      · split at h
        · cases h
        · rw [if_pos (⟨hb, Or.inr he⟩ : c.bind = true ∧ (alignUpSafe c.P size = 0 ∨ env.bindOk = false))] at h
          split at h <;> cases h

/-- Four pages of 4096 bytes at `2^20`, aligned to 16384, from a kernel address that is not
aligned. -/
def env1 : Env := ⟨fun len _ => if len = 32768 then some (2 ^ 20 + 4096) else none, true, true⟩

theorem env1_ok : EnvOk ⟨4096, false, 0, false⟩ (fun _ => .unmapped) env1 := by
  intro len off a h
  simp only [env1] at h
  split at h
  · cases h; subst_vars
    exact ⟨by decide, by simp, by decide, by decide, by decide, fun _ _ _ => rfl⟩
  · cases h

example : (alloc ⟨4096, false, 0, false⟩ (initSt fun _ => .unmapped) 16384 16384 env1).2 =
    some (2 ^ 20 + 16384) := by decide +kernel

/-- **C27** fails when size plus alignment exceeds 64 bits: the length of the mapping wraps around,
the allocation succeeds, its first byte is not mapped, and memory that belonged to somebody else has
been unmapped. -/
theorem C27_overflow_violated : ∃ (c : Cfg) (st st' : St) (size al p : Nat) (env : Env) (x : Nat),
    c.P = 4096 ∧ al = 8192 ∧ size < 2 ^ 64 ∧ EnvOk c st.mem env ∧
      alloc c st size al env = (st', some p) ∧ st'.mem p = .unmapped ∧
      st.mem x = .anon ∧ st'.mem x = .unmapped := by
  let c : Cfg := ⟨4096, false, 0, false⟩
  let st := initSt fun x => if 61440 ≤ x ∧ x < 65536 then .anon else .unmapped
  let env : Env := ⟨fun len _ => if len = 4096 then some 65536 else none, true, true⟩
  refine ⟨c, st, (alloc c st (2 ^ 64 - 4096) 8192 env).1, 2 ^ 64 - 4096, 8192, 65536, env, 61440,
    rfl, rfl, by decide, ?_, pair_of (by decide +kernel), by decide +kernel, by decide +kernel,
    by decide +kernel⟩
  intro len off a h
  simp only [env] at h
  split at h
  · cases h; subst_vars
    refine ⟨by decide, by simp [c], by decide, by decide, by decide, fun x h1 h2 => ?_⟩
    simp only [st, initSt]
    rw [if_neg (by omega)]
  · cases h

/-! ## C31: the file behind shared allocations -/

/-- **C31** (missing: the histories outside `Reach`, for which it is false, see
`C31_hugeFail_violated`). In every reachable state no byte of one live allocation is backed by the
same byte of the file as a byte of another. -/
theorem C31_distinct_partial {c : Cfg} (hP : 0 < c.P) (hfd : c.fd = true) {st : St}
    {live : List (Nat × Nat)} (h : Reach c st live) {l1 l2 l3 : List (Nat × Nat)} {a b : Nat × Nat}
    (hl : live = l1 ++ a :: l2 ++ b :: l3) {i j : Nat} (hi : i < a.2) (hj : j < b.2) :
    a.1 + i ≠ b.1 + j ∧ ∃ u v, st.mem (a.1 + i) = .file u ∧ st.mem (b.1 + j) = .file v ∧ u ≠ v := by
  obtain ⟨L, hL, hI⟩ := reach_inv hP hfd h
  subst hl
  have hp : (L.map G.live).Perm (a :: b :: (l1 ++ l2 ++ l3)) := by
    refine hL.trans ?_
    rw [List.append_assoc]
    refine List.perm_middle.trans (List.Perm.cons _ ?_)
    show (l1 ++ (l2 ++ b :: l3)).Perm _
    rw [← List.append_assoc]
    exact List.perm_middle
  obtain ⟨g, M, p1, rfl, p3⟩ := perm_pick hp
  obtain ⟨k, N, q1, rfl, q3⟩ := perm_pick p3
  have hI' := (hI.perm p1).perm (q1.cons g)
  have hg := hI'.ok g List.mem_cons_self
  have hk := hI'.ok k (List.mem_cons_of_mem _ List.mem_cons_self)
  obtain ⟨x1, x2⟩ := (List.pairwise_cons.1 hI'.apart).1 k List.mem_cons_self
  simp only [G.live] at hi hj ⊢
  have r1 := @roundUp_le c.P g.s hP
  have r2 := @roundUp_le c.P k.s hP
  exact ⟨by omega, _, _, hg.file i (by omega), hk.file j (by omega), by omega⟩

/-- **C31** (missing: as above, see `C31_alignedOffset_violated` and `C31_merge_violated`). If the
offset for a live allocation can be exported, then the mapping opened at this offset shows, byte for
byte, the file bytes of the allocation. -/
theorem C31_export_partial {c : Cfg} (hP : 0 < c.P) (hfd : c.fd = true) {st : St}
    {live : List (Nat × Nat)} (h : Reach c st live) {a : Nat × Nat} (ha : a ∈ live) {off : Nat}
    (ho : ipcOffset c st a.1 = some off) {i : Nat} (hi : i < a.2) :
    st.mem (a.1 + i) = openedCell off i := by
  obtain ⟨L, hL, hI⟩ := reach_inv hP hfd h
  obtain ⟨g, hg, rfl⟩ := List.mem_map.1 (hL.mem_iff.2 ha)
  have ok := hI.ok g hg
  unfold ipcOffset at ho
  rw [if_neg (by simp [hfd]), Option.map_eq_some_iff] at ho
  obtain ⟨v, h1, h2⟩ := ho
  have := ok.entry v h1
  have r1 := @roundUp_le c.P g.s hP
  simp only [G.live] at hi ⊢
  rw [ok.file i (by omega)]
  unfold openedCell
  congr 1
  omega

/-- A provider with a file, page size 4096. -/
def shared : Cfg := ⟨4096, true, 2 ^ 40, false⟩

def emptyMem : Nat → Cell := fun _ => .unmapped

/-- A kernel that answers one length and offset. -/
def one (len off a : Nat) : Env := ⟨fun l o => if l = len ∧ o = off then some a else none, true, true⟩

theorem one_ok {c : Cfg} {mem : Nat → Cell} {len off a : Nat} (h0 : 0 < len) (h1 : c.P ∣ off)
    (h2 : c.P ∣ a) (h3 : 0 < a) (h4 : a + roundUp c.P len ≤ 2 ^ 63)
    (h5 : ∀ x, a ≤ x → x < a + roundUp c.P len → mem x = .unmapped) :
    EnvOk c mem (one len off a) := by
  intro l o b h
  simp only [one] at h
  split at h
  · rename_i he
    obtain ⟨rfl, rfl⟩ := he
    cases h
    exact ⟨h0, fun _ => h1, h2, h3, h4, h5⟩
  · cases h

/-- The hypotheses are met: two allocations, the first split in two. -/
example : ∃ st, Reach shared st [(2 ^ 21, 4096), (2 ^ 20, 4096), (2 ^ 20 + 4096, 4096)] ∧
    ipcOffset shared st (2 ^ 20 + 4096) = some 4096 ∧ ipcOffset shared st (2 ^ 21) = some 8192 := by
  let s1 := (alloc shared (initSt emptyMem) 8192 4096 (one 8192 0 (2 ^ 20))).1
  let s2 := (alloc shared s1 4096 0 (one 4096 8192 (2 ^ 21))).1
  have r1 : Reach shared s1 [(2 ^ 20, 8192)] := by
    refine Reach.alloc (Reach.init (mem := emptyMem) (by simp [emptyMem])) ?_ (by decide) (by decide)
      (fun h => absurd h (by decide)) (pair_of (by decide +kernel) :
        alloc shared (initSt emptyMem) 8192 4096 (one 8192 0 (2 ^ 20)) = (s1, some (2 ^ 20)))
    exact one_ok (by decide) (by decide) (by decide) (by decide) (by decide) (fun _ _ _ => rfl)
  have r2 : Reach shared s2 [(2 ^ 21, 4096), (2 ^ 20, 8192)] := by
    refine Reach.alloc r1 ?_ (by decide) (by decide +kernel) (fun h => absurd h (by decide))
      (pair_of (by decide +kernel) :
        alloc shared s1 4096 0 (one 4096 8192 (2 ^ 21)) = (s2, some (2 ^ 21)))
    refine one_ok (by decide) (by decide) (by decide) (by decide) (by decide) (fun x h1 h2 => ?_)
    show mapped shared emptyMem (2 ^ 20) 8192 0 x = _
    unfold mapped
    rw [if_neg (by intro h; simp [shared, roundUp] at h; omega)]
    rfl
  have r3 : Reach shared (split shared s2 (2 ^ 20) 4096 true).1
      ([(2 ^ 21, 4096)] ++ (2 ^ 20, 4096) :: (2 ^ 20 + 4096, 8192 - 4096) :: []) := by
    exact Reach.split (l1 := [(2 ^ 21, 4096)]) (l2 := []) r2 (by decide) (by decide) (by decide)
      (pair_of (by decide +kernel) :
        split shared s2 (2 ^ 20) 4096 true = ((split shared s2 (2 ^ 20) 4096 true).1, true))
  exact ⟨_, r3, by decide +kernel, by decide +kernel⟩

/-- **C31** fails if a new mapping is cut at its head: the exported offset is the offset of the
mapping, not of the allocation, so the handle shows other bytes of the file. -/
theorem C31_alignedOffset_violated : ∃ (st : St) (env : Env) (st' : St) (p off : Nat),
    EnvOk shared st.mem env ∧ alloc shared st 4096 8192 env = (st', some p) ∧
      ipcOffset shared st' p = some off ∧ st'.mem p ≠ openedCell off 0 := by
  refine ⟨initSt emptyMem, one 12288 0 (2 ^ 20 + 4096),
    (alloc shared (initSt emptyMem) 4096 8192 (one 12288 0 (2 ^ 20 + 4096))).1, 2 ^ 20 + 8192, 0,
    ?_, pair_of (by decide +kernel), by decide +kernel, by decide +kernel⟩
  exact one_ok (by decide) (by decide) (by decide) (by decide) (by decide) (fun _ _ _ => rfl)

/-- The address space after the first page was allocated. -/
theorem after_one {s : St} (h : s = (alloc shared (initSt emptyMem) 4096 0 (one 4096 0 (2 ^ 20))).1)
    (x : Nat) (hx : x < 2 ^ 20 ∨ 2 ^ 20 + 4096 ≤ x) : s.mem x = .unmapped := by
  subst h
  show mapped shared emptyMem (2 ^ 20) 4096 0 x = _
  unfold mapped
  rw [if_neg (by intro h; simp [shared, roundUp] at h; omega)]
  rfl

/-- **C31** fails after a failing request so large that the file position wraps around: the next
allocation gets bytes of the file that belong to a live allocation. -/
theorem C31_hugeFail_violated : ∃ (e1 e2 e3 : Env) (s1 s2 s3 : St) (huge p q : Nat),
    EnvOk shared emptyMem e1 ∧ alloc shared (initSt emptyMem) 4096 0 e1 = (s1, some p) ∧
      EnvOk shared s1.mem e2 ∧ huge < 2 ^ 64 ∧ alloc shared s1 huge 0 e2 = (s2, none) ∧
      EnvOk shared s2.mem e3 ∧ alloc shared s2 4096 0 e3 = (s3, some q) ∧
      p + 4096 ≤ q ∧ s3.mem p = .file 0 ∧ s3.mem q = .file 0 := by
  let s1 := (alloc shared (initSt emptyMem) 4096 0 (one 4096 0 (2 ^ 20))).1
  let e2 : Env := ⟨fun _ _ => none, true, true⟩
  let s2 := (alloc shared s1 (2 ^ 64 - 4096) 0 e2).1
  refine ⟨one 4096 0 (2 ^ 20), e2, one 4096 0 (2 ^ 21), s1, s2,
    (alloc shared s2 4096 0 (one 4096 0 (2 ^ 21))).1, 2 ^ 64 - 4096, 2 ^ 20, 2 ^ 21,
    ?_, pair_of (by decide +kernel), ?_, by decide, pair_of (by decide +kernel), ?_,
    pair_of (by decide +kernel), by decide, by decide +kernel, by decide +kernel⟩
  · exact one_ok (by decide) (by decide) (by decide) (by decide) (by decide) (fun _ _ _ => rfl)
  · intro _ _ _ h; cases h
  · refine one_ok (by decide) (by decide) (by decide) (by decide) (by decide) (fun x h1 h2 => ?_)
    have hn : s2.mem = s1.mem := (alloc_none (by decide) (env := e2) (by intro _ _ _ h; cases h)
      (by decide) (pair_of (by decide +kernel) : alloc shared s1 (2 ^ 64 - 4096) 0 e2 = (s2, none))).1
    rw [hn]
    exact after_one rfl x (by omega)

/-- **C31** fails after merging two allocations that are adjacent in memory but not in the file:
merging succeeds, and the handle of the merged allocation shows other bytes of the file. -/
theorem C31_merge_violated : ∃ (e1 e2 e3 : Env) (s1 s2 s3 s4 : St) (p off : Nat),
    EnvOk shared emptyMem e1 ∧ alloc shared (initSt emptyMem) 4096 0 e1 = (s1, some p) ∧
      EnvOk shared s1.mem e2 ∧ (∃ q, alloc shared s1 4096 0 e2 = (s2, some q)) ∧
      EnvOk shared s2.mem e3 ∧ alloc shared s2 4096 0 e3 = (s3, some (p + 4096)) ∧
      merge shared s3 (p + 4096) = (s4, true) ∧ ipcOffset shared s4 p = some off ∧
      s4.mem (p + 4096) ≠ openedCell off 4096 := by
  let s1 := (alloc shared (initSt emptyMem) 4096 0 (one 4096 0 (2 ^ 20))).1
  let s2 := (alloc shared s1 4096 0 (one 4096 4096 (2 ^ 21))).1
  let s3 := (alloc shared s2 4096 0 (one 4096 8192 (2 ^ 20 + 4096))).1
  have hk2 : EnvOk shared s1.mem (one 4096 4096 (2 ^ 21)) := by
    refine one_ok (by decide) (by decide) (by decide) (by decide) (by decide) (fun x h1 h2 => ?_)
    exact after_one rfl x (by omega)
  refine ⟨one 4096 0 (2 ^ 20), one 4096 4096 (2 ^ 21), one 4096 8192 (2 ^ 20 + 4096), s1, s2, s3,
    (merge shared s3 (2 ^ 20 + 4096)).1, 2 ^ 20, 0,
    ?_, pair_of (by decide +kernel), hk2, ⟨2 ^ 21, pair_of (by decide +kernel)⟩, ?_,
    pair_of (by decide +kernel), pair_of (by decide +kernel), by decide +kernel,
    by decide +kernel⟩
  · exact one_ok (by decide) (by decide) (by decide) (by decide) (by decide) (fun _ _ _ => rfl)
  · refine one_ok (by decide) (by decide) (by decide) (by decide) (by decide) (fun x h1 h2 => ?_)
    simp [shared, roundUp] at h2
    obtain ⟨-, -, -, -, -, -, cut, -, -, -, hm⟩ := alloc_ok (c := shared) (by decide) hk2 (by decide)
      (pair_of (by decide +kernel) :
        alloc shared s1 4096 0 (one 4096 4096 (2 ^ 21)) = (s2, some (2 ^ 21)))
    rw [hm, if_neg (by intro h; simp [shared, roundUp] at h; omega)]
    exact after_one rfl x (by omega)

/-! ## C47: an allocation does not spoil later ones -/

/-- **C47** fails: after an allocation whose size is not a multiple of the page size, a provider
with a file cannot serve the next request, whatever its size and alignment and whatever the kernel
does, although the file has room. -/
theorem C47_oddSize_violated {c : Cfg} (hP : 0 < c.P) (hfd : c.fd = true) {st st1 : St}
    {size : Nat} {env : Env} (hk : EnvOk c st.mem env) (hw : st.sizeFd + size < 2 ^ 64)
    (hodd : size % c.P ≠ 0) {p : Nat} (ha : alloc c st size 0 env = (st1, some p)) :
    ∀ (n al : Nat) (env2 : Env), EnvOk c st1.mem env2 → n + al < 2 ^ 64 →
      (alloc c st1 n al env2).2 = none := by
  intro n al env2 hk2 hn
  have hW : W = 2 ^ 64 := rfl
  obtain ⟨a1, a2, a3, a4, a5, a6, -⟩ := alloc_ok hP hk (by omega) ha
  obtain ⟨b1, b2, b3⟩ := a6 hfd
  cases hr : alloc c st1 n al env2 with
  | mk st2 r =>
    cases r with
    | none => rfl
    | some q =>
      exfalso
      obtain ⟨-, -, -, -, -, d6, -⟩ := alloc_ok hP hk2 (by omega) hr
      obtain ⟨e1, -, -⟩ := d6 hfd
      have hx := @extLen_le c size 0 (by omega)
      have hx2 : extLen c size 0 = size := by
        unfold extLen; rw [if_neg (by omega)]
      rw [hx2, Nat.mod_eq_of_lt (by omega)] at b2
      rw [b2] at e1
      exact hodd (Nat.mod_eq_zero_of_dvd ((Nat.dvd_add_right b1).1 e1))

/-- The hypotheses are met: one byte. -/
example : EnvOk shared emptyMem (one 1 0 (2 ^ 20)) ∧
    (alloc shared (initSt emptyMem) 1 0 (one 1 0 (2 ^ 20))).2 = some (2 ^ 20) :=
  ⟨one_ok (by decide) (by decide) (by decide) (by decide) (by decide) (fun _ _ _ => rfl),
    by decide +kernel⟩

end Verif.Os
