import Verif.Params.Steps
/-!
# Lemmas for the parameter objects: the calls
-/
namespace Verif.Params

variable {s : St} {A : Spec} {ans : List Addr}

/-- What has to be shown of a call. -/
def Good (s : St) (A : Spec) (op : Op) (ans : List Addr) : Prop :=
  ∃ out s', step s op ans = some (out, s') ∧ Answered A op out ∧ Rel s' (A.next op out) ∧
    (Plenty s ans → out.1 ≠ .oom)

/-- A call that refuses its arguments. -/
theorem good_refuse {op : Op} (R : Rel s A) (hs : ∃ a, step s op ans = some ((.invalidArgument, 0), { s with ans := a }))
    (hw : want A op = .refuse) : Good s A op ans := by
  obtain ⟨a, hs⟩ := hs
  refine ⟨_, _, hs, Or.inr (by rw [hw]), ?_, by simp⟩
  have : A.next op (.invalidArgument, 0) = A := by simp [Spec.next]
  rw [this]
  exact R.same rfl rfl

/-- A call that does nothing. -/
theorem good_nothing {op : Op} (R : Rel s A) (hs : step s op ans = some ((.success, 0), { s with ans := ans }))
    (hw : want A op = .nothing) (hn : A.next op (.success, 0) = A) : Good s A op ans := by
  refine ⟨_, _, hs, Or.inr (by rw [hw]), ?_, by simp⟩
  rw [hn]
  exact R.same rfl rfl

/-- A call that has no memory. -/
theorem good_oom {op : Op} (R : Rel s A) (hs : ∃ a, step s op ans = some ((.oom, 0), { s with ans := a }))
    (hc : op.creates = true ∨ op.copies = true) (hp : ¬ Plenty s ans) : Good s A op ans := by
  obtain ⟨a, hs⟩ := hs
  refine ⟨_, _, hs, Or.inl ⟨rfl, hc⟩, ?_, fun h => absurd h hp⟩
  have : A.next op (.oom, 0) = A := by simp [Spec.next]
  rw [this]
  exact R.same rfl rfl

/-- A call that changes fields which are not copies. -/
theorem good_set {op : Op} {h : Addr} {c c' : Cell} {w : Val} (R : Rel s A)
    (hs : step s op ans = some ((.success, 0), ⟨upd s.heap h (some c'), s.user, ans⟩))
    (hw : want A op = .change h w) (hc : s.heap h = some c) (ho : Obj c) (ho' : Obj c') (hp : ptrs c' = ptrs c)
    (hv : ∃ v, view ⟨upd s.heap h (some c'), s.user, ans⟩ h = some v ∧ Agrees v w)
    (hu : (A.next op (.success, 0)).user = A.user) (hl : ∀ x ∈ A.lent, x ∈ (A.next op (.success, 0)).lent)
    (hl' : ∀ o, c' = .ze o → o.residentCount ≠ 0 → o.resident ∈ (A.next op (.success, 0)).lent) : Good s A op ans := by
  refine ⟨_, _, hs, Or.inr (by rw [hw]), ?_, by simp⟩
  refine R.set ans hc ho ho' hp hv ?_ hu hl hl'
  simp [Spec.next, hw]

theorem Handle.cases {h : Addr} {kind : Val → Prop} (hl : A.Handle h kind) (R : Rel s A) :
    (h = 0 ∧ A.vals 0 = none) ∨ (h ≠ 0 ∧ ∃ v, A.vals h = some v ∧ kind v) := by
  rcases hl with rfl | ⟨v, hv, hk⟩
  · exact Or.inl ⟨rfl, R.null⟩
  · refine Or.inr ⟨?_, v, hv, hk⟩
    rintro rfl
    rw [R.null] at hv
    cases hv

/-! ## OS provider -/

/-- The fields of the OS provider that are not copies. -/
theorem os_view {h : Addr} {o o' : OsObj} (R : Rel s A) (hc : s.heap h = some (.os o)) (h1 : o'.shmName = o.shmName)
    (h2 : o'.numaList = o.numaList) (h3 : o'.partitions = o.partitions) (h4 : o'.numaLen = o.numaLen)
    (h5 : o'.partitionsLen = o.partitionsLen) {v : OsVal} (e1 : readStr s o.shmName = some v.shmName)
    (e2 : readArr s o.numaList o.numaLen = some v.numaList)
    (e3 : readArr s o.partitions (o.partitionsLen * 2) = some v.partitions) :
    ∃ x, view ⟨upd s.heap h (some (.os o')), s.user, ans⟩ h = some x ∧
      Agrees x (.os ⟨o'.protection, o'.visibility, v.shmName, v.numaList, o'.numaMode, o'.partSize, v.partitions⟩) := by
  have h0 : h ≠ 0 := by
    rintro rfl
    rw [R.inv.zero] at hc
    cases hc
  have key : ∀ p, p ∈ [o.shmName, o.numaList, o.partitions] →
      upd s.heap h (some (.os o')) p = s.heap p := by
    intro p hp
    by_cases hz : p = 0
    · rw [hz, upd_ne _ _ (Ne.symm h0)]
    · rw [upd_ne]
      exact no_obj R.inv hc trivial hc (by simp only [ptrs]; exact List.mem_filter.2 ⟨hp, by simpa using hz⟩)
  refine ⟨_, ?_, agrees_refl _⟩
  unfold view
  dsimp only
  rw [upd_same]
  dsimp only
  rw [h1, h2, h3, h4, h5,
    readStr_congr (s := s) (s' := ⟨upd s.heap h (some (.os o')), s.user, ans⟩) (fun _ => key _ (by simp)),
    readArr_congr (s := s) (s' := ⟨upd s.heap h (some (.os o')), s.user, ans⟩) (key o.numaList (by simp)),
    readArr_congr (s := s) (s' := ⟨upd s.heap h (some (.os o')), s.user, ans⟩) (key o.partitions (by simp)), e1, e2, e3]

/-- A call that changes a field of the OS provider which is not a copy. -/
theorem os_plain {op : Op} {h : Addr} {f : OsObj → OsObj} {g : OsVal → OsVal} (R : Rel s A) (hl : A.Handle h IsOs)
    (hw : want A op = A.onOs h g)
    (hs0 : h = 0 → step s op ans = some ((.invalidArgument, 0), { s with ans := ans }))
    (hs : ∀ o, h ≠ 0 → s.heap h = some (.os o) →
      step s op ans = some ((.success, 0), ⟨upd s.heap h (some (.os (f o))), s.user, ans⟩))
    (hf : ∀ o, (f o).shmName = o.shmName ∧ (f o).numaList = o.numaList ∧ (f o).partitions = o.partitions ∧
      (f o).numaLen = o.numaLen ∧ (f o).partitionsLen = o.partitionsLen)
    (hg : ∀ (o : OsObj) a b c, g ⟨o.protection, o.visibility, a, b, o.numaMode, o.partSize, c⟩ =
      ⟨(f o).protection, (f o).visibility, a, b, (f o).numaMode, (f o).partSize, c⟩)
    (hn : ∀ out, (A.next op out).user = A.user ∧ (A.next op out).lent = A.lent) : Good s A op ans := by
  rcases Handle.cases hl R with ⟨rfl, hv⟩ | ⟨h0, _, hv, o', rfl⟩
  · exact good_refuse R ⟨_, hs0 rfl⟩ (by rw [hw, Spec.onOs, hv])
  · obtain ⟨o, hc, e1, e2, e3, e4, e5, e6, e7⟩ := R.os hv
    obtain ⟨f1, f2, f3, f4, f5⟩ := hf o
    refine good_set R (hs o h0 hc) (by rw [hw, Spec.onOs, hv]) hc trivial trivial ?_ ?_ ?_ ?_ ?_
    · simp only [ptrs, f1, f2, f3]
    · have hv' := os_view (ans := ans) R hc f1 f2 f3 f4 f5 e1 e2 e3
      rw [← hg o] at hv'
      rw [← e4, ← e5, ← e6, ← e7] at hv'
      exact hv'
    · exact (hn _).1
    · rw [(hn _).2]; exact fun _ h => h
    · intro z hz; cases hz

theorem good_osSetProtection {h v : Nat} (R : Rel s A) (hl : A.Handle h IsOs) :
    Good s A (.osSetProtection h v) ans := by
  refine os_plain (f := fun o => { o with protection := v }) R hl rfl ?_ ?_ (fun o => ⟨rfl, rfl, rfl, rfl, rfl⟩)
    (fun _ _ _ _ => rfl) (fun out => by unfold Spec.next; split <;> exact ⟨rfl, rfl⟩)
  · rintro rfl; rfl
  · intro o h0 hc
    simp only [step, Op.code, osSetProtection, if_neg h0, bind_app, getOs, hc, ok, pure_app]
    rw [put_app _ _ _ (by simp [hc])]

theorem good_osSetVisibility {h v : Nat} (R : Rel s A) (hl : A.Handle h IsOs) :
    Good s A (.osSetVisibility h v) ans := by
  refine os_plain (f := fun o => { o with visibility := v }) R hl rfl ?_ ?_ (fun o => ⟨rfl, rfl, rfl, rfl, rfl⟩)
    (fun _ _ _ _ => rfl) (fun out => by unfold Spec.next; split <;> exact ⟨rfl, rfl⟩)
  · rintro rfl; rfl
  · intro o h0 hc
    simp only [step, Op.code, osSetVisibility, if_neg h0, bind_app, getOs, hc, ok, pure_app]
    rw [put_app _ _ _ (by simp [hc])]

theorem good_osSetNumaMode {h v : Nat} (R : Rel s A) (hl : A.Handle h IsOs) :
    Good s A (.osSetNumaMode h v) ans := by
  refine os_plain (f := fun o => { o with numaMode := v }) R hl rfl ?_ ?_ (fun o => ⟨rfl, rfl, rfl, rfl, rfl⟩)
    (fun _ _ _ _ => rfl) (fun out => by unfold Spec.next; split <;> exact ⟨rfl, rfl⟩)
  · rintro rfl; rfl
  · intro o h0 hc
    simp only [step, Op.code, osSetNumaMode, if_neg h0, bind_app, getOs, hc, ok, pure_app]
    rw [put_app _ _ _ (by simp [hc])]

theorem good_osSetPartSize {h v : Nat} (R : Rel s A) (hl : A.Handle h IsOs) :
    Good s A (.osSetPartSize h v) ans := by
  refine os_plain (f := fun o => { o with partSize := v }) R hl rfl ?_ ?_ (fun o => ⟨rfl, rfl, rfl, rfl, rfl⟩)
    (fun _ _ _ _ => rfl) (fun out => by unfold Spec.next; split <;> exact ⟨rfl, rfl⟩)
  · rintro rfl; rfl
  · intro o h0 hc
    simp only [step, Op.code, osSetPartSize, if_neg h0, bind_app, getOs, hc, ok, pure_app]
    rw [put_app _ _ _ (by simp [hc])]

/-! ## File provider -/

/-- A call that changes a field of the file provider which is not the path. -/
theorem file_plain {op : Op} {h : Addr} {f : FileObj → FileObj} {g : FileVal → FileVal} (R : Rel s A)
    (hl : A.Handle h IsFile) (hw : want A op = A.onFile h g)
    (hs0 : h = 0 → step s op ans = some ((.invalidArgument, 0), { s with ans := ans }))
    (hs : ∀ o, h ≠ 0 → s.heap h = some (.file o) →
      step s op ans = some ((.success, 0), ⟨upd s.heap h (some (.file (f o))), s.user, ans⟩))
    (hf : ∀ o, (f o).path = o.path)
    (hg : ∀ (o : FileObj) a, g ⟨a, o.protection, o.visibility⟩ = ⟨a, (f o).protection, (f o).visibility⟩)
    (hn : ∀ out, (A.next op out).user = A.user ∧ (A.next op out).lent = A.lent) : Good s A op ans := by
  rcases Handle.cases hl R with ⟨rfl, hv⟩ | ⟨h0, _, hv, o', rfl⟩
  · exact good_refuse R ⟨_, hs0 rfl⟩ (by rw [hw, Spec.onFile, hv])
  · obtain ⟨o, hc, e1, e2, e3⟩ := R.file hv
    refine good_set R (hs o h0 hc) (by rw [hw, Spec.onFile, hv]) hc trivial trivial ?_ ?_ ?_ ?_ ?_
    · simp only [ptrs, hf]
    · refine ⟨.file ⟨o'.path, (f o).protection, (f o).visibility⟩, ?_, ?_⟩
      · unfold view
        dsimp only
        rw [upd_same]
        dsimp only
        rw [hf, readStr_congr (s := s) (s' := ⟨upd s.heap h (some (.file (f o))), s.user, ans⟩), e1]
        intro hp
        dsimp only
        rw [upd_ne]
        exact no_obj R.inv hc trivial hc (by simp [ptrs, hp])
      · rw [← hg o, ← e2, ← e3]
        exact agrees_refl _
    · exact (hn _).1
    · rw [(hn _).2]; exact fun _ h => h
    · intro z hz; cases hz

theorem good_fileSetProtection {h v : Nat} (R : Rel s A) (hl : A.Handle h IsFile) :
    Good s A (.fileSetProtection h v) ans := by
  refine file_plain (f := fun o => { o with protection := v }) R hl rfl ?_ ?_ (fun _ => rfl)
    (fun _ _ => rfl) (fun out => by unfold Spec.next; split <;> exact ⟨rfl, rfl⟩)
  · rintro rfl; rfl
  · intro o h0 hc
    simp only [step, Op.code, fileSetProtection, if_neg h0, bind_app, getFile, hc, ok, pure_app]
    rw [put_app _ _ _ (by simp [hc])]

theorem good_fileSetVisibility {h v : Nat} (R : Rel s A) (hl : A.Handle h IsFile) :
    Good s A (.fileSetVisibility h v) ans := by
  refine file_plain (f := fun o => { o with visibility := v }) R hl rfl ?_ ?_ (fun _ => rfl)
    (fun _ _ => rfl) (fun out => by unfold Spec.next; split <;> exact ⟨rfl, rfl⟩)
  · rintro rfl; rfl
  · intro o h0 hc
    simp only [step, Op.code, fileSetVisibility, if_neg h0, bind_app, getFile, hc, ok, pure_app]
    rw [put_app _ _ _ (by simp [hc])]

/-! ## Devdax provider -/

theorem prot_iff (v : BitVec 32) :
    (v &&& ~~~(((PROTECTION_MAX - 1) <<< 1) - 1) ≠ 0 ∨ v = 0) ↔ ¬ (0 < v.toNat ∧ v.toNat < 16) := by
  have hm : ~~~(((PROTECTION_MAX - 1) <<< 1) - 1) = BitVec.ofNat 32 ((2 ^ 28 - 1) <<< 4) := by decide
  have h1 : v &&& ~~~(((PROTECTION_MAX - 1) <<< 1) - 1) = 0 ↔ v.toNat < 16 := by
    rw [hm, ← BitVec.toNat_inj, BitVec.toNat_and, BitVec.toNat_ofNat]
    have h2 : ((2 ^ 28 - 1) <<< 4) % 2 ^ 32 = (2 ^ 28 - 1) <<< 4 := by decide
    rw [h2]
    have hv := v.isLt
    have h3 : v.toNat &&& (2 ^ 28 - 1) <<< 4 = ((v.toNat >>> 4) &&& (2 ^ 28 - 1)) <<< 4 := by
      apply Nat.eq_of_testBit_eq
      intro i
      simp only [Nat.testBit_and, Nat.testBit_shiftLeft, Nat.testBit_shiftRight]
      by_cases hi : 4 ≤ i
      · simp [hi]
      · simp [hi]
    rw [h3, Nat.and_two_pow_sub_one_eq_mod, Nat.shiftLeft_eq, Nat.shiftRight_eq_div_pow]
    show _ = 0 ↔ _
    omega
  have h4 : v = 0 ↔ v.toNat = 0 := by
    rw [← BitVec.toNat_inj]
    rfl
  rw [h4, Ne, h1]
  omega

/-- A call that changes the protection of the devdax provider. -/
theorem good_daxSetProtection {h : Addr} {v : BitVec 32} (R : Rel s A) (hl : A.Handle h IsDax) :
    Good s A (.daxSetProtection h v) ans := by
  rcases Handle.cases hl R with ⟨rfl, hv⟩ | ⟨h0, _, hv, o', rfl⟩
  · refine good_refuse R ⟨_, rfl⟩ ?_
    simp only [want, Spec.onDax, hv]
    split <;> rfl
  · obtain ⟨o, hc, e1, e2, e3⟩ := R.dax hv
    by_cases hp : 0 < v.toNat ∧ v.toNat < 16
    · have hb := mt (prot_iff v).1 (fun h => h hp)
      refine good_set (h := h) (c' := .dax { o with protection := v.toNat })
        (w := .dax { o' with protection := v.toNat }) R ?_
        (by simp only [want, Spec.onDax, hv, if_pos hp]) hc trivial trivial rfl ?_ rfl (fun _ h => h) ?_
      · simp only [step, Op.code, daxSetProtection, if_neg h0, if_neg hb, bind_app, getDax, hc, ok, pure_app]
        rw [put_app _ _ _ (by simp [hc])]
      · refine ⟨_, ?_, agrees_refl _⟩
        unfold view
        dsimp only
        rw [upd_same]
        dsimp only
        rw [readStr_congr (s := s) (s' := ⟨upd s.heap h (some (.dax { o with protection := v.toNat })), s.user, ans⟩), e1,
          ← e3]
        intro hp
        dsimp only
        rw [upd_ne]
        exact no_obj R.inv hc trivial hc (by simp [ptrs, hp])
      · intro z hz; cases hz
    · have hb := (prot_iff v).2 hp
      refine good_refuse R ⟨ans, ?_⟩ (by simp only [want, if_neg hp])
      simp only [step, Op.code, daxSetProtection, if_neg h0, if_pos hb, bad, pure_app]

/-! ## Level Zero provider -/

/-- A call that changes a field of the Level Zero provider which is not the array. -/
theorem ze_plain {op : Op} {h : Addr} {f : ZeObj → ZeObj} {g : ZeVal → ZeVal} (R : Rel s A)
    (hl : A.Handle h IsZe) (hw : want A op = A.onZe h g)
    (hs0 : h = 0 → step s op ans = some ((.invalidArgument, 0), { s with ans := ans }))
    (hs : ∀ o, h ≠ 0 → s.heap h = some (.ze o) →
      step s op ans = some ((.success, 0), ⟨upd s.heap h (some (.ze (f o))), s.user, ans⟩))
    (hf : ∀ o, (f o).resident = o.resident ∧ (f o).residentCount = o.residentCount)
    (hg : ∀ (o : ZeObj) a, g ⟨o.context, o.device, o.memoryType, a, o.freePolicy, o.ordinal⟩ =
      ⟨(f o).context, (f o).device, (f o).memoryType, a, (f o).freePolicy, (f o).ordinal⟩)
    (hn : ∀ out, (A.next op out).user = A.user ∧ (A.next op out).lent = A.lent) : Good s A op ans := by
  rcases Handle.cases hl R with ⟨rfl, hv⟩ | ⟨h0, _, hv, o', rfl⟩
  · exact good_refuse R ⟨_, hs0 rfl⟩ (by rw [hw, Spec.onZe, hv])
  · obtain ⟨o, hc, e1, e2, e3, e4, e5, e6⟩ := R.ze hv
    obtain ⟨f1, f2⟩ := hf o
    refine good_set R (hs o h0 hc) (by rw [hw, Spec.onZe, hv]) hc trivial trivial rfl ?_ ?_ ?_ ?_
    · refine ⟨.ze ⟨(f o).context, (f o).device, (f o).memoryType, o'.resident, (f o).freePolicy, (f o).ordinal⟩, ?_, ?_⟩
      · unfold view
        dsimp only
        rw [upd_same]
        dsimp only
        rw [f1, f2, readUser_congr (s := s) (s' := ⟨upd s.heap h (some (.ze (f o))), s.user, ans⟩) rfl, e1]
      · rw [← hg o, ← e2, ← e3, ← e4, ← e5, ← e6]
        exact agrees_refl _
    · exact (hn _).1
    · rw [(hn _).2]; exact fun _ h => h
    · intro z hz hzn
      cases hz
      rw [(hn _).2, f1]
      rw [f2] at hzn
      exact R.lent h o hc hzn

theorem good_zeSetDevice {h v : Nat} (R : Rel s A) (hl : A.Handle h IsZe) :
    Good s A (.zeSetDevice h v) ans := by
  refine ze_plain (f := fun o => { o with device := v }) R hl rfl ?_ ?_ (fun _ => ⟨rfl, rfl⟩)
    (fun _ _ => rfl) (fun out => by unfold Spec.next; split <;> exact ⟨rfl, rfl⟩)
  · rintro rfl; rfl
  · intro o h0 hc
    simp only [step, Op.code, zeSetDevice, if_neg h0, bind_app, getZe, hc, ok, pure_app]
    rw [put_app _ _ _ (by simp [hc])]

theorem good_zeSetMemoryType {h v : Nat} (R : Rel s A) (hl : A.Handle h IsZe) :
    Good s A (.zeSetMemoryType h v) ans := by
  refine ze_plain (f := fun o => { o with memoryType := v }) R hl rfl ?_ ?_ (fun _ => ⟨rfl, rfl⟩)
    (fun _ _ => rfl) (fun out => by unfold Spec.next; split <;> exact ⟨rfl, rfl⟩)
  · rintro rfl; rfl
  · intro o h0 hc
    simp only [step, Op.code, zeSetMemoryType, if_neg h0, bind_app, getZe, hc, ok, pure_app]
    rw [put_app _ _ _ (by simp [hc])]

theorem good_zeSetOrdinal {h v : Nat} (R : Rel s A) (hl : A.Handle h IsZe) :
    Good s A (.zeSetOrdinal h v) ans := by
  refine ze_plain (f := fun o => { o with ordinal := v }) R hl rfl ?_ ?_ (fun _ => ⟨rfl, rfl⟩)
    (fun _ _ => rfl) (fun out => by unfold Spec.next; split <;> exact ⟨rfl, rfl⟩)
  · rintro rfl; rfl
  · intro o h0 hc
    simp only [step, Op.code, zeSetOrdinal, if_neg h0, bind_app, getZe, hc, ok, pure_app]
    rw [put_app _ _ _ (by simp [hc])]

theorem good_zeSetPolicy {h v : Nat} (R : Rel s A) (hl : A.Handle h IsZe) :
    Good s A (.zeSetPolicy h v) ans := by
  refine ze_plain (f := fun o => { o with freePolicy := v }) R hl rfl ?_ ?_ (fun _ => ⟨rfl, rfl⟩)
    (fun _ _ => rfl) (fun out => by unfold Spec.next; split <;> exact ⟨rfl, rfl⟩)
  · rintro rfl; rfl
  · intro o h0 hc
    simp only [step, Op.code, zeSetPolicy, if_neg h0, bind_app, getZe, hc, ok, pure_app]
    rw [put_app _ _ _ (by simp [hc])]

theorem good_zeSetContext {h v : Nat} (R : Rel s A) (hl : A.Handle h IsZe) :
    Good s A (.zeSetContext h v) ans := by
  by_cases hv0 : v = 0
  · subst hv0
    refine good_refuse R ⟨ans, ?_⟩ (by simp only [want, if_pos])
    by_cases h0 : h = 0
    · subst h0; rfl
    · simp only [step, Op.code, zeSetContext, if_neg h0, if_pos, bad, pure_app]
  · refine ze_plain (f := fun o => { o with context := v }) (g := fun o => { o with context := v }) R hl (by simp only [want, if_neg hv0]) ?_ ?_
      (fun _ => ⟨rfl, rfl⟩) (fun _ _ => rfl) (fun out => by unfold Spec.next; split <;> exact ⟨rfl, rfl⟩)
    · rintro rfl; rfl
    · intro o h0 hc
      simp only [step, Op.code, zeSetContext, if_neg h0, if_neg hv0, bind_app, getZe, hc, ok, pure_app]
      rw [put_app _ _ _ (by simp [hc])]

theorem good_zeSetResident {h p n : Nat} (R : Rel s A) (hl : A.Handle h IsZe) (hp : n = 0 ∨ p = 0 ∨ A.IsArr p n) :
    Good s A (.zeSetResident h p n) ans := by
  by_cases hb : n ≠ 0 ∧ p = 0
  · refine good_refuse R ⟨ans, ?_⟩ (by simp only [want, if_pos hb])
    by_cases h0 : h = 0
    · subst h0; rfl
    · simp only [step, Op.code, zeSetResident, if_neg h0, if_pos hb, bad, pure_app]
  · rcases Handle.cases hl R with ⟨rfl, hv⟩ | ⟨h0, _, hv, o', rfl⟩
    · exact good_refuse R ⟨ans, rfl⟩ (by simp only [want, if_neg hb, Spec.onZe, hv])
    · obtain ⟨o, hc, e1, e2, e3, e4, e5, e6⟩ := R.ze hv
      refine good_set (h := h) (c' := .ze { o with resident := p, residentCount := n })
        (w := .ze { o' with resident := A.elems p n }) R ?_
        (by simp only [want, if_neg hb, Spec.onZe, hv]) hc trivial trivial rfl ?_ ?_ ?_ ?_
      · simp only [step, Op.code, zeSetResident, if_neg h0, if_neg hb, bind_app, getZe, hc, ok, pure_app]
        rw [put_app _ _ _ (by simp [hc])]
      · refine ⟨_, ?_, agrees_refl _⟩
        unfold view
        dsimp only
        rw [upd_same]
        dsimp only
        have : readUser ⟨upd s.heap h (some (.ze { o with resident := p, residentCount := n })), s.user, ans⟩ p n =
            some (A.elems p n) := by
          unfold readUser Spec.elems
          by_cases hn : n = 0
          · rw [if_pos hn, hn]; simp
          · rw [if_neg hn]
            rcases hp with hp | hp | ⟨l, hl1, hl2⟩
            · exact absurd hp hn
            · exact absurd ⟨hn, hp⟩ hb
            · dsimp only
              rw [R.user, hl1]
              simp [hl2]
        rw [this, ← e2, ← e3, ← e4, ← e5, ← e6]
      · simp [Spec.next]
      · intro x hx
        simp only [Spec.next, if_true]
        split
        · exact hx
        · exact List.mem_cons_of_mem _ hx
      · intro z hz hzn
        cases hz
        simp only [Spec.next, if_true]
        rw [if_neg hzn]
        simp

/-! ## CUDA provider -/

theorem cu_plain {op : Op} {h : Addr} {f : CuObj → CuObj} (R : Rel s A)
    (hl : A.Handle h IsCu) (hw : want A op = A.onCu h f)
    (hs0 : h = 0 → step s op ans = some ((.invalidArgument, 0), { s with ans := ans }))
    (hs : ∀ o, h ≠ 0 → s.heap h = some (.cu o) →
      step s op ans = some ((.success, 0), ⟨upd s.heap h (some (.cu (f o))), s.user, ans⟩))
    (hn : ∀ out, (A.next op out).user = A.user ∧ (A.next op out).lent = A.lent) : Good s A op ans := by
  rcases Handle.cases hl R with ⟨rfl, hv⟩ | ⟨h0, _, hv, o, rfl⟩
  · exact good_refuse R ⟨_, hs0 rfl⟩ (by rw [hw, Spec.onCu, hv])
  · have hc := (R.cell hv).2.1 o rfl
    refine good_set R (hs o h0 hc) (by rw [hw, Spec.onCu, hv]) hc trivial trivial rfl ?_ ?_ ?_ ?_
    · refine ⟨.cu (f o), ?_, agrees_refl _⟩
      unfold view
      dsimp only
      rw [upd_same]
    · exact (hn _).1
    · rw [(hn _).2]; exact fun _ h => h
    · intro z hz; cases hz

theorem good_cuSetContext {h v : Nat} (R : Rel s A) (hl : A.Handle h IsCu) :
    Good s A (.cuSetContext h v) ans := by
  refine cu_plain (f := fun o => { o with context := v }) R hl rfl ?_ ?_ 
     (fun out => by unfold Spec.next; split <;> exact ⟨rfl, rfl⟩)
  · rintro rfl; rfl
  · intro o h0 hc
    simp only [step, Op.code, cuSetContext, if_neg h0, bind_app, getCu, hc, ok, pure_app]
    rw [put_app _ _ _ (by simp [hc])]

theorem good_cuSetMemoryType {h v : Nat} (R : Rel s A) (hl : A.Handle h IsCu) :
    Good s A (.cuSetMemoryType h v) ans := by
  refine cu_plain (f := fun o => { o with memoryType := v }) R hl rfl ?_ ?_ 
     (fun out => by unfold Spec.next; split <;> exact ⟨rfl, rfl⟩)
  · rintro rfl; rfl
  · intro o h0 hc
    simp only [step, Op.code, cuSetMemoryType, if_neg h0, bind_app, getCu, hc, ok, pure_app]
    rw [put_app _ _ _ (by simp [hc])]

theorem good_cuSetFlags {h v : Nat} (R : Rel s A) (hl : A.Handle h IsCu) :
    Good s A (.cuSetFlags h v) ans := by
  refine cu_plain (f := fun o => { o with flags := v }) R hl rfl ?_ ?_ 
     (fun out => by unfold Spec.next; split <;> exact ⟨rfl, rfl⟩)
  · rintro rfl; rfl
  · intro o h0 hc
    simp only [step, Op.code, cuSetFlags, if_neg h0, bind_app, getCu, hc, ok, pure_app]
    rw [put_app _ _ _ (by simp [hc])]

theorem good_cuSetDevice {h : Addr} {v : Int} (R : Rel s A) (hl : A.Handle h IsCu) :
    Good s A (.cuSetDevice h v) ans := by
  refine cu_plain (f := fun o => { o with device := v }) R hl rfl ?_ ?_ 
     (fun out => by unfold Spec.next; split <;> exact ⟨rfl, rfl⟩)
  · rintro rfl; rfl
  · intro o h0 hc
    simp only [step, Op.code, cuSetDevice, if_neg h0, bind_app, getCu, hc, ok, pure_app]
    rw [put_app _ _ _ (by simp [hc])]

/-! ## Scalable pool -/

theorem good_scalSetGranularity {h v : Nat} (R : Rel s A) (hl : A.Handle h IsScal) :
    Good s A (.scalSetGranularity h v) ans := by
  rcases Handle.cases hl R with ⟨rfl, hv⟩ | ⟨h0, _, hv, g, k, rfl⟩
  · exact good_refuse R ⟨ans, rfl⟩ (by simp only [want, hv])
  · have hc := (R.cell hv).2.2 g k rfl
    by_cases hv0 : v = 0
    · refine good_refuse R ⟨ans, ?_⟩ (by simp only [want, hv, if_pos hv0])
      simp only [step, Op.code, scalSetGranularity, if_neg h0, if_pos hv0, bad, pure_app]
    · refine good_set (h := h) (c' := .scal v k) (w := .scal v k) R ?_ (by simp only [want, hv, if_neg hv0]) hc trivial trivial rfl ?_ rfl
        (fun _ h => h) ?_
      · simp only [step, Op.code, scalSetGranularity, if_neg h0, if_neg hv0, bind_app, getScal, hc, ok, pure_app]
        rw [put_app _ _ _ (by simp [hc])]
      · refine ⟨_, ?_, agrees_refl _⟩
        unfold view
        dsimp only
        rw [upd_same]
      · intro z hz; cases hz

theorem good_scalSetKeep {h : Addr} {v : Bool} (R : Rel s A) (hl : A.Handle h IsScal) :
    Good s A (.scalSetKeep h v) ans := by
  rcases Handle.cases hl R with ⟨rfl, hv⟩ | ⟨h0, _, hv, g, k, rfl⟩
  · exact good_refuse R ⟨ans, rfl⟩ (by simp only [want, hv])
  · have hc := (R.cell hv).2.2 g k rfl
    refine good_set (h := h) (c' := .scal g v) (w := .scal g v) R ?_ (by simp only [want, hv]) hc trivial trivial rfl ?_ rfl
      (fun _ h => h) ?_
    · simp only [step, Op.code, scalSetKeep, if_neg h0, bind_app, getScal, hc, ok, pure_app]
      rw [put_app _ _ _ (by simp [hc])]
    · refine ⟨_, ?_, agrees_refl _⟩
      unfold view
      dsimp only
      rw [upd_same]
    · intro z hz; cases hz

/-! ## Disjoint pool -/

theorem obj_zero {o : DjObj} (h : Obj (.dj o)) : 0 ∈ o.name :=
  List.mem_of_mem_drop (by rw [h.2]; simp : 0 ∈ o.name.drop 63)

theorem dj_plain {op : Op} {h : Addr} {f : DjObj → DjObj} {g : DjVal → DjVal} (R : Rel s A)
    (hl : A.Handle h IsDj) (hw : want A op = A.onDj h g)
    (hs0 : h = 0 → step s op ans = some ((.invalidArgument, 0), { s with ans := ans }))
    (hs : ∀ o, h ≠ 0 → s.heap h = some (.dj o) →
      step s op ans = some ((.success, 0), ⟨upd s.heap h (some (.dj (f o))), s.user, ans⟩))
    (hf : ∀ o, (f o).name = o.name)
    (hg : ∀ (o : DjObj) a, g ⟨o.slabMinSize, o.maxPoolableSize, o.capacity, o.minBucketSize, o.trace, o.limits, a⟩ =
      ⟨(f o).slabMinSize, (f o).maxPoolableSize, (f o).capacity, (f o).minBucketSize, (f o).trace, (f o).limits, a⟩)
    (hn : ∀ out, (A.next op out).user = A.user ∧ (A.next op out).lent = A.lent) : Good s A op ans := by
  rcases Handle.cases hl R with ⟨rfl, hv⟩ | ⟨h0, _, hv, o', rfl⟩
  · exact good_refuse R ⟨_, hs0 rfl⟩ (by rw [hw, Spec.onDj, hv])
  · obtain ⟨o, hc, e1, e2, e3, e4, e5, e6, e7⟩ := R.dj hv
    have ho : Obj (.dj o) := (R.inv.good _ _ hc).resolve_right (by rintro ⟨l, hl⟩; cases hl)
    have ho' : Obj (.dj (f o)) := by
      show (f o).name.length = 64 ∧ (f o).name.drop 63 = [0]
      rw [hf]; exact ho
    refine good_set R (hs o h0 hc) (by rw [hw, Spec.onDj, hv]) hc ho ho' rfl ?_ ?_ ?_ ?_
    · refine ⟨.dj ⟨(f o).slabMinSize, (f o).maxPoolableSize, (f o).capacity, (f o).minBucketSize, (f o).trace,
        (f o).limits, some ((f o).name.takeWhile (· ≠ 0))⟩, ?_, ?_⟩
      · unfold view
        dsimp only
        rw [upd_same]
        dsimp only
        rw [if_pos (obj_zero ho')]
      · have := hg o o'.name
        rw [← e1, ← e2, ← e3, ← e4, ← e5, ← e6] at this
        rw [this, hf]
        refine ⟨rfl, ?_⟩
        rcases e7 with e7 | e7
        · exact Or.inl e7
        · exact Or.inr e7.symm
    · exact (hn _).1
    · rw [(hn _).2]; exact fun _ h => h
    · intro z hz; cases hz

theorem good_djSetSlabMinSize {h v : Nat} (R : Rel s A) (hl : A.Handle h IsDj) :
    Good s A (.djSetSlabMinSize h v) ans := by
  refine dj_plain (f := fun o => { o with slabMinSize := v }) R hl rfl ?_ ?_ (fun _ => rfl)
    (fun _ _ => rfl) (fun out => by unfold Spec.next; split <;> exact ⟨rfl, rfl⟩)
  · rintro rfl; rfl
  · intro o h0 hc
    simp only [step, Op.code, djSetSlabMinSize, if_neg h0, bind_app, getDj, hc, ok, pure_app]
    rw [put_app _ _ _ (by simp [hc])]

theorem good_djSetMaxPoolableSize {h v : Nat} (R : Rel s A) (hl : A.Handle h IsDj) :
    Good s A (.djSetMaxPoolableSize h v) ans := by
  refine dj_plain (f := fun o => { o with maxPoolableSize := v }) R hl rfl ?_ ?_ (fun _ => rfl)
    (fun _ _ => rfl) (fun out => by unfold Spec.next; split <;> exact ⟨rfl, rfl⟩)
  · rintro rfl; rfl
  · intro o h0 hc
    simp only [step, Op.code, djSetMaxPoolableSize, if_neg h0, bind_app, getDj, hc, ok, pure_app]
    rw [put_app _ _ _ (by simp [hc])]

theorem good_djSetCapacity {h v : Nat} (R : Rel s A) (hl : A.Handle h IsDj) :
    Good s A (.djSetCapacity h v) ans := by
  refine dj_plain (f := fun o => { o with capacity := v }) R hl rfl ?_ ?_ (fun _ => rfl)
    (fun _ _ => rfl) (fun out => by unfold Spec.next; split <;> exact ⟨rfl, rfl⟩)
  · rintro rfl; rfl
  · intro o h0 hc
    simp only [step, Op.code, djSetCapacity, if_neg h0, bind_app, getDj, hc, ok, pure_app]
    rw [put_app _ _ _ (by simp [hc])]

theorem good_djSetLimits {h v : Nat} (R : Rel s A) (hl : A.Handle h IsDj) :
    Good s A (.djSetLimits h v) ans := by
  refine dj_plain (f := fun o => { o with limits := v }) R hl rfl ?_ ?_ (fun _ => rfl)
    (fun _ _ => rfl) (fun out => by unfold Spec.next; split <;> exact ⟨rfl, rfl⟩)
  · rintro rfl; rfl
  · intro o h0 hc
    simp only [step, Op.code, djSetLimits, if_neg h0, bind_app, getDj, hc, ok, pure_app]
    rw [put_app _ _ _ (by simp [hc])]

theorem good_djSetTrace {h : Addr} {v : Int} (R : Rel s A) (hl : A.Handle h IsDj) :
    Good s A (.djSetTrace h v) ans := by
  refine dj_plain (f := fun o => { o with trace := v }) R hl rfl ?_ ?_ (fun _ => rfl)
    (fun _ _ => rfl) (fun out => by unfold Spec.next; split <;> exact ⟨rfl, rfl⟩)
  · rintro rfl; rfl
  · intro o h0 hc
    simp only [step, Op.code, djSetTrace, if_neg h0, bind_app, getDj, hc, ok, pure_app]
    rw [put_app _ _ _ (by simp [hc])]

theorem good_djSetMinBucketSize {h v : Nat} (R : Rel s A) (hl : A.Handle h IsDj) :
    Good s A (.djSetMinBucketSize h v) ans := by
  have hiff : (v = 0 ∨ v &&& (v - 1) ≠ 0) ↔ ¬ ∃ k, v = 2 ^ k := by
    by_cases hv0 : v = 0
    · subst hv0
      simp only [true_or, true_iff]
      rintro ⟨k, hk⟩
      exact absurd hk.symm (Nat.ne_of_gt (Nat.two_pow_pos k))
    · rw [← Utils.nat_pow2_iff hv0]
      simp [hv0]
  by_cases hb : v = 0 ∨ v &&& (v - 1) ≠ 0
  · refine good_refuse R ⟨ans, ?_⟩ (by simp only [want, if_neg (hiff.1 hb)])
    by_cases h0 : h = 0
    · subst h0; rfl
    · simp only [step, Op.code, djSetMinBucketSize, if_neg h0, if_pos hb, bad, pure_app]
  · have hk : ∃ k, v = 2 ^ k := Classical.byContradiction fun h => hb (hiff.2 h)
    refine dj_plain (f := fun o => { o with minBucketSize := v }) (g := fun o => { o with minBucketSize := v }) R hl (by simp only [want, if_pos hk]) ?_ ?_
      (fun _ => rfl) (fun _ _ => rfl) (fun out => by unfold Spec.next; split <;> exact ⟨rfl, rfl⟩)
    · rintro rfl; rfl
    · intro o h0 hc
      simp only [step, Op.code, djSetMinBucketSize, if_neg h0, if_neg hb, bind_app, getDj, hc, ok, pure_app]
      rw [put_app _ _ _ (by simp [hc])]

end Verif.Params
