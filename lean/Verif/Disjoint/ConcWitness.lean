import Verif.Disjoint.ConcProps
/-!
# The disjoint pool under interleavings: a race, and cases that meet the hypotheses
-/
namespace Verif.Disjoint.Conc
open Mem

/-- A pool that keeps no empty slab: the shared limit is 0. -/
def exLim : Cfg := ⟨64, 256, 4, 8, 16, 0⟩

theorem exLim_ok : CfgOk exLim := ⟨⟨3, rfl⟩, by decide, by decide, Or.inr ⟨4, rfl⟩⟩

/-- Thread 1 asks for 8 bytes. -/
def w1 : St := initSt.setPc 1 (start exLim ⟨8, 0⟩)
theorem r1 : Reach exLim w1 := .step .init rfl (.call ⟨8, 0⟩ rfl (by decide) (Or.inl (by decide)))
def o1 : Obj := ⟨1024, 0, [true, true, true, true, true, true, true, true], 0, true⟩
/-- It takes the lock, finds no slab, gets 64 bytes at 1024, registers the slab, takes a chunk. -/
def w2 : St := (w1.setLock 0 (some 1)).setPc 1 (.get 0 ⟨8, 0⟩)
theorem r2 : Reach exLim w2 := .step r1 rfl (.lock rfl (by decide +kernel) rfl)
def w3 : St := w2.setPc 1 (.make 0 ⟨8, 0⟩)
theorem r3 : Reach exLim w3 := .step r2 rfl (.getNew rfl rfl)
def w4 : St := { (w3.setObj 0 (newObj exLim 0 1024)).setMem 1024 (some 64) with
  next := 1, pc := Function.update w3.pc 1 (.reg 0 ⟨8, 0⟩ 0) }
theorem r4 : Reach exLim w4 := .step r3 rfl (.makeOk (c := exLim) (t := 1) (s := w3) (i := 0)
  (r := ⟨8, 0⟩) 1024 rfl ⟨by decide, by decide +kernel, (fun q z h => by cases h),
    (fun _ => by decide), (fun h => absurd rfl h)⟩)
def w5 : St := ((w4.setKnown 1024 (some 0)).setBk 0 { w4.bk 0 with avail := [0] }).setPc 1
  (.take 0 ⟨8, 0⟩)
theorem r5 : Reach exLim w5 := .step r4 rfl (.regOk (c := exLim) (t := 1) (s := w4) (i := 0)
  (r := ⟨8, 0⟩) (id := 0) (o := o1) rfl rfl rfl)
def w6 : St := { ((takeChunk w5 0 0 [] o1 0).setLock 0 none).setOwn 0
    (some ⟨1024, 8, 0, [], none⟩) with tickets := 1, pc := Function.update w5.pc 1 .idle }
theorem r6 : Reach exLim w6 := .step r5 rfl (.takeOk (c := exLim) (t := 1) (s := w5) (i := 0)
  (r := ⟨8, 0⟩) (id := 0) (rest := []) (o := o1) (k := 0) rfl rfl rfl rfl)
/-- Thread 0 asks for 300 bytes, which are passed on: 4096. -/
def w7 : St := w6.setPc 0 (.direct ⟨300, 0⟩)
theorem r7 : Reach exLim w7 := .step r6 rfl
  (.call ⟨300, 0⟩ rfl (by decide) (Or.inl (by decide)))
def w8 : St := { (w7.setMem 4096 (some 300)).setOwn 1 (some ⟨4096, 300, 0, [], none⟩) with
  tickets := 2, pc := Function.update w7.pc 0 .idle }
theorem r8 : Reach exLim w8 := .step r7 rfl (.directOk (c := exLim) (t := 0) (s := w7)
  (r := ⟨300, 0⟩) 4096 rfl ⟨by decide, by decide, (fun q z h => by
      have h : Function.update (fun _ : Nat => (none : Option Nat)) 1024 (some 64) q = some z := h
      by_cases hq : q = 1024
      · subst hq; rw [upd_eq] at h; cases h; right; decide
      · rw [upd_ne hq] at h; cases h), (fun _ => by decide), (fun h => absurd rfl h)⟩)
/-- Thread 0 frees them: it finds the slab of thread 1, the greatest address below. -/
def w9 : St := (w8.setOwn 1 (some ⟨4096, 300, 0, [], some 0⟩)).setPc 0 (.find 1 4096 1 false)
theorem r9 : Reach exLim w9 := .step r8 rfl
  (.callFree (tk := 1) (a := ⟨4096, 300, 0, [], none⟩) rfl rfl rfl rfl)
def w10 : St := w9.setPc 0 (.read 1 4096 0 false)
theorem w9_known {b : Nat} (h : b ≠ 1024) : w9.known b = none := upd_ne h
theorem find9 : FindOk (w9.seen 1) 4096 (some (1024, 0)) := by
  constructor
  · rintro b id h; cases h
    exact ⟨by decide, w9.known, List.mem_cons_self .., rfl⟩
  · intro a _ h
    have h1 := (h w9.known (List.mem_cons_self ..)).1
    have : a = 1024 := by
      by_contra hne
      exact h1 (w9_known hne)
    subst this
    exact ⟨w9.known, List.mem_cons_self .., 0, rfl, rfl⟩
theorem r10 : Reach exLim w10 := .step r9 rfl
  (.findSome (c := exLim) (t := 0) (s := w9) 1024 0 rfl find9)
/-- Before it reads the slab object, thread 1 frees its 8 bytes: the slab becomes empty, may not be
kept, and is destroyed. -/
def w11 : St := (w10.setOwn 0 (some ⟨1024, 8, 0, [], some 1⟩)).setPc 1 (.find 0 1024 1 false)
theorem r11 : Reach exLim w11 := .step r10 rfl
  (.callFree (c := exLim) (t := 1) (s := w10) (tk := 0) (a := ⟨1024, 8, 0, [], none⟩) rfl rfl rfl rfl)
theorem find11 : FindOk (w11.seen 1) 1024 (some (1024, 0)) := by
  constructor
  · rintro b id h; cases h
    exact ⟨by decide, w11.known, List.mem_cons_self .., rfl⟩
  · intro a _ h
    have h1 := (h w11.known (List.mem_cons_self ..)).1
    have : a = 1024 := by
      by_contra hne
      exact h1 (w9_known hne)
    subst this
    exact ⟨w11.known, List.mem_cons_self .., 0, rfl, rfl⟩
def w12 : St := w11.setPc 1 (.read 0 1024 0 false)
theorem t12 : Step exLim 1 w11 .none w12 :=
  .findSome (c := exLim) (t := 1) (s := w11) 1024 0 rfl find11
theorem r12 : Reach exLim w12 := .step r11 rfl t12
def o2 : Obj := ⟨1024, 0, [false, true, true, true, true, true, true, true], 1, true⟩
def w13 : St := w12.setPc 1 (.fwait 0 1024 0 0)
theorem t13 : Step exLim 1 w12 .none w13 :=
  .readFree (c := exLim) (t := 1) (s := w12) (o := o2) rfl rfl (by decide +kernel)
theorem r13 : Reach exLim w13 := .step r12 rfl t13
def w14 : St := (w13.setLock 0 (some 1)).setPc 1 (.chunk 0 1024 0 0)
theorem t14 : Step exLim 1 w13 .none w14 :=
  .flock (c := exLim) (t := 1) (s := w13) rfl rfl
theorem r14 : Reach exLim w14 := .step r13 rfl t14
def w15 : St := ((putChunk w14 0 0 o2 0).setOwn 0 none).setPc 1 (.add 0 0)
theorem t15 : Step exLim 1 w14 (.freed 0 true) w15 :=
  .chunkOk (c := exLim) (t := 1) (s := w14) (tk := 0) (ptr := 1024) (id := 0) (i := 0)
  (o := o2) rfl rfl
theorem r15 : Reach exLim w15 := .step r14 rfl t15
def w16 : St := { w15 with total := 64 }.setPc 1 (.cmp 0 0 0)
theorem t16 : Step exLim 1 w15 .none w16 :=
  .add (c := exLim) (t := 1) (s := w15) (id := 0) (i := 0) rfl
theorem r16 : Reach exLim w16 := .step r15 rfl t16
def w17 : St := w16.setPc 1 (.back 0 0)
theorem t17 : Step exLim 1 w16 .none w17 :=
  .exceed (c := exLim) (t := 1) (s := w16) rfl (by decide +kernel)
theorem r17 : Reach exLim w17 := .step r16 rfl t17
def w18 : St := { w17 with total := 0 }.setPc 1 (.unreg 0 0)
theorem t18 : Step exLim 1 w17 .none w18 :=
  .back (c := exLim) (t := 1) (s := w17) (id := 0) (i := 0) rfl
theorem r18 : Reach exLim w18 := .step r17 rfl t18
def o3 : Obj := { o1 with used := 0 }
def w19 : St := ((w18.setKnown 1024 none).setBk 0 { w18.bk 0 with avail := [] }).setPc 1
  (.drop 0 0 true)
theorem t19 : Step exLim 1 w18 .none w19 :=
  .unreg (c := exLim) (t := 1) (s := w18) (id := 0) (i := 0)
  (o := o3) rfl rfl
theorem r19 : Reach exLim w19 := .step r18 rfl t19
def w20 : St := ((w19.setMem 1024 none).setObj 0 { o3 with has := false }).setPc 1 (.dropObj 0 0 true)
theorem t20 : Step exLim 1 w19 .none w20 :=
  by
  have h := Step.drop (c := exLim) (t := 1) (s := w19) (o := o3) (id := 0) (i := 0) (fr := true)
    rfl rfl
  have e : w19.provFree o3.base (slabSize exLim 0) = w19.setMem 1024 none := by
    unfold St.provFree; rw [if_pos (by decide +kernel)]; rfl
  rw [e] at h
  exact h
theorem r20 : Reach exLim w20 := .step r19 rfl t20
def w21 : St := { w20 with
  objs := Function.update w20.objs 0 none, pc := Function.update w20.pc 1 (.fin 0 true) }
theorem t21 : Step exLim 1 w20 .none w21 :=
  .dropObj (c := exLim) (t := 1) (s := w20) rfl
theorem r21 : Reach exLim w21 := .step r20 rfl t21

/-- **C67**, violated: while one thread frees an allocation above the largest pooled size, another
thread frees an unrelated small allocation. The first thread uses the slab object that the second
has freed. All calls are correct uses of the API. -/
theorem C67_free_violated : CfgOk exLim ∧ ∃ s s' e, Reach exLim s ∧ s.ub = false ∧
    Step exLim 0 s e s' ∧ s'.ub = true ∧
    s.own 1 = some ⟨4096, 300, 0, [], some 0⟩ ∧ s.pc 0 = .read 1 4096 0 false :=
  ⟨exLim_ok, w21, { w21 with ub := true }, .none, r21, rfl, .readBad (tk := 1) (ptr := 4096)
    (id := 0) (us := false) rfl rfl, rfl, rfl, rfl⟩

/-- Without the race the free goes on: the slab ends below the pointer. -/
theorem r11' : Reach exLim (w10.setPc 0 (.info 1 4096 false)) :=
  .step r10 rfl (.readPast (o := o2) rfl rfl (by decide +kernel))

/-! ## Cases that meet the hypotheses -/

/-- `C23_threads_partial`, `C25_threads_partial`, `C26_threads_partial`: two threads, two
allocations, one in a slab, one passed on; both threads are inside a call. -/
example : CfgOk exLim ∧ Reach exLim w12 ∧ w12.own 0 = some ⟨1024, 8, 0, [], some 1⟩ ∧
    w12.own 1 = some ⟨4096, 300, 0, [], some 0⟩ ∧ w12.pc 0 ≠ .idle ∧ w12.pc 1 ≠ .idle :=
  ⟨exLim_ok, r12, rfl, rfl, by decide +kernel, by decide +kernel⟩

/-- `C25_threadsFree_partial`: thread 1 gives its chunk back while thread 0 is inside a free. -/
example : CfgOk exLim ∧ Reach exLim w14 ∧ Step exLim 1 w14 (.freed 0 true) w15 ∧
    w14.pc 0 ≠ .idle :=
  ⟨exLim_ok, r14, t15, by decide +kernel⟩

/-- `C25_threadsRelease_partial`: the slab is returned while the other allocation is live. -/
example : CfgOk exLim ∧ Reach exLim w19 ∧ w19.ub = false ∧ (∃ e, Step exLim 1 w19 e w20) ∧
    w19.mem 1024 = some 64 ∧ w20.mem 1024 = none ∧
    w20.own 1 = some ⟨4096, 300, 0, [], some 0⟩ := by
  exact ⟨exLim_ok, r19, rfl, ⟨.none, t20⟩, rfl, rfl, rfl⟩

/-- `C25_threadsDestroy_partial`: no thread is in a call, a slab and a passed on allocation exist;
`finalize` returns the slab only. -/
example : CfgOk exLim ∧ Reach exLim w8 ∧ Quiet w8 ∧ w8.mem 1024 = some 64 ∧
    w8.mem 4096 = some 300 ∧ (finalize exLim w8).mem 1024 = none ∧
    (finalize exLim w8).mem 4096 = some 300 := by
  refine ⟨exLim_ok, r8, fun t => ?_, rfl, rfl, by decide +kernel, by decide +kernel⟩
  show Function.update (β := fun _ => Pc) (Function.update (Function.update (Function.update
    (Function.update (Function.update (Function.update (Function.update (fun _ => Pc.idle) 1 _) 1 _) 1 _) 1 _) 1 _) 1 _) 0 _) 0 _ t
      = Pc.idle
  by_cases h0 : t = 0
  · subst h0; rw [upd_eq]
  · rw [upd_ne h0, upd_ne h0]
    by_cases h1 : t = 1
    · subst h1; rw [upd_eq]
    · rw [upd_ne h1, upd_ne h1, upd_ne h1, upd_ne h1, upd_ne h1, upd_ne h1]

/-- A question for the size of the small allocation, while thread 0 is inside a free. -/
def u11 : St := (w10.setOwn 0 (some ⟨1024, 8, 0, [1], none⟩)).setPc 1 (.find 0 1024 1 true)
theorem ru11 : Reach exLim u11 := .step r10 rfl
  (.callUsable (tk := 0) (a := ⟨1024, 8, 0, [], none⟩) rfl rfl rfl)
def u12 : St := u11.setPc 1 (.read 0 1024 0 true)
theorem ru12 : Reach exLim u12 := .step ru11 rfl (.findSome 1024 0 rfl find11)

/-- `C23_threadsUsable_partial`. -/
example : CfgOk exLim ∧ Reach exLim u12 ∧ ∃ s', Step exLim 1 u12 (.usable 0 8) s' :=
  ⟨exLim_ok, ru12, _, .readUsable (c := exLim) (s := u12) (id := 0) (ptr := 1024) (o := o2) (a := ⟨1024, 8, 0, [1], none⟩) rfl rfl
    (by decide +kernel) rfl⟩

/-- `C67_onlyLarge_partial` is met by `C67_free_violated`; `C67_pooled_partial`: a small allocation
is live and a thread is in a call. -/
example : CfgOk exLim ∧ Reach exLim w6 ∧ w6.ub = false ∧
    (∀ n a, w6.own n = some a → ¬ Large exLim a) ∧ w6.own 0 = some ⟨1024, 8, 0, [], none⟩ ∧
    Step exLim 0 w6 .none w7 := by
  refine ⟨exLim_ok, r6, rfl, fun n a h => ?_, rfl,
    .call ⟨300, 0⟩ rfl (by decide) (Or.inl (by decide))⟩
  have h : Function.update (fun _ : Nat => (none : Option Own)) 0 (some ⟨1024, 8, 0, [], none⟩) n
    = some a := h
  by_cases h0 : n = 0
  · subst h0; rw [upd_eq] at h; cases h; unfold Large; decide +kernel
  · rw [upd_ne h0] at h; cases h

/-- `C67_progress_partial`: thread 1 holds the lock of bucket 0, thread 0 waits for it. -/
def v15 : St := w14.setPc 2 (start exLim ⟨5, 0⟩)
example : CfgOk exLim ∧ Reach exLim v15 ∧ Waiting v15 2 0 ∧ (v15.bk 0).lock = some 1 :=
  ⟨exLim_ok, .step r14 rfl (.call ⟨5, 0⟩ rfl (by decide) (Or.inl (by decide))),
    Or.inl ⟨⟨5, 0⟩, rfl⟩, rfl⟩

/-- `C67_bounded`: thread 1 takes ten steps inside its free. -/
example : During exLim 1 w11 10 w21 := by
  refine .own (.own (.own (.own (.own (.own (.own (.own (.own (.own .nil rfl ?_ t12) rfl ?_ t13) rfl
    ?_ t14) rfl ?_ t15) rfl ?_ t16) rfl ?_ t17) rfl ?_ t18) rfl ?_ t19) rfl ?_ t20) rfl ?_ t21
  all_goals (intro h; cases h)

end Verif.Disjoint.Conc
