import Verif.Gpu.Exec

/-! # Concrete runs of the GPU providers -/
namespace Verif.Gpu.Witness

def full : Env := { cu := true, ze := true, freeExt := true, putIpc := true }

def ok (v : Nat) : Resp := { err := 0, val := v }
def bad (e : Nat) : Resp := { err := e, val := 0 }

/-- The threads other than 0 are idle in all of these. -/
theorem others {s : St} {t : Tid} (h : t ≠ 0) (E : Env) (op : Op) (rs : List Resp) (hs : s.th t = none) :
    ((s.begin E 0 op).run 0 rs).th t = none := by
  have go : ∀ (s : St) r, (s.go 0 r).th t = s.th t := by
    intro s r
    unfold St.go
    split
    · rfl
    split
    · rfl
    · split
      · simp [h]
      · rfl
    · simp [h]
    · simp [h]
  have run : ∀ rs (s : St), (s.run 0 rs).th t = s.th t := by
    intro rs
    induction rs with
    | nil => exact fun _ => rfl
    | cons r rs ih =>
      intro s
      rw [St.run, ih, go]
  rw [run]
  simp [St.begin, h, hs]

macro "legal0" : term => `(term|
  { cu := by intro p h; cases h
    ze := by intro p h; cases h
    cuFree := by intro p q h; cases h
    zeFree := by intro p q h; cases h
    params := by intro q h; cases h
    cuIdle := by intro p h; cases h
    zeIdle := by intro p h; cases h
    resident := by intro P l h; cases h })

/-! ## CUDA -/

def cuP : CuParams := { addr := 50, ctx := 5, dev := 0, type := 2, flags := 0 }
def cuPr : CuProv := { addr := 100, ctx := 5, dev := 0, type := 2, minAlign := 4096, flags := 0 }

/-- A provider is created. -/
def a1 : St := ((start0 7).begin full 0 (.cuCreate (some cuP))).run 0 [ok 100, ok 4096, ok 0]

theorem a1_reach : Reach full a1 := ((start0_reach).begin rfl legal0).run 0

theorem a1_held : a1.held (.ba 100) = some (.cuCreate (some cuP), { res := .success, cuProv := some cuPr }) := by
  decide +kernel

macro "legalCu" h:term : term => `(term|
  { cu := by intro p h; cases h; exact ⟨_, _, $h, rfl⟩
    ze := by intro p h; cases h
    cuFree := by intro p q h; cases h
    zeFree := by intro p q h; cases h
    params := by intro q h; cases h
    cuIdle := by intro p h; cases h
    zeIdle := by intro p h; cases h
    resident := by intro P l h; cases h })

/-- Thread 0, whose context is 0, allocates 64 bytes. -/
def a2 : St := (a1.begin full 0 (.cuAlloc cuPr 64 8)).run 0 [ok 0, ok 0, ok 8000, ok 5, ok 0, ok 0]

theorem a2_reach : Reach full a2 := ((a1_reach).begin rfl (legalCu a1_held)).run 0

theorem a2_held : a2.held (.ba 100) = some (.cuCreate (some cuP), { res := .success, cuProv := some cuPr }) := by
  decide +kernel

theorem a2_mem : a2.held (.gpu .cu 8000) = some (.cuAlloc cuPr 64 8, { res := .success, ptr := 8000 }) := by
  decide +kernel

/-- Thread 0 is about to get an IPC handle of the memory. -/
def a3 : St := a2.begin full 0 (.cuIpcGet cuPr 8000)

theorem a3_reach : Reach full a3 := (a2_reach).begin rfl (legalCu a2_held)

/-- Thread 0 is about to close memory of another process. -/
def a4 : St := a2.begin full 0 (.cuIpcClose cuPr 9000)

theorem a4_reach : Reach full a4 := (a2_reach).begin rfl (legalCu a2_held)

/-- Thread 0 frees the memory, and the driver refuses with 999. -/
def a5 : St := (a2.begin full 0 (.cuFree cuPr 8000)).run 0 [ok 0, ok 0, bad 999, ok 5, ok 0, ok 0, ok 0]

theorem a5_reach : Reach full a5 := ((a2_reach).begin rfl
  { cu := by intro p h; cases h; exact ⟨_, _, a2_held, rfl⟩
    ze := by intro p h; cases h
    cuFree := by intro p q h _; cases h; exact ⟨_, _, _, a2_mem⟩
    zeFree := by intro p q h; cases h
    params := by intro q h; cases h
    cuIdle := by intro p h; cases h
    zeIdle := by intro p h; cases h
    resident := by intro P l h; cases h }).run 0

/-- Thread 0 is in the driver's allocation call. -/
def a6 : St := (a1.begin full 0 (.cuAlloc cuPr 64 8)).run 0 [ok 0, ok 0]

theorem a6_reach : Reach full a6 := ((a1_reach).begin rfl (legalCu a1_held)).run 0

/-- Without the CUDA library, parameters are created. -/
def noCu : Env := { cu := false, ze := true, freeExt := true, putIpc := true }

def f1 : St := ((start0 7).begin noCu 0 .cuParamsCreate).run 0 [ok 400, ok 0]

theorem f1_reach : Reach noCu f1 := ((start0_reach).begin rfl legal0).run 0

/-! ## Level Zero -/

def zeP : ZeParams :=
  { addr := 60, ctx := 9, dev := 3, type := 2, resident := some [4], count := 1, policy := 0, ordinal := 0 }
def zePr : ZeProv :=
  { addr := 200, ctx := 9, dev := 3, type := 2, resAddr := 300, resident := [4], maxAlloc := 1000, policy := 0
    minPage := 4096, ordinal := 0 }

macro "legalCreate" : term => `(term|
  { cu := by intro p h; cases h
    ze := by intro p h; cases h
    cuFree := by intro p q h; cases h
    zeFree := by intro p q h; cases h
    params := by intro q h; cases h
    cuIdle := by intro p h; cases h
    zeIdle := by intro p h; cases h
    resident := by intro P l h h2; cases h; cases h2; decide })

def b1 : St := ((start0 7).begin full 0 (.zeCreate (some zeP))).run 0
  [ok 200, ok 1000, ok 300, ok 5000, ok 0, ok 4096, ok 0, ok 0]

theorem b1_reach : Reach full b1 := ((start0_reach).begin rfl legalCreate).run 0

theorem b1_held : b1.held (.ba 200) = some (.zeCreate (some zeP), { res := .success, zeProv := some zePr }) ∧
    b1.held (.ba 300) = some (.zeCreate (some zeP), { res := .success, zeProv := some zePr }) := by
  decide +kernel

macro "legalZe" h:term : term => `(term|
  { cu := by intro p h; cases h
    ze := by intro p h; cases h; exact ⟨_, _, And.left $h, rfl, fun _ => And.right $h⟩
    cuFree := by intro p q h; cases h
    zeFree := by intro p q h; cases h
    params := by intro q h; cases h
    cuIdle := by intro p h; cases h
    zeIdle := by intro p h; cases h
    resident := by intro P l h; cases h })

/-- The driver gives memory and refuses to make it resident. -/
def b2 : St := (b1.begin full 0 (.zeAlloc zePr 64 0)).run 0 [ok 6000, bad 99, ok 0, ok 0]

theorem b2_reach : Reach full b2 := ((b1_reach).begin rfl (legalZe b1_held)).run 0

/-- The driver gives memory and makes it resident. -/
def b3 : St := (b1.begin full 0 (.zeAlloc zePr 64 32)).run 0 [ok 6016, ok 0, ok 0]

theorem b3_reach : Reach full b3 := ((b1_reach).begin rfl (legalZe b1_held)).run 0

/-- A handle of process 8, with descriptor 33, is about to be opened in process 7. -/
def b4 : St := (b1.begin full 0 (.zeIpcOpen zePr { pid := 8, h := { fd := 33, rest := 44 } })).run 0 [ok 7, ok 12]

theorem b4_reach : Reach full b4 := ((b1_reach).begin rfl (legalZe b1_held)).run 0

/-- The memory type does not exist. -/
def c1 : St := ((start0 7).begin full 0 (.zeCreate (some { zeP with type := 0, resident := none, count := 0 }))).run 0
  [ok 200, ok 1000]

theorem c1_reach : Reach full c1 := ((start0_reach).begin rfl
  { cu := by intro p h; cases h
    ze := by intro p h; cases h
    cuFree := by intro p q h; cases h
    zeFree := by intro p q h; cases h
    params := by intro q h; cases h
    cuIdle := by intro p h; cases h
    zeIdle := by intro p h; cases h
    resident := by intro P l h h2; cases h; cases h2 }).run 0

/-- The driver refuses the allocation that finds out the page size. -/
def d1 : St := ((start0 7).begin full 0 (.zeCreate (some zeP))).run 0 [ok 200, ok 1000, ok 300, bad 0x70000002]

theorem d1_reach : Reach full d1 := ((start0_reach).begin rfl legalCreate).run 0

/-- The driver has no `zeMemFreeExt`. -/
def noExt : Env := { cu := true, ze := true, freeExt := false, putIpc := true }

def e1 : St := ((start0 7).begin noExt 0 (.zeCreate (some { zeP with policy := 1 }))).run 0
  [ok 200, ok 1000, ok 300, ok 5000, ok 0, ok 4096]

theorem e1_reach : Reach noExt e1 := ((start0_reach).begin rfl legalCreate).run 0

theorem a1_idle (t : Tid) : a1.th t = none := by
  by_cases h : t = 0
  · subst h; rfl
  · exact others h _ _ _ rfl

theorem a2_idle (t : Tid) : a2.th t = none := by
  by_cases h : t = 0
  · subst h; rfl
  · exact others h _ _ _ (a1_idle t)

theorem f1_idle (t : Tid) : f1.th t = none := by
  by_cases h : t = 0
  · subst h; rfl
  · exact others h _ _ _ rfl

theorem b1_idle (t : Tid) : b1.th t = none := by
  by_cases h : t = 0
  · subst h; rfl
  · exact others h _ _ _ rfl

theorem b2_idle (t : Tid) : b2.th t = none := by
  by_cases h : t = 0
  · subst h; rfl
  · exact others h _ _ _ (b1_idle t)

end Verif.Gpu.Witness
