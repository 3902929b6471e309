import Verif.Heap.Exec
import Verif.Heap.Spec

/-!
# Concrete runs of the pools
-/
namespace Verif.Heap

def calmCfg : Cfg := ⟨true, true, true⟩

/-- Creating a jemalloc pool with structure `p`, provider `pv` and arena `a`. -/
def makeJe (t : Tid) (pv p a : Nat) : List Act :=
  [.start t (.create .je pv none), .new t p ⟨.tbb, 0, 77⟩, .go t, .go t, .call t { val := a }, .call t {}, .go t, .go t, .go t,
    .go t]

/-- Creating a oneTBB pool with structure `p`, provider `pv`; the library asks the provider for memory. -/
def makeTbb (t : Tid) (pv p h : Nat) (params : Option Params) : List Act :=
  [.start t (.create .tbb pv params), .new t p ⟨.tbb, 0, 77⟩, .call t {}, .go t, .go t,
    .hook t (.rawAlloc p 4096) [{ val := 0x900000 }], .call t { val := h }, .go t, .go t, .go t]

def makeProxy (t : Tid) (pv p : Nat) : List Act :=
  [.start t (.create .proxy pv none), .new t p ⟨.tbb, 0, 77⟩, .go t, .go t, .go t]

/-- The last state of a run. -/
def lastSt (cfg : Cfg) (as : List Act) : St := (((X.init fun i => i + 1).acts cfg as).getD X.init).s

theorem lastSt_reach {cfg : Cfg} {as : List Act} (h : ((X.init fun i => i + 1).acts cfg as).isSome = true) :
    Reach cfg (lastSt cfg as) := by
  obtain ⟨y, hy⟩ := Option.isSome_iff_exists.1 h
  unfold lastSt
  rw [hy]
  exact acts_reach hy

/-- No thread is in a call. -/
def idleB (x : X) : Bool := x.ths.all fun t => (x.s.th t).isNone

theorem lastSt_idle {cfg : Cfg} {as : List Act}
    (h : (((X.init fun i => i + 1).acts cfg as).map idleB) = some true) : ∀ t, (lastSt cfg as).th t = none := by
  obtain ⟨y, hy, h1⟩ := Option.map_eq_some_iff.1 h
  intro t
  unfold lastSt
  rw [hy]
  show y.s.th t = none
  by_contra hn
  have := (acts_ok init_ok hy).1 t hn
  simp only [idleB, List.all_eq_true] at h1
  exact hn (by simpa using h1 t this)

/-! ## Three pools in use -/

def run1 : List Act :=
  makeTbb 0 7 100 50 none ++ makeJe 1 8 200 3 ++ makeProxy 2 9 300 ++
  -- an array of a oneTBB pool; the provider refuses memory once
  [.start 0 (.calloc .tbb 100 3 8), .go 0, .go 0, .hook 0 (.rawAlloc 100 4096) [{ err := 1 }], .call 0 { val := 0x1000 },
    .call 0 {}, .go 0,
  -- memory of the proxy pool
    .start 2 (.aligned .proxy 300 100 64), .go 2, .call 2 { val := 0x2000 }, .go 2, .go 2,
  -- a thread in the middle of a call of a jemalloc pool, the library asked for memory
    .start 1 (.aligned .je 200 10 32), .go 1, .hook 1 (.alloc 3 0 8192 4096 true) [{ val := 0x800000 }, {}],
  -- a thread whose call fails: the provider refuses
    .start 5 (.malloc .tbb 100 1000000), .go 5, .go 5, .hook 5 (.rawAlloc 100 1000000) [{ err := 1 }], .call 5 {}, .go 5, .go 5,
    .start 5 (.lastError .tbb 100), .go 5]

def st1 : St := lastSt calmCfg run1

theorem st1_reach : Reach calmCfg st1 := lastSt_reach (by decide +kernel)

/-- … and the array is about to be returned. -/
def run2 : List Act := run1 ++ [.go 5, .start 3 (.calloc .je 200 5 8), .go 3, .call 3 { val := 0x5000 }, .call 3 {}]

def st2 : St := lastSt calmCfg run2

theorem st2_reach : Reach calmCfg st2 := lastSt_reach (by decide +kernel)

/-- Everything was destroyed. -/
def run3 : List Act := makeTbb 0 7 100 50 (some ⟨8192, true⟩) ++ makeJe 1 8 200 3 ++ makeJe 1 8 201 4 ++
  [.start 0 (.destroy .tbb 100), .go 0, .hook 0 (.rawFree 100 0x900000 4096) [{ err := 1 }], .call 0 {}, .go 0, .go 0,
    .start 1 (.destroy .je 200), .go 1, .call 1 { err := 1 }, .go 1, .go 1, .go 1] ++
  makeTbb 0 7 101 50 (some ⟨8192, true⟩)

def st3 : St := lastSt calmCfg run3

theorem st3_reach : Reach calmCfg st3 := lastSt_reach (by decide +kernel)

theorem st3_idle : ∀ t, st3.th t = none := lastSt_idle (by decide +kernel)

/-! ## A jemalloc pool is created while another one is destroyed -/

def run4 : List Act :=
  makeJe 0 7 100 0 ++ [.start 0 (.destroy .je 100), .go 0, .call 0 {}] ++ makeJe 1 8 200 0 ++
  [.go 0, .start 1 (.malloc .je 200 64), .go 1]

def st4 : St := lastSt ⟨false, true, true⟩ run4

theorem st4_reach : Reach ⟨false, true, true⟩ st4 := lastSt_reach (by decide +kernel)

/-! ## The size of an array wraps -/

def run5 : List Act :=
  makeTbb 0 7 100 50 none ++
  [.start 0 (.calloc .tbb 100 (2 ^ 32) (2 ^ 32 + 1)), .go 0, .go 0, .call 0 { val := 0x1000 }, .call 0 {}]

def st5 : St := lastSt ⟨true, false, true⟩ run5

theorem st5_reach : Reach ⟨true, false, true⟩ st5 := lastSt_reach (by decide +kernel)

/-! ## Alignments that are not powers of two -/

def run6 : List Act :=
  makeJe 0 7 100 0 ++
  [.start 0 (.aligned .je 100 64 48), .go 0, .call 0 { val := 0x1010 }, .go 0]

def st6 : St := lastSt calmCfg run6

theorem st6_reach : Reach calmCfg st6 := lastSt_reach (by decide +kernel)

def run7 : List Act := makeJe 0 7 100 0 ++ [.start 0 (.aligned .je 100 64 0), .go 0]

def st7 : St := lastSt ⟨true, true, false⟩ run7

theorem st7_reach : Reach ⟨true, true, false⟩ st7 := lastSt_reach (by decide +kernel)

end Verif.Heap
