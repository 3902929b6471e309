import Verif.Stack.Props
/-!
# A concrete history for C70

Two fixed providers of 1024 and 512 bytes with pages of 16 bytes; pools 0 and 1 on the first
provider, pool 2 on the second.
-/
namespace Verif.Stack
open Mem

def calm : Orc := ⟨true, true, true, fun _ => true, fun _ _ => true, false⟩

theorem calm_ok : OrcOk calm := ⟨fun _ _ => rfl, fun _ _ _ => rfl, Or.inl rfl⟩
theorem calm_calm : Calm calm := ⟨rfl, rfl, rfl, fun _ => rfl, fun _ _ => rfl⟩

def exCfg : Disjoint.Cfg := ⟨64, 64, 4, 8, 0, 1000⟩
theorem exCfg_ok : ParamsOk exCfg := ⟨by decide, by decide⟩

def x1 : Sys := (newProv init 0 (2 ^ 4) (4096, 1024) calm).getD init
def x2 : Sys := (newProv x1 1 (2 ^ 4) (8192, 512) calm).getD init
def x3 : Sys := (newPool x2 0 0 exCfg).getD init
def x4 : Sys := (newPool x3 1 0 exCfg).getD init
def x5 : Sys := (newPool x4 2 1 exCfg).getD init
def x6 : Sys := (malloc x5 0 20 calm).1
def x7 : Sys := (malloc x6 1 20 calm).1
def x8 : Sys := (malloc x7 2 300 calm).1
def x9 : Sys := (alignedMalloc x8 0 40 (2 ^ 5) calm).1
def x10 : Sys := (umfFree x9 8192 calm).1

theorem some_of {s : Option Sys} (h : s.isSome = true) : s = some (s.getD init) := by
  cases s with
  | none => cases h
  | some s => rfl

theorem pool_of {s : Option Pool} (h : s.isSome = true) : ∃ p, s = some p := by
  cases s with
  | none => cases h
  | some p => exact ⟨p, rfl⟩

theorem prov1 (u : Nat) (f : Fixed) (h : x1.w.prov u = some f) : f.buf = (4096, 1024) := by
  by_cases hu : u = 0
  · subst hu
    have h1 : (x1.w.prov 0).map (·.buf) = some (4096, 1024) := by decide +kernel
    rw [h] at h1
    simpa using h1
  · have h1 : x1.w.prov u = none := by
      have h2 : newProv init 0 (2 ^ 4) (4096, 1024) calm = some x1 := some_of (by decide +kernel)
      unfold newProv at h2
      cases h3 : fixedNew (2 ^ 4) (4096, 1024) calm.onAlloc calm.garbage with
      | none => rw [h3] at h2; cases h2
      | some g =>
        rw [h3] at h2
        dsimp only at h2
        injection h2 with h2
        rw [← h2]
        dsimp only
        rw [if_neg hu]
        rfl
    rw [h1] at h
    cases h

theorem h1 : Hist x1 [] :=
  .newProv (m := 4) .init calm_ok rfl (by decide) (fun _ _ h => by cases h) (some_of (by decide +kernel))

theorem h2 : Hist x2 [] :=
  .newProv (m := 4) h1 calm_ok (by
      have : (x1.w.prov 1).isNone = true := by decide +kernel
      simpa using this) (by decide) (fun u f h => by
      rw [prov1 u f h]
      rintro x ⟨⟨_, h1⟩, h2, _⟩
      dsimp only at h1 h2
      omega)
    (some_of (by decide +kernel))

theorem none_of {s : Option Pool} (h : s.isNone = true) : s = none := by simpa using h

theorem h3 : Hist x3 [] :=
  .newPool (k := 0) (v := 0) h2 (none_of (by decide +kernel)) exCfg_ok (some_of (by decide +kernel))
theorem h4 : Hist x4 [] :=
  .newPool (k := 1) (v := 0) h3 (none_of (by decide +kernel)) exCfg_ok (some_of (by decide +kernel))
theorem h5 : Hist x5 [] :=
  .newPool (k := 2) (v := 1) h4 (none_of (by decide +kernel)) exCfg_ok (some_of (by decide +kernel))

theorem h6 : Hist x6 [(0, 4096, 20)] := by
  obtain ⟨p, hp⟩ := pool_of (s := x5.pool 0) (by decide +kernel)
  exact .malloc h5 calm_ok hp (Prod.ext rfl (by decide +kernel))
theorem h7 : Hist x7 [(1, 4160, 20), (0, 4096, 20)] := by
  obtain ⟨p, hp⟩ := pool_of (s := x6.pool 1) (by decide +kernel)
  exact .malloc h6 calm_ok hp (Prod.ext rfl (by decide +kernel))
theorem h8 : Hist x8 [(2, 8192, 300), (1, 4160, 20), (0, 4096, 20)] := by
  obtain ⟨p, hp⟩ := pool_of (s := x7.pool 2) (by decide +kernel)
  exact .malloc h7 calm_ok hp (Prod.ext rfl (by decide +kernel))
theorem h9 : Hist x9 [(0, 4224, 40), (2, 8192, 300), (1, 4160, 20), (0, 4096, 20)] := by
  obtain ⟨p, hp⟩ := pool_of (s := x8.pool 0) (by decide +kernel)
  have hc : (x8.pool 0).map (·.cfg) = some { exCfg with page := 16 } := by decide +kernel
  rw [hp] at hc
  have hc : p.cfg = { exCfg with page := 16 } := by simpa using hc
  refine .aligned (j := 5) h8 calm_ok hp ?_ (Prod.ext rfl (by decide +kernel))
  rw [hc]
  exact ⟨by decide, Or.inr (Or.inl (by decide))⟩
theorem h10 : Hist x10 [(0, 4224, 40), (1, 4160, 20), (0, 4096, 20)] :=
  .umfFree (l1 := [(0, 4224, 40)]) (k := 2) (a := (8192, 300)) h9 calm_ok

/-- `C70_disjoint_partial`, `C70_owner_partial`, `C70_free_partial`, `C70_usable_partial`: four
allocations from three pools; byte 4170 belongs to pool 1, byte 5000 to none. -/
example : Hist x9 [(0, 4224, 40), (2, 8192, 300), (1, 4160, 20), (0, 4096, 20)] ∧
    poolByPtr x9 4170 = some 1 ∧ poolByPtr x9 8400 = some 2 ∧ poolByPtr x9 5000 = none ∧
    usable x9 1 4160 = 24 ∧ usable x9 2 8192 = 300 ∧ (umfFree x9 8192 calm).2 = .success :=
  ⟨h9, by decide +kernel, by decide +kernel, by decide +kernel, by decide +kernel,
    by decide +kernel, by decide +kernel⟩

/-- `C70_defined_partial`: pool 0 of `x9` exists and `AlignOk` holds of an alignment of 32. -/
example : ∃ p, x9.pool 0 = some p ∧ Disjoint.AlignOk p.cfg 40 (2 ^ 5) := by
  obtain ⟨p, hp⟩ := pool_of (s := x9.pool 0) (by decide +kernel)
  have hc : (x9.pool 0).map (·.cfg) = some { exCfg with page := 16 } := by decide +kernel
  rw [hp] at hc
  have hc : p.cfg = { exCfg with page := 16 } := by simpa using hc
  exact ⟨p, hp, by rw [hc]; exact ⟨by decide, Or.inr (Or.inl (by decide))⟩⟩

/-- `C70_destroy_partial`: pool 2 of `x10` is the last one on its provider and has no live
allocation. -/
example : Hist x10 [(0, 4224, 40), (1, 4160, 20), (0, 4096, 20)] ∧
    (∀ a ∈ [(0, 4224, 40), (1, 4160, 20), (0, 4096, 20)], a.1 ≠ 2) ∧
    (x10.pool 2).map (·.prov) = some 1 ∧ (x10.pool 0).map (·.prov) = some 0 ∧
    (x10.pool 1).map (·.prov) = some 0 :=
  ⟨h10, by decide, by decide +kernel, by decide +kernel, by decide +kernel⟩

/-- A pool that keeps an empty slab gives it back when it is destroyed. -/
def y1 : Sys := (malloc x5 2 20 calm).1
def y2 : Sys := (free y1 2 8192 calm).1

theorem y2_hist : Hist y2 [] := by
  obtain ⟨p, hp⟩ := pool_of (s := x5.pool 2) (by decide +kernel)
  have : Hist y1 [(2, 8192, 20)] := .malloc h5 calm_ok hp (Prod.ext rfl (by decide +kernel))
  exact .free (l1 := []) (k := 2) (a := (8192, 20)) this calm_ok

example : Hist y2 [] ∧ poolByPtr y2 8200 = some 2 ∧
    (y2.w.prov 1).map (fun f => Coarse.stats f.co) = some (512, 64, 2, 1) ∧
    ((dropPool y2 2 calm).w.prov 1).map (fun f => Coarse.stats f.co) = some (512, 0, 1, 1) ∧
    poolByPtr (dropPool y2 2 calm) 8200 = none :=
  ⟨y2_hist, by decide +kernel, by decide +kernel, by decide +kernel, by decide +kernel⟩

/-- `C70_room_partial`: in `x5` pool 2 has 512 unused bytes, so 496 bytes can be had; 513
bytes cannot. -/
example : (malloc x5 2 496 calm).2 = .ok 8192 ∧ (malloc x5 2 513 calm).2 = .null ∧
    (∀ x ∈ List.range 512, poolByPtr x5 (8192 + x) = none) :=
  ⟨by decide +kernel, by decide +kernel, by decide +kernel⟩

end Verif.Stack
