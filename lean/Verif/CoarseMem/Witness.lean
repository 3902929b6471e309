import Verif.CoarseMem.Props
/-!
# The coarse allocator, pointer by pointer: concrete histories for C76
-/
namespace Verif.CoarseMem
open Verif.Coarse (Res Cfg)

/-- A fixed provider, pages of 4 KiB. -/
def cfgF : Cfg := ⟨4096, .fastest, false, false⟩
/-- Callbacks that agree to everything. -/
def envY : Env := ⟨fun _ _ _ => .success, fun _ _ _ => .success, fun _ _ => (.outOfHostMemory, 0)⟩
/-- Callbacks that refuse merging, and splitting at 8192. -/
def envN : Env := ⟨fun p _ _ => if p = 8192 then .notSupported else .success, fun _ _ _ => .notSupported, fun _ _ => (.outOfHostMemory, 0)⟩
/-- Callbacks that refuse merging. -/
def envM : Env := ⟨fun _ _ _ => .success, fun _ _ _ => .notSupported, fun _ _ => (.outOfHostMemory, 0)⟩

/-- The base allocator answers with the addresses from `k` on; the byte `used` holds `g`. -/
def mem (k : Nat) (g : Bool) : List (Addr × Bool) := (List.range 8).map fun i => (k + i, g)

/-- What a call returns and leaves (50 rounds are enough here). -/
def after (s : St) (op : Op) (env : Env) (host : List (Addr × Bool)) : Ret × St :=
  (step cfgF 50 s op env host).getD ({ res := .notSupported }, s)

/-- 16 KiB at 4096, one allocation of 4 KiB, one of 8 KiB aligned to 8 KiB, a split of the latter, and the first is freed. -/
def w1 := after St.init (.addFixed 4096 16384) envY (mem 1 true)
def w2 := after w1.2 (.alloc 4096 0) envY (mem 11 true)
def w3 := after w2.2 (.alloc 8192 0) envY (mem 21 true)
def w4 := after w3.2 (.split 8192 8192 4096) envY (mem 31 true)
def w5 := after w4.2 (.free 4096 0) envY (mem 41 true)

theorem runs_of {cfg : Cfg} {s s' : St} {op : Op} {env : Env} {host : List (Addr × Bool)} {r : Ret}
    (h : ∀ m, step cfg (m + 50) s op env host = some (r, s')) : Runs cfg s op env host r s' := by
  refine ⟨50, fun fuel hf => ?_⟩
  obtain ⟨m, rfl⟩ : ∃ m, fuel = m + 50 := ⟨fuel - 50, by omega⟩
  exact h m

theorem undef_of {cfg : Cfg} {s : St} {op : Op} {env : Env} {host : List (Addr × Bool)}
    (h : ∀ m, step cfg (m + 50) s op env host = none) : Undef cfg s op env host := by
  refine ⟨50, fun fuel hf => ?_⟩
  obtain ⟨m, rfl⟩ : ∃ m, fuel = m + 50 := ⟨fuel - 50, by omega⟩
  exact h m

theorem destroys_of {cfg : Cfg} {s s' : St} {calls : List (Nat × Nat)} (h : ∀ m, delete cfg (m + 50) s = some (calls, s')) :
    Destroys cfg s calls s' := by
  refine ⟨50, fun fuel hf => ?_⟩
  obtain ⟨m, rfl⟩ : ∃ m, fuel = m + 50 := ⟨fuel - 50, by omega⟩
  exact h m

theorem w1_runs : Runs cfgF St.init (.addFixed 4096 16384) envY (mem 1 true) w1.1 w1.2 := runs_of fun _ => rfl
theorem w2_runs : Runs cfgF w1.2 (.alloc 4096 0) envY (mem 11 true) w2.1 w2.2 := runs_of fun _ => rfl
theorem w3_runs : Runs cfgF w2.2 (.alloc 8192 0) envY (mem 21 true) w3.1 w3.2 := runs_of fun _ => rfl
theorem w4_runs : Runs cfgF w3.2 (.split 8192 8192 4096) envY (mem 31 true) w4.1 w4.2 := runs_of fun _ => rfl
theorem w5_runs : Runs cfgF w4.2 (.free 4096 0) envY (mem 41 true) w5.1 w5.2 := runs_of fun _ => rfl

theorem w5_reach : Reach cfgF .careful w5.2 [12288, 8192] := by
  have h1 : Reach cfgF .careful w1.2 [] := .step (op := .addFixed 4096 16384) .init trivial w1_runs
  have h2 : Reach cfgF .careful w2.2 [4096] := .step (op := .alloc 4096 0) h1 trivial w2_runs
  have h3 : Reach cfgF .careful w3.2 [8192, 4096] := .step (op := .alloc 8192 0) h2 trivial w3_runs
  have h4 : Reach cfgF .careful w4.2 [12288, 8192, 4096] := .step (op := .split 8192 8192 4096) h3 (.inr (by simp)) w4_runs
  have h5 := Reach.step (op := .free 4096 0) h4 (.inr (by simp)) w5_runs
  exact h5

/-- A concrete case for `C76_defined_partial`, `C76_enough`, `C76_held`, `C76_blocks`: two addresses are held, two blocks are free, and the
next call frees one of the two (the free blocks are too small for an allocation of 4 KiB with this strategy). -/
example : Reach cfgF .careful w5.2 [12288, 8192] ∧ w5.2.refused = false ∧
    (∃ s', Runs cfgF w5.2 (.alloc 4096 0) envY (mem 51 true) { res := .outOfHostMemory } s') ∧
    Allowed .careful [12288, 8192] (.free 8192 4096) (mem 51 true) ∧
    Runs cfgF w5.2 (.free 8192 4096) envY (mem 51 true) { res := .success } (after w5.2 (.free 8192 4096) envY (mem 51 true)).2 :=
  ⟨w5_reach, rfl, ⟨(after w5.2 (.alloc 4096 0) envY (mem 51 true)).2, runs_of fun _ => rfl⟩, .inr (by simp), runs_of fun _ => rfl⟩

/-- A concrete case for `C76_stats`: four blocks, two of them free. -/
example : Reach cfgF .careful w5.2 [12288, 8192] ∧ (stats 50 w5.2).map (·.1) = some (4, 2) := ⟨w5_reach, rfl⟩

/-- With memory from upstream: one allocation at 8192 and one at 4096. -/
def cfgU : Cfg := ⟨4096, .fastest, true, true⟩
def envU (p : Nat) : Env := ⟨fun _ _ _ => .success, fun _ _ _ => .success, fun _ _ => (.success, p)⟩
def u1 := (step cfgU 50 St.init (.alloc 8192 0) (envU 8192) (mem 1 true)).getD ({ res := .notSupported }, St.init)
def u2 := (step cfgU 50 u1.2 (.alloc 4096 0) (envU 4096) (mem 11 true)).getD ({ res := .notSupported }, St.init)

theorem u2_reach : Reach cfgU .careful u2.2 [4096, 8192] := by
  have h1 : Reach cfgU .careful u1.2 [8192] :=
    .step (op := .alloc 8192 0) (env := envU 8192) (host := mem 1 true) (r := u1.1) .init trivial (runs_of fun _ => rfl)
  exact .step (op := .alloc 4096 0) (env := envU 4096) (host := mem 11 true) (r := u2.1) h1 trivial (runs_of fun _ => rfl)

/-- A concrete case for `C76_delete_partial`: both blocks are given back, in the order of the addresses. -/
example : Reach cfgU .careful u2.2 [4096, 8192] ∧
    Destroys cfgU u2.2 [(4096, 4096), (8192, 8192)] ((delete cfgU 50 u2.2).getD ([], u2.2)).2 :=
  ⟨u2_reach, destroys_of fun _ => rfl⟩

/-! ## The empty list -/

/-- The base allocator gives the descriptor, the node of the block, the head of the list and its node, and refuses the element. -/
def v1 := after St.init (.addFixed 8192 8192) envY [(1, false), (2, false), (3, false), (4, false)]
theorem v1_runs : Runs cfgF St.init (.addFixed 8192 8192) envY [(1, false), (2, false), (3, false), (4, false)] v1.1 v1.2 := runs_of fun _ => rfl

theorem v1_reach (u : User) : Reach cfgF u v1.2 [] := by
  have h : Allowed u [] (.addFixed 8192 8192) [(1, false), (2, false), (3, false), (4, false)] := by
    cases u
    · trivial
    · show ∀ x ∈ [(1, false), (2, false), (3, false), (4, false)], x.2 = false
      simp
  exact .step .init h v1_runs

/-- C76, violated: adding memory fails because the base allocator refuses one list element; the next allocation reads through NULL. -/
theorem C76_emptyList_violated : ∃ (s : St) (op : Op), (∀ u, Reach cfgF u s []) ∧ (∀ u, Allowed u [] op []) ∧ Undef cfgF s op envY [] :=
  ⟨v1.2, .alloc 4096 0, v1_reach, fun u => by cases u <;> simp [Allowed], undef_of fun _ => rfl⟩

/-- C76, violated: after the same failure the destruction leaves a block of the base allocator behind. -/
theorem C76_leak_violated : ∃ (s s' : St), (∀ u, Reach cfgF u s []) ∧ Destroys cfgF s [] s' ∧ ∃ a, s'.hd a ≠ none :=
  ⟨v1.2, ((delete cfgF 50 v1.2).getD ([], v1.2)).2, v1_reach, destroys_of fun _ => rfl, 3, by decide +kernel⟩

/-! ## The byte that is not written -/

def x1 := after St.init (.addFixed 4096 16384) envM (mem 1 true)
def x2 := after x1.2 (.alloc 4096 8192) envN (mem 11 true)
def x3 := after x2.2 (.free 8192 0) envM (mem 21 true)
def x4 := after x3.2 (.alloc 8192 0) envM (mem 31 true)
def x5 := after x4.2 (.alloc 8192 0) envM (mem 41 true)

/-- The same byte, for a careful user: after the failed allocation a block that is on a list of free blocks says that it is used. The next
allocation takes it; in a debug build `assert(curr->used == false)`, `coarse.c:1071`, ends the process there. -/
theorem C76_usedByte_violated : Reach cfgF .careful x2.2 [] ∧ (∃ b B, x2.2.blk b = some B ∧ B.used = true ∧ B.fl ≠ 0 ∧ B.data = 8192) ∧
    ∃ s', Runs cfgF x2.2 (.alloc 8192 0) envM (mem 31 true) { res := .success, ptr := 8192 } s' := by
  refine ⟨?_, ⟨11, (x2.2.blk 11).getD ⟨0, 0, false, 0⟩, ?_⟩, (after x2.2 (.alloc 8192 0) envM (mem 31 true)).2, runs_of fun _ => rfl⟩
  · have h1 : Reach cfgF .careful x1.2 [] :=
      .step (op := .addFixed 4096 16384) (env := envM) (host := mem 1 true) (r := x1.1) .init trivial (runs_of fun _ => rfl)
    exact .step (op := .alloc 4096 8192) (env := envN) (host := mem 11 true) (r := x2.1) h1 trivial (runs_of fun _ => rfl)
  · decide +kernel

/-- C76, violated for other users: `create_aligned_block` does not write the byte `used` of the descriptor it makes. An allocation at 8192
fails after that, and the block stays among the free ones, with the byte as it was found. A user then gives back 8192, which it does not hold.
The call should be refused; it succeeds, and the block is on two lists. The next two allocations return the same address. -/
theorem C76_uninit_violated : Runs cfgF St.init (.addFixed 4096 16384) envM (mem 1 true) { res := .success } x1.2 ∧
    Runs cfgF x1.2 (.alloc 4096 8192) envN (mem 11 true) { res := .notSupported } x2.2 ∧
    Runs cfgF x2.2 (.free 8192 0) envM (mem 21 true) { res := .success } x3.2 ∧
    Runs cfgF x3.2 (.alloc 8192 0) envM (mem 31 true) { res := .success, ptr := 8192 } x4.2 ∧
    Runs cfgF x4.2 (.alloc 8192 0) envM (mem 41 true) { res := .success, ptr := 8192 } x5.2 :=
  ⟨runs_of fun _ => rfl, runs_of fun _ => rfl, runs_of fun _ => rfl, runs_of fun _ => rfl, runs_of fun _ => rfl⟩

end Verif.CoarseMem
