import Verif.CoarseMem.RefProps
import Verif.CoarseMem.Witness
/-!
# The coarse allocator, pointer by pointer, and the model with lists: concrete histories for C77
-/
namespace Verif.CoarseMem
open Verif.Coarse (Res Cfg)
open Verif.Coarse.Spec (Region Has HasAny Disjoint bytes Fresh)

theorem envY_ok {op : Op} {host : List (Addr × Bool)} {grants : List Region} (h0 : ∀ a, op ≠ .alloc 0 a)
    (hf : ∀ addr size, op = .addFixed addr size → addr ≠ 0 → size ≠ 0 → Fresh grants (addr, size)) : WorldOk envY op host grants :=
  ⟨fun _ _ => .inr ⟨fun _ _ _ => rfl, h0⟩, (fun _ _ _ h => by cases h), hf⟩

/-- The history of C76's example, with the users' books. -/
theorem w5_hist : Hist cfgF MergeEnv w5.2 [(8192, 4096), (12288, 4096)] [(4096, 16384)] := by
  have h1 : Hist cfgF MergeEnv w1.2 [] [(4096, 16384)] :=
    .step (op := .addFixed 4096 16384) .init (envY_ok (fun _ h => by cases h) (fun _ _ h _ _ => by cases h; exact ⟨by decide, by decide, by decide, fun g hg => by cases hg⟩)) (fun _ _ _ => rfl) w1_runs rfl
  have h2 : Hist cfgF MergeEnv w2.2 [(4096, 4096)] [(4096, 16384)] :=
    .step (op := .alloc 4096 0) h1 (envY_ok (fun _ h => by cases h) (fun _ _ h => by cases h)) (fun _ _ _ => rfl) w2_runs rfl
  have h3 : Hist cfgF MergeEnv w3.2 [(8192, 8192), (4096, 4096)] [(4096, 16384)] :=
    .step (op := .alloc 8192 0) h2 (envY_ok (fun _ h => by cases h) (fun _ _ h => by cases h)) (fun _ _ _ => rfl) w3_runs rfl
  have h4 : Hist cfgF MergeEnv w4.2 [(8192, 4096), (12288, 4096), (4096, 4096)] [(4096, 16384)] :=
    .step (op := .split 8192 8192 4096) h3 (envY_ok (fun _ h => by cases h) (fun _ _ h => by cases h)) (fun _ _ _ => rfl) w4_runs rfl
  exact .step (op := .free 4096 0) h4 (envY_ok (fun _ h => by cases h) (fun _ _ h => by cases h)) (fun _ _ _ => rfl) w5_runs rfl

/-- A concrete case for `C77_refines`: the fourth call of that history. -/
example : Reach cfgF .careful w5.2 [12288, 8192] ∧ NoEmpty w5.2 ∧ Allowed .careful [12288, 8192] (.free 8192 4096) (mem 51 true) ∧
    Runs cfgF w5.2 (.free 8192 4096) envY (mem 51 true) { res := .success } (after w5.2 (.free 8192 4096) envY (mem 51 true)).2 :=
  ⟨w5_reach, (C76_enough w5_reach rfl).1, .inr (by simp), runs_of fun _ => rfl⟩

/-- A concrete case for `C77_history`, `C77_defined`, `C77_live`, `C77_stats`, `C77_coalesced`: two allocations and two free blocks. -/
example : cfgF.page = 2 ^ 12 ∧ Hist cfgF MergeEnv w5.2 [(8192, 4096), (12288, 4096)] [(4096, 16384)] ∧ w5.2.usedSize = 8192 ∧ w5.2.allocSize = 16384 :=
  ⟨rfl, w5_hist, rfl, rfl⟩

/-- A concrete case for `C77_free`: one succeeds, one is refused. -/
example : Runs cfgF w5.2 (.free 8192 4096) envY (mem 51 true) { res := .success } (after w5.2 (.free 8192 4096) envY (mem 51 true)).2 ∧
    (after w5.2 (.free 8192 4096) envY (mem 51 true)).2.refused = false ∧
    Runs cfgF w5.2 (.free 4096 0) envY (mem 51 true) { res := .invalidArgument } (after w5.2 (.free 4096 0) envY (mem 51 true)).2 :=
  ⟨runs_of fun _ => rfl, rfl, runs_of fun _ => rfl⟩

/-- A concrete case for `C77_alloc` and `C77_fits`: 4 KiB of the 16 KiB. -/
example : WorldOk envY (.alloc 4096 8192) (mem 11 true ++ mem 21 true) [(4096, 16384)] ∧ MergeEnv envY ∧ (∀ a b c, envY.splitCb a b c = .success) ∧
    Runs cfgF w1.2 (.alloc 4096 8192) envY (mem 11 true ++ mem 21 true) { res := .success, ptr := 8192 } (after w1.2 (.alloc 4096 8192) envY (mem 11 true ++ mem 21 true)).2 ∧
    (after w1.2 (.alloc 4096 8192) envY (mem 11 true ++ mem 21 true)).2.refused = false ∧
    ∀ x, Has (4096, 4096 + max cfgF.page 8192) x → HasAny [(4096, 16384)] x ∧ ¬ HasAny [] x :=
  ⟨envY_ok (fun _ h => by cases h) (fun _ _ h => by cases h), fun _ _ _ => rfl, fun _ _ _ => rfl, runs_of fun _ => rfl, rfl, fun x hx => by
    simp only [Has, HasAny, cfgF, List.mem_singleton, exists_eq_left, List.not_mem_nil, false_and, exists_false, not_false_eq_true, and_true] at hx ⊢
    omega⟩

/-! ## When the base allocator refuses -/

def z1 := after St.init (.addFixed 65536 36864) envY (mem 1 false)
def z2 := after z1.2 (.alloc 4096 0) envY ((11, false) :: (12, false) :: (0, false) :: mem 13 false)
def z3 := after z2.2 (.addFixed 102400 20480) envY (mem 21 false)
def z4 := after z3.2 (.alloc 8192 0) envY (mem 31 false)
def z5 := after z4.2 (.alloc 40960 0) envY (mem 41 false)

/-- C77 does not survive a refusal of the base allocator, even of zeroed memory and for a careful user (C01 is then false): the second call
fails, because one head of a list is refused, and leaves a block in the tree that lies in another. The last two calls return ranges that share bytes. -/
theorem C77_refused_violated : Reach cfgF .careful z5.2 [69632, 65536] ∧ (∀ u, Reach cfgF u z2.2 []) ∧
    Runs cfgF z3.2 (.alloc 8192 0) envY (mem 31 false) { res := .success, ptr := 65536 } z4.2 ∧
    Runs cfgF z4.2 (.alloc 40960 0) envY (mem 41 false) { res := .success, ptr := 69632 } z5.2 ∧ ¬ Disjoint (65536, 8192) (69632, 40960) := by
  have h1 : ∀ u, Reach cfgF u z1.2 [] := fun u => .step (op := .addFixed 65536 36864) (env := envY) (host := mem 1 false) (r := z1.1) .init
    (by cases u <;> simp [Allowed, mem]) (runs_of fun _ => rfl)
  have h2 : ∀ u, Reach cfgF u z2.2 [] := fun u => .step (op := .alloc 4096 0) (env := envY) (host := (11, false) :: (12, false) :: (0, false) :: mem 13 false) (r := z2.1) (h1 u)
    (by cases u <;> simp [Allowed, mem]) (runs_of fun _ => rfl)
  have h3 : Reach cfgF .careful z3.2 [] := .step (op := .addFixed 102400 20480) (env := envY) (host := mem 21 false) (r := z3.1) (h2 .careful) trivial (runs_of fun _ => rfl)
  have h4 : Reach cfgF .careful z4.2 [65536] := .step (op := .alloc 8192 0) (env := envY) (host := mem 31 false) (r := z4.1) h3 trivial (runs_of fun _ => rfl)
  have h5 : Reach cfgF .careful z5.2 [69632, 65536] := .step (op := .alloc 40960 0) (env := envY) (host := mem 41 false) (r := z5.1) h4 trivial (runs_of fun _ => rfl)
  exact ⟨h5, h2, runs_of fun _ => rfl, runs_of fun _ => rfl, fun h => h 69632 ⟨by simp [Has], by simp [Has]⟩⟩

/-- A history with memory from upstream: two blocks are taken, one is given back to the allocator. -/
def envV (p : Nat) : Env := ⟨fun _ _ _ => .success, fun _ _ _ => .success, fun _ a => if a = 4096 then (.success, p) else (.outOfHostMemory, 0)⟩
def y1 := (step cfgU 50 St.init (.alloc 8192 0) (envV 8192) (mem 1 true)).getD ({ res := .notSupported }, St.init)
def y2 := (step cfgU 50 y1.2 (.addUpstream 8192) (envV 16384) (mem 11 true)).getD ({ res := .notSupported }, St.init)

theorem envV_ok {p : Nat} {op : Op} {host : List (Addr × Bool)} {grants : List Region} (h0 : ∀ a, op ≠ .alloc 0 a) (hf : ∀ a n, op ≠ .addFixed a n) (hp : p % 4096 = 0)
    (hu : ∀ size, (op = .addUpstream size ∨ ∃ a, op = .alloc size a) → Fresh grants (p, size)) : WorldOk (envV p) op host grants := by
  refine ⟨fun _ _ => .inr ⟨fun _ _ _ => rfl, h0⟩, fun size a ho h => ?_, fun _ _ h => absurd h (hf _ _)⟩
  by_cases ha : a = 4096
  · subst ha
    exact ⟨hu size ho, hp⟩
  · unfold envV at h
    dsimp only at h
    rw [if_neg ha] at h
    cases h

/-- A concrete case for the same theorems with a provider upstream. -/
example : Hist cfgU AnyEnv y2.2 [(8192, 8192)] [(16384, 8192), (8192, 8192)] := by
  have h1 : Hist cfgU AnyEnv y1.2 [(8192, 8192)] [(8192, 8192)] := .step (op := .alloc 8192 0) (env := envV 8192) (host := mem 1 true) (r := y1.1) .init
    (envV_ok (fun _ h => by cases h) (fun _ _ h => by cases h) rfl fun size h => by
      rcases h with h | ⟨a, h⟩ <;> cases h
      exact ⟨by decide, by decide, by decide, fun g hg => by cases hg⟩) trivial (runs_of fun _ => rfl) rfl
  refine .step (op := .addUpstream 8192) (env := envV 16384) (host := mem 11 true) (r := y2.1) h1
    (envV_ok (fun _ h => by cases h) (fun _ _ h => by cases h) rfl fun size h => by
      rcases h with h | ⟨a, h⟩ <;> cases h
      refine ⟨by decide, by decide, by decide, fun g hg => ?_⟩
      cases List.mem_singleton.1 hg
      rintro x ⟨h1, h2⟩
      simp only [Has] at h1 h2
      omega) trivial (runs_of fun _ => rfl) rfl

end Verif.CoarseMem
