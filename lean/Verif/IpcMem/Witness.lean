import Verif.IpcMem.Props
/-!
# The cache of opened IPC handles, pointer by pointer: concrete histories
-/
namespace Verif.IpcMem

/-- After `init 0` and the creation of a cache at 100 for provider 7. -/
def st1 : St := { St.init with glob := some ⟨0, 0, 0⟩, caches := upd St.init.caches 100 (some 0) }
def world1 : World := ⟨some 0, fun c => if c = 100 then some 7 else none, []⟩

theorem reach1 (hash : Key → Nat) : Reach hash st1 world1 := by
  have h1 : Reach hash { St.init with glob := some ⟨0, 0, 0⟩ } ⟨some 0, fun _ => none, []⟩ :=
    .step (op := .init 0) (a := ⟨[], true⟩) (out := ⟨.success, 0, []⟩) .init rfl ⟨0, fun _ _ => rfl⟩
  have h2 := Reach.step (op := .create 7) (a := ⟨[100], true⟩) (out := ⟨.success, 100, []⟩) (s' := st1) h1
    ⟨nofun, nofun⟩ ⟨0, fun _ _ => rfl⟩
  exact h2

/-- C75 is violated: the base allocator has memory for the entry but not for the hash table, and the get ends the process
(`uthash.h:136`, `exit(-1)`), instead of returning `UMF_RESULT_ERROR_OUT_OF_HOST_MEMORY`. -/
theorem C75_exit_violated (hash : Key → Nat) : ∃ s W op a, Reach hash s W ∧ Legal W op ∧ a.mutex = true ∧ Exits hash s op a :=
  ⟨st1, world1, .get 100 ⟨1, 7, 1⟩ 5, ⟨[200], true⟩, reach1 hash, rfl, rfl, 0, fun _ _ => rfl⟩

/-- C75 is violated: `utils_mutex_init` fails, and the entry, which came from the pool allocator, is given to the free of the global
allocator (`ipc_cache.c:240-245`). -/
theorem C75_mutex_violated (hash : Key → Nat) : ∃ s W op a, Reach hash s W ∧ Legal W op ∧ Undef hash s op a :=
  ⟨st1, world1, .get 100 ⟨1, 7, 1⟩ 5, ⟨[200, 201, 202], false⟩, reach1 hash, rfl, 0, fun _ _ => rfl⟩

/-- The results of a list of calls. -/
def runs (hash : Key → Nat) (fuel : Nat) : St → List (Op × Answers) → Option (List Ret)
  | _, [] => some []
  | s, (op, a) :: l => match step hash fuel s op a with
    | .ok r s => (runs hash fuel s l).map (r :: ·)
    | _ => none

/-- Two providers, at most two entries: a miss, a hit, a miss of the other provider, a miss that evicts the first entry, whose table
is another one and is freed, and the destruction of both caches; then the common data is torn down. -/
example : runs (fun k => k.remote) 100 St.init [(.init 2, ⟨[], true⟩), (.create 7, ⟨[100], true⟩), (.create 8, ⟨[101], true⟩),
    (.get 100 ⟨1, 7, 1⟩ 5, ⟨[200, 201, 202], true⟩), (.map 200 4096 64, ⟨[], true⟩), (.get 100 ⟨1, 7, 1⟩ 5, ⟨[], true⟩),
    (.get 101 ⟨2, 8, 1⟩ 6, ⟨[300, 301, 302], true⟩), (.release 200, ⟨[], true⟩), (.release 200, ⟨[], true⟩),
    (.get 101 ⟨3, 8, 1⟩ 7, ⟨[], true⟩), (.destroy 101, ⟨[], true⟩), (.destroy 100, ⟨[], true⟩), (.tearDown, ⟨[], true⟩)] =
  some [⟨.success, 0, []⟩, ⟨.success, 100, []⟩, ⟨.success, 101, []⟩, ⟨.success, 200, []⟩, ⟨.success, 0, []⟩, ⟨.success, 200, []⟩,
    ⟨.success, 300, []⟩, ⟨.success, 0, []⟩, ⟨.success, 0, []⟩, ⟨.success, 200, [(⟨3, 8, 1⟩, 4096, 64)]⟩,
    ⟨.success, 0, [(⟨2, 8, 1⟩, 0, 0), (⟨3, 8, 1⟩, 0, 0)]⟩, ⟨.success, 0, []⟩, ⟨.success, 0, []⟩] := by decide +kernel

/-- Eleven entries in one bucket: at the tenth the table gets a new array of buckets (at 500), and all are still found. -/
def eleven : List (Op × Answers) :=
  [(.init 0, ⟨[], true⟩), (.create 7, ⟨[100], true⟩)] ++
  (List.range 11).map (fun i => (.get 100 ⟨i, 7, 1⟩ 5, ⟨if i = 0 then [200, 400, 401] else [200 + i, 500], true⟩)) ++
  (List.range 11).map (fun i => (.get 100 ⟨i, 7, 1⟩ 5, ⟨[], true⟩)) ++ [(.destroy 100, ⟨[], true⟩), (.tearDown, ⟨[], true⟩)]

example : (runs (fun k => 32 * k.remote) 100 St.init eleven).map (fun l => l.map fun r => r.addr) =
    some ([0, 100] ++ (List.range 11).map (200 + ·) ++ (List.range 11).map (200 + ·) ++ [0, 0]) := by decide +kernel

/-- The hypotheses of the theorems are met: a state with a cache, a legal get, and answers for four requests. -/
example : Reach (fun k => k.remote) st1 world1 ∧ Legal world1 (.get 100 ⟨1, 7, 1⟩ 5) ∧ Enough 4 st1 ⟨[200, 201, 202, 203], true⟩ :=
  ⟨reach1 _, rfl, [200, 201, 202, 203], [], rfl, rfl, by decide, by decide⟩

end Verif.IpcMem
