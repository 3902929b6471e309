/-!
# The handles exported from a pool until the pool is destroyed

`src/provider/provider_tracking.c`: the cache of exported IPC handles (`ipcCache`) of a tracking provider, with everything that
touches it or the regions it is for. A function returns `none` if it uses a block of the global allocator that is not in use,
or puts back an upstream handle that is not out.

Simplifications. One thread (several threads: `Verif.IpcExp`, which has no splits, merges and destruction). The regions are
those of one pool and are not nested; a region is found by the address it begins at. An upstream handle that is put back is
counted as given back also when the upstream provider reports an error, which the code only logs or passes on.
-/
namespace Verif.IpcEnd

def upd {α : Type} (f : Nat → α) (a : Nat) (x : α) : Nat → α := fun b => if b = a then x else f b

/-- The size of the tracked region that begins at an address; `ipcCache`: the block for a base; the blocks of the global
allocator in use, with the upstream handle in `providerIpcData` (`some none`: not filled in); the upstream handles that are
out. -/
structure St where
  regs : Nat → Option Nat
  cache : Nat → Option Nat
  heap : Nat → Option (Option Nat)
  out : Nat → Bool

/-- `trackingInitialize`, and `critnib_new` in `umfTrackingMemoryProviderCreate`. -/
def init : St := ⟨fun _ => none, fun _ => none, fun _ => none, fun _ => false⟩

/-- `umf_ba_global_free` of a block. -/
def gfree (s : St) (v : Nat) : Option St :=
  match s.heap v with
  | none => none
  | some _ => some { s with heap := upd s.heap v none }

/-- `umfMemoryProviderPutIPCHandle` of the upstream provider on `cache_value->providerIpcData`. -/
def putUp (s : St) (v : Nat) : Option St :=
  match s.heap v with
  | some (some u) => if s.out u then some { s with out := upd s.out u false } else none
  | _ => none

/-- The answers to an export: the size of upstream handles is known, the block, the upstream handle, memory for the map. -/
structure Ans where
  size : Bool
  block : Option Nat
  handle : Option Nat
  node : Bool

/-- `trackingGetIpcHandle`, 896-971, for the base of a region; the second component: the upstream handle that is copied. -/
def getHandle (s : St) (b : Nat) (a : Ans) : Option (St × Option Nat) :=
  match s.cache b with
  | some v =>
    match s.heap v with
    | some (some u) => some (s, some u)
    | _ => none
  | none =>
    if a.size = false then some (s, none)
    else
      match a.block with
      | none => some (s, none)
      | some v =>
        let s1 := { s with heap := upd s.heap v (some none) }
        match a.handle with
        | none => (gfree s1 v).map fun s2 => (s2, none)
        | some u =>
          let s2 := { s1 with heap := upd s1.heap v (some (some u)), out := upd s1.out u true }
          if a.node then some ({ s2 with cache := upd s2.cache b (some v) }, some u)
          else
            match putUp s2 v with
            | none => none
            | some s3 => (gfree s3 v).map fun s4 => (s4, none)

/-- `umfGetIPCHandle`, `ipc.c:53-104`: the pointer must lie in the region `b`; otherwise the call is refused. -/
def exportPtr (s : St) (x b : Nat) (a : Ans) : Option (St × Option Nat) :=
  match s.regs b with
  | none => some (s, none)
  | some sz => if b ≤ x ∧ x < b + sz then getHandle s b a else some (s, none)

/-- `trackingAlloc`, 465-498, when the upstream provider gives the region and it is tracked. -/
def alloc (s : St) (b sz : Nat) : St := { s with regs := upd s.regs b (some sz) }

/-- The cached handle of a freed region, 741-752. -/
def dropHandle (s : St) (b : Nat) : Option St :=
  match s.cache b with
  | none => some s
  | some v =>
    match putUp { s with cache := upd s.cache b none } v with
    | none => none
    | some s' => gfree s' v

/-- `trackingFree`, 720-773. `ok`: the upstream provider frees the memory; `again`: otherwise it can be added to the tracker
again. -/
def free (s : St) (b sz : Nat) (ok again : Bool) : Option St :=
  (dropHandle { s with regs := upd s.regs b none } b).map fun s2 =>
    if ok = false ∧ (s.regs b).isSome = true ∧ again = true then { s2 with regs := upd s2.regs b (some sz) } else s2

/-- `trackingAllocationSplit`, 500-603: what it does to the regions if it succeeds. -/
def split (s : St) (b first : Nat) : St :=
  match s.regs b with
  | none => s
  | some sz =>
    if 0 < first ∧ first < sz then { s with regs := upd (upd s.regs b (some first)) (b + first) (some (sz - first)) } else s

/-- `trackingAllocationMerge`, 605-718: what it does to the regions if it succeeds. -/
def merge (s : St) (lo hi : Nat) : St :=
  match s.regs lo, s.regs hi with
  | some sl, some sh =>
    if lo + sl = hi then { s with regs := upd (upd s.regs lo (some (sl + sh))) hi none } else s
  | _, _ => s

/-- `trackingFinalize`, 834-844: `critnib_delete` frees the map, not its values. -/
def finalize (s : St) : St := { s with cache := fun _ => none }

end Verif.IpcEnd
