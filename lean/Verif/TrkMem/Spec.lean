import Verif.TrkMem.Model
/-! # What is said about the memory of the tracker (C82) -/
namespace Verif.TrkMem
open Tracker (Res UpAlloc)

/-- The base allocator hands out only blocks that are not allocated. -/
def Honest (g : Give) : Prop := ∀ (u : Addr → Bool) (a : Addr), g u = some a → u a = false

/-- The entries are exactly the allocated blocks: every entry of a map is allocated, every allocated block is the entry of one
key of one map, and every map has a key once. -/
structure Exact (s : St) : Prop where
  alive : ∀ (l k : Nat) (a : Addr), (k, a) ∈ s.lv l → s.used a = true
  reached : ∀ a : Addr, s.used a = true → ∃ l k, l < 8 ∧ (k, a) ∈ s.lv l
  single : ∀ (l k l' k' : Nat) (a : Addr), (k, a) ∈ s.lv l → (k', a) ∈ s.lv l' → l = l' ∧ k = k'
  once : ∀ (l k : Nat) (a a' : Addr), (k, a) ∈ s.lv l → (k, a') ∈ s.lv l → a = a'

/-- A call of a tracking provider (or a lookup) with what it is told from outside. -/
inductive Call where
  | alloc (pool size : Nat) (up : UpAlloc) (g : Give) (node : Bool)
  | free (pool ptr size : Nat) (up : Option Nat) (g : Give) (node : Bool)
  | split (pool ptr total first : Nat) (up : Option Nat) (v : Ans)
  | merge (pool lo hi total : Nat) (up : Option Nat) (v : Ans)
  | look (ptr : Nat)

/-- What the call leaves; `none`: it is not well defined. -/
def Call.run (s : St) : Call → Option St
  | .alloc pool size up g node => (trackingAlloc s pool size up g node).map (·.1)
  | .free pool ptr size up g node => (trackingFree s pool ptr size up g node).map (·.1)
  | .split pool ptr total first up v => (trackingSplit s pool ptr total first up v).map (·.1)
  | .merge pool lo hi total up v => (trackingMerge s pool lo hi total up v).map (·.1)
  | .look ptr => (getAllocInfo s ptr).map fun _ => s

/-- No entry for the address `p` has children. -/
def Childless (s : St) (p : Nat) : Prop := ∀ (l : Nat) (a : Addr), (p, a) ∈ s.lv l → (s.heap a).nch = 0

/-- What has to hold for a call: the base allocator is honest, the radix tree gets the memory to replace a value
(`C82_splitUpdate_violated`, `C82_mergeUpdate_violated`), and the parts of a merge have no children
(`C82_mergeKids_violated`). The arguments may be anything, and so may the other refusals. -/
def Call.Fair (s : St) : Call → Prop
  | .alloc _ _ _ g _ => Honest g
  | .free _ _ _ _ g _ => Honest g
  | .split _ _ _ _ _ v => Honest v.give ∧ Honest v.give2 ∧ v.leaf = true ∧ v.leaf3 = true
  | .merge _ lo hi _ _ v => Honest v.give ∧ v.leaf = true ∧ Childless s lo ∧ Childless s hi
  | .look _ => True

/-- The states that any calls lead to. -/
inductive Reach : St → Prop where
  | init : Reach empty
  | step {s s' : St} {c : Call} : Reach s → c.Fair s → c.run s = some s' → Reach s'

/-- The same, with no care for the last two conditions: only the base allocator is honest. -/
inductive ReachAny : St → Prop where
  | init : ReachAny empty
  | step {s s' : St} {c : Call} : ReachAny s →
      (match c with
        | .alloc _ _ _ g _ => Honest g
        | .free _ _ _ _ g _ => Honest g
        | .split _ _ _ _ _ v => Honest v.give ∧ Honest v.give2
        | .merge _ _ _ _ _ v => Honest v.give
        | .look _ => True) →
      c.run s = some s' → ReachAny s'

/-- What is written in the entries: the tracker as a set of regions on levels, `Verif.Tracker.Model`. -/
def view (s : St) : Tracker.St :=
  ⟨fun l => (s.lv l).map fun e => ⟨e.1, (s.heap e.2).pool, (s.heap e.2).size, (s.heap e.2).nch⟩⟩

/-! ## Regions opened from other processes -/

inductive IpcCall where
  | add (ptr size provider cache : Nat) (g : Give) (node : Bool)
  | remove (ptr : Nat)
  | info (ptr : Nat)
  | close (ptr : Nat)

def IpcCall.run (s : Ipc) : IpcCall → Option Ipc
  | .add ptr size provider cache g node => (addIpc s ptr size provider cache g node).map (·.1)
  | .remove ptr => (removeIpc s ptr).map (·.1)
  | .info ptr => (getIpcInfo s ptr).map fun _ => s
  | .close ptr => (closeIpc s ptr).map fun _ => s

def IpcCall.Fair : IpcCall → Prop
  | .add _ _ _ _ g _ => Honest g
  | _ => True

/-- The opened regions a user knows of: address, size, provider and entry of the cache. -/
structure Opened where
  ptr : Nat
  size : Nat
  provider : Nat
  cache : Nat
deriving DecidableEq, Repr

/-- `IpcReach s l`: after any calls, `l` being the regions that were added and not removed since. -/
inductive IpcReach : Ipc → List Opened → Prop where
  | init : IpcReach .empty []
  | added {s s' l ptr size provider cache g node} : IpcReach s l → Honest g →
      addIpc s ptr size provider cache g node = some (s', .success) → IpcReach s' (⟨ptr, size, provider, cache⟩ :: l)
  | refused {s s' l ptr size provider cache g node r} : IpcReach s l → Honest g → r ≠ Res.success →
      addIpc s ptr size provider cache g node = some (s', r) → IpcReach s' l
  | removed {s s' l ptr r} : IpcReach s l → removeIpc s ptr = some (s', r) → IpcReach s' (l.filter fun o => o.ptr ≠ ptr)

/-! ## Creating and destroying -/

/-- Everything a tracker is made of. -/
def parts : List Part := [.ipcMap, .ipcInfos, .level 7, .level 6, .level 5, .level 4, .level 3, .level 2, .level 1,
  .level 0, .mutex, .infos, .handle]

end Verif.TrkMem
