import Verif.CpuProv.Model
/-!
# Specification for the creation and destruction of the OS, file, devdax and fixed providers
-/
namespace Verif.CpuProv
open Verif.Policy

/-- The live objects: provider number and slot. -/
abbrev State := Nat → Slot → Bool

/-- Effect of one event. Making a live object again, releasing an object that is not live and using or freeing a pointer to no object
are errors. -/
def apply1 (st : State) : Ev → Option State
  | .mk n s => if st n s then none else some fun m x => if m = n ∧ x = s then true else st m x
  | .rm n s => if st n s then some fun m x => if m = n ∧ x = s then false else st m x else none
  | .crash => none

def apply (st : State) : List Ev → Option State
  | [] => some st
  | e :: es => match apply1 st e with
    | none => none
    | some st => apply st es

/-- Nothing of provider `n` exists. -/
def Fresh (st : State) (n : Nat) : Prop := ∀ s, st n s = false

/-- `c`'s descriptors, heads and elements. -/
def coarseOwns (c : CoarseSt) : Slot → Bool
  | .coarse | .freeTree | .allTree | .coarseLock => true
  | .block i => decide (i ∈ c.blocks)
  | .head i => decide (i ∈ c.heads)
  | .elem i => decide (i ∈ c.elems)
  | _ => false

/-- The objects of a complete provider. -/
def owns (p : Prov) (s : Slot) : Bool := match p with
  | .os mode len _ strBuf fd shm => match s with
    | .handle | .prov | .topo | .offsets | .nodeArr => true
    | .bitmap i => decide (i < len)
    | .partitions => decide (mode = .split)
    | .strBuf => strBuf
    | .fd | .lock => fd.isSome
    | .shmFile => shm
    | _ => false
  | .file c maps => match s with
    | .handle | .prov | .fd | .lock | .offsets | .mmaps => true
    | .mapping a => decide (a ∈ maps)
    | s => coarseOwns c s
  | .devdax c => match s with
    | .handle | .prov | .lock => true
    | .mapping a => decide (a = 0)
    | s => coarseOwns c s
  | .fixed c => match s with
    | .handle | .prov => true
    | s => coarseOwns c s

/-- What a destroyed provider should leave: nothing. What the OS provider leaves: the descriptor and the named file. -/
def leaves (p : Prov) (s : Slot) : Bool := match p with
  | .os _ _ _ _ fd shm => match s with
    | .fd => fd.isSome
    | .shmFile => shm
    | _ => false
  | _ => false

/-- The state with the objects of provider `n` replaced. -/
def put (st : State) (n : Nat) (S : Slot → Bool) : State := fun m x => if m = n then S x else st m x

/-- The lists of coarse have no repetition and the index has blocks of the tree only. -/
def CoarseSt.Ok (c : CoarseSt) : Prop :=
  c.blocks.Nodup ∧ c.elems.Nodup ∧ c.heads.Nodup ∧ ∀ e ∈ c.elems, e ∈ c.blocks

/-- What holds of every complete provider: the array of partitions exists if and only if the mode is split, a descriptor is not 0, a
named file has a descriptor; the lists of coarse and of the mappings are in order. -/
def WF : Prov → Prop
  | .os mode _ parts _ fd shm => (parts = decide (mode = .split)) ∧ fd ≠ some 0 ∧ (shm = true → fd.isSome = true)
  | .file c maps => c.Ok ∧ maps.Nodup ∧ ∀ a ∈ maps, 0 < a
  | .devdax c => c.Ok
  | .fixed c => c.Ok

/-- What use of a provider may change: the blocks of coarse, and the recorded mappings of the file provider, which are not at
address 0. -/
inductive Uses : Prov → Prov → Prop where
  | os {m l p s f h} : Uses (.os m l p s f h) (.os m l p s f h)
  | file {c c' maps maps'} : c'.Ok → maps'.Nodup → (∀ a ∈ maps', 0 < a) → Uses (.file c maps) (.file c' maps')
  | devdax {c c'} : c'.Ok → Uses (.devdax c) (.devdax c')
  | fixed {c c'} : c'.Ok → Uses (.fixed c) (.fixed c')

/-- The cases that are not excluded: for the OS provider, bitmaps can be made and set once there is memory for their array, there is
memory for the partitions and a lock for a shared provider, and descriptor 0 is in use; paths have less than 4096 characters; a
list of free blocks that can be made can get its element. -/
def Req.Sound : Req → Prop
  | .os _ i a => a.dup = true ∧ (∀ k, a.bitmap k = true) ∧ (∀ k, a.bitSet k = true) ∧
      (i.numa.mode = .split → a.partitions = true) ∧ (i.shared = true → a.lock = true) ∧ a.fd ≠ some 0
  | .file i _ => ∀ p, i.path = some p → p.length < 4096
  | .devdax i a => (∀ p, i.path = some p → p.length < 4096) ∧ a.add.elem = true
  | .fixed a => a.add.elem = true

/-- A request that nothing stands against. -/
def Req.Good : Req → Prop
  | .os P i a => i.flags = true ∧ (translate P [] i.numa).isSome ∧ (i.shared = true → i.numa.mode = .default) ∧
      (∀ s, i.shmName = some s → '/' ∉ s ∧ s.length ≤ 253) ∧
      a.prov = true ∧ a.topoInit = true ∧ a.topoLoad = true ∧ a.offsets = true ∧ a.nodeArr = true ∧ a.dup = true ∧
      (∀ k, a.bitmap k = true) ∧ (∀ k, a.bitSet k = true) ∧ a.fd.isSome ∧ a.size = true ∧ a.lock = true ∧
      a.partitions = true ∧ a.fd ≠ some 0
  | .file i a => (∃ p, i.path = some p ∧ p.length < 4096) ∧ i.flags = true ∧ a.prov = true ∧ a.fd = true ∧
      a.size = true ∧ a.coarse = ⟨true, true, true, true⟩ ∧ a.lock = true ∧ a.offsets = true ∧ a.mmaps = true
  | .devdax i a => (∃ r, i.path = some ("/dev/dax".toList ++ r) ∧ r.length < 4088) ∧ 0 < i.size ∧ i.flags = true ∧
      a.prov = true ∧ a.coarse = ⟨true, true, true, true⟩ ∧ a.fd = true ∧ a.chr = true ∧ a.map = .sync ∧
      a.add = ⟨true, true, true, true, true⟩ ∧ a.lock = true
  | .fixed a => a.prov = true ∧ a.coarse = ⟨true, true, true, true⟩ ∧ a.add = ⟨true, true, true, true, true⟩

/-- Histories: providers are created, or fail to be created, used and destroyed, any number of them. The live objects, the
live handles, and the destroyed providers. A new provider has a new number. -/
inductive Hist : State → List Handle → List (Nat × Prov) → Prop where
  | init : Hist (fun _ _ => false) [] []
  | create {st hs ds n mem q st' h} : Hist st hs ds → (∀ g ∈ hs, g.n ≠ n) → (∀ d ∈ ds, d.1 ≠ n) → q.Sound →
      (create n mem q).2.2 = some h → apply st (create n mem q).2.1 = some st' → Hist st' (h :: hs) ds
  | createFail {st hs ds n mem q st'} : Hist st hs ds → (∀ g ∈ hs, g.n ≠ n) → (∀ d ∈ ds, d.1 ≠ n) → q.Sound →
      (create n mem q).2.2 = none → apply st (create n mem q).2.1 = some st' → Hist st' hs ds
  | use {st hs ds} {n : Nat} {p p' : Prov} : Hist st (⟨n, some p⟩ :: hs) ds → Uses p p' →
      Hist (put st n (owns p')) (⟨n, some p'⟩ :: hs) ds
  | swap {st hs hs' ds} : Hist st hs ds → hs.Perm hs' → Hist st hs' ds
  | destroy {st hs ds st'} {h : Handle} {p : Prov} : Hist st (h :: hs) ds → h.priv = some p →
      apply st (destroy h) = some st' → Hist st' hs ((h.n, p) :: ds)

end Verif.CpuProv
