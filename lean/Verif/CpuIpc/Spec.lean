import Verif.CpuIpc.Model
/-!
# What is claimed of the IPC handles of the OS, file and devdax providers
-/
namespace Verif.CpuIpc

/-- The file the allocations of a provider come from: what its name, its descriptor or its path leads to now. -/
def Backs (K : Kernel) : Prov → Nat → Prop
  | .os pid _ fd name _ _, f => if name = "" then K.fd pid fd = some f else K.shm name = some f
  | .file _ _ _ path _ _, f => K.path path = some f
  | .devdax _ path _ _, f => K.path path = some f

/-- The protection of a provider. -/
def Prov.prot : Prov → Nat
  | .os _ _ _ _ p _ => p
  | .file _ _ _ _ p _ => p
  | .devdax _ _ p _ => p

/-- An allocation of a provider: `size` bytes at `ptr` show the bytes from `off` of the provider's file, and the provider knows the
offset (C31 for the OS provider, C48 for the file provider; the devdax provider maps its device from offset 0 at `base`). -/
structure Alloc (K : Kernel) (s : Prov) (ptr size file off : Nat) : Prop where
  pos : 0 < size
  backs : Backs K s file
  shows : ∀ i < size, K.mem s.pid (ptr + i) = some ⟨some file, off + i, s.prot, true⟩
  knows : match s with
    | .os _ ipc _ _ _ offsets => ipc = true ∧ offsets ptr = off + 1
    | .file _ ipc _ _ _ offsets => ipc = true ∧ offsets ptr = off + 1
    | .devdax _ _ _ base => base + off = ptr

/-- The provider that opens is of the kind of the provider the handle comes from, and may use IPC. -/
def Ready : Prov → Prov → Prop
  | .os _ ipc .., .os .. => ipc = true
  | .file _ ipc .., .file .. => ipc = true
  | .devdax .., .devdax .. => True
  | _, _ => False

/-- The cases left out, each with a witness in `Witness.lean`: descriptor 0 is free in the opening process; a devdax or fsdax
allocation does not begin at a multiple of 2 MB of the file; the kernel places an fsdax mapping at an address that is no multiple of
2 MB; a devdax mapping without `MAP_SYNC` cannot be undone. -/
structure Plain (K : Kernel) (c : Prov) (off : Nat) (a : Ans) : Prop where
  page : 0 < K.P ∧ MB2 % K.P = 0
  fd0 : a.newFd ≠ some 0
  dax : match c with
    | .os .. => True
    | .file _ _ fsdax .. => fsdax = true → off % MB2 = 0 ∧ (∀ x, a.sync = some x → x % MB2 = 0) ∧
        (∀ x, a.plain = some x → x % MB2 = 0)
    | .devdax .. => off % MB2 = 0 ∧ a.unmapOk = true

/-- A handle that was given out: by which provider, for how many bytes, where they are in which file, and what they showed. -/
structure Given where
  h : Handle
  by_ : Prov
  size : Nat
  file : Nat
  off : Nat
  bytes : Nat → Option Cell

/-- A handle that is open: the provider that opened it, the address, and the addresses that open put memory at. -/
structure Opened where
  c : Prov
  ptr : Nat
  g : Given
  new : Nat → Prop

/-- A history of any number of processes and providers. -/
inductive Hist : Kernel → List Given → List Opened → Prop
  | start (K : Kernel) : Hist K [] []
  /-- Anything else may happen that leaves the memory of open handles alone: allocations, other descriptors, other names, the
  exporter frees its memory, ends, ... -/
  | env {K K' G O} : Hist K G O → K'.P = K.P →
      (∀ o ∈ O, ∀ x, o.new x → K'.mem o.c.pid x = K.mem o.c.pid x) → Hist K' G O
  /-- umfGetIPCHandle for an allocation -/
  | get {K G O} (s : Prov) (ptr size file off : Nat) (h : Handle) : Hist K G O → Alloc K s ptr size file off →
      getHandle s ptr size = (.success, some h) →
      Hist K (⟨h, s, size, file, off, fun i => K.mem s.pid (ptr + i)⟩ :: G) O
  /-- umfOpenIPCHandle works -/
  | openOk {K K' G O} (c : Prov) (g : Given) (a : Ans) (x : Nat) : Hist K G O → g ∈ G → Ready c g.by_ → Backs K g.by_ g.file →
      a.dupErr ≠ .success → Plain K c g.off a → openHandle K c g.h a = (.success, some x, K') →
      Hist K' G (⟨c, x, g, fun y => K.mem c.pid y = none ∧ K'.mem c.pid y ≠ none⟩ :: O)
  /-- umfOpenIPCHandle fails -/
  | openFail {K K' G O} (c : Prov) (g : Given) (a : Ans) (r : Res) (p : Option Nat) : Hist K G O → g ∈ G → Ready c g.by_ →
      Backs K g.by_ g.file → a.dupErr ≠ .success → Plain K c g.off a → r ≠ .success → openHandle K c g.h a = (r, p, K') → Hist K' G O
  /-- umfCloseIPCHandle -/
  | close {K K' G} (O₁ : List Opened) (o : Opened) (O₂ : List Opened) : Hist K G (O₁ ++ o :: O₂) →
      closeHandle K o.c o.ptr o.g.size true = (.success, K') → Hist K' G (O₁ ++ O₂)

end Verif.CpuIpc
