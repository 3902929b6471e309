/-!
# Providers and pools from memspaces, in memory

`src/memspace.c:40-132` and 322-336, `numa_memory_provider_create_from_memspace` and `numa_pool_create_from_memspace` of
`src/memtargets/memtarget_numa.c:50-201`, and the parameters of the OS provider that they use, `src/provider/provider_os_memory.c:1566-1744`.

Memory is a list of blocks. Addresses are numbers, 0 is NULL; new blocks get new addresses. The answers of the base allocator are a
list, `true` when the list is at its end. Using a block that does not exist or is of another kind, freeing one that does not exist
and running over the end of an array is undefined: the result is `none`. An array is allocated and filled in in one step. Result codes
are numbers: 0 success, 1 out of host memory, 3 invalid argument, 5 not supported.
-/
namespace Verif.FromSpace

/-- `umf_os_memory_provider_params_t`, the fields that are used here. -/
structure Par where
  list : Nat
  listLen : Nat
  mode : Nat
  partSize : Nat
  parts : Nat
  partsLen : Nat
deriving DecidableEq, Repr

/-- What an OS provider is created with. -/
structure Settings where
  mode : Nat
  list : List Nat
  partSize : Nat
  parts : List (Nat × Nat)
deriving DecidableEq, Repr

/-- A block: a memspace (`memspace_internal.h`), an array of pointers, a target with its private data, the private data of a NUMA
target with the number of the node, arrays of node numbers and of partitions, parameters, a provider. -/
inductive Cell where
  | space (nodes size : Nat)
  | ptrs (l : List Nat)
  | target (priv : Nat)
  | numa (id : Nat)
  | nums (l : List Nat)
  | parts (l : List (Nat × Nat))
  | params (p : Par)
  | prov (s : Settings)
deriving DecidableEq, Repr

structure St where
  heap : List (Nat × Cell)
  next : Nat
  ans : List Bool
deriving DecidableEq, Repr

/-- Reading memory. -/
def get : List (Nat × Cell) → Nat → Option Cell
  | [], _ => none
  | (k, c) :: t, a => if k = a then some c else get t a

/-- Giving memory back. -/
def rm : List (Nat × Cell) → Nat → List (Nat × Cell)
  | [], _ => []
  | (k, c) :: t, a => if k = a then t else (k, c) :: rm t a

/-- Writing memory. -/
def put : List (Nat × Cell) → Nat → Cell → List (Nat × Cell)
  | [], _, _ => []
  | (k, c) :: t, a, d => if k = a then (k, d) :: t else (k, c) :: put t a d

/-- Whether the next allocation succeeds. -/
def granted : List Bool → Bool
  | [] => true
  | b :: _ => b

/-- `umf_ba_global_alloc`, seen by its callers. -/
def alloc (st : St) (c : Cell) : Nat × St :=
  if granted st.ans = true then (st.next, ⟨(st.next, c) :: st.heap, st.next + 1, st.ans.tail⟩)
  else (0, { st with ans := st.ans.tail })

/-- `umf_ba_global_free`, seen by its callers. -/
def free (st : St) (a : Nat) : Option St :=
  if a = 0 then some st
  else
    match get st.heap a with
    | none => none
    | some _ => some { st with heap := rm st.heap a }

/-- The parameters at `h`. -/
def par (st : St) (h : Nat) : Option Par :=
  match get st.heap h with
  | some (.params p) => some p
  | _ => none

/-- The first `n` numbers of an array; nothing is read if `n` is 0. -/
def readNums (st : St) (a n : Nat) : Option (List Nat) :=
  if n = 0 then some []
  else
    match get st.heap a with
    | some (.nums l) => if n ≤ l.length then some (l.take n) else none
    | _ => none

/-- The first `n` partitions of an array; nothing is read if `n` is 0. -/
def readParts (st : St) (a n : Nat) : Option (List (Nat × Nat)) :=
  if n = 0 then some []
  else
    match get st.heap a with
    | some (.parts l) => if n ≤ l.length then some (l.take n) else none
    | _ => none

/-- The first `n` pointers of an array; nothing is read if `n` is 0. -/
def readPtrs (st : St) (a n : Nat) : Option (List Nat) :=
  if n = 0 then some []
  else
    match get st.heap a with
    | some (.ptrs l) => if n ≤ l.length then some (l.take n) else none
    | _ => none

/-! ## Parameters of the OS provider, `provider_os_memory.c` -/

/-- `umfOsMemoryProviderParamsCreate`, 1566-1594; 0: out of memory. -/
def parCreate (st : St) : Nat × St := alloc st (.params ⟨0, 0, 0, 0, 0, 0⟩)

/-- `umfOsMemoryProviderParamsDestroy`, 1596-1607. No name is set here. -/
def parDestroy (st : St) (h : Nat) : Option St :=
  match par st h with
  | none => none
  | some p =>
    match free st p.list with
    | none => none
    | some st =>
      match free st p.parts with
      | none => none
      | some st => free st h

/-- `umfOsMemoryProviderParamsSetNumaMode`, 1689-1699, for a handle that is not NULL. -/
def setMode (st : St) (h mode : Nat) : Option St :=
  match par st h with
  | none => none
  | some p => some { st with heap := put st.heap h (.params { p with mode := mode }) }

/-- `umfOsMemoryProviderParamsSetPartSize`, 1701-1711, for a handle that is not NULL. -/
def setPartSize (st : St) (h n : Nat) : Option St :=
  match par st h with
  | none => none
  | some p => some { st with heap := put st.heap h (.params { p with partSize := n }) }

/-- The end of `umfOsMemoryProviderParamsSetNumaList`, 1682-1686. -/
def storeList (st : St) (h new len : Nat) : Option (Nat × St) :=
  match par st h with
  | none => none
  | some p =>
    match free st p.list with
    | none => none
    | some st => some (0, { st with heap := put st.heap h (.params { p with list := new, listLen := len }) })

/-- `umfOsMemoryProviderParamsSetNumaList`, 1658-1687, for a handle that is not NULL. -/
def setList (st : St) (h list len : Nat) : Option (Nat × St) :=
  if len ≠ 0 ∧ list = 0 then some (3, st)
  else if len = 0 then storeList st h 0 len
  else
    match readNums st list len with
    | none => none
    | some l =>
      if (alloc st (.nums l)).1 = 0 then some (1, (alloc st (.nums l)).2)
      else storeList (alloc st (.nums l)).2 h (alloc st (.nums l)).1 len

/-- The end of `umfOsMemoryProviderParamsSetPartitions`, 1739-1743. -/
def storeParts (st : St) (h new len : Nat) : Option (Nat × St) :=
  match par st h with
  | none => none
  | some p =>
    match free st p.parts with
    | none => none
    | some st => some (0, { st with heap := put st.heap h (.params { p with parts := new, partsLen := len }) })

/-- `umfOsMemoryProviderParamsSetPartitions`, 1713-1744, for a handle that is not NULL. -/
def setParts (st : St) (h parts len : Nat) : Option (Nat × St) :=
  if len ≠ 0 ∧ parts = 0 then some (3, st)
  else if len = 0 then storeParts st h 0 len
  else
    match readParts st parts len with
    | none => none
    | some l =>
      if (alloc st (.parts l)).1 = 0 then some (1, (alloc st (.parts l)).2)
      else storeParts (alloc st (.parts l)).2 h (alloc st (.parts l)).1 len

/-- `umfMemoryProviderCreate` with the OS provider: it copies the parameters. What it answers to them is a parameter, `accept`;
simplified: what it allocates for itself is one block, and if it fails it leaves nothing. -/
def osProvider (accept : Settings → Nat) (st : St) (h : Nat) : Option (Nat × Nat × St) :=
  match par st h with
  | none => none
  | some p =>
    match readNums st p.list p.listLen, readParts st p.parts p.partsLen with
    | some l, some q =>
      if accept ⟨p.mode, l, p.partSize, q⟩ ≠ 0 then some (accept ⟨p.mode, l, p.partSize, q⟩, 0, st)
      else if (alloc st (.prov ⟨p.mode, l, p.partSize, q⟩)).1 = 0 then some (1, 0, (alloc st (.prov ⟨p.mode, l, p.partSize, q⟩)).2)
      else some (0, alloc st (.prov ⟨p.mode, l, p.partSize, q⟩))
    | _, _ => none

/-! ## `memtarget_numa.c` -/

/-- A policy, as it is read through a handle that is not NULL. -/
structure Pol where
  type : Nat
  partSize : Nat
  part : Nat
  partLen : Nat
deriving DecidableEq, Repr

/-- The local variables `numa_mode`, `part_size`, `partitions` and `partitions_len`. -/
structure Choice where
  mode : Nat
  partSize : Nat
  parts : Nat
  partsLen : Nat
deriving DecidableEq, Repr

/-- The modes and the policy, `memtarget_numa.c:72-120`. Modes: 0 default, 1 bind, 2 interleave, 3 preferred, 4 split; policies: 0
interleave, 1 bind, 2 preferred, 3 split. The cast to `unsigned` keeps 32 bits. -/
def choose (hostAll : Bool) : Option Pol → Option Choice
  | none => some ⟨if hostAll = true then 0 else 1, 0, 0, 0⟩
  | some p =>
    if p.type = 0 then some ⟨2, p.partSize, 0, 0⟩
    else if p.type = 1 then some ⟨1, 0, 0, 0⟩
    else if p.type = 2 then some ⟨3, 0, 0, 0⟩
    else if p.type = 3 then some ⟨4, 0, p.part, p.partLen % 2 ^ 32⟩
    else none

/-- The setting of the parameters and the creation of the provider, `memtarget_numa.c:147-180`. -/
def build (accept : Settings → Nat) (st : St) (h list len : Nat) (c : Choice) : Option (Nat × Nat × St) :=
  match setMode st h c.mode with
  | none => none
  | some st =>
    match setList st h list len with
    | none => none
    | some (r, st) =>
      if r ≠ 0 then some (r, 0, st)
      else
        match setParts st h c.parts c.partsLen with
        | none => none
        | some (r, st) =>
          if r ≠ 0 then some (r, 0, st)
          else
            match setPartSize st h c.partSize with
            | none => none
            | some st => osProvider accept st h

/-- From the creation of the parameters to the end, `memtarget_numa.c:140-190`. -/
def withList (accept : Settings → Nat) (st : St) (list len : Nat) (c : Choice) : Option (Nat × Nat × St) :=
  if (parCreate st).1 = 0 then
    match free (parCreate st).2 list with
    | none => none
    | some st => some (1, 0, st)
  else
    match build accept (parCreate st).2 (parCreate st).1 list len c with
    | none => none
    | some (r, out, st') =>
      match parDestroy st' (parCreate st).1 with
      | none => none
      | some st' =>
        match free st' list with
        | none => none
        | some st' => some (r, out, st')

/-- The node numbers of the private data, `numaTargets[i]->physical_id`. -/
def ids (heap : List (Nat × Cell)) : List Nat → Option (List Nat)
  | [] => some []
  | a :: t =>
    match get heap a, ids heap t with
    | some (.numa n), some l => some (n :: l)
    | _, _ => none

/-- `numa_memory_provider_create_from_memspace`, `memtarget_numa.c:50-190`; `all`, `cap`: the predefined memspaces of all nodes and of
the highest capacity. -/
def numaProvider (accept : Settings → Nat) (all cap : Nat) (st : St) (space privs n : Nat) (pol : Option Pol) :
    Option (Nat × Nat × St) :=
  if (if space = cap then 1 else n) = 0 then some (3, 0, st)
  else
    match choose (decide (space = all)) pol with
    | none => some (3, 0, st)
    | some c =>
      if space = all ∧ pol = none then withList accept st 0 0 c
      else
        match readPtrs st privs (if space = cap then 1 else n) with
        | none => none
        | some t =>
          match ids st.heap t with
          | none => none
          | some l =>
            if (alloc st (.nums l)).1 = 0 then some (1, 0, (alloc st (.nums l)).2)
            else withList accept (alloc st (.nums l)).2 (alloc st (.nums l)).1 ((if space = cap then 1 else n) % 2 ^ 32) c

/-- `numa_pool_create_from_memspace`, `memtarget_numa.c:192-201`. -/
def numaPool (st : St) : Option (Nat × Nat × St) := some (5, 0, st)

/-! ## `memspace.c` -/

/-- The private data of targets. -/
def privsOf (heap : List (Nat × Cell)) : List Nat → Option (List Nat)
  | [] => some []
  | a :: t =>
    match get heap a, privsOf heap t with
    | some (.target p), some l => some (p :: l)
    | _, _ => none

/-- The end of the two functions: the array of private data is freed, `memspace.c:80-82` and 109-111. -/
def dropPrivs (privs : Nat) : Option (Nat × Nat × St) → Option (Nat × Nat × St)
  | none => none
  | some (r, out, st) =>
    match free st privs with
    | none => none
    | some st => some (r, out, st)

/-- `umfPoolCreateFromMemspace` and `umfMemoryProviderCreateFromMemspace`, `memspace.c:57-112`, with `memoryTargetHandlesToPriv`, 40-55;
`f`: what the targets do with the private data and its number; `out`: the result pointer is not NULL. All targets are NUMA targets. The
result is
the handle written through the result pointer, 0 if none is written. -/
def create (f : St → Nat → Nat → Option (Nat × Nat × St)) (st : St) (space : Nat) (out : Bool) : Option (Nat × Nat × St) :=
  if space = 0 ∨ out = false then some (3, 0, st)
  else
    match get st.heap space with
    | some (.space nodes size) =>
      if size = 0 then some (3, 0, st)
      else
        match readPtrs st nodes size with
        | none => none
        | some t =>
          match privsOf st.heap t with
          | none => none
          | some l =>
            if (alloc st (.ptrs l)).1 = 0 then some (1, 0, (alloc st (.ptrs l)).2)
            else dropPrivs (alloc st (.ptrs l)).1 (f (alloc st (.ptrs l)).2 (alloc st (.ptrs l)).1 size)
    | _ => none

/-- `umfMemoryProviderCreateFromMemspace`, `memspace.c:85-112`. The predefined memspaces exist already. -/
def providerFrom (accept : Settings → Nat) (all cap : Nat) (st : St) (space : Nat) (pol : Option Pol) (out : Bool) :
    Option (Nat × Nat × St) :=
  create (fun st privs n => numaProvider accept all cap st space privs n pol) st space out

/-- `umfPoolCreateFromMemspace`, `memspace.c:57-83`. -/
def poolFrom (st : St) (space : Nat) (out : Bool) : Option (Nat × Nat × St) := create (fun st _ _ => numaPool st) st space out

/-- `umfMemspaceNew`, `memspace.c:114-132`; `out`: the result pointer is not NULL. -/
def newSpace (st : St) (out : Bool) : Nat × Nat × St :=
  if out = false then (3, 0, st)
  else if (alloc st (.space 0 0)).1 = 0 then (1, 0, (alloc st (.space 0 0)).2)
  else (0, alloc st (.space 0 0))

/-- `umfMemspaceMemtargetNum`, `memspace.c:322-327`. -/
def targetNum (st : St) (space : Nat) : Option Nat :=
  if space = 0 then some 0
  else
    match get st.heap space with
    | some (.space _ size) => some size
    | _ => none

/-- `umfMemspaceMemtargetGet`, `memspace.c:329-336`. -/
def targetGet (st : St) (space i : Nat) : Option Nat :=
  if space = 0 then some 0
  else
    match get st.heap space with
    | some (.space nodes size) =>
      if i ≥ size then some 0
      else
        match get st.heap nodes with
        | some (.ptrs l) => l[i]?
        | _ => none
    | _ => none

end Verif.FromSpace
