import Verif.Os.BindModel
/-!
# Model of providers made from a memspace and a policy

`src/memspace.c` (`umfMemoryProviderCreateFromMemspace`), `src/memtargets/memtarget_numa.c`
(`numa_memory_provider_create_from_memspace`), `src/mempolicy.c`, and the NUMA parameters of
`src/provider/provider_os_memory.c`. The host memory and hwloc do not fail here.
-/
namespace Verif.Policy
open Verif.Os

/-- `umf_mempolicy_t`, `mempolicy_internal.h:18-29`; `unknown` stands for every other type number. -/
inductive Policy where
  | interleave (partSize : Nat)
  | bind
  | preferred
  | split (parts : List Part)
  | unknown

/-- `umfMempolicyCreate`, `mempolicy.c:14-34`, for type number `bind`. -/
def create : Nat → Policy
  | 0 => .interleave 0
  | 1 => .bind
  | 2 => .preferred
  | 3 => .split []
  | _ => .unknown

/-- `umfMempolicySetInterleavePartSize`, `mempolicy.c:41-53`. `none`: refused. -/
def setPartSize (p : Policy) (n : Nat) : Option Policy :=
  match p with
  | .interleave _ => some (.interleave n)
  | _ => none

/-- `umfMempolicySetCustomSplitPartitions`, `mempolicy.c:55-69`. The policy keeps the pointer of the caller; the model
has the contents of the array (simplification: the caller does not change or free it). -/
def setPartitions (p : Policy) (parts : List Part) : Option Policy :=
  match p with
  | .split _ => some (.split parts)
  | _ => none

/-- Which memspace: the code compares with two of the predefined memspaces. -/
inductive Space where
  | hostAll
  | highestCapacity
  | other
deriving DecidableEq

/-- `umf_numa_mode_t`. -/
inductive Mode where
  | default | bind | interleave | preferred | split | loc
deriving DecidableEq

/-- The NUMA part of `umf_os_memory_provider_params_t`, `provider_os_memory.c:117-135`. -/
structure Params where
  mode : Mode
  list : List Nat
  parts : List Part
  partSize : Nat

/-- `umfMemoryProviderCreateFromMemspace` (`memspace.c:84-112`) and
`numa_memory_provider_create_from_memspace` (`memtarget_numa.c:50-177`) up to the creation of the provider.
`ids`: the physical numbers of the targets. `none`: `UMF_RESULT_ERROR_INVALID_ARGUMENT`. -/
def params (sp : Space) (ids : List Nat) (policy : Option Policy) : Option Params :=
  if ids = [] then none
  else
    let n := if sp = .highestCapacity then 1 else ids.length
    let list := if sp = .hostAll ∧ policy.isNone then [] else ids.take n
    match policy with
    | none => some ⟨if sp = .hostAll then .default else .bind, list, [], 0⟩
    | some (.interleave s) => some ⟨.interleave, list, [], s⟩
    | some .bind => some ⟨.bind, list, [], 0⟩
    | some .preferred => some ⟨.preferred, list, [], 0⟩
    | some (.split parts) => some ⟨.split, list, parts, 0⟩
    | some .unknown => none

/-- `validate_numa_mode`, `provider_os_memory.c:333-357`. -/
def validMode (m : Mode) (list : List Nat) : Bool :=
  match m with
  | .default | .loc => list.isEmpty
  | .bind | .interleave | .split => !list.isEmpty
  | .preferred => true

/-- hwloc's policies as far as used. -/
inductive Hw where
  | default | bind | interleave
deriving DecidableEq

/-- `dedicated_node_bind`, `provider_os_memory.c:385-393`. -/
def dedicated (p : Params) : Bool :=
  match p.mode with
  | .interleave => decide (0 < p.partSize)
  | .split => true
  | _ => false

/-- `translate_numa_mode`, `provider_os_memory.c:359-381`. -/
def hwPolicy (m : Mode) (ded : Bool) : Hw :=
  match m with
  | .default => .default
  | .bind | .split => .bind
  | .interleave => if ded then .bind else .interleave
  | .preferred => .bind
  | .loc => .bind

/-- `getHwlocMembindFlags`, `provider_os_memory.c:395-406`: whether `HWLOC_MEMBIND_STRICT` is set. -/
def strict (m : Mode) (ded : Bool) : Bool := decide (m = .bind) || ded

/-- The NUMA part of `os_memory_provider_t`. -/
structure Prov where
  mode : Mode
  policy : Hw
  strict : Bool
  nodesets : List (List Nat)
  parts : List Part
  partSize : Nat
deriving DecidableEq

/-- `initialize_nodeset`, `provider_os_memory.c:270-331`. `all`: the complete nodeset of the topology. -/
def nodesets (all list : List Nat) (ded : Bool) : List (List Nat) :=
  if list = [] then [all]
  else if ded then list.map fun n => [n]
  else [list]

/-- The NUMA part of `translate_params`, `provider_os_memory.c:620-668`, with `validatePartSize` (534-546). `P`: the page
size. `none`: `UMF_RESULT_ERROR_INVALID_ARGUMENT`. -/
def translate (P : Nat) (all : List Nat) (p : Params) : Option Prov :=
  if validMode p.mode p.list = false then none
  else if p.parts.any (fun q => q.weight == 0 || !p.list.contains q.target) then none
  else if p.mode = .interleave ∧ roundUp P p.partSize % W < p.partSize then none
  else
    let ded := dedicated p
    let parts := if p.mode = .split then (if p.parts = [] then p.list.map fun n => ⟨1, n⟩ else p.parts) else []
    some ⟨p.mode, hwPolicy p.mode ded, strict p.mode ded, nodesets all p.list ded, parts, p.partSize⟩

/-- `membindFirst` and `membindNext` with the loop of `os_alloc`, `provider_os_memory.c:1126-1163`, for an allocation of `n`
pages: the calls of hwloc. `sum`: the bytes allocated in interleave mode before. Of an hwloc bitmap for one node the
loops know only the index or the number of the node. -/
def binds (pr : Prov) (P sum n fuel : Nat) : Option (List (Bind (List Nat))) :=
  if pr.policy = .default then some []
  else match pr.nodesets with
    | [set] => some [⟨0, n * P, set⟩]
    | sets =>
      if pr.mode = .interleave then
        (ilvBinds sets.length pr.partSize P sum (n * P) fuel).map
          (·.map fun b => ⟨b.addr, b.size, (sets[b.node]?).getD []⟩)
      else splitBinds sets.flatten pr.parts n P fuel

end Verif.Policy
