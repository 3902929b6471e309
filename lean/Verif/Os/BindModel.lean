import Verif.Os.Model
/-!
# Model of the NUMA binding of an allocation (`src/provider/provider_os_memory.c`)

Addresses are relative to the start of the allocation. The size of an allocation is a positive
number of pages of size `P` (`os_alloc` rounds it up, `provider_os_memory.c:1131-1137`). A bitmap of
hwloc is a list of nodes, its members. All calls of hwloc succeed here; if one fails, `os_alloc` gives the
allocation back (`Verif.Os.alloc`, `bindOk`).
-/
namespace Verif.Os

/-- One call of `hwloc_set_area_membind`, `provider_os_memory.c:1147-1150`. -/
structure Bind (α : Type) where
  addr : Nat
  size : Nat
  node : α
deriving Repr, DecidableEq

/-! ## Split mode -/

/-- A partition: weight and node, `provider_os_memory_internal.h:62-65`. -/
structure Part where
  weight : Nat
  target : Nat
deriving Repr, DecidableEq

/-- `validatePartitions` (`provider_os_memory.c:505-532`) and `initializePartitions`
(`provider_os_memory.c:556-600`) for split mode; the host memory suffices. `none`: the parameters are
refused. -/
def initPartitions (nodes : List Nat) (parts : List Part) : Option (List Part) :=
  if parts.any (fun p => p.weight == 0 || !nodes.contains p.target) then none
  else if parts = [] then some (nodes.map fun n => ⟨1, n⟩)
  else some parts

/-- `partitions_weight_sum`. -/
def weightSum (parts : List Part) : Nat := (parts.map Part.weight).sum

/-- The iterator `membind_t`, `provider_os_memory.c:908-933`, without address and remaining size;
`size` is `bind_size`, `set` the bitmap, `left` is `leftover_bind`. -/
structure It where
  node : Nat
  rest : Nat
  left : Nat
  set : List Nat
  size : Nat
deriving Repr, DecidableEq

/-- The loop of `nextBind`, `provider_os_memory.c:968-995`, over the partitions from `node` on:
`(node, bind, rest, bitmap)`. `none`: a partition past the end is read. -/
def bindStep (W' n : Nat) : List Part → Nat → Nat → List Nat → Option (Nat × Nat × Nat × List Nat)
  | [], _, _, _ => none
  | p :: ps, node, rest, set =>
    let share := n * p.weight % W
    let bind := share / W'
    let rest := (rest + share % W') % W
    let (bind, rest) := if W' ≤ rest then (bind + 1, rest - W') else (bind, rest)
    let set := set ++ [p.target]
    if bind = 0 then bindStep W' n ps (node + 1) rest set else some (node, bind, rest, set)

/-- `nextBind`, `provider_os_memory.c:938-1012`, without the assertions; `n` is the number of pages. -/
def nextBind (parts : List Part) (n P : Nat) (b : It) : Option It :=
  if b.node = parts.length then some b
  else if b.left ≠ 0 then
    -- the whole pages that are left over for the current node
    some { node := if b.rest = 0 then b.node + 1 else b.node, rest := b.rest, left := 0,
           set := ((parts[b.node]?).map Part.target).toList, size := P * b.left % W }
  else
    let border := b.rest ≠ 0
    let set := if border then ((parts[b.node]?).map Part.target).toList else []
    let node := if border then b.node + 1 else b.node
    match bindStep (weightSum parts) n (parts.drop node) node b.rest set with
    | none => none
    | some (node', bind, rest, set) =>
      let size := if border ∨ node' ≠ node then P else P * bind % W
      let left := if border ∨ node' ≠ node then bind - 1 else 0
      some { node := if rest = 0 ∧ left = 0 then node' + 1 else node', rest := rest, left := left,
             set := set, size := size }

/-- The loop of `os_alloc` (`provider_os_memory.c:1144-1169`) with `membindNext`
(`provider_os_memory.c:1054-1081`) in split mode. `none`: a partition past the end is read, or the
loop runs `fuel` times. -/
def splitLoop (parts : List Part) (n P : Nat) : Nat → Nat → Nat → It → Option (List (Bind (List Nat)))
  | 0, _, _, _ => none
  | fuel + 1, left, addr, b =>
    let left' := (left + (W - b.size)) % W
    if left' = 0 then some [⟨addr, b.size, b.set⟩]
    else match nextBind parts n P b with
      | none => none
      | some b' => (splitLoop parts n P fuel left' (addr + b.size) b').map (⟨addr, b.size, b.set⟩ :: ·)

/-- The bindings of an allocation of `n` pages in split mode, with `membindFirst`
(`provider_os_memory.c:1014-1052`). `nodes` is the NUMA list of the provider. -/
def splitBinds (nodes : List Nat) (parts : List Part) (n P fuel : Nat) :
    Option (List (Bind (List Nat))) :=
  if nodes.length = 1 then some [⟨0, n * P, nodes⟩]
  else match nextBind parts n P ⟨0, 0, 0, [], 0⟩ with
    | none => none
    | some b => splitLoop parts n P fuel (n * P) 0 b

/-! ## Interleave mode -/

/-- The loop of `os_alloc` with `membindNext` (`provider_os_memory.c:1069-1076`) in interleave mode:
`node` is the index of the current node, `size` its part of the allocation, `part` the part size
rounded up to pages. -/
def ilvLoop (len part : Nat) : Nat → Nat → Nat → Nat → Nat → Option (List (Bind Nat))
  | 0, _, _, _, _ => none
  | fuel + 1, left, addr, node, size =>
    let left' := (left + (W - size)) % W
    if left' = 0 then some [⟨addr, size, node⟩]
    else
      (ilvLoop len part fuel left' (addr + size) ((node + 1) % len)
        (if left' < part then left' else part)).map (⟨addr, size, node⟩ :: ·)

/-- The bindings of an allocation of `size` bytes, a multiple of the page size, with `len` nodes and
the part size `partSize`, `membindFirst` (`provider_os_memory.c:1014-1041`). `sum` is what
`alloc_sum` was before. The node is its index in the NUMA list. -/
def ilvBinds (len partSize P sum size fuel : Nat) : Option (List (Bind Nat)) :=
  if len = 1 then some [⟨0, size, 0⟩]
  else
    let part := roundUp P partSize
    ilvLoop len part fuel size 0 (sum / partSize % len) (if size < part then size else part)

end Verif.Os
