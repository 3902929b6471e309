/-!
# The topology and the attributes of memory targets (`src/topology.c`, `src/memtargets/memtarget_numa.c`, `src/memtarget.c`)

The answers of hwloc are parameters. `none` as the outcome of a function is undefined behaviour: a topology is used or destroyed
that is not there any more.

Simplifications: `utils_init_once` is a single step; a topology does not change once it is loaded.
-/
namespace Verif.Topo

/-- The results, `base.h`. -/
inductive Res where
  | ok
  | invalidArgument
  | notSupported
  | unknown
deriving DecidableEq, Repr

/-- `memattr_type_t`, `memtarget_numa.c:241-244`. -/
inductive Attr where
  | bandwidth
  | latency
deriving DecidableEq, Repr

/-- A NUMA node of hwloc: its physical number, its memory (`none`: `attr` is null), its processors. -/
structure Node where
  os : Nat
  mem : Option Nat
  cpus : List Nat
deriving DecidableEq, Repr

/-- What hwloc knows: the nodes in the order of their logical numbers, and the value of an attribute as seen from some
processors (`inr einval`: an error; `einval`: `errno` is `EINVAL`). -/
structure Hw where
  nodes : List Node
  value : Attr → List Nat → Node → Nat ⊕ Bool

/-- `hwloc_get_obj_by_type` for NUMA nodes: by logical number. -/
def byLogical (hw : Hw) (i : Nat) : Option Node := hw.nodes[i]?

/-- `hwloc_get_numanode_obj_by_os_index`: by physical number. -/
def byOs (hw : Hw) (i : Nat) : Option Node := hw.nodes.find? fun n => n.os == i

/-- `hwloc_bitmap_intersects`. -/
def intersects (a b : List Nat) : Bool := a.any fun c => b.contains c

/-- `memattr_get_worst_value`, `memtarget_numa.c:246-256`. -/
def worst : Attr → Nat
  | .bandwidth => 0
  | .latency => 2 ^ 64 - 1

/-- `umfMemtargetGetCapacity` (`memtarget.c:82-89`) with `numa_get_capacity` (`memtarget_numa.c:216-239`). A target is its physical
number (`none`: a null pointer); `out`: the pointer for the result is not null; `hw`: what `umfGetTopology` returned. The number
in the result is what is written. -/
def capacity (hw : Option Hw) (target : Option Nat) (out : Bool) : Res × Option Nat :=
  match target, out with
  | some id, true =>
    match hw with
    | none => (.notSupported, none)
    | some hw =>
      match byOs hw id with
      | none => (.invalidArgument, none)
      | some n =>
        match n.mem with
        | none => (.invalidArgument, none)
        | some c => (.ok, some c)
  | _, _ => (.invalidArgument, none)

/-- `query_attribute_value`, `memtarget_numa.c:258-316`. -/
def query (hw : Option Hw) (src dst : Nat) (a : Attr) : Res × Option Nat :=
  match hw with
  | none => (.notSupported, none)
  | some hw =>
    match byLogical hw src with
    | none => (.invalidArgument, none)
    | some s =>
      match byLogical hw dst with
      | none => (.invalidArgument, none)
      | some d =>
        if !intersects s.cpus d.cpus then (.ok, some (worst a))
        else match hw.value a s.cpus d with
          | .inr einval => (if einval then .notSupported else .unknown, none)
          | .inl v => (.ok, some v)

/-- `umfMemtargetGetBandwidth` and `umfMemtargetGetLatency` (`memtarget.c:91-113`) with `numa_get_bandwidth` and
`numa_get_latency` (`memtarget_numa.c:318-354`). -/
def attrOf (hw : Option Hw) (src dst : Option Nat) (a : Attr) (out : Bool) : Res × Option Nat :=
  match src, dst, out with
  | some s, some d, true => query hw s d a
  | _, _, _ => (.invalidArgument, none)

/-! ## The topology -/

/-- `topology` and `topology_initialized`, `topology.c:15-16`; the topologies that hwloc has made and not destroyed, and the
number of the next one. -/
structure St where
  ptr : Option Nat
  once : Bool
  live : Nat → Bool
  next : Nat

def St.init : St := ⟨none, false, fun _ => false, 0⟩

/-- A change of one place of a map. -/
def upd (f : Nat → Bool) (k : Nat) (v : Bool) : Nat → Bool := fun x => if x = k then v else f x

/-- `hwloc_topology_destroy`. -/
def hwDestroy (s : St) (t : Nat) : Option St :=
  if s.live t then some { s with live := upd s.live t false } else none

/-- `umfCreateTopology`, `topology.c:29-41`; the answers of `hwloc_topology_init` and `hwloc_topology_load`. -/
def create (s : St) (init load : Bool) : Option St :=
  if !init then some { s with ptr := none }
  else
    let s := { s with ptr := some s.next, live := upd s.live s.next true, next := s.next + 1 }
    if !load then (hwDestroy s (s.next - 1)).map fun s => { s with ptr := none }
    else some s

/-- `umfGetTopology`, `topology.c:43-46`. -/
def get (s : St) (init load : Bool) : Option (St × Option Nat) :=
  if s.once then some (s, s.ptr)
  else (create { s with once := true } init load).map fun s => (s, s.ptr)

/-- A function that needs the topology: it gets it and, if there is one, reads it. -/
def use (s : St) (init load : Bool) : Option (St × Option Nat) :=
  (get s init load).bind fun r =>
    match r.2 with
    | none => some r
    | some t => if r.1.live t then some r else none

/-- `umfDestroyTopology`, `topology.c:18-27`, which `umfTearDown` calls (`libumf.c:70`). -/
def destroy (s : St) : Option St :=
  match s.ptr with
  | none => some s
  | some t => (hwDestroy s t).map fun s => { s with once := false }

end Verif.Topo
