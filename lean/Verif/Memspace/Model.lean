/-!
# Model of memspaces (`src/memspace.c`, `src/memtarget.c`, `src/memspaces/`, `src/memtargets/memtarget_numa.c`)

A memory target is an object on the heap, known by its handle (a number). Handles of destroyed
objects are not used again (simplification); using one is undefined behaviour. A memspace is its array
of handles. A result `none` of type `Option (…)` at the outermost level is undefined behaviour.
The outcomes of the host allocations to come are a list in the state; when it is empty, allocations succeed.
-/
namespace Verif.Memspace

/-- The type of a target and its number: `umf_memtarget_t` with `numa_memtarget_t`
(`memtarget_internal.h:21-24`, `memtarget_numa.c:25-27`). -/
structure Target where
  kind : Nat
  id : Nat
deriving DecidableEq, Repr

structure St where
  live : Nat → Option Target
  next : Nat
  mem : List Bool

inductive Res where
  | success | invalid | oom | unknown | userSpecific
  | other (n : Int)
deriving DecidableEq, Repr

/-- `umf_ba_global_alloc` of `n` elements; no memory for 0 bytes (`base_alloc_global.c:165-167`). -/
def alloc (st : St) (n : Nat) : Bool × St :=
  if n = 0 then (false, st)
  else match st.mem with
    | [] => (true, st)
    | b :: r => (b, { st with mem := r })

/-- Makes an object for the target. -/
def St.put (st : St) (t : Target) : St :=
  { st with live := fun x => if x = st.next then some t else st.live x, next := st.next + 1 }

/-- `umfMemtargetCreate` of a NUMA target, `memtarget.c:19-52`, `memtarget_numa.c:29-46`: memory for the handle, memory
for the private data. -/
def create (st : St) (t : Target) : Option Nat × St :=
  let a := alloc st 1
  if a.1 = false then (none, a.2)
  else
    let b := alloc a.2 1
    if b.1 = false then (none, b.2) else (some b.2.next, b.2.put t)

/-- `umfMemtargetClone`, `memtarget.c:60-80`, `numa_clone`, `memtarget_numa.c:203-214`. -/
def clone (st : St) (h : Nat) : Option (Option Nat × St) :=
  match st.live h with
  | none => none
  | some t => some (create st t)

/-- `umfMemtargetDestroy`, `memtarget.c:54-58`. -/
def destroy (st : St) (h : Nat) : Option St :=
  match st.live h with
  | none => none
  | some _ => some { st with live := fun x => if x = h then none else st.live x }

/-- `umfMemtargetCompare`, `memtarget.c:133-161`, with `numa_compare`. -/
def compare (st : St) (a b : Nat) : Option Int :=
  match st.live a, st.live b with
  | some x, some y => some (if x.kind ≠ y.kind then -1 else if x.id ≠ y.id then 1 else 0)
  | _, _ => none

/-- The loop of `umfMemspaceDestroy`, `memspace.c:135-143`, and of the error paths. -/
def destroyAll (st : St) : List Nat → Option St
  | [] => some st
  | h :: t => match destroy st h with
    | none => none
    | some st => destroyAll st t

/-- The loop of `umfMemspaceClone` and `umfMemspaceFilter` that clones targets, `memspace.c:165-184, 293-315`:
the clones, or nothing after the clones made so far have been destroyed. -/
def cloneAll (st : St) : List Nat → List Nat → Option (Option (List Nat) × St)
  | [], done => some (some done, st)
  | h :: t, done => match clone st h with
    | none => none
    | some (some c, st) => cloneAll st t (done ++ [c])
    | some (none, st) => match destroyAll st done.reverse with
      | none => none
      | some st => some (none, st)

/-- `umfMemspaceClone`, `memspace.c:145-184`. -/
def cloneSpace (st : St) (nodes : List Nat) : Option (Option (List Nat) × St) :=
  let a := alloc st 1
  if a.1 = false then some (none, a.2)
  else
    let b := alloc a.2 nodes.length
    if b.1 = false then some (none, b.2) else cloneAll b.2 nodes []

/-- The first loop of `umfMemspaceMemtargetAdd`, `memspace.c:344-361`: whether the target may be added. -/
def addCheck (st : St) (h : Nat) : List Nat → Option Bool
  | [] => some true
  | n :: ns => match compare st n h with
    | none => none
    | some c => if c = 0 then some false else if c < 0 then some false else addCheck st h ns

/-- `umfMemspaceMemtargetAdd`, `memspace.c:338-383`. -/
def add (st : St) (nodes : List Nat) (h : Nat) : Option (Res × List Nat × St) :=
  match addCheck st h nodes with
  | none => none
  | some false => some (.invalid, nodes, st)
  | some true =>
    let a := alloc st (nodes.length + 1)
    if a.1 = false then some (.oom, nodes, a.2)
    else match clone a.2 h with
      | none => none
      | some (none, st) => some (.oom, nodes, st)
      | some (some c, st) => some (.success, nodes ++ [c], st)

/-- The first loop of `umfMemspaceMemtargetRemove`, `memspace.c:391-405`: the nodes before the one found, it, and those
after it. -/
def find (st : St) (h : Nat) : List Nat → Option (Option (List Nat × Nat × List Nat))
  | [] => some none
  | n :: ns => match compare st n h with
    | none => none
    | some c => if c = 0 then some (some ([], n, ns)) else
      match find st h ns with
      | none => none
      | some none => some none
      | some (some (b, x, a)) => some (some (n :: b, x, a))

/-- `umfMemspaceMemtargetRemove`, `memspace.c:385-428`. -/
def remove (st : St) (nodes : List Nat) (h : Nat) : Option (Res × List Nat × St) :=
  match find st h nodes with
  | none => none
  | some none => some (.invalid, nodes, st)
  | some (some (b, x, a)) =>
    let m := alloc st (nodes.length - 1)
    if m.1 = false then some (.oom, nodes, m.2)
    else match destroy m.2 x with
      | none => none
      | some st => some (.success, b ++ a, st)

/-- The loop that calls the filter, `memspace.c:447-456`: its error, or the nodes to remove. -/
def collect (f : Nat → Int) : List Nat → Int ⊕ List Nat
  | [] => .inr []
  | n :: ns =>
    if f n < 0 then .inl (f n)
    else match collect f ns with
      | .inl e => .inl e
      | .inr l => .inr (if f n = 0 then n :: l else l)

/-- The loop that adds removed nodes again, `memspace.c:469-478`. -/
def reAdd (r : Res) (st : St) (nodes : List Nat) : List Nat → Option (Res × List Nat × St)
  | [] => some (r, nodes, st)
  | h :: t => match add st nodes h with
    | none => none
    | some (.success, nodes, st) => reAdd r st nodes t
    | some (_, nodes, st) => some (.unknown, nodes, st)

/-- The loop that removes nodes, `memspace.c:458-464`. -/
def removeAll (st : St) (nodes done : List Nat) : List Nat → Option (Res × List Nat × St)
  | [] => some (.success, nodes, st)
  | h :: t => match remove st nodes h with
    | none => none
    | some (.success, nodes, st) => removeAll st nodes (done ++ [h]) t
    | some (r, nodes, st) => reAdd r st nodes done

/-- `umfMemspaceFilterHelper`, `memspace.c:432-482`. The filter is a function of the handle. -/
def filterHelper (st : St) (nodes : List Nat) (f : Nat → Int) : Option ((Int ⊕ Res) × List Nat × St) :=
  let a := alloc st nodes.length
  if a.1 = false then some (.inr .oom, nodes, a.2)
  else match collect f nodes with
    | .inl e => some (.inl e, nodes, a.2)
    | .inr l => match removeAll a.2 nodes [] l with
      | none => none
      | some (r, nodes, st) => some (.inr r, nodes, st)

/-- `umfMemspaceUserFilter`, `memspace.c:484-498`. -/
def userFilter (st : St) (nodes : List Nat) (f : Nat → Int) : Option (Res × List Nat × St) :=
  match filterHelper st nodes f with
  | none => none
  | some (.inl _, r) => some (.userSpecific, r)
  | some (.inr c, r) => some (c, r)

/-- `filterById`, `memspace.c:512-531`. -/
def byId (st : St) (ids : List Nat) (h : Nat) : Int :=
  match st.live h with
  | some t => if t.id ∈ ids then 1 else 0
  | none => 0

/-- `umfMemspaceFilterById`, `memspace.c:550-560`. -/
def filterById (st : St) (nodes ids : List Nat) : Option (Res × List Nat × St) :=
  if ids = [] then some (.invalid, nodes, st)
  else match filterHelper st nodes (byId st ids) with
    | none => none
    | some (.inl e, r) => some (.other (-e), r)
    | some (.inr c, r) => some (c, r)

/-- `filterByCapacity`, `memspace.c:533-548`. `cap`: the capacity of a target, or the (positive) error code. -/
def byCapacity (st : St) (cap : Target → Nat ⊕ Nat) (c : Nat) (h : Nat) : Int :=
  match st.live h with
  | some t => match cap t with
    | .inl x => if c ≤ x then 1 else 0
    | .inr e => - (e : Int)
  | none => 0

/-- `umfMemspaceFilterByCapacity`, `memspace.c:562-578`. -/
def filterByCapacity (st : St) (nodes : List Nat) (cap : Target → Nat ⊕ Nat) (c : Int) :
    Option (Res × List Nat × St) :=
  if c < 0 then some (.invalid, nodes, st)
  else match filterHelper st nodes (byCapacity st cap c.toNat) with
    | none => none
    | some (.inl e, r) => some (.other (-e), r)
    | some (.inr c, r) => some (c, r)

/-- The loop of `umfMemspaceSortDesc` that reads the property, `memspace.c:216-225`. -/
def properties (getP : Nat → Option Nat) : List Nat → Option (List (Nat × Nat))
  | [] => some []
  | n :: ns => match getP n with
    | none => none
    | some p => match properties getP ns with
      | none => none
      | some l => some ((p, n) :: l)

/-- `umfMemspaceSortDesc`, `memspace.c:203-238`. `qsort` is a parameter. -/
def sortDesc (qsort : List (Nat × Nat) → List (Nat × Nat)) (st : St) (nodes : List Nat)
    (getP : Nat → Option Nat) : Res × List Nat × St :=
  let a := alloc st nodes.length
  if a.1 = false then (.oom, nodes, a.2)
  else match properties getP nodes with
    | none => (.unknown, nodes, a.2)
    | some l => (.success, (qsort l).map (·.2), a.2)

/-- The loop of `umfMemspaceFilter`, `memspace.c:258-282`: the best targets without repetition. -/
def bestLoop (getTarget : Nat → Option Nat) : List Nat → List Nat → Option (List Nat)
  | [], best => some best
  | n :: ns, best => match getTarget n with
    | none => none
    | some t => bestLoop getTarget ns (if t ∈ best then best else best ++ [t])

/-- `umfMemspaceFilter`, `memspace.c:240-320`. -/
def bestFilter (st : St) (nodes : List Nat) (getTarget : Nat → Option Nat) :
    Option (Option (List Nat) × St) :=
  let a := alloc st nodes.length
  if a.1 = false then some (none, a.2)
  else match bestLoop getTarget nodes [] with
    | none => some (none, a.2)
    | some best =>
      let b := alloc a.2 1
      if b.1 = false then some (none, b.2)
      else
        let c := alloc b.2 best.length
        if c.1 = false then some (none, c.2) else cloneAll c.2 best []

/-- The loop of `getBestBandwidthTarget`, `memspaces/memspace_highest_bandwidth.c:36-59`: `bestNode` and
`bestBandwidth`. `bw`: the bandwidth from the initiator, `none` for an error. -/
def bandwidthLoop (bw : Nat → Option Nat) : List Nat → Nat → Nat → Option Nat
  | [], bestNode, _ => some bestNode
  | n :: ns, bestNode, best => match bw n with
    | none => none
    | some b => if best < b then bandwidthLoop bw ns n b else bandwidthLoop bw ns bestNode best

/-- `getBestBandwidthTarget`. There is at least one node. -/
def bestBandwidth (bw : Nat → Nat → Option Nat) (nodes : List Nat) (initiator : Nat) : Option Nat :=
  match nodes with
  | [] => none
  | n :: ns => bandwidthLoop (bw initiator) (n :: ns) n 0

/-- The loop of `getBestLatencyTarget`, `memspaces/memspace_lowest_latency.c:36-59`. -/
def latencyLoop (lat : Nat → Option Nat) : List Nat → Nat → Nat → Option Nat
  | [], bestNode, _ => some bestNode
  | n :: ns, bestNode, best => match lat n with
    | none => none
    | some b => if b < best then latencyLoop lat ns n b else latencyLoop lat ns bestNode best

def bestLatency (lat : Nat → Nat → Option Nat) (nodes : List Nat) (initiator : Nat) : Option Nat :=
  match nodes with
  | [] => none
  | n :: ns => latencyLoop (lat initiator) (n :: ns) n (2 ^ 64 - 1)

/-- The loop of `umfMemspaceCreateFromNumaArray` that makes the targets, `memspaces/memspace_numa.c:54-62`: the nodes made,
and whether all were made. -/
def numaLoop (st : St) : List Nat → List Nat → Bool × List Nat × St
  | [], done => (true, done, st)
  | i :: is, done =>
    let c := create st ⟨0, i⟩
    match c.1 with
    | none => (false, done, c.2)
    | some h => numaLoop c.2 is (done ++ [h])

/-- `umfMemspaceCreateFromNumaArray`, `memspaces/memspace_numa.c:34-77`. The error path frees the array and then
reads the handles from it: undefined behaviour if there is one. -/
def fromNuma (st : St) (ids : List Nat) : Option (Option (List Nat) × St) :=
  if ids = [] then some (none, st)
  else
    let a := alloc st 1
    if a.1 = false then some (none, a.2)
    else
      let b := alloc a.2 ids.length
      if b.1 = false then some (none, b.2)
      else
        let r := numaLoop b.2 ids []
        if r.1 then some (some r.2.1, r.2.2)
        else if r.2.1 = [] then some (none, r.2.2) else none

/-- `umfMemspaceHighestCapacityCreate`, `memspaces/memspace_highest_capacity.c:33-60`: the copy is not destroyed if
sorting fails. -/
def highestCapacity (qsort : List (Nat × Nat) → List (Nat × Nat)) (cap : St → Nat → Option Nat) (st : St)
    (hostAll : List Nat) : Option (Option (List Nat) × St) :=
  match cloneSpace st hostAll with
  | none => none
  | some (none, st) => some (none, st)
  | some (some d, st) =>
    let r := sortDesc qsort st d (cap st)
    if r.1 = .success then some (some r.2.1, r.2.2) else some (none, r.2.2)

/-- A predefined memspace: its once flag, and the memspace (`memspaces/memspace_highest_capacity.c:62-64` and the other
files alike). -/
structure Single where
  ran : Bool
  val : Option Nat
deriving DecidableEq, Repr

def Single.init : Single := ⟨false, none⟩

/-- `umfMemspaceHighestCapacityGet` and the other `Get` functions (`memspace_highest_capacity.c:78-100`,
`memspace_highest_bandwidth.c:102-120`, `memspace_lowest_latency.c:97-118`, `memspace_host_all.c:84-101`): the first
call creates the memspace; `made` is what creating it would give. -/
def Single.get (s : Single) (made : Option Nat) : Single :=
  if s.ran then s else ⟨true, made⟩

/-- `umfMemspaceHighestCapacityDestroy`, `umfMemspaceHighestBandwidthDestroy`, `umfMemspaceHostAllDestroy`
(`memspace_highest_capacity.c:66-76`, `memspace_highest_bandwidth.c:90-100`, `memspace_host_all.c:72-82`), called by
`umfTearDown`. -/
def Single.destroy (s : Single) : Single :=
  match s.val with
  | some _ => ⟨false, none⟩
  | none => s

/-- `umfMemspaceLowestLatencyDestroy`, `memspace_lowest_latency.c:90-95`: does not reset the flag. -/
def Single.destroyLatency (s : Single) : Single :=
  match s.val with
  | some _ => ⟨s.ran, none⟩
  | none => s

end Verif.Memspace
