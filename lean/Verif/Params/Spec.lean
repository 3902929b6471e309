import Verif.Params.Model
/-!
# Specification of the parameter objects

What a user knows: the values set in every object that exists. `view` is what a provider or pool made from an object
reads in the memory of the model.
-/
namespace Verif.Params

/-- Values in the parameters of the OS provider. A partition is two numbers, weight and target. -/
structure OsVal where
  protection : Nat
  visibility : Nat
  shmName : Option (List Nat)
  numaList : List Nat
  numaMode : Nat
  partSize : Nat
  partitions : List Nat
deriving DecidableEq, Repr

structure FileVal where
  path : Option (List Nat)
  protection : Nat
  visibility : Nat
deriving DecidableEq, Repr

structure DaxVal where
  path : Option (List Nat)
  size : Nat
  protection : Nat
deriving DecidableEq, Repr

structure ZeVal where
  context : Nat
  device : Nat
  memoryType : Nat
  resident : List Nat
  freePolicy : Nat
  ordinal : Nat
deriving DecidableEq, Repr

/-- `name = none`: the default name. -/
structure DjVal where
  slabMinSize : Nat
  maxPoolableSize : Nat
  capacity : Nat
  minBucketSize : Nat
  trace : Int
  limits : Addr
  name : Option (List Nat)
deriving DecidableEq, Repr

/-- The values in one object. -/
inductive Val where
  | os (v : OsVal)
  | file (v : FileVal)
  | dax (v : DaxVal)
  | fixed (ptr size : Nat)
  | ze (v : ZeVal)
  | cu (v : CuObj)
  | scal (granularity : Nat) (keep : Bool)
  | dj (v : DjVal)
deriving DecidableEq, Repr

/-- What a provider or pool made from the object `h` reads; `none`: there is no object, or reading it is undefined. -/
def view (s : St) (h : Addr) : Option Val := match s.heap h with
  | some (.os o) =>
    match readStr s o.shmName, readArr s o.numaList o.numaLen, readArr s o.partitions (o.partitionsLen * 2) with
    | some shm, some numa, some parts =>
      some (.os ⟨o.protection, o.visibility, shm, numa, o.numaMode, o.partSize, parts⟩)
    | _, _, _ => none
  | some (.file o) => match readStr s o.path with
    | some p => some (.file ⟨p, o.protection, o.visibility⟩)
    | none => none
  | some (.dax o) => match readStr s o.path with
    | some p => some (.dax ⟨p, o.size, o.protection⟩)
    | none => none
  | some (.fixed p n) => some (.fixed p n)
  | some (.ze o) => match readUser s o.resident o.residentCount with
    | some r => some (.ze ⟨o.context, o.device, o.memoryType, r, o.freePolicy, o.ordinal⟩)
    | none => none
  | some (.cu o) => some (.cu o)
  | some (.scal g k) => some (.scal g k)
  | some (.dj o) =>
    if 0 ∈ o.name then
      some (.dj ⟨o.slabMinSize, o.maxPoolableSize, o.capacity, o.minBucketSize, o.trace, o.limits,
        some (o.name.takeWhile (· ≠ 0))⟩)
    else none
  | _ => none

/-- The values read are the values set. Nothing is said of a name that was not set. -/
def Agrees (got want : Val) : Prop := match got, want with
  | .dj a, .dj b => { a with name := b.name } = b ∧ (b.name = none ∨ a.name = b.name)
  | a, b => a = b

/-- The objects of a user with their values; the user's own memory; the arrays the user has handed to
`umfLevelZeroMemoryProviderParamsSetResidentDevices`. -/
structure Spec where
  vals : Addr → Option Val
  user : Addr → Option (List Nat)
  lent : List Addr

def Spec.init : Spec := ⟨fun _ => none, fun _ => none, []⟩

/-- What a call should do: refuse its arguments, report that a library is missing, change an object, make an object,
remove an object, or nothing. -/
inductive Verdict where
  | refuse
  | missing
  | change (h : Addr) (v : Val)
  | make (v : Val)
  | remove (h : Addr)
  | nothing

/-- The string at `p`. -/
def Spec.text (A : Spec) (p : Addr) : List Nat := ((A.user p).getD []).takeWhile (· ≠ 0)

/-- The first `n` elements of the array at `p`. -/
def Spec.elems (A : Spec) (p : Addr) (n : Nat) : List Nat := ((A.user p).getD []).take n

def Spec.onOs (A : Spec) (h : Addr) (f : OsVal → OsVal) : Verdict := match A.vals h with
  | some (.os v) => .change h (.os (f v))
  | _ => .refuse
def Spec.onFile (A : Spec) (h : Addr) (f : FileVal → FileVal) : Verdict := match A.vals h with
  | some (.file v) => .change h (.file (f v))
  | _ => .refuse
def Spec.onDax (A : Spec) (h : Addr) (f : DaxVal → DaxVal) : Verdict := match A.vals h with
  | some (.dax v) => .change h (.dax (f v))
  | _ => .refuse
def Spec.onZe (A : Spec) (h : Addr) (f : ZeVal → ZeVal) : Verdict := match A.vals h with
  | some (.ze v) => .change h (.ze (f v))
  | _ => .refuse
def Spec.onCu (A : Spec) (h : Addr) (f : CuObj → CuObj) : Verdict := match A.vals h with
  | some (.cu v) => .change h (.cu (f v))
  | _ => .refuse
def Spec.onDj (A : Spec) (h : Addr) (f : DjVal → DjVal) : Verdict := match A.vals h with
  | some (.dj v) => .change h (.dj (f v))
  | _ => .refuse

open Classical in
/-- What a call should do. The defaults are: private mapping (1), read and write (2 + 4), no name, no list, default mode (0);
2 MB; buckets of 8 bytes. The trace name has at most 63 letters. -/
noncomputable def want (A : Spec) : Op → Verdict
  | .osCreate out => if out then .make (.os ⟨2 + 4, 1, none, [], 0, 0, []⟩) else .refuse
  | .osDestroy h | .fileDestroy h | .daxDestroy h | .fixedDestroy h | .zeDestroy h | .cuDestroy h | .djDestroy h =>
    if h = 0 then .nothing else .remove h
  | .scalDestroy h => if h = 0 then .refuse else .remove h
  | .osSetProtection h v => A.onOs h fun o => { o with protection := v }
  | .osSetVisibility h v => A.onOs h fun o => { o with visibility := v }
  | .osSetShmName h p => A.onOs h fun o => { o with shmName := if p = 0 then none else some (A.text p) }
  | .osSetNumaList h p n =>
    if n ≠ 0 ∧ p = 0 then .refuse else A.onOs h fun o => { o with numaList := A.elems p n }
  | .osSetNumaMode h v => A.onOs h fun o => { o with numaMode := v }
  | .osSetPartSize h v => A.onOs h fun o => { o with partSize := v }
  | .osSetPartitions h p n =>
    if n ≠ 0 ∧ p = 0 then .refuse else A.onOs h fun o => { o with partitions := A.elems p (2 * n) }
  | .fileCreate out p =>
    if out ∧ p ≠ 0 ∧ A.text p ≠ [] then .make (.file ⟨some (A.text p), 2 + 4, 1⟩) else .refuse
  | .fileSetPath h p =>
    if p ≠ 0 ∧ A.text p ≠ [] then A.onFile h fun o => { o with path := some (A.text p) } else .refuse
  | .fileSetProtection h v => A.onFile h fun o => { o with protection := v }
  | .fileSetVisibility h v => A.onFile h fun o => { o with visibility := v }
  | .daxCreate out p n =>
    if out ∧ p ≠ 0 ∧ A.text p ≠ [] then .make (.dax ⟨some (A.text p), n, 2 + 4⟩) else .refuse
  | .daxSet h p n =>
    if p ≠ 0 ∧ A.text p ≠ [] then A.onDax h fun o => { o with path := some (A.text p), size := n } else .refuse
  | .daxSetProtection h v =>
    if 0 < v.toNat ∧ v.toNat < 16 then A.onDax h fun o => { o with protection := v.toNat } else .refuse
  | .fixedCreate out p n => if out ∧ p ≠ 0 ∧ n ≠ 0 then .make (.fixed p n) else .refuse
  | .fixedSet h p n => if h ≠ 0 ∧ p ≠ 0 ∧ n ≠ 0 then .change h (.fixed p n) else .refuse
  | .zeCreate out => if out then .make (.ze ⟨0, 0, 0, [], 0, 0⟩) else .refuse
  | .zeSetContext h v => if v = 0 then .refuse else A.onZe h fun o => { o with context := v }
  | .zeSetDevice h v => A.onZe h fun o => { o with device := v }
  | .zeSetMemoryType h v => A.onZe h fun o => { o with memoryType := v }
  | .zeSetOrdinal h v => A.onZe h fun o => { o with ordinal := v }
  | .zeSetResident h p n =>
    if n ≠ 0 ∧ p = 0 then .refuse else A.onZe h fun o => { o with resident := A.elems p n }
  | .zeSetPolicy h v => A.onZe h fun o => { o with freePolicy := v }
  | .cuCreate out loaded ctx dev =>
    if out = false then .refuse
    else if loaded = false then .missing
    else .make (.cu ⟨ctx.getD 0, dev.getD (-1), 0, 0⟩)
  | .cuSetContext h v => A.onCu h fun o => { o with context := v }
  | .cuSetDevice h v => A.onCu h fun o => { o with device := v }
  | .cuSetMemoryType h v => A.onCu h fun o => { o with memoryType := v }
  | .cuSetFlags h v => A.onCu h fun o => { o with flags := v }
  | .scalCreate out => if out then .make (.scal 2097152 false) else .refuse
  | .scalSetGranularity h v => match A.vals h with
    | some (.scal _ k) => if v = 0 then .refuse else .change h (.scal v k)
    | _ => .refuse
  | .scalSetKeep h v => match A.vals h with
    | some (.scal g _) => .change h (.scal g v)
    | _ => .refuse
  | .djCreate out => if out then .make (.dj ⟨0, 0, 0, 8, 0, 0, none⟩) else .refuse
  | .djSetSlabMinSize h v => A.onDj h fun o => { o with slabMinSize := v }
  | .djSetMaxPoolableSize h v => A.onDj h fun o => { o with maxPoolableSize := v }
  | .djSetCapacity h v => A.onDj h fun o => { o with capacity := v }
  | .djSetMinBucketSize h v =>
    if ∃ k, v = 2 ^ k then A.onDj h fun o => { o with minBucketSize := v } else .refuse
  | .djSetTrace h v => A.onDj h fun o => { o with trace := v }
  | .djSetLimits h v => A.onDj h fun o => { o with limits := v }
  | .djSetName h p => A.onDj h fun o => { o with name := some ((A.text p).take 63) }
  | .write _ _ | .giveBack _ => .nothing

/-- The calls that make an object. -/
def Op.creates : Op → Bool
  | .osCreate _ | .fileCreate _ _ | .daxCreate _ _ _ | .fixedCreate _ _ _ | .zeCreate _ | .cuCreate _ _ _ _
  | .scalCreate _ | .djCreate _ => true
  | _ => false

/-- The calls that copy an array or a string of the user. -/
def Op.copies : Op → Bool
  | .osSetShmName _ _ | .osSetNumaList _ _ _ | .osSetPartitions _ _ _ | .fileSetPath _ _ | .daxSet _ _ _ => true
  | _ => false

/-- The outcome belongs to what the call should do. A call that needs memory may report that there is none. -/
def Answered (A : Spec) (op : Op) (out : Out) : Prop :=
  out = (.oom, 0) ∧ (op.creates = true ∨ op.copies = true) ∨
  match want A op with
  | .refuse => out = (.invalidArgument, 0)
  | .missing => out = (.dependency, 0)
  | .change _ _ | .remove _ | .nothing => out = (.success, 0)
  | .make _ => out.1 = .success ∧ out.2 ≠ 0 ∧ A.vals out.2 = none

/-- The user's knowledge after a call: a call that does not succeed changes nothing. -/
noncomputable def Spec.next (A : Spec) (op : Op) (out : Out) : Spec :=
  if out.1 = .success then
    { vals := match want A op with
        | .change h v => fun k => if k = h then some v else A.vals k
        | .make v => fun k => if k = out.2 then some v else A.vals k
        | .remove h => fun k => if k = h then none else A.vals k
        | _ => A.vals
      user := match op with
        | .write a l => fun k => if k = a then some l else A.user k
        | .giveBack a => fun k => if k = a then none else A.user k
        | _ => A.user
      lent := match op with
        | .zeSetResident _ p n => if n = 0 then A.lent else p :: A.lent
        | _ => A.lent }
  else A

/-- `p` is a string of the user. -/
def Spec.IsText (A : Spec) (p : Addr) : Prop := ∃ l, A.user p = some l ∧ 0 ∈ l

/-- `p` is an array of the user with `n` elements or more. -/
def Spec.IsArr (A : Spec) (p : Addr) (n : Nat) : Prop := ∃ l, A.user p = some l ∧ n ≤ l.length

/-- `h` is `NULL` or a handle of an object with the given values. -/
def Spec.Handle (A : Spec) (h : Addr) (kind : Val → Prop) : Prop := h = 0 ∨ ∃ v, A.vals h = some v ∧ kind v

def IsOs (v : Val) : Prop := ∃ o, v = .os o
def IsFile (v : Val) : Prop := ∃ o, v = .file o
def IsDax (v : Val) : Prop := ∃ o, v = .dax o
def IsFixed (v : Val) : Prop := ∃ p n, v = .fixed p n
def IsZe (v : Val) : Prop := ∃ o, v = .ze o
def IsCu (v : Val) : Prop := ∃ o, v = .cu o
def IsScal (v : Val) : Prop := ∃ g k, v = .scal g k
def IsDj (v : Val) : Prop := ∃ o, v = .dj o

/-- The user keeps to the rules: a handle is `NULL` or of an object of the right kind that exists, a pointer is `NULL` or
points to a string or to an array that is long enough. -/
def Legal (A : Spec) : Op → Prop
  | .osCreate _ | .fixedCreate _ _ _ | .zeCreate _ | .cuCreate _ _ _ _ | .scalCreate _ | .djCreate _ => True
  | .osDestroy h | .osSetProtection h _ | .osSetVisibility h _ | .osSetNumaMode h _ | .osSetPartSize h _ =>
    A.Handle h IsOs
  | .osSetShmName h p => A.Handle h IsOs ∧ (p = 0 ∨ A.IsText p)
  | .osSetNumaList h p n => A.Handle h IsOs ∧ (n = 0 ∨ p = 0 ∨ A.IsArr p n)
  | .osSetPartitions h p n => A.Handle h IsOs ∧ (n = 0 ∨ p = 0 ∨ A.IsArr p (2 * n))
  | .fileCreate _ p | .daxCreate _ p _ => p = 0 ∨ A.IsText p
  | .fileDestroy h | .fileSetProtection h _ | .fileSetVisibility h _ => A.Handle h IsFile
  | .fileSetPath h p => A.Handle h IsFile ∧ (p = 0 ∨ A.IsText p)
  | .daxDestroy h | .daxSetProtection h _ => A.Handle h IsDax
  | .daxSet h p _ => A.Handle h IsDax ∧ (p = 0 ∨ A.IsText p)
  | .fixedDestroy h | .fixedSet h _ _ => A.Handle h IsFixed
  | .zeDestroy h | .zeSetContext h _ | .zeSetDevice h _ | .zeSetMemoryType h _ | .zeSetOrdinal h _ | .zeSetPolicy h _ =>
    A.Handle h IsZe
  | .zeSetResident h p n => A.Handle h IsZe ∧ (n = 0 ∨ p = 0 ∨ A.IsArr p n)
  | .cuDestroy h | .cuSetContext h _ | .cuSetDevice h _ | .cuSetMemoryType h _ | .cuSetFlags h _ => A.Handle h IsCu
  | .scalDestroy h | .scalSetGranularity h _ | .scalSetKeep h _ => A.Handle h IsScal
  | .djDestroy h | .djSetSlabMinSize h _ | .djSetMaxPoolableSize h _ | .djSetCapacity h _ | .djSetMinBucketSize h _
  | .djSetTrace h _ | .djSetLimits h _ => A.Handle h IsDj
  | .djSetName h p => A.Handle h IsDj ∧ A.IsText p
  | .write a _ | .giveBack a => a ≠ 0

/-- The exceptions: an array of resident devices is not changed or given back after it was handed over, and the CUDA library
is there when CUDA parameters are made. -/
def Careful (A : Spec) : Op → Prop
  | .write a _ | .giveBack a => a ∉ A.lent
  | .cuCreate _ loaded _ _ => loaded = true
  | _ => True

/-- Histories of legal calls that satisfy `P`, with any answers of the base allocator. -/
inductive Reach (P : Spec → Op → Prop) : St → Spec → Prop where
  | init : Reach P Params.init Spec.init
  | step {s A op ans out s'} : Reach P s A → Legal A op → P A op → Params.step s op ans = some (out, s') →
      Reach P s' (A.next op out)

/-- The object exists for the program exactly if it exists for the user, and has the values that were set. -/
def Matches (got want : Option Val) : Prop := match got, want with
  | some v, some w => Agrees v w
  | none, none => True
  | _, _ => False

/-- The base allocator answers the first two requests with memory. -/
def Plenty (s : St) (ans : List Addr) : Prop :=
  ∃ a b rest, ans = a :: b :: rest ∧ a ≠ 0 ∧ b ≠ 0 ∧ a ≠ b ∧ s.heap a = none ∧ s.heap b = none

end Verif.Params
