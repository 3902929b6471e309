import Verif.IpcMem.Model
/-!
# The cache of opened IPC handles, pointer by pointer: what its users know

The users are the tracking providers. They know the limit, which provider each cache is for, and the entries in the order of
their last use; about an entry they know its address, its key, the id of the handle, the number of references and the mapping
recorded in it. Nothing here mentions hash tables, buckets or links.
-/
namespace Verif.IpcMem

structure World where
  max : Option Nat
  prov : Addr → Option Nat
  lru : List Ipc.CEnt

/-- Nothing has been made. -/
def World.empty : World := ⟨none, fun _ => none, []⟩

/-- The state of the abstract model of the cache (`Ipc/Model.lean`, which the theorems C17 are about) for this knowledge. -/
def World.abs (W : World) : Ipc.St := ⟨W.max.getD 0, W.lru.length, W.lru, [], [], []⟩

/-- What the users may call: one cache for each provider, each used with the keys of its provider; references are given back once;
the common data is torn down when there is no cache. -/
def Legal (W : World) : Op → Prop
  | .init _ => W.max = none
  | .tearDown => W.max ≠ none ∧ ∀ c, W.prov c = none
  | .create p => W.max ≠ none ∧ ∀ c, W.prov c ≠ some p
  | .destroy c => W.prov c ≠ none
  | .get c key _ => W.prov c = some key.prov
  | .release e => ∃ x ∈ W.lru, x.id = e ∧ x.ref ≠ 0
  | .map e _ _ => ∃ x ∈ W.lru, x.id = e ∧ x.ref ≠ 0

/-- What the users know after a call. -/
def World.next (W : World) (op : Op) (out : Ret) : World :=
  match op with
  | .init max => { W with max := some max }
  | .tearDown => { W with max := none }
  | .create p => if out.res = .success then { W with prov := fun c => if c = out.addr then some p else W.prov c } else W
  | .destroy c =>
    { W with prov := fun c' => if c' = c then none else W.prov c', lru := W.lru.filter fun e => some e.key.prov ≠ W.prov c }
  | .get _ key hid => { W with lru := (Ipc.get W.abs key hid out.addr (decide (out.res = .success))).1.lru }
  | .release e => { W with lru := W.lru.map fun x => if x.id = e then { x with ref := x.ref - 1 } else x }
  | .map e base size => { W with lru := W.lru.map fun x => if x.id = e then { x with base := base, size := size } else x }

/-- What a call may return. A get returns what the abstract model returns, with the address of an entry that was not in use if a
new one is needed, and calls the eviction callback as the abstract model does. The destruction of a cache calls the eviction callback
once for each entry of its provider. -/
def Answered (W : World) (op : Op) (out : Ret) : Prop :=
  match op with
  | .create _ => out = ⟨.oom, 0, []⟩ ∨ (out.res = .success ∧ out.addr ≠ 0 ∧ W.prov out.addr = none ∧ out.calls = [])
  | .destroy c => out.res = .success ∧ out.addr = 0 ∧
    List.Perm out.calls ((W.lru.filter fun e => some e.key.prov = W.prov c).map fun e => (e.key, e.base, e.size))
  | .get _ key hid =>
    (out.res = .success ∨ out.res = .oom) ∧
    (Ipc.get W.abs key hid out.addr (decide (out.res = .success))).2 =
      (if out.res = .success then .success else .outOfHostMemory, out.addr) ∧
    out.calls.map (fun c => (⟨c.1.prov, c.2.1, c.2.2⟩ : Ipc.Mapping)) =
      (Ipc.get W.abs key hid out.addr (decide (out.res = .success))).1.evict ∧
    (out.res = .success → out.addr ≠ 0) ∧
    (∀ e, out.res = .success → e ∈ W.lru → e.id = out.addr → e.key ≠ key →
      Ipc.candidate W.lru = some e ∧ W.abs.max ≠ 0 ∧ W.abs.max ≤ W.lru.length)
  | _ => out = ⟨.success, 0, []⟩

/-- A call returns, with the result `out` and the state `s'`: it does the same whenever its loops are allowed enough rounds. -/
def Runs (hash : Key → Nat) (s : St) (op : Op) (a : Answers) (out : Ret) (s' : St) : Prop :=
  ∃ n, ∀ fuel, n ≤ fuel → step hash fuel s op a = .ok out s'

/-- A call ends the process. -/
def Exits (hash : Key → Nat) (s : St) (op : Op) (a : Answers) : Prop :=
  ∃ n, ∀ fuel, n ≤ fuel → step hash fuel s op a = .exit

/-- A call has undefined behaviour, however many rounds its loops are allowed. -/
def Undef (hash : Key → Nat) (s : St) (op : Op) (a : Answers) : Prop :=
  ∃ n, ∀ fuel, n ≤ fuel → step hash fuel s op a = .undef

/-- The states and the knowledge after any history of legal calls, with any answers of the base allocator. -/
inductive Reach (hash : Key → Nat) : St → World → Prop where
  | init : Reach hash St.init World.empty
  | step {s s' : St} {W : World} {op : Op} {a : Answers} {out : Ret} : Reach hash s W → Legal W op →
      Runs hash s op a out s' → Reach hash s' (W.next op out)

/-- The base allocator answers the next `k` requests with different addresses that are not in use. -/
def Enough (k : Nat) (s : St) (a : Answers) : Prop :=
  ∃ xs ys, a.host = xs ++ ys ∧ xs.length = k ∧ xs.Nodup ∧ ∀ x ∈ xs, x ≠ 0 ∧ fresh s x = true

end Verif.IpcMem
