import Verif.Heap.Spec

/-!
# One thread's view

`wp` says that a program keeps its promises whatever is answered, from what the thread may rely on: structures of pools,
pools and arenas of the libraries, entries of the table, the memory in its hands, its thread-local variables.
-/
namespace Verif.Heap
open Function (update)

/-- Things that a thread may rely on. -/
structure K where
  recs : Pool → Option Rec
  tbb : Nat → Option TbbHeap
  arena : Nat → Option Bool
  tab : Nat → Option (Option Pool)

def K.empty : K := ⟨fun _ => none, fun _ => none, fun _ => none, fun _ => none⟩

/-- What everybody who uses a pool may rely on. -/
def K.pool (p : Pool) (m : Made) (r : Rec) : K where
  recs q := if q = p then some r else none
  tbb h := if r.file = .tbb ∧ h = r.heap then some ⟨p, m.granularity, m.keepAll⟩ else none
  arena a := if r.file = .je ∧ a = r.heap then some true else none
  tab a := if r.file = .je ∧ a = r.heap then some (some p) else none

/-- What happened during the call, as far as results depend on it. -/
structure Ev where
  tls : Var → Res
  refused : Bool
  freeErr : Option Res
  nested : Bool

/-- What callbacks do. -/
def Ev.Later (e e' : Ev) : Prop :=
  (e.refused = true → e'.refused = true) ∧
  (e'.nested = false → e.nested = false ∧
    ((e'.refused = e.refused ∧ e'.tls (.alloc .tbb) = e.tls (.alloc .tbb)) ∨
      (e'.refused = true ∧ e'.tls (.alloc .tbb) = resOutOfHostMemory)) ∧
    ((e'.freeErr = e.freeErr ∧ e'.tls .free = e.tls .free) ∨
      (e'.freeErr = some (e'.tls .free) ∧ e'.tls .free ≠ resSuccess)))

structure L where
  k : K
  own : List Reg
  zero : List (Nat × Nat)
  ev : Ev

/-- Only the creation and the destruction of a pool change what others may rely on. -/
def Op.excl : Op → Bool
  | .create _ _ _ | .destroy _ _ => true
  | _ => false

def Op.isDestroy : Op → Bool
  | .destroy _ _ => true
  | _ => false

def Call.excl : Call → Bool
  | .tbbCreate _ _ _ | .tbbDestroy _ | .arenasCreate | .setHooks _ | .arenaDestroy _ => true
  | _ => false

/-- The entries that a call owns afterwards; `v` is what is in the table for a new arena. -/
def K.after (k : K) (op : Op) (c : Call) (r : Resp) (v : Option Pool) : K where
  recs := k.recs
  tbb := c.tbbAfter k.tbb r
  arena := match c with
    | .arenaDestroy a => update k.arena a none
    | _ => c.arenaAfter k.arena r
  tab := match c with
    | .arenasCreate => if r.err = 0 then update k.tab r.val (some v) else k.tab
    | .arenaDestroy a => if op.isDestroy then k.tab else update k.tab a none
    | _ => k.tab

/-- A call goes to the right provider, and so do the callbacks it can cause. -/
def CallOk (pv : Prov) (op : Op) (k : K) (own : List Reg) (c : Call) : Prop :=
  (∀ q, c.prov = some q → q = pv) ∧ (c.excl = true → op.excl = true) ∧
  (c = .arenasCreate → op.isDestroy = false) ∧
  (∀ a, c.usesArena own a → ∃ b, k.arena a = some b) ∧
  ∀ h, Allowed k.tbb k.arena own c h →
    (∀ id, h.id = some id → ∃ r, k.recs id = some r ∧ r.pv = pv) ∧
    (∀ a, h.arena = some a → ∃ p r, k.tab a = some (some p) ∧ k.recs p = some r ∧ r.pv = pv)

def zeroAfter (c : Call) : List (Nat × Nat) :=
  match c with
  | .memset p n => [(p, n)]
  | _ => []

def wp (pv : Prov) (op : Op) (Q : Out → L → Prop) : Prog → L → Prop
  | .ret o, l => Q o l
  | .crash, _ => False
  | .call c k, l => c.Valid l.k.tbb l.k.arena l.own ∧ CallOk pv op l.k l.own c ∧
      ∀ r v ev, l.ev.Later ev → c.AnswerOwn l.own r →
        (∀ x, c.gives r = some x → ∀ y ∈ l.own, c.takes r = some y.ptr ∨ Apart x y) →
        (∀ id g b, c = .tbbCreate id g b → r.err = 0 → l.k.tbb r.val = none) →
        (c = .arenasCreate → r.err = 0 → l.k.arena r.val = none) →
        wp pv op Q (k r) ⟨l.k.after op c r v, ownAfter l.own c r, zeroAfter c, ev⟩
  | .setTls v e k, l => wp pv op Q k { l with ev := { l.ev with tls := update l.ev.tls v e } }
  | .getTls v k, l => wp pv op Q (k (l.ev.tls v)) l
  | .newRec k, l => op.excl = true ∧ wp pv op Q (k none) l ∧ ∀ p g, l.k.recs p = none → p ≠ 0 →
      wp pv op Q (k (some p)) { l with k := { l.k with recs := update l.k.recs p (some g) } }
  | .setRec p r k, l => op.excl = true ∧ (∃ g, l.k.recs p = some g) ∧
      wp pv op Q k { l with k := { l.k with recs := update l.k.recs p (some r) } }
  | .getRec p k, l => ∃ r, l.k.recs p = some r ∧ wp pv op Q (k r) l
  | .freeRec p k, l => op.excl = true ∧ (∃ g, l.k.recs p = some g) ∧
      wp pv op Q k { l with k := { l.k with recs := update l.k.recs p none } }
  | .getTab _ _, _ => False
  | .setTab a v k, l => op.excl = true ∧ (∃ g, l.k.tab a = some g) ∧
      wp pv op Q k { l with k := { l.k with tab := update l.k.tab a (some v) } }

/-- Where memory of a pool comes from. -/
def Rec.src (r : Rec) : Src := match r.file with
  | .tbb => .tbb r.heap
  | .je => .arena r.heap
  | .proxy => .prov r.pv

/-- A pool that was created is complete. -/
def PoolK (k : K) (p : Pool) (m : Made) : Prop :=
  ∃ r, k = K.pool p m r ∧ r.file = m.file ∧ r.pv = m.pv ∧ (r.file = .je → r.heap < 4095)

/-- What a call promises when it returns. `src` is where memory of the pool comes from, `own0` the memory it got. -/
def Post (noWrap : Bool) (f : Frame) (src : Src) (own0 : List Reg) (o : Out) (l : L) : Prop :=
  ErrOk { f with refused := l.ev.refused, freeErr := l.ev.freeErr, nested := l.ev.nested } o l.ev.tls ∧
  FreeOk { f with refused := l.ev.refused, freeErr := l.ev.freeErr, nested := l.ev.nested } o ∧
  -- the memory that the client gets
  (∀ p n a, f.op.asks = some (p, n, a) → o.val ≠ 0 →
    l.own = [⟨o.val, if noWrap then n else wrap n, src⟩] ∧ ((∃ j, a = 2 ^ j ∧ j < 64) → a ∣ o.val)) ∧
  -- the memory that the client keeps
  (f.op.keeps o → l.own = own0) ∧
  (¬ f.op.keeps o → (∀ x, f.op.asks = some x → o.val = 0) → l.own = []) ∧
  -- arrays are zero
  (∀ g p num n, f.op = .calloc g p num n → o.val ≠ 0 → (o.val, if noWrap then num * n else wrap (num * n)) ∈ l.zero) ∧
  -- a new pool is complete, everything else is released
  (∀ g pv params, f.op = .create g pv params → o.res = resSuccess → PoolK l.k o.val ⟨g, pv, params⟩) ∧
  (f.op.excl = true → (∀ g pv params, f.op = .create g pv params → o.res ≠ resSuccess) →
    l.k.recs = K.empty.recs ∧ l.k.tbb = K.empty.tbb ∧ l.k.arena = K.empty.arena) ∧
  (∀ g pv params, f.op = .create g pv params → o.res ≠ resSuccess → l.k.tab = K.empty.tab)

end Verif.Heap
