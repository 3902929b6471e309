import Verif.Heap.Model
import Mathlib.Logic.Function.Basic

/-!
# Clients of the pools in many threads, and the libraries below

The libraries are described by what they may answer, and by when they may call back. The assumptions are: memory that they
give is not in use, as large and as aligned as asked; a oneTBB pool calls back with the number given when it was created,
and only while a function of that pool runs (creation and destruction included); jemalloc calls the hooks of an arena only
while a function runs that names the arena or memory of it, and only if the hooks were set; a new arena gets an index that
is not in use, which may be the index of an arena that was destroyed. The assumption about providers is only used for the
proxy pool: memory that they give is not in use, as large and as aligned as asked. Providers may use pools themselves.

Threads run the programs of `Verif.Heap.Model`, one step of one thread at a time, in any order; a hook is one step, it uses
one entry of one shared table. The client obeys the rules of the API: it uses a pool only between its creation and its
destruction, and it frees memory once, with the pool that gave it. Memory changes arbitrarily, except that nobody writes to
memory that a running call has not yet returned or that was given to it.

The addresses of the structures of pools that were destroyed are not used again (a use after free cannot be hidden by this).
-/
namespace Verif.Heap

abbrev Tid := Nat

/-- Where memory came from. -/
inductive Src where
  | tbb (h : Nat) | arena (a : Nat) | prov (pv : Prov) | none
deriving DecidableEq, Repr

/-- A piece of memory: its address, its size, and where it came from. -/
structure Reg where
  ptr : Nat
  size : Nat
  src : Src
deriving DecidableEq, Repr

/-- Two pieces of memory have no byte in common; empty ones count as one byte. -/
def Apart (x y : Reg) : Prop := x.ptr + max x.size 1 ≤ y.ptr ∨ y.ptr + max y.size 1 ≤ x.ptr

/-- Memory that a client has: the pool it is from, what was asked for, what was given. -/
structure Blk where
  pool : Pool
  asked : Nat
  align : Nat
  reg : Reg
deriving DecidableEq, Repr

/-- How a pool was created. -/
structure Made where
  file : File
  pv : Prov
  params : Option Params
deriving DecidableEq, Repr

/-- A pool of oneTBB: the number it calls back with, and its policy. -/
structure TbbHeap where
  id : Nat
  granularity : Nat
  keepAll : Bool
deriving DecidableEq, Repr

/-- A thread in a call: the call, what is left of its program, the memory in the hands of the call, what the client knew of
the memory it passed. Then what happened during the call: the provider refused memory to oneTBB; the last error that the
provider answered to oneTBB giving memory back; the provider used pools itself. -/
structure Frame where
  op : Op
  /-- how the pool was created -/
  made : Option Made
  prog : Prog
  own : List Reg
  saved : Option Blk
  refused : Bool
  freeErr : Option Res
  nested : Bool

structure St where
  recs : Pool → Option Rec
  table : Nat → Option Pool
  tbb : Nat → Option TbbHeap
  /-- the arenas in use, and whether their hooks are set -/
  arena : Nat → Option Bool
  /-- arenas that jemalloc refused to destroy -/
  stuck : Nat → Bool
  /-- the pools that clients have -/
  made : Pool → Option Made
  /-- the memory that clients have -/
  blk : Nat → Option Blk
  mem : Nat → Nat
  th : Tid → Option Frame
  tls : Tid → Var → Res
  /-- addresses of structures used so far -/
  used : Pool → Bool
  /-- the last call of each thread, not counting questions about errors -/
  last : Tid → Option Frame

/-! ## The calls -/

/-- The arena in the flags of a call (`MALLOCX_ARENA_GET` of jemalloc). -/
def flagsArena (flags : Nat) : Nat := flags / 2 ^ 20 - 1

/-- The alignment in the flags of a call (`MALLOCX_ALIGN_GET` of jemalloc); 1 is the default. -/
def flagsAlign (flags : Nat) : Nat := 2 ^ (flags % 64)

/-- The flags ask for no cache (`MALLOCX_TCACHE_GET` of jemalloc), and for nothing else that changes the call. -/
def flagsPlain (flags : Nat) : Prop := flags / 2 ^ 8 % 2 ^ 12 = 1 ∧ flags / 64 % 4 = 0

/-- The memory that an answered call gives. -/
def Call.gives (c : Call) (r : Resp) : Option Reg :=
  match c with
  | .tbbMalloc h n | .tbbRealloc h _ n | .tbbAligned h n _ => if r.val ≠ 0 then some ⟨r.val, n, .tbb h⟩ else none
  | .mallocx n fl | .rallocx _ n fl => if r.val ≠ 0 then some ⟨r.val, n, .arena (flagsArena fl)⟩ else none
  | .provAlloc pv n _ => if r.err = 0 then some ⟨r.val, n, .prov pv⟩ else none
  | _ => none

/-- The memory that an answered call takes. -/
def Call.takes (c : Call) (r : Resp) : Option Nat :=
  match c with
  | .tbbRealloc _ ptr n => if r.val ≠ 0 ∨ n = 0 then some ptr else none
  | .tbbFree _ ptr => if r.val ≠ 0 then some ptr else none
  | .rallocx ptr _ _ => if r.val ≠ 0 then some ptr else none
  | .dallocx ptr _ => some ptr
  | .provFree _ ptr _ => if r.err = 0 then some ptr else none
  | _ => none

/-- The memory in the hands of a call after it called `c`. -/
def ownAfter (own : List Reg) (c : Call) (r : Resp) : List Reg :=
  (c.gives r).toList ++ own.filter fun x => c.takes r ≠ some x.ptr

/-- The alignment that was asked for. -/
def Call.align : Call → Nat
  | .tbbAligned _ _ a => a
  | .mallocx _ fl => flagsAlign fl
  | .provAlloc _ _ a => if a = 0 then 1 else a
  | _ => 1

/-- What the libraries require of a call; anything else is undefined. -/
def Call.Valid (tbb : Nat → Option TbbHeap) (arena : Nat → Option Bool) (own : List Reg) : Call → Prop
  | .tbbDestroy h | .tbbMalloc h _ | .tbbAligned h _ _ => ∃ x, tbb h = some x
  | .tbbRealloc h ptr _ | .tbbMsize h ptr =>
      (∃ x, tbb h = some x) ∧ (ptr ≠ 0 → ∃ y ∈ own, y.ptr = ptr ∧ y.src = .tbb h)
  | .tbbFree h ptr => (∃ x, tbb h = some x) ∧ ∃ y ∈ own, y.ptr = ptr ∧ y.src = .tbb h
  | .setHooks a | .arenaDestroy a => ∃ b, arena a = some b
  | .mallocx _ fl => flagsPlain fl ∧ ∃ b, arena (flagsArena fl) = some b
  | .rallocx ptr n fl => flagsPlain fl ∧ n ≠ 0 ∧ (∃ b, arena (flagsArena fl) = some b) ∧
      ∃ y ∈ own, y.ptr = ptr ∧ ∃ a, y.src = .arena a
  | .dallocx ptr fl => flagsPlain fl ∧ ∃ y ∈ own, y.ptr = ptr ∧ ∃ a, y.src = .arena a
  | .usable ptr => ptr ≠ 0 → ∃ y ∈ own, y.ptr = ptr ∧ ∃ a, y.src = .arena a
  | .provFree pv ptr n => ptr ≠ 0 → ∃ y ∈ own, y.ptr = ptr ∧ y.src = .prov pv ∧ (n = y.size ∨ n = 0)
  | .memset ptr n => ∃ y ∈ own, y.ptr ≤ ptr ∧ ptr + n ≤ y.ptr + y.size
  | _ => True

/-- What a call may answer, as far as it depends on the call and what it has in its hands. -/
def Call.AnswerOwn (own : List Reg) (c : Call) (r : Resp) : Prop :=
  (∀ x, c.gives r = some x → x.ptr ≠ 0 ∧ c.align ∣ x.ptr) ∧
  (∀ h ptr, c = .tbbRealloc h ptr 0 → ptr ≠ 0 → r.val = 0) ∧
  (c = .arenasCreate → r.err = 0 → r.val < 4095) ∧
  (∀ ptr, c = .allocInfo ptr → r.err = 0 → ∀ y ∈ own, y.ptr = ptr → r.val = y.size)

/-- What a call of thread `t` may answer. -/
def Call.Answer (s : St) (t : Tid) (own : List Reg) (c : Call) (r : Resp) : Prop :=
  c.AnswerOwn own r ∧
  -- memory that is given is not in use
  (∀ x, c.gives r = some x → (∀ ptr b, s.blk ptr = some b → Apart x b.reg) ∧
    (∀ y ∈ own, c.takes r = some y.ptr ∨ Apart x y) ∧
    ∀ t' f, t' ≠ t → s.th t' = some f → ∀ y ∈ f.own, Apart x y) ∧
  (∀ id g k, c = .tbbCreate id g k → r.err = 0 → s.tbb r.val = none) ∧
  (c = .arenasCreate → r.err = 0 → s.arena r.val = none)

def Call.tbbAfter (tbb : Nat → Option TbbHeap) (c : Call) (r : Resp) : Nat → Option TbbHeap :=
  match c with
  | .tbbCreate id g k => if r.err = 0 then Function.update tbb r.val (some ⟨id, g, k⟩) else tbb
  | .tbbDestroy h => Function.update tbb h none
  | _ => tbb

def Call.arenaAfter (arena : Nat → Option Bool) (c : Call) (r : Resp) : Nat → Option Bool :=
  match c with
  | .arenasCreate => if r.err = 0 then Function.update arena r.val (some false) else arena
  | .setHooks a => if r.err = 0 then Function.update arena a (some true) else arena
  | .arenaDestroy a => if r.err = 0 then Function.update arena a none else arena
  | _ => arena

def Call.stuckAfter (stuck : Nat → Bool) (c : Call) (r : Resp) : Nat → Bool :=
  match c with
  | .arenaDestroy a => if r.err = 0 then stuck else Function.update stuck a true
  | _ => stuck

def Call.memAfter (mem : Nat → Nat) (c : Call) : Nat → Nat :=
  match c with
  | .memset ptr n => fun i => if ptr ≤ i ∧ i < ptr + n then 0 else mem i
  | _ => mem

/-! ## The hooks -/

/-- The pool of oneTBB that a call uses. -/
def Call.tbbHeap : Call → Option Nat
  | .tbbDestroy h | .tbbMalloc h _ | .tbbRealloc h _ _ | .tbbAligned h _ _ | .tbbFree h _ | .tbbMsize h _ => some h
  | _ => none

/-- The arenas of jemalloc that a call uses. -/
def Call.usesArena (own : List Reg) (c : Call) (a : Nat) : Prop :=
  match c with
  | .arenaDestroy b => a = b
  | .mallocx _ fl => a = flagsArena fl
  | .rallocx ptr _ fl => a = flagsArena fl ∨ ∃ y ∈ own, y.ptr = ptr ∧ y.src = .arena a
  | .dallocx ptr _ => ∃ y ∈ own, y.ptr = ptr ∧ y.src = .arena a
  | _ => False

def Hook.id : Hook → Option Pool
  | .rawAlloc id _ | .rawFree id _ _ => some id
  | _ => none

def Hook.arena : Hook → Option Nat
  | .rawAlloc _ _ | .rawFree _ _ _ => none
  | .alloc a _ _ _ _ | .destroy a _ _ | .dalloc a _ _ | .purgeLazy a _ _ _ | .purgeForced a _ _ _
  | .split a _ _ _ _ | .merge a _ _ _ _ | .commit a | .decommit a => some a

/-- The library may call this hook during this call. -/
def Allowed (tbb : Nat → Option TbbHeap) (arena : Nat → Option Bool) (own : List Reg) (c : Call) (k : Hook) : Prop :=
  (∃ id, k.id = some id ∧
    ((∃ h x, c.tbbHeap = some h ∧ tbb h = some x ∧ x.id = id) ∨ ∃ g b, c = .tbbCreate id g b)) ∨
  (∃ a, k.arena = some a ∧ c.usesArena own a ∧ arena a = some true)

/-- The whole run of a hook: the calls with their answers, what it returns (nothing if it crashes), the thread-local
variables afterwards. -/
inductive Runs (recs : Pool → Option Rec) (table : Nat → Option Pool) :
    Prog → (Var → Res) → List (Call × Resp) → Option Out → (Var → Res) → Prop where
  | ret {o tls} : Runs recs table (.ret o) tls [] (some o) tls
  | crash {tls} : Runs recs table .crash tls [] none tls
  | call {c k tls r l o tls'} : Runs recs table (k r) tls l o tls' →
      Runs recs table (.call c k) tls ((c, r) :: l) o tls'
  | setTls {v e k tls l o tls'} : Runs recs table k (Function.update tls v e) l o tls' →
      Runs recs table (.setTls v e k) tls l o tls'
  | getTls {v k tls l o tls'} : Runs recs table (k (tls v)) tls l o tls' →
      Runs recs table (.getTls v k) tls l o tls'
  | getRec {p r k tls l o tls'} : recs p = some r → Runs recs table (k r) tls l o tls' →
      Runs recs table (.getRec p k) tls l o tls'
  | noRec {p k tls} : recs p = none → Runs recs table (.getRec p k) tls [] none tls
  | getTab {a k tls l o tls'} : Runs recs table (k (table a)) tls l o tls' →
      Runs recs table (.getTab a k) tls l o tls'

/-- The provider refused memory. -/
def refusedIn (l : List (Call × Resp)) : Bool :=
  l.any fun x => match x.1 with
    | .provAlloc _ _ _ => decide (x.2.err ≠ 0)
    | _ => false

/-- The last error answered to giving memory back. -/
def freeErrIn (l : List (Call × Resp)) : Option Res :=
  l.foldl (fun e x => match x.1 with
    | .provFree _ _ _ => if x.2.err ≠ 0 then some x.2.err else e
    | _ => e) none

/-! ## Clients -/

/-- The pool of a call, and its kind. -/
def Op.pool : Op → Option (File × Pool)
  | .create _ _ _ => none
  | .destroy f p | .malloc f p _ | .calloc f p _ _ | .realloc f p _ _ | .aligned f p _ _ | .free f p _
  | .usable f p _ | .lastError f p => some (f, p)

/-- The memory that a client passes. -/
def Op.ptr : Op → Nat
  | .realloc _ _ ptr _ | .free _ _ ptr | .usable _ _ ptr => ptr
  | _ => 0

/-- The pool, the size and the alignment, if a call asks for memory. -/
def Op.asks : Op → Option (Pool × Nat × Nat)
  | .malloc _ p n => some (p, n, 1)
  | .calloc _ p num n => some (p, num * n, 1)
  | .realloc _ p _ n => some (p, n, 1)
  | .aligned _ p n a => some (p, n, a)
  | _ => none

/-- The client still has the memory that it passed, when the call returned. -/
def Op.keeps (op : Op) (o : Out) : Prop :=
  match op with
  | .realloc f _ _ n => o.val = 0 ∧ (n ≠ 0 ∨ f = .proxy)
  | .free _ _ _ => o.res ≠ resSuccess
  | .usable _ _ _ => True
  | _ => False

instance (op : Op) (o : Out) : Decidable (op.keeps o) := by
  unfold Op.keeps; cases op <;> infer_instance

/-- The call asks for the last error. -/
def Op.isLastError : Op → Bool
  | .lastError _ _ => true
  | _ => false

/-- Side conditions under which more can be proved. -/
structure Cfg where
  /-- no pool of jemalloc is created while another one is destroyed -/
  calm : Bool
  /-- arrays are smaller than the address space -/
  noWrap : Bool
  /-- the alignment is not 0 (jemalloc pools) -/
  someAlign : Bool

structure Legal (cfg : Cfg) (s : St) (t : Tid) (op : Op) : Prop where
  pool : ∀ f p, op.pool = some (f, p) → ∃ m, s.made p = some m ∧ m.file = f
  ptr : op.ptr ≠ 0 → ∃ f p b, op.pool = some (f, p) ∧ s.blk op.ptr = some b ∧ b.pool = p
  idle : ∀ f p, op = .destroy f p → ∀ t' fr g, s.th t' = some fr → fr.op.pool ≠ some (g, p)
  noWrap : cfg.noWrap = true → ∀ f p num n, op = .calloc f p num n → num * n < 2 ^ 64
  someAlign : cfg.someAlign = true → ∀ p n, op ≠ .aligned .je p n 0
  /-- sizes and alignments are numbers of 64 bits -/
  word : ∀ x, op.asks = some x → (∀ f p num n, op ≠ .calloc f p num n) → x.2.1 < 2 ^ 64 ∧ x.2.2 < 2 ^ 64

/-- What the client has while the call runs. -/
def blkStart (blk : Nat → Option Blk) (op : Op) : Nat → Option Blk := fun x =>
  match op with
  | .destroy _ p => (blk x).filter fun b => b.pool ≠ p
  | _ => if x = op.ptr then none else blk x

/-- What the client has after the call. -/
def blkEnd (blk : Nat → Option Blk) (f : Frame) (o : Out) : Nat → Option Blk := fun x =>
  match f.op.asks with
  | some (p, n, a) =>
      if o.val ≠ 0 ∧ x = o.val then
        some ⟨p, n, a, (f.own.find? fun y => y.ptr == o.val).getD ⟨o.val, 0, .none⟩⟩
      else if f.op.keeps o ∧ f.op.ptr ≠ 0 ∧ x = f.op.ptr then f.saved
      else blk x
  | none => if f.op.keeps o ∧ f.op.ptr ≠ 0 ∧ x = f.op.ptr then f.saved else blk x

def madeStart (made : Pool → Option Made) (op : Op) : Pool → Option Made :=
  match op with
  | .destroy _ p => Function.update made p none
  | _ => made

def madeEnd (made : Pool → Option Made) (op : Op) (o : Out) : Pool → Option Made :=
  match op with
  | .create f pv params => if o.res = resSuccess then Function.update made o.val (some ⟨f, pv, params⟩) else made
  | _ => made

open Function (update)

/-- The state with the thread in `f`. -/
def St.setTh (s : St) (t : Tid) (f : Frame) : St := { s with th := update s.th t (some f) }

/-- One step of one thread. -/
inductive Step (cfg : Cfg) : St → St → Prop where
  | start {s : St} (t : Tid) (op : Op) : s.th t = none → Legal cfg s t op →
      Step cfg s { s with
        th := update s.th t (some
          { op := op, made := op.pool.bind fun x => s.made x.2, prog := op.prog
            own := if op.ptr = 0 then [] else ((s.blk op.ptr).map (·.reg)).toList
            saved := s.blk op.ptr, refused := false, freeErr := none, nested := false })
        blk := blkStart s.blk op
        made := madeStart s.made op }
  | call {s : St} (t : Tid) (f : Frame) (c : Call) (k : Resp → Prog) (r : Resp) : s.th t = some f →
      f.prog = .call c k → c.Valid s.tbb s.arena f.own → c.Answer s t f.own r →
      (cfg.calm = true → c = .arenasCreate → ∀ t' f' p, s.th t' = some f' → f'.op ≠ .destroy .je p) →
      Step cfg s { s with
        th := update s.th t (some { f with prog := k r, own := ownAfter f.own c r })
        tbb := c.tbbAfter s.tbb r
        arena := c.arenaAfter s.arena r
        stuck := c.stuckAfter s.stuck r
        mem := c.memAfter s.mem }
  | hook {s : St} (t : Tid) (f : Frame) (c : Call) (k : Resp → Prog) (h : Hook) (l : List (Call × Resp)) (o : Out)
      (tls : Var → Res) : s.th t = some f → f.prog = .call c k → Allowed s.tbb s.arena f.own c h →
      Runs s.recs s.table h.prog (s.tls t) l (some o) tls →
      Step cfg s { s with
        tls := update s.tls t tls
        th := update s.th t (some { f with
          refused := f.refused || (h.id.isSome && refusedIn l)
          freeErr := if h.id.isSome then (freeErrIn l).or f.freeErr else f.freeErr }) }
  | nested {s : St} (t : Tid) (f : Frame) (c : Call) (k : Resp → Prog) (tls : Var → Res) : s.th t = some f →
      f.prog = .call c k →
      Step cfg s { s with
        tls := update s.tls t tls
        th := update s.th t (some { f with nested := true }) }
  | write {s : St} (mem : Nat → Nat) :
      (∀ t f, s.th t = some f → ∀ y ∈ f.own, ∀ i, y.ptr ≤ i → i < y.ptr + y.size → mem i = s.mem i) →
      Step cfg s { s with mem := mem }
  | setTls {s : St} (t : Tid) (f : Frame) (v : Var) (e : Res) (k : Prog) : s.th t = some f →
      f.prog = .setTls v e k →
      Step cfg s { s with
        th := update s.th t (some { f with prog := k })
        tls := update s.tls t (update (s.tls t) v e) }
  | getTls {s : St} (t : Tid) (f : Frame) (v : Var) (k : Res → Prog) : s.th t = some f →
      f.prog = .getTls v k →
      Step cfg s { s with th := update s.th t (some { f with prog := k (s.tls t v) }) }
  | noRec {s : St} (t : Tid) (f : Frame) (k : Option Pool → Prog) : s.th t = some f → f.prog = .newRec k →
      Step cfg s { s with th := update s.th t (some { f with prog := k none }) }
  | newRec {s : St} (t : Tid) (f : Frame) (k : Option Pool → Prog) (p : Pool) (g : Rec) : s.th t = some f →
      f.prog = .newRec k → s.used p = false → p ≠ 0 →
      Step cfg s { s with
        th := update s.th t (some { f with prog := k (some p) })
        recs := update s.recs p (some g)
        used := update s.used p true }
  | setRec {s : St} (t : Tid) (f : Frame) (p : Pool) (r : Rec) (k : Prog) : s.th t = some f →
      f.prog = .setRec p r k →
      Step cfg s { s with
        th := update s.th t (some { f with prog := k })
        recs := update s.recs p (some r) }
  | getRec {s : St} (t : Tid) (f : Frame) (p : Pool) (r : Rec) (k : Rec → Prog) : s.th t = some f →
      f.prog = .getRec p k → s.recs p = some r →
      Step cfg s { s with th := update s.th t (some { f with prog := k r }) }
  | freeRec {s : St} (t : Tid) (f : Frame) (p : Pool) (k : Prog) : s.th t = some f → f.prog = .freeRec p k →
      Step cfg s { s with
        th := update s.th t (some { f with prog := k })
        recs := update s.recs p none }
  | setTab {s : St} (t : Tid) (f : Frame) (a : Nat) (v : Option Pool) (k : Prog) : s.th t = some f →
      f.prog = .setTab a v k →
      Step cfg s { s with
        th := update s.th t (some { f with prog := k })
        table := update s.table a v }
  | ret {s : St} (t : Tid) (f : Frame) (o : Out) : s.th t = some f → f.prog = .ret o →
      Step cfg s { s with
        th := update s.th t none
        blk := blkEnd s.blk f o
        made := madeEnd s.made f.op o
        last := if f.op.isLastError then s.last else update s.last t (some f) }

/-- Nothing was made yet, no thread is in a call. -/
def Init (s : St) : Prop :=
  (∀ p, s.recs p = none) ∧ (∀ a, s.table a = none) ∧ (∀ h, s.tbb h = none) ∧ (∀ a, s.arena a = none) ∧
    (∀ a, s.stuck a = false) ∧ (∀ p, s.made p = none) ∧ (∀ x, s.blk x = none) ∧ (∀ t, s.th t = none) ∧
    (∀ t, s.last t = none)

/-- A state after any number of steps. -/
inductive Reach (cfg : Cfg) : St → Prop where
  | init {s : St} : Init s → Reach cfg s
  | step {s s' : St} : Reach cfg s → Step cfg s s' → Reach cfg s'

end Verif.Heap
