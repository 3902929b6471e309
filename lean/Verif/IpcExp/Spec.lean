import Verif.IpcExp.Model

/-!
# What callers of the IPC interface may do, and what they are given

A world is the state of the library together with what the callers know: the handles that were returned for allocations which
nobody has begun to free (`given`, with the pointer they were asked for), and the blocks of the handles that they have not yet
put (`held`).
-/
namespace Verif.IpcExp

/-- `x` lies in the region of `sz` bytes at `b`. -/
def Within (x b sz : Nat) : Prop := b ≤ x ∧ x < b + sz

/-- No byte is common to both regions. -/
def Apart (b sz b' sz' : Nat) : Prop := b + sz ≤ b' ∨ b' + sz' ≤ b

/-- The call a thread is in: none that matters to others, the export of a pointer, or the freeing of a region that has not been
given back to the upstream provider. -/
inductive Call where
  | none
  | get (x : Nat)
  | free (b sz : Nat)
deriving DecidableEq, Repr

def call : Pc → Call
  | .idle => .none
  | .lookup x => .get x
  | .size1 x _ _ => .get x
  | .alloc1 x _ _ _ => .get x
  | .look g => .get g.x
  | .size2 g => .get g.x
  | .alloc2 g _ => .get g.x
  | .upget g _ _ => .get g.x
  | .fill g _ _ _ => .get g.x
  | .ins g _ => .get g.x
  | .put g _ _ => .get g.x
  | .freeV g _ _ => .get g.x
  | .copy g _ => .get g.x
  | .freeD g _ => .get g.x
  | .done x _ => .get x
  | .free0 b sz => .free b sz
  | .free1 b sz => .free b sz
  | .freePut b sz _ => .free b sz
  | .freeVal b sz _ => .free b sz
  | .freeUp b sz => .free b sz
  | .freeAdd b sz _ => .free b sz
  | .freed _ _ _ => .none

structure World where
  s : St
  given : List (Nat × Handle)
  held : List Nat

def World.init : World := ⟨St.init, [], []⟩

/-- What the environment may answer: an upstream handle always has `L` bytes, the global allocator gives a block that is not in
use, and the upstream provider makes a handle that is not out. -/
def EnvOk (L : Nat) (s : St) (t : Nat) (a : Ans) : Prop :=
  ∀ n, a = .yes n →
    match s.pc t with
    | .size1 _ _ _ => n = L
    | .size2 _ => n = L
    | .alloc1 _ _ _ _ => s.obj n = none
    | .alloc2 _ _ => s.obj n = none
    | .upget _ _ _ => s.ups n = none
    | _ => True

/-- One event. The label is the thread that makes it. -/
inductive Next (L : Nat) : Option Nat → World → World → Prop where
  /-- The upstream provider gives a region, which is tracked. It is apart from the regions that the pool has, also from those
  that are being freed. -/
  | alloc (w : World) (b sz : Nat) (hsz : 0 < sz) (hr : ∀ r ∈ w.s.regs, Apart b sz r.1 r.2)
      (hf : ∀ t b' sz', call (w.s.pc t) = .free b' sz' → Apart b sz b' sz') :
      Next L none w { w with s := { w.s with regs := (b, sz) :: w.s.regs } }
  /-- A thread calls `umfGetIPCHandle` for a pointer that is not in a region that is being freed. -/
  | callGet (w : World) (t x : Nat) (hi : w.s.pc t = .idle)
      (hf : ∀ u b sz, call (w.s.pc u) = .free b sz → ¬ Within x b sz) :
      Next L (some t) w { w with s := w.s.to t (.lookup x) }
  /-- `umfGetIPCHandle` returns a handle. -/
  | retHandle (w : World) (t x d : Nat) (h : Handle) (hp : w.s.pc t = .done x (.handle d))
      (ho : w.s.obj d = some (.data (some h))) :
      Next L (some t) w ⟨w.s.to t .idle, (x, h) :: w.given, d :: w.held⟩
  /-- `umfGetIPCHandle` returns an error. -/
  | retError (w : World) (t x : Nat) (r : Res) (hp : w.s.pc t = .done x r) (hr : ∀ d, r ≠ .handle d) :
      Next L (some t) w { w with s := w.s.to t .idle }
  /-- A region is freed. No thread is exporting a pointer into it, or freeing it. -/
  | callFree (w : World) (t b sz : Nat) (hi : w.s.pc t = .idle) (hr : (b, sz) ∈ w.s.regs)
      (hg : ∀ u x, call (w.s.pc u) = .get x → ¬ Within x b sz) (hf : ∀ u sz', call (w.s.pc u) ≠ .free b sz') :
      Next L (some t) w ⟨w.s.to t (.free0 b sz), w.given.filter fun p => decide (p.2.base ≠ b), w.held⟩
  /-- The freeing returns. -/
  | retFree (w : World) (t b sz : Nat) (r : Res) (hp : w.s.pc t = .freed b sz r) :
      Next L (some t) w { w with s := w.s.to t .idle }
  /-- `umfPutIPCHandle` of a handle that was not put. -/
  | put (w : World) (d : Nat) (hd : d ∈ w.held) :
      Next L none w { w with
        s := putHandle w.s d
        held := w.held.erase d }
  /-- A thread makes a step. -/
  | step (w : World) (t : Nat) (a : Ans) (he : EnvOk L w.s t a) : Next L (some t) w { w with s := step w.s t a }

/-- The worlds that any number of threads can reach. -/
inductive Reach (L : Nat) : World → Prop where
  | init : Reach L World.init
  | next (w w' : World) (l : Option Nat) (h : Reach L w) (hn : Next L l w w') : Reach L w'

/-- The thread is in a call that has not come to its end. -/
def Working : Pc → Prop
  | .idle => False
  | .done _ _ => False
  | .freed _ _ _ => False
  | _ => True

/-- From one world to another while thread `t` makes `n` steps in one call, and the others do anything. -/
inductive Run (L t : Nat) : World → Nat → World → Prop where
  | nil (w : World) : Run L t w 0 w
  | own (w w' : World) (n : Nat) (a : Ans) (h : Run L t w n w') (he : EnvOk L w'.s t a) (hw : Working (w'.s.pc t)) :
      Run L t w (n + 1) { w' with s := step w'.s t a }
  | other (w w' w'' : World) (n : Nat) (l : Option Nat) (h : Run L t w n w') (hn : Next L l w' w'') (hl : l ≠ some t) :
      Run L t w n w''

/-- Thread `t` has called `umfGetIPCHandle` for the pointer `x` into a region of the pool, and since then the provider and the
allocator have refused it nothing; the others have done anything. -/
inductive Granted (L t x : Nat) : World → Prop where
  | call (w : World) (b sz : Nat) (h : Reach L w) (hi : w.s.pc t = .idle) (hr : (b, sz) ∈ w.s.regs) (hx : Within x b sz)
      (hf : ∀ u b sz, call (w.s.pc u) = .free b sz → ¬ Within x b sz) : Granted L t x { w with s := w.s.to t (.lookup x) }
  | own (w : World) (n : Nat) (h : Granted L t x w) (he : EnvOk L w.s t (.yes n)) :
      Granted L t x { w with s := step w.s t (.yes n) }
  | other (w w' : World) (l : Option Nat) (h : Granted L t x w) (hn : Next L l w w') (hl : l ≠ some t) : Granted L t x w'

end Verif.IpcExp
