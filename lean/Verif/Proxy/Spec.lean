import Verif.Proxy.Model
import Verif.BaseAlloc.LinearProps
/-!
# Specification of the malloc replacement (C43, C53)
-/
namespace Verif.Proxy
open BaseAlloc Mem
open Linear (CfgOk OsOk pools region)

/-- A block of memory the program holds: who gave it, the pointer, and the requested size. -/
structure Blk where
  org : Origin
  ptr : Nat
  size : Nat
deriving DecidableEq, Repr

/-- The blocks of the program without the one at `p`. -/
def drop (live : List Blk) (p : Nat) : List Blk := live.eraseP (·.ptr = p)

/-- The blocks after a request was sent to an allocator and answered with `v`. -/
def done (live : List Blk) : List Ev → Nat → List Blk
  | .sent _ o (.alloc n) :: _, v => if v = 0 then live else ⟨o, v, n⟩ :: live
  | .sent _ o (.calloc k n) :: _, v => if v = 0 then live else ⟨o, v, k * n⟩ :: live
  | .sent _ o (.aligned _ n) :: _, v => if v = 0 then live else ⟨o, v, n⟩ :: live
  | .sent _ _ (.free p) :: _, _ => drop live p
  | .sent _ o (.realloc p n) :: _, v => if v = 0 then live else ⟨o, v, n⟩ :: drop live p
  | _, _ => live

/-- While the pool frees or reallocates a block, the program does not hold it. -/
def entered (live : List Blk) : List Ev → List Blk × Option Blk
  | .sent _ _ (.free p) :: _ => (drop live p, none)
  | .sent _ _ (.realloc p _) :: _ => (drop live p, live.find? (·.ptr = p))
  | _ => (live, none)

/-- The blocks after the pool answered a request with `v`. `b`: the block that is reallocated. -/
def returned (live : List Blk) (b : Option Blk) (v : Nat) : Req → List Blk
  | .alloc n => if v = 0 then live else ⟨.pool, v, n⟩ :: live
  | .calloc k n => if v = 0 then live else ⟨.pool, v, k * n⟩ :: live
  | .aligned _ n => if v = 0 then live else ⟨.pool, v, n⟩ :: live
  | .free _ => live
  | .realloc _ n => if v = 0 then b.toList ++ live else ⟨.pool, v, n⟩ :: live
  | .usable _ => live

/-- The memory of the linear allocator. -/
def leakMem (s : State) : List Region :=
  match s.leak with
  | none => []
  | some p => (pools p).map region

/-- `x` is in one of the ranges. -/
def InAny (rs : List Region) (x : Nat) : Prop := ∃ r ∈ rs, Has r x

/-- `regs` can be the memory the pool got from its provider: it contains the blocks of the pool, and neither blocks of the
system nor memory of the linear allocator. -/
structure MemOk (s : State) (live : List Blk) (regs : List Region) : Prop where
  mine : ∀ b ∈ live, b.org = .pool → InAny regs b.ptr
  sys : ∀ b ∈ live, b.org = .system → ¬ InAny regs b.ptr
  apart : ∀ g ∈ leakMem s, ∀ r ∈ regs, Disjoint g r

/-- A range the OS may give to the linear allocator: not in use by anybody. -/
structure Fresh (s : State) (live : List Blk) (regs : List Region) (r : Region) : Prop where
  ok : OsOk (leakMem s) r
  regs : ∀ g ∈ regs, Disjoint r g
  sys : ∀ b ∈ live, b.org = .system → ¬ Has r b.ptr

/-- The environment answers in order: the OS gives unused memory, and enough for the first 4 MiB; the system gives memory apart from
the other allocators; `umfPoolByPtr` finds exactly the memory of the pool (property C14 of the tracker). -/
structure AnsOk (cfg : Linear.Cfg) (s : State) (live : List Blk) (regs : List Region) (a : Ans) : Prop where
  create : s.once = false → ∃ base p, a.create = some base ∧ Linear.create cfg (4 * 1024 * 1024) (some base) true = some p ∧
    Fresh s live regs (base, p.main.size) ∧ (∀ n b, a.os n = some b → Disjoint (base, p.main.size) (b, n)) ∧
    (a.system ≠ 0 → ¬ Has (base, p.main.size) a.system)
  os : ∀ n b, a.os n = some b → Fresh s live regs (b, n)
  system : a.system ≠ 0 → ¬ InAny regs a.system ∧ ¬ InAny (leakMem s) a.system
  byPtr : ∀ p, a.byPtr p = true ↔ InAny regs p

/-- Calls a program may make: sizes do not overflow, alignments are powers of two, pointers are NULL or held by the program. -/
def Allowed (live : List Blk) : Req → Prop
  | .alloc n => n ≤ 2 ^ 64 - 24
  | .calloc k n => k * n ≤ 2 ^ 64 - 24
  | .aligned a n => (∃ e, a = 2 ^ e) ∧ n + a ≤ 2 ^ 64 - 24
  | .free p => p = 0 ∨ ∃ b ∈ live, b.ptr = p
  | .realloc p n => n ≤ 2 ^ 64 - 24 ∧ (p = 0 ∨ ∃ b ∈ live, b.ptr = p)
  | .usable p => p = 0 ∨ ∃ b ∈ live, b.ptr = p

/-- What a function of the pool may return: pointers into the memory of the pool. A reallocation that fails leaves the
block in place. -/
def RetOk (regs : List Region) (b : Option Blk) (v : Nat) : Req → Prop
  | .free _ => True
  | .usable _ => True
  | .realloc _ _ => (v ≠ 0 → InAny regs v) ∧ (v = 0 → ∀ b', b = some b' → InAny regs b'.ptr)
  | _ => v ≠ 0 → InAny regs v

/-- `Reach cfg s live busy regs`: states of the library after a history; `live`: the blocks the program holds; `busy`: for each
thread the blocks that its calls of the pool in progress reallocate; `regs`: the memory of the pool. -/
inductive Reach (cfg : Linear.Cfg) : State → List Blk → (Nat → List (Option Blk)) → List Region → Prop where
  | init : Reach cfg State.init [] (fun _ => []) []
  | memory {s live busy regs regs'} : Reach cfg s live busy regs → MemOk s live regs' → Reach cfg s live busy regs'
  | threshold {s live busy regs n} : Reach cfg s live busy regs → Reach cfg (setThreshold s n) live busy regs
  | poolMade {s live busy regs} : Reach cfg s live busy regs → Reach cfg (poolMade s) live busy regs
  | call {s live busy regs t r a s' v evs} : Reach cfg s live busy regs → AnsOk cfg s live regs a → Allowed live r →
      call cfg s t r a = some (s', some v, evs) → Reach cfg s' (done live evs v) busy regs
  | enter {s live busy regs t r a s' evs} : Reach cfg s live busy regs → AnsOk cfg s live regs a → Allowed live r →
      call cfg s t r a = some (s', none, evs) →
      Reach cfg s' (entered live evs).1 (fun u => if u = t then (entered live evs).2 :: busy t else busy u) regs
  | ret {s live busy regs t s' r b bs v} : Reach cfg s live busy regs → ret s t = some (s', r) → busy t = b :: bs →
      RetOk regs b v r → Reach cfg s' (returned live b v r) (fun u => if u = t then bs else busy u) regs

/-- `During cfg t s evs s'`: calls of any threads, and returns of functions of the pool to other threads than `t`, or from `free`,
lead from `s` to `s'`, with the effects `evs`. So an allocation of the pool that `t` is in at `s` does not return. -/
inductive During (cfg : Linear.Cfg) (t : Nat) : State → List Ev → State → Prop where
  | refl {s} : During cfg t s [] s
  | call {s evs s' u r a s'' v evs'} : During cfg t s evs s' → call cfg s' u r a = some (s'', v, evs') →
      During cfg t s (evs ++ evs') s''
  | ret {s evs s' u s'' r} : During cfg t s evs s' → (u ≠ t ∨ ∃ p, r = .free p) → ret s' u = some (s'', r) → During cfg t s evs s''

/-- The request asks for new memory. -/
def Req.isAlloc : Req → Prop
  | .alloc _ | .calloc _ _ | .aligned _ _ => True
  | _ => False

end Verif.Proxy
