import Verif.CoarseMem.Spec
import Verif.Coarse.Spec
/-!
# The coarse allocator, pointer by pointer, and the model with lists of blocks: what it means that they do the same

`Coarse/Model.lean` says what `coarse.c` does with two lists, of blocks and of free blocks. Here is what such a state says about the
memory (`Shows`), and what the users' books are when the calls are the ones of `CoarseMem/Model.lean`.
-/
namespace Verif.CoarseMem
open Verif.Coarse (Cfg)
open Verif.Coarse.Spec (Region Fresh)

/-- A descriptor as the model with lists sees it. -/
def viewB (B : Blk) : Coarse.Block := ⟨B.data, B.size, B.used, decide (B.fl ≠ 0)⟩

/-- The lists show the memory: every descriptor is in the list of blocks, every one that is on a list of free blocks is in the list of free
blocks, nothing else is, and the sums are the same. -/
structure Shows (s : St) (st : Coarse.St) : Prop where
  sorted : st.blocks.Pairwise fun x y => x.data < y.data
  blocks : ∀ x, x ∈ st.blocks ↔ ∃ b B, s.blk b = some B ∧ x = viewB B
  free : ∀ e, e ∈ st.free ↔ ∃ b B, s.blk b = some B ∧ B.fl ≠ 0 ∧ e = (B.size, B.data)
  once : st.free.Nodup
  used : st.usedSize = s.usedSize
  alloc : st.allocSize = s.allocSize

/-- The outside world as the model with lists sees it; `ho`: what the base allocator answers at each place, `g`: what is in the byte. -/
def cenv (env : Env) (ho : Coarse.Site → Bool) (g : Bool) : Coarse.Env :=
  ⟨env.splitCb, env.mergeCb, fun n a => if (env.upAlloc n a).1 = .success then .ok (env.upAlloc n a).2 else .error (env.upAlloc n a).1, ho, g⟩

/-- `coarse_add_memory_from_provider`, `coarse.c:964-985`, in the model with lists: a call of `alloc`, and one of `free` when it succeeds. -/
def addUpA (cfg : Cfg) (env1 env2 : Coarse.Env) (st : Coarse.St) (size : Nat) : Coarse.St × Coarse.Out :=
  if size = 0 then (st, { res := .invalidArgument })
  else if cfg.hasAlloc = true then
    if (Coarse.alloc cfg env1 st size cfg.page).2.res = .success then
      Coarse.free env2 (Coarse.alloc cfg env1 st size cfg.page).1 (Coarse.alloc cfg env1 st size cfg.page).2.ptr size
    else ((Coarse.alloc cfg env1 st size cfg.page).1, { res := (Coarse.alloc cfg env1 st size cfg.page).2.res })
  else (st, { res := .notSupported })

/-- The calls in the model with lists. -/
def cstep (cfg : Cfg) (env1 env2 : Coarse.Env) (st : Coarse.St) : Op → Coarse.St × Coarse.Out
  | .alloc size a => Coarse.step cfg env1 st (.alloc size a)
  | .free p n => Coarse.step cfg env1 st (.free p n)
  | .split p total first => Coarse.step cfg env1 st (.split p total first)
  | .merge low high total => Coarse.step cfg env1 st (.merge low high total)
  | .addFixed addr size => Coarse.step cfg env1 st (.addFixed addr size)
  | .addUpstream size => addUpA cfg env1 env2 st size

/-! ## The users' books -/

/-- The allocations the users have after a call: only a call that succeeds changes them. -/
def liveAfter (live : List Region) (op : Op) (r : Ret) : List Region :=
  if r.res = .success then
    match op with
    | .alloc size _ => (r.ptr, size) :: live
    | .free p _ => live.filter fun x => x.1 != p
    | .split p total first => (p, first) :: (p + first, total - first) :: live.filter fun x => x.1 != p
    | .merge low high total => (low, total) :: live.filter fun x => x.1 != low && x.1 != high
    | .addFixed _ _ => live
    | .addUpstream _ => live
  else live

/-- The memory the allocator was given, after a call; `grew`: the number of bytes it has, in its statistics, has changed. -/
def grantsAfter (cfg : Cfg) (grants : List Region) (op : Op) (env : Env) (r : Ret) (grew : Bool) : List Region :=
  if grew = true then
    match op with
    | .alloc size _ => (r.ptr, size) :: grants
    | .addFixed addr size => (addr, size) :: grants
    | .addUpstream size => ((env.upAlloc size cfg.page).2, size) :: grants
    | _ => grants
  else grants

/-- What is assumed of the outside world in a call: `up`, `fixed`: new memory is apart from what the allocator has, and aligned as it asked;
`flag`: the base allocator gives zeroed memory, or the split callback agrees and no allocation is of 0 bytes. -/
structure WorldOk (env : Env) (op : Op) (host : List (Addr × Bool)) (grants : List Region) : Prop where
  flag : ∀ size, (op = .addUpstream size ∨ ∃ a, op = .alloc size a) →
    (∀ x ∈ host, x.2 = false) ∨ ((∀ a b c, env.splitCb a b c = .success) ∧ ∀ a, op ≠ .alloc 0 a)
  up : ∀ size a, (op = .addUpstream size ∨ ∃ a, op = .alloc size a) → (env.upAlloc size a).1 = .success →
    Fresh grants ((env.upAlloc size a).2, size) ∧ (env.upAlloc size a).2 % a = 0
  fixed : ∀ addr size, op = .addFixed addr size → addr ≠ 0 → size ≠ 0 → Fresh grants (addr, size)

/-- Histories of calls with any arguments, in which the base allocator refuses nothing; `P`: what is assumed of the callbacks. -/
inductive Hist (cfg : Cfg) (P : Env → Prop) : St → List Region → List Region → Prop where
  | init : Hist cfg P St.init [] []
  | step {s s' : St} {live grants : List Region} {op : Op} {env : Env} {host : List (Addr × Bool)} {r : Ret} : Hist cfg P s live grants →
      WorldOk env op host grants → P env → Runs cfg s op env host r s' → s'.refused = false →
      Hist cfg P s' (liveAfter live op r) (grantsAfter cfg grants op env r (s'.allocSize != s.allocSize))

/-- No assumption on the callbacks. -/
def AnyEnv : Env → Prop := fun _ => True

/-- The merge callback agrees. -/
def MergeEnv (env : Env) : Prop := ∀ a b c, env.mergeCb a b c = .success

end Verif.CoarseMem
