import Verif.TrkConc.Model
/-!
# The tracker used by several threads: what its users may do, and what they may expect
-/
namespace Verif.TrkConc

/-- The tracker, the regions that are registered and that no thread is about to change, and what each thread is doing. -/
structure Sys where
  st : St
  live : List Rec
  thr : Nat → Option (Op × Pc)

def Sys.init : Sys := ⟨TrkConc.init, [], fun _ => none⟩

/-- The address `x` is in the region. -/
def Rec.has (r : Rec) (x : Nat) : Prop := r.ptr ≤ x ∧ x < r.ptr + r.size

/-- No address is in both. -/
def Apart (r r' : Rec) : Prop := r.ptr + r.size ≤ r'.ptr ∨ r'.ptr + r'.size ≤ r.ptr

/-- A region of memory: not empty, inside the address space, not at `NULL`. -/
def Rec.Ok (r : Rec) : Prop := 0 < r.ptr ∧ 0 < r.size ∧ r.ptr + r.size < 2 ^ 64

/-- The memory an operation is about; a lookup claims none. -/
def Op.span : Op → Option Rec
  | .add r => some r
  | .remove r => some r
  | .split r _ => some r
  | .merge l h => some ⟨l.ptr, l.size + h.size, l.pool⟩
  | .look _ _ => none

/-- No thread is looking up an address of `r`. -/
def Unseen (s : Sys) (r : Rec) : Prop := ∀ t x pc, s.thr t ≠ some (.look r x, pc)

/-- What a thread may begin. A region to register is apart from all others, because the upstream provider hands out no memory
twice; nobody looks up addresses of a region that is removed, split or merged meanwhile; a lookup is for an address of a
region that is registered. -/
def Legal (s : Sys) : Op → Prop
  | .add r => r.Ok ∧ (∀ r' ∈ s.live, Apart r r') ∧ ∀ t op pc r', s.thr t = some (op, pc) → op.span = some r' → Apart r r'
  | .remove r => r ∈ s.live ∧ Unseen s r
  | .split r f => r ∈ s.live ∧ Unseen s r ∧ 0 < f ∧ f < r.size
  | .merge l h => l ∈ s.live ∧ h ∈ s.live ∧ Unseen s l ∧ Unseen s h ∧ l.ptr + l.size = h.ptr ∧ l.pool = h.pool
  | .look r x => r ∈ s.live ∧ r.has x

/-- The regions that the operation takes away at its beginning. -/
def Op.takes : Op → List Rec
  | .remove r => [r]
  | .split r _ => [r]
  | .merge l h => [l, h]
  | _ => []

/-- The regions that are registered when the operation has returned. -/
def Op.gives (op : Op) (res : Res) : List Rec :=
  match op with
  | .add r => if res = .success then [r] else []
  | .remove r => if res = .success then [] else [r]
  | .split r f => if res = .success then [⟨r.ptr, f, r.pool⟩, ⟨r.ptr + f, r.size - f, r.pool⟩] else [r]
  | .merge l h => if res = .success then [⟨l.ptr, l.size + h.size, l.pool⟩] else [l, h]
  | .look _ _ => []

/-- The results an operation may have: failures are for lack of memory, or those of the upstream provider; a removal
succeeds, and a lookup finds the region. -/
def Answered (op : Op) (res : Res) : Prop :=
  match op with
  | .add _ => res = .success ∨ res = .oom
  | .remove _ => res = .success
  | .split _ _ => res = .success ∨ res = .oom ∨ res = .upstream
  | .merge _ _ => res = .success ∨ res = .oom ∨ res = .upstream
  | .look r _ => res = .found r.ptr r.size r.pool

/-- The thread is between locking `splitMergeMutex` and unlocking it. -/
def inLock : Op → Pc → Bool
  | .split _ _, .start => false
  | .split _ _, .lockWait _ => false
  | .split _ _, .errFree _ _ => false
  | .split _ _, .fin _ => false
  | .merge _ _, .start => false
  | .merge _ _, .lockWait _ => false
  | .merge _ _, .errFree _ _ => false
  | .merge _ _, .fin _ => false
  | .split _ _, _ => true
  | .merge _ _, _ => true
  | _, _ => false

/-- Any number of threads, any schedule, any answers that meet `ok`. -/
inductive Reach (ok : Sys → Nat → Ans → Prop) : Sys → Prop where
  | init : Reach ok Sys.init
  | start {s : Sys} {t : Nat} {op : Op} : Reach ok s → s.thr t = none → Legal s op →
      Reach ok ⟨s.st, s.live.filter fun r => r ∉ op.takes, upd s.thr t (some (op, .start))⟩
  | move {s : Sys} {t : Nat} {op : Op} {pc pc' : Pc} {v : Ans} {st' : St} : Reach ok s → s.thr t = some (op, pc) → ok s t v →
      next t op s.st pc v = some (st', pc') → Reach ok ⟨st', s.live, upd s.thr t (some (op, pc'))⟩
  | ret {s : Sys} {t : Nat} {op : Op} {res : Res} : Reach ok s → s.thr t = some (op, .fin res) →
      Reach ok ⟨s.st, op.gives res ++ s.live, upd s.thr t none⟩

/-- The entry `x` is not one that a thread which registers a region has found and not yet read. -/
def NotSeen (s : Sys) (x : Addr) : Prop := ∀ t op lvl par k, s.thr t ≠ some (op, .addLoad lvl par k x)

/-- The base allocator does not hand out again an entry that another thread is about to read. -/
def Careful (s : Sys) (_ : Nat) (v : Ans) : Prop := NotSeen s v.addr

/-- No condition. -/
def Anything (_ : Sys) (_ : Nat) (_ : Ans) : Prop := True

end Verif.TrkConc
