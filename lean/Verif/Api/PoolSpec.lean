import Verif.Api.PoolModel
/-!
# Specification for pool creation and destruction
-/
namespace Verif.Api.Pool

/-- Effect of one event on the set of live objects. Making a live object again, releasing an object that
is not live and using a null pointer are errors. -/
def apply1 (st : Obj → Bool) : Ev → Option (Obj → Bool)
  | .acquire o => if st o then none else some fun x => if x = o then true else st x
  | .release o => if st o then some fun x => if x = o then false else st x else none
  | .crash => none

def apply (st : Obj → Bool) : List Ev → Option (Obj → Bool)
  | [] => some st
  | e :: es => match apply1 st e with
    | none => none
    | some st => apply st es

/-- The objects of a complete pool. -/
def objs (p : Pool) : List Obj :=
  [.pool p.id .mem, .pool p.id .lock, .pool p.id .priv] ++
    if p.tracked then [.pool p.id .wrapper, .pool p.id .wrapperPriv, .pool p.id .ipcMap,
      .pool p.id .openedCache] else []

/-- Nothing of this pool exists. -/
def Fresh (st : Obj → Bool) (id : Nat) : Prop := ∀ k, st (.pool id k) = false

/-- What fails is not host memory for the wrapper or its cache. -/
def WrapperOk (tracked : Bool) (f : Fail) : Prop :=
  tracked = true → f.cache = true ∧ f.wrapper = true ∧ f.wrapperPriv = true

/-- Histories: the caller makes providers and destroys those no pool uses; pools are created, or fail to be
created, and destroyed. An owned provider is used by no other pool when its pool is
destroyed. The live objects, the live pools and the live providers. -/
inductive Hist : (Obj → Bool) → List Pool → List Nat → Prop where
  | init : Hist (fun _ => false) [] []
  | provider {st ps hs h} : Hist st ps hs → h ∉ hs →
      Hist (fun x => if x = .provider h then true else st x) ps (h :: hs)
  | dropProvider {st ps hs h} : Hist st ps hs → h ∈ hs → (∀ p ∈ ps, p.h ≠ h) →
      Hist (fun x => if x = .provider h then false else st x) ps (hs.erase h)
  | create {st ps hs id h tracked own f st'} {p : Pool} : Hist st ps hs → h ∈ hs →
      (∀ q ∈ ps, q.id ≠ id) → WrapperOk tracked f → (createPool id h tracked own f).1 = some p →
      apply st (createPool id h tracked own f).2 = some st' → Hist st' (p :: ps) hs
  | createFail {st ps hs id h tracked own f st'} : Hist st ps hs → h ∈ hs →
      (∀ q ∈ ps, q.id ≠ id) → WrapperOk tracked f → (createPool id h tracked own f).1 = none →
      apply st (createPool id h tracked own f).2 = some st' → Hist st' ps hs
  | destroy {st ps hs p st'} : Hist st ps hs → p ∈ ps →
      (p.own = true → ∀ q ∈ ps, q ≠ p → q.h ≠ p.h) → apply st (destroyPool p) = some st' →
      Hist st' (ps.erase p) (if p.own then hs.erase p.h else hs)

/-- The event `a` comes before the event `b`. -/
def Before (a b : Ev) (es : List Ev) : Prop := ∃ x y z, es = x ++ a :: y ++ b :: z

end Verif.Api.Pool
