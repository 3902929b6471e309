import Verif.BaseAlloc.Fixed
/-!
# Model of `src/base_alloc/base_alloc_linear.c`

All operations run under the pool's lock: one atomic step each. Sizes are computed modulo 2^64.
`ba_os_alloc` is an oracle. Release build: assertions are not checked, the code after them is
followed.
-/
namespace Verif.BaseAlloc.Linear
open Fixed (word alignUpSafe alignPtrUpSizeDown)

/-- Layout constants: page size and `sizeof(umf_ba_main_linear_pool_meta_t)`. -/
structure Cfg where
  page : Nat
  metaSize : Nat
deriving Repr

/-- One piece of OS memory: `struct umf_ba_linear_pool` (header: link and metadata) or
`struct umf_ba_next_linear_pool_t` (header: 24 bytes), `base_alloc_linear.c:31-68`. -/
structure Sub where
  base : Nat
  size : Nat
  hdr : Nat
  n : Nat
deriving Repr, DecidableEq

/-- The allocator: `main` with its metadata, `next` the list from `next_pool`. -/
structure Pool where
  main : Sub
  next : List Sub
  dataPtr : Nat
  sizeLeft : Nat
deriving Repr, DecidableEq

/-- `umf_ba_linear_create`, `base_alloc_linear.c:84-123`. -/
def create (cfg : Cfg) (size : Nat) (os : Option Nat) (lockOk : Bool) : Option Pool :=
  let raw := max (word (size + (8 + cfg.metaSize))) cfg.page
  let poolSize := alignUpSafe raw cfg.page
  if poolSize = 0 then none
  else
    match os with
    | none => none
    | some base =>
      let d := alignPtrUpSizeDown (base + (8 + cfg.metaSize)) (poolSize - (8 + cfg.metaSize)) 8
      if lockOk then some ⟨⟨base, poolSize, 8 + cfg.metaSize, 0⟩, [], d.1, d.2⟩ else none

/-- Size of the pool requested from the OS for an allocation of `aligned` bytes,
`base_alloc_linear.c:136-147`; 0: overflow detected. -/
def newPoolSize (cfg : Cfg) (aligned : Nat) : Nat :=
  if cfg.page - 24 < aligned then
    alignUpSafe (word (cfg.page + (aligned - (cfg.page - 24)))) cfg.page
  else cfg.page

/-- The end of `umf_ba_linear_alloc`, `base_alloc_linear.c:176-190`: bump the pointer and count
the allocation in the active pool. `size_left -= aligned_size` is unsigned. -/
def bump (p : Pool) (aligned : Nat) : Pool × Option Nat :=
  let sizeLeft := word (p.sizeLeft + 2 ^ 64 - aligned)
  match p.next with
  | s :: rest => ({ p with dataPtr := p.dataPtr + aligned, sizeLeft := sizeLeft,
                           next := { s with n := s.n + 1 } :: rest }, some p.dataPtr)
  | [] => ({ p with dataPtr := p.dataPtr + aligned, sizeLeft := sizeLeft,
                    main := { p.main with n := p.main.n + 1 } }, some p.dataPtr)

/-- `umf_ba_linear_alloc`, `base_alloc_linear.c:125-190`. `os sz`: the answer of the OS to a
request of `sz` bytes. -/
def alloc (cfg : Cfg) (p : Pool) (size : Nat) (os : Nat → Option Nat) : Pool × Option Nat :=
  if size = 0 then (p, none)
  else
    let aligned := alignUpSafe size 8
    if aligned = 0 then (p, none)
    else if p.sizeLeft < aligned then
      let poolSize := newPoolSize cfg aligned
      if poolSize = 0 then (p, none)
      else
        match os poolSize with
        | none => (p, none)
        | some base =>
          let d := alignPtrUpSizeDown (base + 24) (poolSize - 24) 8
          bump { p with dataPtr := d.1, sizeLeft := d.2,
                        next := ⟨base, poolSize, 24, 0⟩ :: p.next } aligned
    else bump p aligned

/-- `pool_contains_ptr`, `base_alloc_linear.c:193-197`. -/
def Sub.contains (s : Sub) (ptr : Nat) : Bool :=
  decide (s.base + s.hdr ≤ ptr) && decide (ptr < s.base + s.size)

/-- The loop of `umf_ba_linear_free`, `base_alloc_linear.c:226-249`: the new list and the range
given back to the OS, or nothing if no pool contains `ptr`. `first`: at `pool->next_pool`. -/
def freeNext (ptr : Nat) : (first : Bool) → List Sub → Option (List Sub × List (Nat × Nat))
  | _, [] => none
  | first, s :: rest =>
    if s.contains ptr then
      if s.n - 1 = 0 ∧ first = false then some (rest, [(s.base, s.size)])
      else some ({ s with n := s.n - 1 } :: rest, [])
    else
      match freeNext ptr false rest with
      | none => none
      | some (rest', rel) => some (s :: rest', rel)

/-- `umf_ba_linear_free`, `base_alloc_linear.c:203-253`: the new state, the ranges given back to
the OS, and whether `ptr` belonged to the pool (return value 0). -/
def free (cfg : Cfg) (p : Pool) (ptr : Nat) : Pool × List (Nat × Nat) × Bool :=
  if p.main.contains ptr then
    if p.main.n - 1 = 0 ∧ p.next ≠ [] ∧ p.main.size > cfg.page then
      ({ p with main := { p.main with n := p.main.n - 1, size := cfg.page } },
        [(p.main.base + cfg.page, p.main.size - cfg.page)], true)
    else ({ p with main := { p.main with n := p.main.n - 1 } }, [], true)
  else
    match freeNext ptr true p.next with
    | none => (p, [], false)
    | some (next, rel) => ({ p with next := next }, rel, true)

/-- `umf_ba_linear_pool_contains_pointer`, `base_alloc_linear.c:286-310`. -/
def containsPointer (p : Pool) (ptr : Nat) : Nat :=
  if p.main.contains ptr then p.main.base + p.main.size - ptr
  else
    match p.next.find? (·.contains ptr) with
    | some s => s.base + s.size - ptr
    | none => 0

/-- `umf_ba_linear_destroy`, `base_alloc_linear.c:255-284`, outside the proxy library. -/
def destroy (p : Pool) : List (Nat × Nat) :=
  p.next.map (fun s => (s.base, s.size)) ++ [(p.main.base, p.main.size)]

end Verif.BaseAlloc.Linear
