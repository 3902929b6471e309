/-!
# Model of `src/base_alloc/base_alloc.c` (chunks of one fixed size)

All operations run under `free_lock`, so an operation is one atomic step. Sizes are 64-bit: the
computation of the pool size is modulo 2^64. The free list is threaded through the free chunks
themselves (`chunk->next`); it is modelled as a list of addresses, that is, clients do not write
to memory they have freed. `ba_os_alloc` is an oracle: its answer is an argument. Release build:
`assert`s are not checked; where a failing assertion would matter the model does what the code
after it does. Sanitizer annotations are left out.
-/
namespace Verif.BaseAlloc.Fixed

/-- Layout constants: page size, `sizeof(struct umf_ba_main_pool_meta_t)`, mutex size rounded up
(`base_alloc.c:33-66,143-145`). The header of the main pool has `8 + metaSize` bytes, that of a
next pool 8. -/
structure Cfg where
  page : Nat
  metaSize : Nat
  mutexSize : Nat
deriving Repr

/-- `struct umf_ba_pool_t`, `base_alloc.c:33-57`: `main` is its own address, `next` the list
starting at `next_pool`. -/
structure Pool where
  main : Nat
  poolSize : Nat
  chunkSize : Nat
  next : List Nat
  free : List Nat
  nAllocs : Nat
deriving Repr, DecidableEq

def word (n : Nat) : Nat := n % 2 ^ 64

/-- `ALIGN_UP_SAFE(value, align)` for a power of two `align` (see `C41_alignUpSafe`). -/
def alignUpSafe (v a : Nat) : Nat := if v + (a - 1) ≥ 2 ^ 64 then 0 else (v + (a - 1)) / a * a

/-- `utils_align_ptr_up_size_down`, `utils_common.c:16-31` (see `C41_alignPtrUpSizeDown`). -/
def alignPtrUpSizeDown (p s a : Nat) : Nat × Nat :=
  if p % a ≠ 0 then ((p + (a - 1)) / a * a, word (s + 2 ^ 64 - (a - p % a))) else (p, s)

/-- The `while` loop of `ba_divide_memory_into_chunks`, `base_alloc.c:109-120`. -/
def chunks (c ptr size : Nat) : List Nat :=
  if _h : 0 < c ∧ c ≤ size then ptr :: chunks c (ptr + c) (size - c) else []
termination_by size
decreasing_by omega

/-- `ba_divide_memory_into_chunks`, `base_alloc.c:95-126`. If not even one chunk fits
(excluded by an assertion in debug builds) the free list still gets its first address. -/
def divide (c ptr size : Nat) : List Nat :=
  match chunks c ptr size with
  | [] => [ptr]
  | l => l

/-- The pool size before rounding to pages, `base_alloc.c:143-150`. -/
def rawPoolSize (cfg : Cfg) (chunkSize : Nat) : Nat :=
  max (word (8 + cfg.metaSize + cfg.mutexSize + 128 * chunkSize)) cfg.page

/-- `umf_ba_create`, `base_alloc.c:136-191`. `os`: the answer of the OS to the request for a pool
of the given size. -/
def create (cfg : Cfg) (size : Nat) (os : Option Nat) (mutexOk : Bool) : Option Pool :=
  let chunkSize := alignUpSafe size 8
  if chunkSize = 0 then none
  else
    let poolSize := alignUpSafe (rawPoolSize cfg chunkSize) cfg.page
    if poolSize = 0 then none
    else
      match os with
      | none => none
      | some base =>
        let d := alignPtrUpSizeDown (base + (8 + cfg.metaSize)) (poolSize - (8 + cfg.metaSize)) 8
        if mutexOk then some ⟨base, poolSize, chunkSize, [], divide chunkSize d.1 d.2, 0⟩
        else none

/-- `umf_ba_alloc`, `base_alloc.c:193-249`. The OS is asked only if the free list is empty. -/
def alloc (p : Pool) (os : Option Nat) : Pool × Option Nat :=
  match p.free with
  | a :: free => ({ p with free := free, nAllocs := p.nAllocs + 1 }, some a)
  | [] =>
    match os with
    | none => (p, none)
    | some base =>
      let d := alignPtrUpSizeDown (base + 8) (p.poolSize - 8) 8
      let p' := { p with next := base :: p.next }
      match divide p.chunkSize d.1 d.2 with
      | [] => (p', none)
      | a :: free => ({ p' with free := free, nAllocs := p.nAllocs + 1 }, some a)

/-- `umf_ba_free`, `base_alloc.c:274-294`. -/
def free (p : Pool) (ptr : Nat) : Pool :=
  if ptr = 0 then p
  else { p with free := ptr :: p.free, nAllocs := p.nAllocs - 1 }

/-- `umf_ba_destroy`, `base_alloc.c:296-328`, outside the proxy library: the ranges given back
to the OS, in order. -/
def destroy (p : Pool) : List (Nat × Nat) :=
  p.next.map (fun b => (b, p.poolSize)) ++ [(p.main, p.poolSize)]

end Verif.BaseAlloc.Fixed
