/-!
# Loading oneTBB

`init_tbb_callbacks_once` (src/pool/pool_scalable.c:115-163) runs once, before the first scalable pool is created;
`fini_tbb_global_state` (src/pool/pool_scalable.c:169-178) runs at shut-down. The loader is a parameter: whether the library
is found, which functions it has, whether it can be closed.
-/
namespace Verif.Heap.Load

/-- The functions (pool_scalable.c:86-124). -/
inductive Sym where
  | malloc | realloc | aligned | free | create | destroy | identify | msize
deriving DecidableEq, Repr

/-- What the process did with the library. -/
inductive Ev where
  | opened | closed
deriving DecidableEq, Repr

/-- The dynamic loader. -/
structure Env where
  found : Bool
  has : Sym → Bool
  closes : Bool

/-- `tbb_callbacks` and `tbb_init_result` (pool_scalable.c:91-92). -/
structure St where
  handle : Bool
  addr : Sym → Bool
  failed : Bool

def zero : St := ⟨false, fun _ => false, false⟩

/-- `init_tbb_callbacks_once` (pool_scalable.c:115-163). -/
def load (e : Env) (s : St) : St × List Ev :=
  if e.found = false then ({ s with handle := false, failed := true }, [])
  else
    let s := { s with handle := true, addr := e.has }
    if s.addr .malloc = false ∨ s.addr .realloc = false ∨ s.addr .aligned = false ∨ s.addr .free = false ∨
        s.addr .create = false ∨ s.addr .destroy = false ∨ s.addr .identify = false then
      ({ s with failed := true }, [.opened, .closed])
    else (s, [.opened])

/-- `fini_tbb_global_state` (pool_scalable.c:169-178). -/
def fini (e : Env) (s : St) : St × List Ev :=
  if s.handle then ((if e.closes then { s with handle := false } else s), [.closed]) else (s, [])

/-- The functions that the scalable pool calls: `tbb_malloc`, `tbb_calloc`, `tbb_realloc`, `tbb_aligned_malloc`, `tbb_free`,
`tbb_malloc_usable_size`, creation and destruction (pool_scalable.c:268-407). -/
def calls : List Sym := [.malloc, .realloc, .aligned, .free, .create, .destroy, .msize]

end Verif.Heap.Load
