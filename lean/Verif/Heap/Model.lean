/-!
# Pools on top of other allocators

The scalable pool (oneTBB), the jemalloc pool and the proxy pool as programs: what they call, what they store, in which
order. The libraries below are calls whose answers are arbitrary; what is assumed of them is in `Verif.Heap.Machine`.

Not modelled: annotations for sanitizers and Valgrind, log messages, the loading of symbols (`Verif.Heap.Load` has it).
The structure of a pool is known by its address; the numbers of the results are those of `include/umf/base.h:35-59`.
-/
namespace Verif.Heap

/-- The address of the private structure of a pool. -/
abbrev Pool := Nat
abbrev Prov := Nat
abbrev Res := Nat

def resSuccess : Res := 0
def resOutOfHostMemory : Res := 1
def resSpecific : Res := 2
def resNotSupported : Res := 5
def resDependencyUnavailable : Res := 7
def resUnknown : Res := 0x7ffffffe

/-- `size_t` arithmetic. -/
def wrap (n : Nat) : Nat := n % 2 ^ 64

/-- The three pools: `pool_scalable.c`, `pool_jemalloc.c`, `pool_proxy.c`. -/
inductive File where
  | tbb | je | proxy
deriving DecidableEq, Repr

/-- `tbb_memory_pool_t` (pool_scalable.c:70-73), `jemalloc_memory_pool_t` (pool_jemalloc.c:33-36), `struct
proxy_memory_pool` (pool_proxy.c:21-23): the provider, and the pool of the library or the index of the arena. -/
structure Rec where
  file : File
  pv : Prov
  heap : Nat
deriving DecidableEq, Repr

/-- `umf_scalable_pool_params_t` (pool_scalable.c:48-51) -/
structure Params where
  granularity : Nat
  keepAll : Bool
deriving DecidableEq, Repr

/-- `DEFAULT_GRANULARITY` (pool_scalable.c:38) -/
def defaultGranularity : Nat := 2 * 1024 * 1024

/-- Calls that leave these files. -/
inductive Call where
  -- oneTBB: loading the library and its functions; then its functions
  | loadTbb
  | tbbCreate (id : Pool) (granularity : Nat) (keepAll : Bool)
  | tbbDestroy (h : Nat)
  | tbbMalloc (h n : Nat)
  | tbbRealloc (h ptr n : Nat)
  | tbbAligned (h n a : Nat)
  | tbbFree (h ptr : Nat)
  | tbbMsize (h ptr : Nat)
  -- jemalloc: `je_mallctl` with `arenas.create`, `arena.<i>.extent_hooks`, `arena.<i>.destroy`; then its functions
  | arenasCreate
  | setHooks (a : Nat)
  | arenaDestroy (a : Nat)
  | mallocx (n flags : Nat)
  | rallocx (ptr n flags : Nat)
  | dallocx (ptr flags : Nat)
  | usable (ptr : Nat)
  -- the memory provider
  | provAlloc (pv : Prov) (n a : Nat)
  | provFree (pv : Prov) (ptr n : Nat)
  | purgeLazy (pv : Prov) (ptr n : Nat)
  | purgeForce (pv : Prov) (ptr n : Nat)
  | split (pv : Prov) (ptr total first : Nat)
  | merge (pv : Prov) (low high total : Nat)
  -- the memory tracker
  | allocInfo (ptr : Nat)
  -- writing zeros
  | memset (ptr n : Nat)
deriving DecidableEq, Repr

/-- What a call answers: an error code, 0 for success, and a value. -/
structure Resp where
  err : Nat := 0
  val : Nat := 0
deriving DecidableEq, Repr

/-- What a function returns: a result, or a pointer or a number. -/
structure Out where
  res : Res := 0
  val : Nat := 0
deriving DecidableEq, Repr

/-- The thread-local variables: `TLS_last_allocation_error` of each file, `TLS_last_free_error` of pool_scalable.c:36. -/
inductive Var where
  | alloc (f : File)
  | free
deriving DecidableEq, Repr

inductive Prog where
  | ret (o : Out)
  /-- a null pointer is followed -/
  | crash
  | call (c : Call) (k : Resp → Prog)
  | setTls (v : Var) (r : Res) (k : Prog)
  | getTls (v : Var) (k : Res → Prog)
  /-- `umf_ba_global_alloc` of a pool's structure -/
  | newRec (k : Option Pool → Prog)
  | setRec (p : Pool) (r : Rec) (k : Prog)
  | getRec (p : Pool) (k : Rec → Prog)
  /-- `umf_ba_global_free` of a pool's structure -/
  | freeRec (p : Pool) (k : Prog)
  /-- `pool_by_arena_index` (pool_jemalloc.c:40) -/
  | getTab (a : Nat) (k : Option Pool → Prog)
  | setTab (a : Nat) (v : Option Pool) (k : Prog)

/-! ## The scalable pool -/

/-- `tbb_pool_initialize` (pool_scalable.c:268-315). -/
def tbbInit (pv : Prov) (params : Option Params) : Prog :=
  let gran := match params with
    | some q => q.granularity
    | none => defaultGranularity
  let keep := match params with
    | some q => q.keepAll
    | none => false
  .newRec fun p? => match p? with
    | none => .ret { res := resOutOfHostMemory }
    | some p =>
      .call .loadTbb fun r =>
        if r.err ≠ 0 then .freeRec p (.ret { res := resDependencyUnavailable })
        else .getRec p fun g => .setRec p { g with file := .tbb, pv := pv } <|
          .call (.tbbCreate p gran keep) fun r =>
            if r.err ≠ 0 then .freeRec p (.ret { res := resSpecific })
            else .getRec p fun g => .setRec p { g with heap := r.val } <|
              .ret { res := resSuccess, val := p }

/-- `tbb_pool_finalize` (pool_scalable.c:317-321). -/
def tbbFini (p : Pool) : Prog :=
  .getRec p fun r => .call (.tbbDestroy r.heap) fun _ => .freeRec p (.ret {})

/-- What `tbb_malloc`, `tbb_realloc` and `tbb_aligned_malloc` do with the pointer that oneTBB returned
(pool_scalable.c:327-334, 354-361, 369-376). -/
def tbbCheck (v : Nat) (k : Nat → Prog) : Prog :=
  if v = 0 then
    .getTls (.alloc .tbb) fun e =>
      if e = resSuccess then .setTls (.alloc .tbb) resUnknown (k 0) else k 0
  else k v

/-- `tbb_malloc` (pool_scalable.c:323-335). -/
def tbbMallocK (p : Pool) (n : Nat) (k : Nat → Prog) : Prog :=
  .getRec p fun r => .setTls (.alloc .tbb) resSuccess <|
    .call (.tbbMalloc r.heap n) fun x => tbbCheck x.val k

/-- `tbb_calloc` (pool_scalable.c:337-348). -/
def tbbCalloc (p : Pool) (num n : Nat) : Prog :=
  let csize := wrap (num * n)
  tbbMallocK p csize fun v =>
    if v = 0 then .ret { val := 0 } else .call (.memset v csize) fun _ => .ret { val := v }

/-- `tbb_realloc` (pool_scalable.c:350-362). -/
def tbbRealloc (p : Pool) (ptr n : Nat) : Prog :=
  .getRec p fun r => .setTls (.alloc .tbb) resSuccess <|
    .call (.tbbRealloc r.heap ptr n) fun x => tbbCheck x.val fun v => .ret { val := v }

/-- `tbb_aligned_malloc` (pool_scalable.c:364-377). -/
def tbbAligned (p : Pool) (n a : Nat) : Prog :=
  .getRec p fun r => .setTls (.alloc .tbb) resSuccess <|
    .call (.tbbAligned r.heap n a) fun x => tbbCheck x.val fun v => .ret { val := v }

/-- `tbb_free` (pool_scalable.c:379-402); `pool_free` answers 1 for true. -/
def tbbFree (p : Pool) (ptr : Nat) : Prog :=
  if ptr = 0 then .ret { res := resSuccess }
  else .setTls .free resSuccess <| .getRec p fun r =>
    .call (.tbbFree r.heap ptr) fun x =>
      if x.val ≠ 0 then .ret { res := resSuccess }
      else .getTls .free fun e =>
        if e ≠ resSuccess then .ret { res := e } else .ret { res := resUnknown }

/-- `tbb_malloc_usable_size` (pool_scalable.c:404-407). -/
def tbbUsable (p : Pool) (ptr : Nat) : Prog :=
  .getRec p fun r => .call (.tbbMsize r.heap ptr) fun x => .ret { val := x.val }

/-- `tbb_raw_alloc_wrapper` (pool_scalable.c:179-190). -/
def rawAlloc (id : Pool) (n : Nat) : Prog :=
  .getRec id fun r => .call (.provAlloc r.pv n 0) fun x =>
    if x.err ≠ 0 then .setTls (.alloc .tbb) resOutOfHostMemory (.ret { val := 0 }) else .ret { val := x.val }

/-- `tbb_raw_free_wrapper` (pool_scalable.c:192-200). -/
def rawFree (id : Pool) (ptr n : Nat) : Prog :=
  .getRec id fun r => .call (.provFree r.pv ptr n) fun x =>
    if x.err ≠ 0 then .setTls .free x.err (.ret {}) else .ret {}

/-! ## The jemalloc pool -/

/-- The lowest set bit of a number, counted from 0 (`ffs` minus one). -/
def ctz (fuel : Nat) (n : Nat) : Nat :=
  match fuel with
  | 0 => 0
  | f + 1 => if n % 2 = 1 then 0 else 1 + ctz f (n / 2)

/-- `MALLOCX_ALIGN` of jemalloc, as a 32-bit word: `ffs(a) - 1` if `a < INT_MAX`, which is -1 for 0, and otherwise
`ffs(a >> 32) + 31`. -/
def alignBits (a : Nat) : Nat :=
  if a < 2 ^ 31 - 1 then (if a = 0 then 2 ^ 32 - 1 else ctz 64 a)
  else if a / 2 ^ 32 = 0 then 31 else ctz 64 (a / 2 ^ 32) + 32

/-- `MALLOCX_ARENA` of jemalloc, as a 32-bit word: `(a + 1) << 20`. -/
def arenaBits (a : Nat) : Nat := ((a + 1) <<< 20) % 2 ^ 32

/-- `MALLOCX_TCACHE_NONE` of jemalloc: `(-1 + 2) << 8`. -/
def tcacheNone : Nat := 0x100

/-- `op_malloc` (pool_jemalloc.c:288-303). -/
def jeMallocK (p : Pool) (n : Nat) (k : Nat → Prog) : Prog :=
  .getRec p fun r => .call (.mallocx n (arenaBits r.heap ||| tcacheNone)) fun x =>
    if x.val = 0 then .setTls (.alloc .je) resOutOfHostMemory (k 0) else k x.val

/-- `op_free` (pool_jemalloc.c:305-315). -/
def jeFree (ptr : Nat) : Prog :=
  if ptr ≠ 0 then .call (.dallocx ptr tcacheNone) fun _ => .ret { res := resSuccess }
  else .ret { res := resSuccess }

/-- `op_calloc` (pool_jemalloc.c:317-330). -/
def jeCalloc (p : Pool) (num n : Nat) : Prog :=
  let csize := wrap (num * n)
  jeMallocK p csize fun v =>
    if v = 0 then .ret { val := 0 } else .call (.memset v csize) fun _ => .ret { val := v }

/-- `op_realloc` (pool_jemalloc.c:332-362). -/
def jeRealloc (p : Pool) (ptr n : Nat) : Prog :=
  if n = 0 ∧ ptr ≠ 0 then
    .call (.dallocx ptr tcacheNone) fun _ => .setTls (.alloc .je) resSuccess (.ret { val := 0 })
  else if ptr = 0 then jeMallocK p n fun v => .ret { val := v }
  else .getRec p fun r => .call (.rallocx ptr n (arenaBits r.heap ||| tcacheNone)) fun x =>
    if x.val = 0 then .setTls (.alloc .je) resOutOfHostMemory (.ret { val := 0 }) else .ret { val := x.val }

/-- `op_aligned_alloc` (pool_jemalloc.c:364-381). -/
def jeAligned (p : Pool) (n a : Nat) : Prog :=
  .getRec p fun r => .call (.mallocx n (alignBits a ||| arenaBits r.heap ||| tcacheNone)) fun x =>
    if x.val = 0 then .setTls (.alloc .je) resOutOfHostMemory (.ret { val := 0 }) else .ret { val := x.val }

/-- `op_initialize` (pool_jemalloc.c:383-432). -/
def jeInit (pv : Prov) : Prog :=
  .newRec fun p? => match p? with
    | none => .ret { res := resOutOfHostMemory }
    | some p => .getRec p fun g => .setRec p { g with file := .je, pv := pv } <|
      .call .arenasCreate fun r =>
        if r.err ≠ 0 then .freeRec p (.ret { res := resSpecific })
        else
          let a := r.val
          .call (.setHooks a) fun r =>
            if r.err ≠ 0 then
              .call (.arenaDestroy a) fun _ => .freeRec p (.ret { res := resSpecific })
            else .getRec p fun g => .setRec p { g with heap := a } <| .setTab a (some p) <|
              .ret { res := resSuccess, val := p }

/-- `op_finalize` (pool_jemalloc.c:434-444). -/
def jeFini (p : Pool) : Prog :=
  .getRec p fun r => .call (.arenaDestroy r.heap) fun _ =>
    .setTab r.heap none <| .freeRec p (.ret {})

/-- `op_malloc_usable_size` (pool_jemalloc.c:446-449). -/
def jeUsable (ptr : Nat) : Prog := .call (.usable ptr) fun x => .ret { val := x.val }

/-- `get_pool_by_arena_index` (pool_jemalloc.c:42-48) and the use of the result: a missing pool is a null pointer. -/
def byArena (a : Nat) (k : Rec → Prog) : Prog :=
  .getTab a fun p? => match p? with
    | none => .crash
    | some p => .getRec p k

/-- `arena_extent_alloc` (pool_jemalloc.c:63-97); `*commit` is set to true on success. -/
def extAlloc (a new n al : Nat) (zero : Bool) : Prog :=
  byArena a fun r => .call (.provAlloc r.pv n al) fun x =>
    if x.err ≠ 0 then .ret { val := 0 }
    else if new ≠ 0 ∧ x.val ≠ new then .call (.provFree r.pv x.val n) fun _ => .ret { val := 0 }
    else if zero then .call (.memset x.val n) fun _ => .ret { val := x.val }
    else .ret { val := x.val }

/-- `arena_extent_destroy` (pool_jemalloc.c:104-118). -/
def extDestroy (a ptr n : Nat) : Prog :=
  byArena a fun r => .call (.provFree r.pv ptr n) fun _ => .ret {}

/-- `arena_extent_dalloc` (pool_jemalloc.c:127-142): false (0) is success. -/
def extDalloc (a ptr n : Nat) : Prog :=
  byArena a fun r => .call (.provFree r.pv ptr n) fun x => .ret { val := if x.err ≠ 0 then 1 else 0 }

/-- `arena_extent_purge_lazy` (pool_jemalloc.c:194-207). -/
def extPurgeLazy (a addr off len : Nat) : Prog :=
  byArena a fun r => .call (.purgeLazy r.pv (wrap (addr + off)) len) fun x => .ret { val := if x.err ≠ 0 then 1 else 0 }

/-- `arena_extent_purge_forced` (pool_jemalloc.c:210-223). -/
def extPurgeForced (a addr off len : Nat) : Prog :=
  byArena a fun r => .call (.purgeForce r.pv (wrap (addr + off)) len) fun x => .ret { val := if x.err ≠ 0 then 1 else 0 }

/-- `arena_extent_split` (pool_jemalloc.c:231-244). -/
def extSplit (a addr n na : Nat) : Prog :=
  byArena a fun r => .call (.split r.pv addr n na) fun x => .ret { val := if x.err ≠ 0 then 1 else 0 }

/-- `arena_extent_merge` (pool_jemalloc.c:252-263). -/
def extMerge (a addrA na addrB nb : Nat) : Prog :=
  byArena a fun r => .call (.merge r.pv addrA addrB (wrap (na + nb))) fun x => .ret { val := if x.err ≠ 0 then 1 else 0 }

/-! ## The proxy pool -/

/-- `proxy_pool_initialize` (pool_proxy.c:25-40). -/
def proxyInit (pv : Prov) : Prog :=
  .newRec fun p? => match p? with
    | none => .ret { res := resOutOfHostMemory }
    | some p => .getRec p fun g => .setRec p { g with file := .proxy, pv := pv } <|
      .ret { res := resSuccess, val := p }

/-- `proxy_pool_finalize` (pool_proxy.c:42). -/
def proxyFini (p : Pool) : Prog := .freeRec p (.ret {})

/-- `proxy_aligned_malloc` (pool_proxy.c:44-59). -/
def proxyAligned (p : Pool) (n a : Nat) : Prog :=
  .getRec p fun r => .call (.provAlloc r.pv n a) fun x =>
    if x.err ≠ 0 then .setTls (.alloc .proxy) x.err (.ret { val := 0 })
    else .setTls (.alloc .proxy) resSuccess (.ret { val := x.val })

/-- `proxy_malloc` (pool_proxy.c:61-65). -/
def proxyMalloc (p : Pool) (n : Nat) : Prog := proxyAligned p n 0

/-- `proxy_calloc` (pool_proxy.c:67-78) and `proxy_realloc` (pool_proxy.c:80-91). -/
def proxyRefuse : Prog := .setTls (.alloc .proxy) resNotSupported (.ret { val := 0 })

/-- `proxy_free` (pool_proxy.c:93-108): the size is the one the tracker has for the pointer, 0 if it has none. -/
def proxyFree (p : Pool) (ptr : Nat) : Prog :=
  if ptr ≠ 0 then
    .call (.allocInfo ptr) fun i =>
      let n := if i.err = 0 then i.val else 0
      .getRec p fun r => .call (.provFree r.pv ptr n) fun x => .ret { res := x.err }
  else .getRec p fun r => .call (.provFree r.pv ptr 0) fun x => .ret { res := x.err }

/-- `proxy_malloc_usable_size` (pool_proxy.c:110-118). -/
def proxyUsable : Prog := .setTls (.alloc .proxy) resNotSupported (.ret { val := 0 })

/-! ## The functions of the three pools -/

/-- The calls of a client; `f` is the kind of the pool. -/
inductive Op where
  | create (f : File) (pv : Prov) (params : Option Params)
  | destroy (f : File) (p : Pool)
  | malloc (f : File) (p : Pool) (n : Nat)
  | calloc (f : File) (p : Pool) (num n : Nat)
  | realloc (f : File) (p : Pool) (ptr n : Nat)
  | aligned (f : File) (p : Pool) (n a : Nat)
  | free (f : File) (p : Pool) (ptr : Nat)
  | usable (f : File) (p : Pool) (ptr : Nat)
  | lastError (f : File) (p : Pool)
deriving DecidableEq, Repr

/-- The tables of operations: `UMF_SCALABLE_POOL_OPS` (pool_scalable.c:446-457), `UMF_JEMALLOC_POOL_OPS`
(pool_jemalloc.c:456-467), `UMF_PROXY_POOL_OPS` (pool_proxy.c:125-134), called by `memory_pool.c:187-221`. -/
def Op.prog : Op → Prog
  | .create .tbb pv params => tbbInit pv params
  | .create .je pv _ => jeInit pv
  | .create .proxy pv _ => proxyInit pv
  | .destroy .tbb p => tbbFini p
  | .destroy .je p => jeFini p
  | .destroy .proxy p => proxyFini p
  | .malloc .tbb p n => tbbMallocK p n fun v => .ret { val := v }
  | .malloc .je p n => jeMallocK p n fun v => .ret { val := v }
  | .malloc .proxy p n => proxyMalloc p n
  | .calloc .tbb p num n => tbbCalloc p num n
  | .calloc .je p num n => jeCalloc p num n
  | .calloc .proxy _ _ _ => proxyRefuse
  | .realloc .tbb p ptr n => tbbRealloc p ptr n
  | .realloc .je p ptr n => jeRealloc p ptr n
  | .realloc .proxy _ _ _ => proxyRefuse
  | .aligned .tbb p n a => tbbAligned p n a
  | .aligned .je p n a => jeAligned p n a
  | .aligned .proxy p n a => proxyAligned p n a
  | .free .tbb p ptr => tbbFree p ptr
  | .free .je _ ptr => jeFree ptr
  | .free .proxy p ptr => proxyFree p ptr
  | .usable .tbb p ptr => tbbUsable p ptr
  | .usable .je _ ptr => jeUsable ptr
  | .usable .proxy _ _ => proxyUsable
  | .lastError f _ => .getTls (.alloc f) fun e => .ret { res := e }

/-- What the libraries call back. -/
inductive Hook where
  | rawAlloc (id : Pool) (n : Nat)
  | rawFree (id : Pool) (ptr n : Nat)
  | alloc (a new n al : Nat) (zero : Bool)
  | destroy (a ptr n : Nat)
  | dalloc (a ptr n : Nat)
  | purgeLazy (a addr off len : Nat)
  | purgeForced (a addr off len : Nat)
  | split (a addr n na nb : Nat)
  | merge (a addrA na addrB nb : Nat)
  /-- `arena_extent_commit` (pool_jemalloc.c:151-163) -/
  | commit (a : Nat)
  /-- `arena_extent_decommit` (pool_jemalloc.c:172-184) -/
  | decommit (a : Nat)
deriving DecidableEq, Repr

/-- The policy given to oneTBB (pool_scalable.c:270-276) and `arena_extent_hooks` (pool_jemalloc.c:276-286). -/
def Hook.prog : Hook → Prog
  | .rawAlloc id n => Heap.rawAlloc id n
  | .rawFree id ptr n => Heap.rawFree id ptr n
  | .alloc a new n al zero => extAlloc a new n al zero
  | .destroy a ptr n => extDestroy a ptr n
  | .dalloc a ptr n => extDalloc a ptr n
  | .purgeLazy a addr off len => extPurgeLazy a addr off len
  | .purgeForced a addr off len => extPurgeForced a addr off len
  | .split a addr n na _ => extSplit a addr n na
  | .merge a addrA na addrB nb => extMerge a addrA na addrB nb
  | .commit _ => .ret { val := 0 }
  | .decommit _ => .ret { val := 1 }

end Verif.Heap
