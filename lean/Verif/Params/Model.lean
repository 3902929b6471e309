/-!
# Model of the parameter objects of the providers and pools

The functions `umf…ParamsCreate`, `umf…ParamsDestroy` and `umf…ParamsSet…` of `src/provider/provider_os_memory.c`,
`provider_file_memory.c`, `provider_devdax_memory.c`, `provider_fixed_memory.c`, `provider_level_zero.c`,
`provider_cuda.c`, `src/pool/pool_scalable.c` and `pool_disjoint.c`.

The objects and the copies they own are cells of the heap of the base allocator; the arrays and strings of the caller are
memory of the caller. Null is 0. Using a pointer to no cell, freeing it, reading a field that was never written and
running over the end of a cell or of an array of the caller is undefined: the result is `none`. The answers of the base
allocator are given with each call; an answer that is not the address of a free cell stands for `NULL`. Logging and
`libumfInit` are not modelled. A number of the caller is a `Nat`.
-/
namespace Verif.Params

abbrev Addr := Nat

/-- `umf_result_t`. -/
inductive Res where
  | success | oom | invalidArgument | dependency
deriving DecidableEq, Repr

/-- `umf_os_memory_provider_params_t`, `provider_os_memory.c` (struct in `provider_os_memory_internal.h`). -/
structure OsObj where
  protection : Nat
  visibility : Nat
  shmName : Addr
  numaList : Addr
  numaLen : Nat
  numaMode : Nat
  partSize : Nat
  partitions : Addr
  partitionsLen : Nat
deriving DecidableEq, Repr

/-- `umf_file_memory_provider_params_t`, `provider_file_memory.c`. -/
structure FileObj where
  path : Addr
  protection : Nat
  visibility : Nat
deriving DecidableEq, Repr

/-- `umf_devdax_memory_provider_params_t`, `provider_devdax_memory.c`. -/
structure DaxObj where
  path : Addr
  size : Nat
  protection : Nat
deriving DecidableEq, Repr

/-- `umf_level_zero_memory_provider_params_t`, `provider_level_zero.c`. -/
structure ZeObj where
  context : Nat
  device : Nat
  memoryType : Nat
  resident : Addr
  residentCount : Nat
  freePolicy : Nat
  ordinal : Nat
deriving DecidableEq, Repr

/-- `umf_cuda_memory_provider_params_t`, `provider_cuda.c`. -/
structure CuObj where
  context : Nat
  device : Int
  memoryType : Nat
  flags : Nat
deriving DecidableEq, Repr

/-- `umf_disjoint_pool_params_t`, `pool_disjoint_internal.h:105-138`, with the 64 bytes of the name. -/
structure DjObj where
  slabMinSize : Nat
  maxPoolableSize : Nat
  capacity : Nat
  minBucketSize : Nat
  curPoolSize : Nat
  trace : Int
  limits : Addr
  name : List Nat
deriving DecidableEq, Repr

/-- A block of the base allocator: a new one for a structure, a new one with room for `n` elements, a copy with its
elements, or a structure with its fields. The fixed provider has `ptr` and `size`, the scalable pool `granularity` and
`keep_all_memory`. -/
inductive Cell where
  | rawObj
  | rawArr (n : Nat)
  | arr (l : List Nat)
  | os (o : OsObj)
  | file (o : FileObj)
  | dax (o : DaxObj)
  | fixed (ptr size : Nat)
  | ze (o : ZeObj)
  | cu (o : CuObj)
  | scal (granularity : Nat) (keep : Bool)
  | dj (o : DjObj)
deriving DecidableEq, Repr

/-- The blocks of the base allocator, the memory of the caller, the next answers of the base allocator. -/
structure St where
  heap : Addr → Option Cell
  user : Addr → Option (List Nat)
  ans : List Addr

def upd {α : Type} (f : Addr → α) (a : Addr) (x : α) : Addr → α := fun b => if b = a then x else f b

/-- A piece of code; `none`: undefined behaviour. -/
def M (α : Type) := St → Option (α × St)

instance : Monad M where
  pure a := fun s => some (a, s)
  bind m f := fun s => match m s with
    | none => none
    | some (a, s) => f a s

/-! ## Memory -/

/-- `umf_ba_global_alloc`, seen from its callers. -/
def alloc (c : Cell) : M Addr := fun s =>
  let a := s.ans.headD 0
  if a ≠ 0 ∧ s.heap a = none then some (a, { s with heap := upd s.heap a (some c), ans := s.ans.tail })
  else some (0, { s with ans := s.ans.tail })

/-- `umf_ba_global_free`, seen from its callers. -/
def free (a : Addr) : M Unit := fun s =>
  if a = 0 then some ((), s)
  else match s.heap a with
    | none => none
    | some _ => some ((), { s with heap := upd s.heap a none })

/-- Write the fields of the structure at `a`. -/
def put (a : Addr) (c : Cell) : M Unit := fun s => match s.heap a with
  | none => none
  | some _ => some ((), { s with heap := upd s.heap a (some c) })

/-- `strlen` of a string of the caller. -/
def strlen (p : Addr) : M Nat := fun s => match s.user p with
  | none => none
  | some l => if 0 ∈ l then some (l.idxOf 0, s) else none

/-- The first `n` bytes that `strncpy` writes for a source `l`: `l` up to its zero, then zeros. -/
def strn (n : Nat) (l : List Nat) : List Nat :=
  let t := (l.takeWhile (· ≠ 0)).take n
  t ++ List.replicate (n - t.length) 0

/-- What `strncpy` of `n` bytes reads: a string, or an array of `n` bytes or more. -/
def source (src : Addr) (n : Nat) : M (List Nat) := fun s => match s.user src with
  | some l => if 0 ∈ l ∨ n ≤ l.length then some (l, s) else none
  | none => none

/-- `strncpy` to a new block from a string of the caller. -/
def strncpy (dst src : Addr) (n : Nat) : M Unit := fun s => match s.heap dst, s.user src with
  | some (.rawArr m), some l =>
    if n ≤ m ∧ (0 ∈ l ∨ n ≤ l.length) then some ((), { s with heap := upd s.heap dst (some (.arr (strn n l))) }) else none
  | _, _ => none

/-- `memcpy` to a new block from an array of the caller. -/
def memcpy (dst src : Addr) (n : Nat) : M Unit := fun s => match s.heap dst, s.user src with
  | some (.rawArr m), some l =>
    if n ≤ m ∧ n ≤ l.length then some ((), { s with heap := upd s.heap dst (some (.arr (l.take n))) }) else none
  | _, _ => none

/-! Reading the fields of a structure. -/

def getOs (h : Addr) : M OsObj := fun s => match s.heap h with
  | some (.os o) => some (o, s)
  | _ => none
def getFile (h : Addr) : M FileObj := fun s => match s.heap h with
  | some (.file o) => some (o, s)
  | _ => none
def getDax (h : Addr) : M DaxObj := fun s => match s.heap h with
  | some (.dax o) => some (o, s)
  | _ => none
def getZe (h : Addr) : M ZeObj := fun s => match s.heap h with
  | some (.ze o) => some (o, s)
  | _ => none
def getCu (h : Addr) : M CuObj := fun s => match s.heap h with
  | some (.cu o) => some (o, s)
  | _ => none
def getScal (h : Addr) : M (Nat × Bool) := fun s => match s.heap h with
  | some (.scal g k) => some ((g, k), s)
  | _ => none
def getDj (h : Addr) : M DjObj := fun s => match s.heap h with
  | some (.dj o) => some (o, s)
  | _ => none

/-- What a function returns, and the handle it writes through `hParams` (0: it writes none). -/
abbrev Out := Res × Addr

def ok : M Out := pure (.success, 0)
def bad : M Out := pure (.invalidArgument, 0)
def noMem : M Out := pure (.oom, 0)

/-! ## OS provider, `provider_os_memory.c` -/

/-- `umfOsMemoryProviderParamsCreate`, 1566-1594. `out`: `hParams` is not `NULL`. `UMF_PROTECTION_READ |
UMF_PROTECTION_WRITE` is 6, `UMF_MEM_MAP_PRIVATE` 1, `UMF_NUMA_MODE_DEFAULT` 0. -/
def osCreate (out : Bool) : M Out :=
  if out = false then bad
  else do
    let p ← alloc .rawObj
    if p = 0 then noMem
    else do
      put p (.os ⟨6, 1, 0, 0, 0, 0, 0, 0, 0⟩)
      pure (.success, p)

/-- `umfOsMemoryProviderParamsDestroy`, 1596-1607. -/
def osDestroy (h : Addr) : M Out := do
  if h ≠ 0 then do
    let o ← getOs h
    free o.shmName
    free o.numaList
    free o.partitions
  free h
  ok

/-- `umfOsMemoryProviderParamsSetProtection`, 1609-1619. -/
def osSetProtection (h v : Nat) : M Out :=
  if h = 0 then bad
  else do
    let o ← getOs h
    put h (.os { o with protection := v })
    ok

/-- `umfOsMemoryProviderParamsSetVisibility`, 1621-1632. -/
def osSetVisibility (h v : Nat) : M Out :=
  if h = 0 then bad
  else do
    let o ← getOs h
    put h (.os { o with visibility := v })
    ok

/-- `umfOsMemoryProviderParamsSetShmName`, 1634-1656. -/
def osSetShmName (h : Addr) (name : Addr) : M Out :=
  if h = 0 then bad
  else if name = 0 then do
    let o ← getOs h
    free o.shmName
    put h (.os { o with shmName := 0 })
    ok
  else do
    let len ← strlen name
    let p ← alloc (.rawArr (len + 1))
    if p = 0 then noMem
    else do
      strncpy p name (len + 1)
      let o ← getOs h
      free o.shmName
      put h (.os { o with shmName := p })
      ok

/-- `umfOsMemoryProviderParamsSetNumaList`, 1658-1687. -/
def osSetNumaList (h : Addr) (list : Addr) (len : Nat) : M Out :=
  if h = 0 then bad
  else if len ≠ 0 ∧ list = 0 then bad
  else if len = 0 then do
    let o ← getOs h
    free o.numaList
    put h (.os { o with numaList := 0, numaLen := len })
    ok
  else do
    let p ← alloc (.rawArr len)
    if p = 0 then noMem
    else do
      memcpy p list len
      let o ← getOs h
      free o.numaList
      put h (.os { o with numaList := p, numaLen := len })
      ok

/-- `umfOsMemoryProviderParamsSetNumaMode`, 1689-1699. -/
def osSetNumaMode (h v : Nat) : M Out :=
  if h = 0 then bad
  else do
    let o ← getOs h
    put h (.os { o with numaMode := v })
    ok

/-- `umfOsMemoryProviderParamsSetPartSize`, 1701-1711. -/
def osSetPartSize (h v : Nat) : M Out :=
  if h = 0 then bad
  else do
    let o ← getOs h
    put h (.os { o with partSize := v })
    ok

/-- `umfOsMemoryProviderParamsSetPartitions`, 1713-1744. A partition is two numbers, weight and target. -/
def osSetPartitions (h : Addr) (parts : Addr) (len : Nat) : M Out :=
  if h = 0 then bad
  else if len ≠ 0 ∧ parts = 0 then bad
  else if len = 0 then do
    let o ← getOs h
    free o.partitions
    put h (.os { o with partitions := 0, partitionsLen := len })
    ok
  else do
    let p ← alloc (.rawArr (len * 2))
    if p = 0 then noMem
    else do
      memcpy p parts (len * 2)
      let o ← getOs h
      free o.partitions
      put h (.os { o with partitions := p, partitionsLen := len })
      ok

/-! ## File provider, `provider_file_memory.c` -/

/-- `umfFileMemoryProviderParamsSetPath`, 923-955. -/
def fileSetPath (h : Addr) (path : Addr) : M Out :=
  if h = 0 then bad
  else if path = 0 then bad
  else do
    let len ← strlen path
    if len = 0 then bad
    else do
      let p ← alloc (.rawArr (len + 1))
      if p = 0 then noMem
      else do
        strncpy p path (len + 1)
        let o ← getFile h
        free o.path
        put h (.file { o with path := p })
        ok

/-- `umfFileMemoryProviderParamsCreate`, 878-911. -/
def fileCreate (out : Bool) (path : Addr) : M Out :=
  if out = false then bad
  else if path = 0 then bad
  else do
    let p ← alloc .rawObj
    if p = 0 then noMem
    else do
      put p (.file ⟨0, 6, 1⟩)
      let r ← fileSetPath p path
      if r.1 ≠ .success then do
        free p
        pure (r.1, 0)
      else pure (.success, p)

/-- `umfFileMemoryProviderParamsDestroy`, 913-921. -/
def fileDestroy (h : Addr) : M Out :=
  if h ≠ 0 then do
    let o ← getFile h
    free o.path
    free h
    ok
  else ok

/-- `umfFileMemoryProviderParamsSetProtection`, 957-967. -/
def fileSetProtection (h v : Nat) : M Out :=
  if h = 0 then bad
  else do
    let o ← getFile h
    put h (.file { o with protection := v })
    ok

/-- `umfFileMemoryProviderParamsSetVisibility`, 969-980. -/
def fileSetVisibility (h v : Nat) : M Out :=
  if h = 0 then bad
  else do
    let o ← getFile h
    put h (.file { o with visibility := v })
    ok

/-! ## Devdax provider, `provider_devdax_memory.c` -/

/-- `umfDevDaxMemoryProviderParamsSetDeviceDax`, 604-638. -/
def daxSet (h : Addr) (path : Addr) (size : Nat) : M Out :=
  if h = 0 then bad
  else if path = 0 then bad
  else do
    let len ← strlen path
    if len = 0 then bad
    else do
      let p ← alloc (.rawArr (len + 1))
      if p = 0 then noMem
      else do
        strncpy p path (len + 1)
        let o ← getDax h
        free o.path
        put h (.dax { o with path := p, size := size })
        ok

/-- `umfDevDaxMemoryProviderParamsCreate`, 556-592. -/
def daxCreate (out : Bool) (path : Addr) (size : Nat) : M Out :=
  if out = false then bad
  else if path = 0 then bad
  else do
    let p ← alloc .rawObj
    if p = 0 then noMem
    else do
      put p (.dax ⟨0, 0, 6⟩)
      let r ← daxSet p path size
      if r.1 ≠ .success then do
        free p
        pure (r.1, 0)
      else pure (.success, p)

/-- `umfDevDaxMemoryProviderParamsDestroy`, 594-602. -/
def daxDestroy (h : Addr) : M Out :=
  if h ≠ 0 then do
    let o ← getDax h
    free o.path
    free h
    ok
  else ok

/-- `UMF_PROTECTION_MAX`, `include/umf/memory_provider.h:27-35`. -/
def PROTECTION_MAX : BitVec 32 := 9

/-- `umfDevDaxMemoryProviderParamsSetProtection`, 640-660. -/
def daxSetProtection (h : Addr) (v : BitVec 32) : M Out :=
  if h = 0 then bad
  else if v &&& ~~~(((PROTECTION_MAX - 1) <<< 1) - 1) ≠ 0 ∨ v = 0 then bad
  else do
    let o ← getDax h
    put h (.dax { o with protection := v.toNat })
    ok

/-! ## Fixed provider, `provider_fixed_memory.c` -/

/-- `umfFixedMemoryProviderParamsSetMemory`, 316-337. -/
def fixedSet (h : Addr) (ptr size : Nat) : M Out :=
  if h = 0 then bad
  else if ptr = 0 then bad
  else if size = 0 then bad
  else do
    put h (.fixed ptr size)
    ok

/-- `umfFixedMemoryProviderParamsCreate`, 280-305. -/
def fixedCreate (out : Bool) (ptr size : Nat) : M Out :=
  if out = false then bad
  else do
    let p ← alloc .rawObj
    if p = 0 then noMem
    else do
      let r ← fixedSet p ptr size
      if r.1 ≠ .success then do
        free p
        pure (r.1, 0)
      else pure (.success, p)

/-- `umfFixedMemoryProviderParamsDestroy`, 307-314. -/
def fixedDestroy (h : Addr) : M Out :=
  if h ≠ 0 then do
    free h
    ok
  else ok

/-! ## Level Zero provider, `provider_level_zero.c` -/

/-- `umfLevelZeroMemoryProviderParamsCreate`, 272-299. `UMF_MEMORY_TYPE_UNKNOWN` and the default policy are 0. -/
def zeCreate (out : Bool) : M Out :=
  if out = false then bad
  else do
    let p ← alloc .rawObj
    if p = 0 then noMem
    else do
      put p (.ze ⟨0, 0, 0, 0, 0, 0, 0⟩)
      pure (.success, p)

/-- `umfLevelZeroMemoryProviderParamsDestroy`, 301-306. -/
def zeDestroy (h : Addr) : M Out := do
  free h
  ok

/-- `umfLevelZeroMemoryProviderParamsSetContext`, 308-324. -/
def zeSetContext (h v : Nat) : M Out :=
  if h = 0 then bad
  else if v = 0 then bad
  else do
    let o ← getZe h
    put h (.ze { o with context := v })
    ok

/-- `umfLevelZeroMemoryProviderParamsSetDevice`, 326-337. -/
def zeSetDevice (h v : Nat) : M Out :=
  if h = 0 then bad
  else do
    let o ← getZe h
    put h (.ze { o with device := v })
    ok

/-- `umfLevelZeroMemoryProviderParamsSetMemoryType`, 339-350. -/
def zeSetMemoryType (h v : Nat) : M Out :=
  if h = 0 then bad
  else do
    let o ← getZe h
    put h (.ze { o with memoryType := v })
    ok

/-- `umfLevelZeroMemoryProviderParamsSetDeviceOrdinal`, 352-362. -/
def zeSetOrdinal (h v : Nat) : M Out :=
  if h = 0 then bad
  else do
    let o ← getZe h
    put h (.ze { o with ordinal := v })
    ok

/-- `umfLevelZeroMemoryProviderParamsSetResidentDevices`, 364-381: the pointer is kept, the array is not copied. -/
def zeSetResident (h : Addr) (devs : Addr) (n : Nat) : M Out :=
  if h = 0 then bad
  else if n ≠ 0 ∧ devs = 0 then bad
  else do
    let o ← getZe h
    put h (.ze { o with resident := devs, residentCount := n })
    ok

/-- `umfLevelZeroMemoryProviderParamsSetFreePolicy`, 383-393. -/
def zeSetPolicy (h v : Nat) : M Out :=
  if h = 0 then bad
  else do
    let o ← getZe h
    put h (.ze { o with freePolicy := v })
    ok

/-! ## CUDA provider, `provider_cuda.c` -/

/-- `umfCUDAMemoryProviderParamsCreate`, 254-298. `loaded`: the CUDA library was found; `ctx`, `dev`: the current context
and device, if the driver tells. -/
def cuCreate (out loaded : Bool) (ctx : Option Nat) (dev : Option Int) : M Out :=
  if out = false then bad
  else do
    let p ← alloc .rawObj
    if p = 0 then noMem
    else if loaded = false then pure (.dependency, 0)
    else do
      put p (.cu ⟨ctx.getD 0, dev.getD (-1), 0, 0⟩)
      pure (.success, p)

/-- `umfCUDAMemoryProviderParamsDestroy`, 300-305. -/
def cuDestroy (h : Addr) : M Out := do
  free h
  ok

/-- `umfCUDAMemoryProviderParamsSetContext`, 307-317. -/
def cuSetContext (h v : Nat) : M Out :=
  if h = 0 then bad
  else do
    let o ← getCu h
    put h (.cu { o with context := v })
    ok

/-- `umfCUDAMemoryProviderParamsSetDevice`, 319-329. -/
def cuSetDevice (h : Addr) (v : Int) : M Out :=
  if h = 0 then bad
  else do
    let o ← getCu h
    put h (.cu { o with device := v })
    ok

/-- `umfCUDAMemoryProviderParamsSetMemoryType`, 331-342. -/
def cuSetMemoryType (h v : Nat) : M Out :=
  if h = 0 then bad
  else do
    let o ← getCu h
    put h (.cu { o with memoryType := v })
    ok

/-- `umfCUDAMemoryProviderParamsSetAllocFlags`, 344-354. -/
def cuSetFlags (h v : Nat) : M Out :=
  if h = 0 then bad
  else do
    let o ← getCu h
    put h (.cu { o with flags := v })
    ok

/-! ## Scalable pool, `pool_scalable.c` -/

/-- `umfScalablePoolParamsCreate`, 202-223; `DEFAULT_GRANULARITY` (38) is 2 MB. -/
def scalCreate (out : Bool) : M Out :=
  if out = false then bad
  else do
    let p ← alloc .rawObj
    if p = 0 then noMem
    else do
      put p (.scal (2 * 1024 * 1024) false)
      pure (.success, p)

/-- `umfScalablePoolParamsDestroy`, 225-235. -/
def scalDestroy (h : Addr) : M Out :=
  if h = 0 then bad
  else do
    free h
    ok

/-- `umfScalablePoolParamsSetGranularity`, 237-253. -/
def scalSetGranularity (h v : Nat) : M Out :=
  if h = 0 then bad
  else if v = 0 then bad
  else do
    let o ← getScal h
    put h (.scal v o.2)
    ok

/-- `umfScalablePoolParamsSetKeepAllMemory`, 255-266. -/
def scalSetKeep (h : Addr) (v : Bool) : M Out :=
  if h = 0 then bad
  else do
    let o ← getScal h
    put h (.scal o.1 v)
    ok

/-! ## Disjoint pool, `pool_disjoint.c` -/

/-- `sizeof(hParams->name)`, `pool_disjoint_internal.h:137`. -/
def NAME_SIZE : Nat := 64

/-- The letters of `"disjoint_pool"`, `pool_disjoint.c:968`. -/
def DEFAULT_NAME : List Nat := [100, 105, 115, 106, 111, 105, 110, 116, 95, 112, 111, 111, 108]

/-- `umfDisjointPoolParamsCreate`, 966-996: `.name = {*DEFAULT_NAME}` sets the first byte, the others are 0. The default
bucket size is 8. -/
def djCreate (out : Bool) : M Out :=
  if out = false then bad
  else do
    let p ← alloc .rawObj
    if p = 0 then noMem
    else do
      put p (.dj ⟨0, 0, 0, 8, 0, 0, 0, DEFAULT_NAME.take 1 ++ List.replicate (NAME_SIZE - 1) 0⟩)
      pure (.success, p)

/-- `umfDisjointPoolParamsDestroy`, 998-1006, while the base allocator exists. -/
def djDestroy (h : Addr) : M Out :=
  if h ≠ 0 then do
    free h
    ok
  else ok

/-- `umfDisjointPoolParamsSetSlabMinSize`, 1008-1018. -/
def djSetSlabMinSize (h v : Nat) : M Out :=
  if h = 0 then bad
  else do
    let o ← getDj h
    put h (.dj { o with slabMinSize := v })
    ok

/-- `umfDisjointPoolParamsSetMaxPoolableSize`, 1020-1029. -/
def djSetMaxPoolableSize (h v : Nat) : M Out :=
  if h = 0 then bad
  else do
    let o ← getDj h
    put h (.dj { o with maxPoolableSize := v })
    ok

/-- `umfDisjointPoolParamsSetCapacity`, 1031-1041. -/
def djSetCapacity (h v : Nat) : M Out :=
  if h = 0 then bad
  else do
    let o ← getDj h
    put h (.dj { o with capacity := v })
    ok

/-- `umfDisjointPoolParamsSetMinBucketSize`, 1043-1059. -/
def djSetMinBucketSize (h v : Nat) : M Out :=
  if h = 0 then bad
  else if v = 0 ∨ v &&& (v - 1) ≠ 0 then bad
  else do
    let o ← getDj h
    put h (.dj { o with minBucketSize := v })
    ok

/-- `umfDisjointPoolParamsSetTrace`, 1061-1071. -/
def djSetTrace (h : Addr) (v : Int) : M Out :=
  if h = 0 then bad
  else do
    let o ← getDj h
    put h (.dj { o with trace := v })
    ok

/-- `umfDisjointPoolParamsSetSharedLimits`, 1073-1083. -/
def djSetLimits (h v : Nat) : M Out :=
  if h = 0 then bad
  else do
    let o ← getDj h
    put h (.dj { o with limits := v })
    ok

/-- `umfDisjointPoolParamsSetName`, 1085-1095: `strncpy` of `sizeof(name) - 1` bytes. -/
def djSetName (h : Addr) (name : Addr) : M Out :=
  if h = 0 then bad
  else do
    let l ← source name (NAME_SIZE - 1)
    let o ← getDj h
    put h (.dj { o with name := strn (NAME_SIZE - 1) l ++ o.name.drop (NAME_SIZE - 1) })
    ok

/-! ## Histories -/

/-- A call, or the caller changing or giving back its own memory. -/
inductive Op where
  | osCreate (out : Bool) | osDestroy (h : Addr) | osSetProtection (h v : Nat) | osSetVisibility (h v : Nat)
  | osSetShmName (h name : Addr) | osSetNumaList (h list : Addr) (len : Nat) | osSetNumaMode (h v : Nat)
  | osSetPartSize (h v : Nat) | osSetPartitions (h parts : Addr) (len : Nat)
  | fileCreate (out : Bool) (path : Addr) | fileDestroy (h : Addr) | fileSetPath (h path : Addr)
  | fileSetProtection (h v : Nat) | fileSetVisibility (h v : Nat)
  | daxCreate (out : Bool) (path : Addr) (size : Nat) | daxDestroy (h : Addr) | daxSet (h path : Addr) (size : Nat)
  | daxSetProtection (h : Addr) (v : BitVec 32)
  | fixedCreate (out : Bool) (ptr size : Nat) | fixedDestroy (h : Addr) | fixedSet (h ptr size : Nat)
  | zeCreate (out : Bool) | zeDestroy (h : Addr) | zeSetContext (h v : Nat) | zeSetDevice (h v : Nat)
  | zeSetMemoryType (h v : Nat) | zeSetOrdinal (h v : Nat) | zeSetResident (h devs : Addr) (n : Nat)
  | zeSetPolicy (h v : Nat)
  | cuCreate (out loaded : Bool) (ctx : Option Nat) (dev : Option Int) | cuDestroy (h : Addr)
  | cuSetContext (h v : Nat) | cuSetDevice (h : Addr) (v : Int) | cuSetMemoryType (h v : Nat) | cuSetFlags (h v : Nat)
  | scalCreate (out : Bool) | scalDestroy (h : Addr) | scalSetGranularity (h v : Nat) | scalSetKeep (h : Addr) (v : Bool)
  | djCreate (out : Bool) | djDestroy (h : Addr) | djSetSlabMinSize (h v : Nat) | djSetMaxPoolableSize (h v : Nat)
  | djSetCapacity (h v : Nat) | djSetMinBucketSize (h v : Nat) | djSetTrace (h : Addr) (v : Int)
  | djSetLimits (h v : Nat) | djSetName (h name : Addr)
  | write (a : Addr) (l : List Nat) | giveBack (a : Addr)
deriving DecidableEq

/-- The code of a call. -/
def Op.code : Op → M Out
  | .osCreate out => Params.osCreate out
  | .osDestroy h => Params.osDestroy h
  | .osSetProtection h v => Params.osSetProtection h v
  | .osSetVisibility h v => Params.osSetVisibility h v
  | .osSetShmName h p => Params.osSetShmName h p
  | .osSetNumaList h p n => Params.osSetNumaList h p n
  | .osSetNumaMode h v => Params.osSetNumaMode h v
  | .osSetPartSize h v => Params.osSetPartSize h v
  | .osSetPartitions h p n => Params.osSetPartitions h p n
  | .fileCreate out p => Params.fileCreate out p
  | .fileDestroy h => Params.fileDestroy h
  | .fileSetPath h p => Params.fileSetPath h p
  | .fileSetProtection h v => Params.fileSetProtection h v
  | .fileSetVisibility h v => Params.fileSetVisibility h v
  | .daxCreate out p n => Params.daxCreate out p n
  | .daxDestroy h => Params.daxDestroy h
  | .daxSet h p n => Params.daxSet h p n
  | .daxSetProtection h v => Params.daxSetProtection h v
  | .fixedCreate out p n => Params.fixedCreate out p n
  | .fixedDestroy h => Params.fixedDestroy h
  | .fixedSet h p n => Params.fixedSet h p n
  | .zeCreate out => Params.zeCreate out
  | .zeDestroy h => Params.zeDestroy h
  | .zeSetContext h v => Params.zeSetContext h v
  | .zeSetDevice h v => Params.zeSetDevice h v
  | .zeSetMemoryType h v => Params.zeSetMemoryType h v
  | .zeSetOrdinal h v => Params.zeSetOrdinal h v
  | .zeSetResident h p n => Params.zeSetResident h p n
  | .zeSetPolicy h v => Params.zeSetPolicy h v
  | .cuCreate out l c d => Params.cuCreate out l c d
  | .cuDestroy h => Params.cuDestroy h
  | .cuSetContext h v => Params.cuSetContext h v
  | .cuSetDevice h v => Params.cuSetDevice h v
  | .cuSetMemoryType h v => Params.cuSetMemoryType h v
  | .cuSetFlags h v => Params.cuSetFlags h v
  | .scalCreate out => Params.scalCreate out
  | .scalDestroy h => Params.scalDestroy h
  | .scalSetGranularity h v => Params.scalSetGranularity h v
  | .scalSetKeep h v => Params.scalSetKeep h v
  | .djCreate out => Params.djCreate out
  | .djDestroy h => Params.djDestroy h
  | .djSetSlabMinSize h v => Params.djSetSlabMinSize h v
  | .djSetMaxPoolableSize h v => Params.djSetMaxPoolableSize h v
  | .djSetCapacity h v => Params.djSetCapacity h v
  | .djSetMinBucketSize h v => Params.djSetMinBucketSize h v
  | .djSetTrace h v => Params.djSetTrace h v
  | .djSetLimits h v => Params.djSetLimits h v
  | .djSetName h p => Params.djSetName h p
  | .write a l => fun s => some ((.success, 0), { s with user := upd s.user a (some l) })
  | .giveBack a => fun s => some ((.success, 0), { s with user := upd s.user a none })

/-- One step: the answers of the base allocator for it are `ans`. -/
def step (s : St) (op : Op) (ans : List Addr) : Option (Out × St) := op.code { s with ans := ans }

/-- Nothing exists. -/
def init : St := ⟨fun _ => none, fun _ => none, []⟩

/-! ## What a provider or pool made from the parameters reads -/

/-- The elements of a copy. -/
def readArr (s : St) (p : Addr) (n : Nat) : Option (List Nat) :=
  if n = 0 then some []
  else match s.heap p with
    | some (.arr l) => if n ≤ l.length then some (l.take n) else none
    | _ => none

/-- A string of which a copy was made; `some none`: there is none. -/
def readStr (s : St) (p : Addr) : Option (Option (List Nat)) :=
  if p = 0 then some none
  else match s.heap p with
    | some (.arr l) => if 0 ∈ l then some (some (l.takeWhile (· ≠ 0))) else none
    | _ => none

/-- The elements of an array of the caller. -/
def readUser (s : St) (p : Addr) (n : Nat) : Option (List Nat) :=
  if n = 0 then some []
  else match s.user p with
    | some l => if n ≤ l.length then some (l.take n) else none
    | none => none

end Verif.Params
