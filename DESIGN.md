# Formal model of unified-memory-framework (UMF) in Lean 4

`properties.jsonl` lists the properties in English, `lean/Verif/` holds the
model and the proofs, `MANIFEST.json` maps properties to theorems,
`seeded/LOG.jsonl` records the wrong-program experiments.

## Layout

For each subsystem `X`:

* `Verif/X/Model.lean` – the code, function by function; every definition cites
  the file and lines of `/repo` it models and states its simplifications.
* `Verif/X/Spec.lean` (where useful) – the small vocabulary used to state the
  properties; it does not use the model's helpers.
* `Verif/X/Lemmas*.lean` – helper lemmas.
* `Verif/X/Props.lean` – the property theorems, each with a non-vacuity
  `example`.

`Verif/Mem.lean` is the vocabulary for byte ranges. Subsystems with several parts
(`BaseAlloc`) name the files after the part: `Fixed`, `FixedProps`, and so on.

## Modelling conventions

* `Nat` for sizes and addresses unless the property is about 64-bit wrap-around;
  there arithmetic is written explicitly modulo 2^64 (or `BitVec 64`).
* Undefined behaviour (null dereference, use after free, a failed `assert` that
  a release build compiles out and that would then corrupt memory) is a distinct
  outcome (`ub`), not an assumed-away case.
* OS calls, upstream providers, host allocation failure, user callbacks: parameters
  (an oracle supplying the outcome of each call). What is assumed about them is
  listed in "Trusted base".
* Concurrency: interleaving semantics over atomic steps (each atomic operation of
  the source one step), arbitrary numbers of threads, sequentially consistent
  memory. Weak-memory effects are outside the model.
* Where the unchanged code violates a property: a witness theorem `…_violated`
  proves the negation, and a `…_partial` theorem proves the strongest part found
  true, under explicit hypotheses.

## Plan per property

| id | model | proof |
|----|-------|-------|
| C01 | coarse allocator: block list by address, free lists by size, exactly the two indexes of coarse.c; callbacks and host allocation outcomes are oracle inputs | invariant by induction over operation histories |
| C02 | same | decision logic on top of the invariant |
| C03 | same, counters as stored fields | invariant |
| C04 | same | invariant "partition" and "no two adjacent mergeable free blocks" |
| C05 | same, with host-allocation failures as explicit oracle outcomes | success of callbacks: state equality; host OOM: witness of violation |
| C06 | same, and the tree of doubly linked lists below it (`Coarse/IndexModel`) | decision logic on the free-list search; refinement of the linked structure to the list |
| C07 | same | refinement to set-of-ranges |
| C08 | ravl as an inductive tree with ranks, functions as in ravl.c | refinement to a sorted list |
| C09 | same | rank invariant by induction over insertions; size ≥ fib-like bound |
| C10 | critnib as an inductive radix tree over 64-bit keys (nibble path), sequential | refinement to a partial map |
| C11 | same | exactness by induction over the tree |
| C12 | same | witness of violation + partial theorem |
| C13 | critnib as memory with node identities, free lists and pending items; readers' program counters, one store or load per step, all interleavings | labelled invariant kept by every store, history argument for readers (fewer than 16 removals keep memory from reuse); witness for find_le |
| C14–C16 | tracker: list of level maps, upstream provider as oracle | invariant + refinement to "innermost region" |
| C17 | IPC cache: global LRU list, per-cache tables, reference counts | invariant + witness |
| C18 | ipc.c on top of tracker and provider mapping function | round trip |
| C19–C21 | base allocators | invariant; arithmetic modulo 2^64 for the metadata word |
| C22–C26 | disjoint pool: buckets, slabs, bitmaps, limits; shared limits as interleaved atomic steps | arithmetic, invariant, interleaving induction, witness |
| C23–C26, C67 | the disjoint pool again, with slab objects, locks, map history and one shared access per step of a thread (`Disjoint/Conc*`) | invariant with ghost positions of allocations, kept by every step of every thread; history argument for the lookup; rank for termination; witness |
| C68 | initialize and finalize of the OS, file, devdax and fixed providers, `coarse_new`, `coarse_delete`, `umfMemoryProviderCreate`, `umfMemoryProviderDestroy` as lists of objects made and released (`CpuProv/`) | all failures as inputs; invariant over histories of any number of providers; witnesses for the excluded cases |
| C69 | the IPC functions of the OS, file and devdax providers, `utils_mmap`, `utils_mmap_file`, `utils_align_ptr_down_size_up`, `utils_shm_create` over a machine of processes, descriptors, names and mappings (`CpuIpc/`) | the kernel's answers as inputs; invariant over histories of any number of processes: open handles are at different addresses and show the recorded bytes; witnesses for the excluded cases |
| C70 | the disjoint pool, the tracker, the tracking provider, the fixed provider and the coarse allocator put together, with any number of providers and pools (`Stack/`) | simulation: each pool's part of the system is a `Disjoint.Reach` state whose provider answers satisfy `EnvOk`, because the coarse invariant and the tracker invariant hold of the rest; then the claims of the single layers carry over and cross-pool claims follow from the disjointness of the ranges the pools hold |
| C71 | the thread-local error records of the four CPU providers, every function that writes them or returns the provider specific error, the query functions on a bounded buffer (`Native/`) | answers of the system as inputs; the record after a failing call is the one its cause demands; induction over histories of all threads; witnesses for the excluded cases |
| C72 | all functions on parameter objects of six providers and two pools, over a heap of the base allocator and the memory of the caller (`Params/`) | simulation of a table of objects with their values; every call is defined, induction over histories; witnesses for the excluded cases |
| C73 | pools, buckets, slabs, limits, bucket arrays as blocks that point to each other, `utlist` lists pointer by pointer, memory of the provider (`DjHost/`) | shape invariant (each list of a bucket is the ring-less doubly linked list of its slabs, ownership, counts of live allocations), preserved by every function; every read, write and free is checked by the model |
| C74 | the nodes of `ravl.c` as blocks with parent and child pointers (`RavlMem/`) | the memory represents a tree of C08 whose data carries the node's address; every function refines the function on trees; the memory is determined by the tree, so no node leaks |
| C75 | `ipc_cache.c` with the macros of `uthash.h` and `utlist.h` it uses: entries, tables, bucket arrays and caches as blocks with pointers (`IpcMem/`) | invariant: the doubly linked list, each table's list, and each bucket's chain hold the entries of the abstract model of C17; every call refines it; the hash function is a parameter |
| C76 | `coarse.c` with its own memory: block descriptors, list elements, list heads and the nodes of the two trees as blocks with pointers, on top of the tree of C74 (`CoarseMem/`) | invariant: the tree of blocks holds one node per descriptor, the tree of sizes one node per head, each list is a doubly linked chain of the listed blocks of that size; preserved by every call for every pattern of refusals |
| C77 | the pointer model of C76 (`CoarseMem/Model.lean`) against the list model of C01-C07 (`Coarse/Model.lean`); `CoarseMem/RefSpec.lean` says when two lists show a memory and keeps the users' books | refinement: every call on the memory gives the same result and address as the call on the lists, and the lists show the memory again; the properties of C01-C07 follow for the pointer code |
| C78 | the interleaving model of C13 (`Critnib/ConcModel.lean`) with `critnib_delete` (`Critnib/DelModel.lean`), where reading or freeing what is not handed out is undefined; `Critnib/DelSpec.lean` lists what a reader holds | an invariant that accounts for every node and leaf obtained (in the tree, in a free list, or pending); pointer validity through every single store; counting of nodes against leaves |
| C79 | step machine of `umfGetIPCHandle`, `trackingGetIpcHandle`, `trackingFree` and `umfPutIPCHandle` for any number of threads (`IpcExp/Model.lean`); using a freed block, writing past a block, or putting an upstream handle back that is not out is an outcome of its own; `IpcExp/Spec.lean` has the rules for callers and what they are given | invariant: every block and every upstream handle has one owner (cache, thread, user); regions being exported and regions being freed are apart; rank for the number of steps |
| C80 | `ctl_query`, `ctl_find_node`, `ctl_parse_args`, the executors, `ctl_parse_query` and the three loaders on blocks of bytes (`CtlMem/Model.lean`): `strtok_r` writes null bytes into buffers, blocks are allocated and freed, any allocation may be refused, handlers write over their argument text; an access outside a block or to a freed one, or a second free, is an outcome of its own (`none`); `CtlMem/Spec.lean` says what is stored where and what may be left | lemmas about `strtok_r` in a buffer against splitting of lists; a relation between the memory before and after (new blocks are the entries that leak, old blocks are as before); refinement to the model of C38 and C39 |
| C81 | the queries of attributes against a machine given as a list of nodes, and the pointer, the once flag and the live topologies of `topology.c` (`Topo/Model.lean`); `Topo/Spec.lean` says which answer is right | case distinction against the specification; invariant over histories of uses and shut-downs |
| C82 | the functions of `provider_tracking.c` on maps of addresses, with the blocks of the base allocator that are allocated and what they hold; using a block that is not allocated is undefined (`TrkMem/Model.lean`) | invariant with the blocks in hand; simulation of the tracker of regions (`Tracker/Model.lean`), so that C14 to C16 hold of the entries in memory |
| C83 | the start-up of the proxy library as a function of the environment variables and of what is refused; `strstr`, `isdigit` and `atol` on lists of characters, undefined where the C standard leaves them undefined (`ProxyOpt/Model.lean`) | the first occurrence of an option in a documented list is its first item; the digits read by `atol` are the number |
| C84 | the cache of exported handles of a tracking provider with splits, merges and destruction, the blocks of its values and the upstream handles that are out; using a block that is not in use is undefined (`IpcEnd/Model.lean`) | invariant over all histories: blocks, cache and upstream handles correspond one to one; cached bases are bases of regions |
| C85 | `check_if_tracker_is_empty` on the entries of C82, reading freed entries is undefined (`TrkMem/LeftModel.lean`) | the loop over one level counts the entries above the last key, by induction on how many there are; entries are in one level only |
| C86 | the pool interface of `memory_pool.c` with the caller's tables in changeable memory; a creation is two events so that its `initialize` may do anything else in between (`PoolApi/Model.lean`) | what a pool holds is unchanged by all events but its own end, by induction over histories; the theorems speak about the history only |
| C87 | policies as blocks whose union has two words, the caller's arrays in changeable memory, and how a provider reads a policy (`PolicyMem/Model.lean`) | what a policy holds is unchanged by all events but its own, by induction over histories; witnesses |
| C88 | the tracking provider's functions that only call the provider below, and the public functions they call (`TrkPass/Model.lean`) | induction on the tower of tracking providers; every provider a program can have has one, by induction on how providers are created and destroyed |
| C89 | `memspace.c` and `memtarget_numa.c` from the memspace to the OS provider, with every temporary block on a heap, any allocation refused (`FromSpace/`) | the heap after each path is computed; the settings are compared with a separate table of what is wanted |
| C90 | the functions of `src/utils` that open descriptors, as programs of system calls over a relation of what the kernel may answer, with anything done by others before each call (`Files/`) | inversion of the runs; the descriptors that the call has opened are counted; witnesses |
| C27 | mmap_aligned over an abstract kernel | decision logic modulo 2^64, witness for overflow |
| C28, C29 | membind iteration as in nextBind/membindFirst/membindNext | loop invariants |
| C30 | statistics counters as interleaved atomic steps | interleaving induction |
| C31 | file/OS fd-offset bookkeeping | witness + partial |
| C32, C33 | `Verif.Api`: operation tables as functions, calls of user functions recorded, thread-local variable per thread | decision logic, induction over call histories |
| C34 | `Verif.Api.Pool`: creation and destruction as lists of objects made and released, every step may fail | induction over histories of any number of pools, witnesses |
| C35 | tracker, as C14 | decision logic |
| C36, C37 | memspace as list with allocation oracle and freed-handle tracking (`Memspace/`); best targets over an arbitrary table of attributes | refinement to ordered set, invariant over all histories, witnesses |
| C50 | once flag and value of a predefined memspace (`Memspace/Model.lean`) | induction over requests, shut-downs; witnesses |
| C51 | parameters from memspace and policy, translation to hwloc calls (`Policy/`) | composition with C28 and C29; witness |
| C38, C39 | ctl tree, name, configuration and argument parsers over character lists (`Ctl`) | refinement to path lookup and to the parts of a text, witnesses |
| C40 | `Verif.Log`: utils_parse_var and utils_log_init over character lists | refinement to items of the list, witness |
| C49 | `Verif.Log`: utils_log_internal with buffer positions and remaining sizes | closed form of the buffer contents; the order of the levels is part of the trusted definition `Level.num` |
| C41, C42 | 64-bit arithmetic / 32-bit words | arithmetic |
| C43 | the malloc replacement over the linear allocator, with an abstract pool and system (`Proxy/`) | invariant over histories with nested calls; witnesses |
| C53 | the same model: blocks, alignment and copies of the start-up phase (`Proxy/`) | the same invariant and C20; witnesses |
| C44 | interleaving of the steps of umfInit and umfTearDown (`Init/`) | invariant over schedules; witnesses |
| C52 | the same model: control array, base allocator, trees, libraries over rounds (`Init/`) | induction over rounds; witnesses |
| C45 | tracker registration as interleaved steps; registration, removal, split, merge and lookup with one step per access to shared memory, entries as blocks of the base allocator (`TrkConc/`) | witnesses + partial for regions that are not nested: invariant over every schedule (the map has the entries of the registered regions, each thread knows its own entry), measure on the steps left |
| C47 | file position of OS/file providers | general negative theorem + witness |
| C48 | `Verif.FileProv`: the callbacks of the file provider over an address space | invariant by induction over callbacks, witnesses for the exclusions |
| C46 | shared limit with destruction of pools | witness + partial |
| C54 | both GPU providers as programs of driver calls with any answers, threads interleaved at the calls; the context as one variable per thread (`Gpu/`) | weakest preconditions per function, invariant over all threads; witness |
| C55 | the same model: what is in use in the drivers, who has it (`Gpu/`) | the same invariant with ownership of resources; witness |
| C56 | the same model: parameters, creation and its error paths, missing functions (`Gpu/`) | the same invariant; witnesses |
| C57 | the same model: last native error per thread; message buffer with `strncpy`, `strncat`, `strlen` on lists of characters (`Gpu/Msg`) | the same invariant; induction over queries; witness |
| C58 | the same model: descriptors (`Gpu/`) | the same invariant; case analysis of the runs |
| C59 | the same programs, alone, with any answers (`Gpu/RunSpec`) | a predicate transformer over runs |
| C60 | scalable, jemalloc and proxy pools as programs of calls with any answers; callbacks of the libraries at any call; threads interleaved at every access (`Heap/`) | weakest preconditions per function, invariant with ownership over all threads; witness |
| C61, C62, C64, C65 | the same model: memory contents, thread-local errors, what exists in the libraries, flags of jemalloc (`Heap/`) | the same invariant; witnesses |
| C63 | the callbacks alone, over books of library and provider (`Heap/Ledger`); the purges as programs (`Heap/Purge`) | induction over callbacks, permutations of lists; cases of the run of a purge |
| C66 | mutex and tag per pool, one access per step (`Tag/`) | linearization points, invariant over schedules |

## Not modelled

The CUDA and Level Zero drivers (they are described by what they may answer), TBB and jemalloc internals, hwloc, Windows code,
the formatting of numbers and dates in log messages, sanitizer/valgrind annotations, weak memory ordering, and
the C compiler. 

## Trusted base

* Lean 4.33.0's kernel; axioms allowed: `propext`, `Classical.choice`, `Quot.sound`.
* The reading of the C source recorded in each definition's comment.
* The oracle assumptions stated as hypotheses in each theorem.

### Axioms each theorem depends on

As reported by `#print axioms` for every theorem in `MANIFEST.json` (the prefix `Verif.` is left out).

* No axioms: `Api.Pool.C34_order`, `Gpu.C57_ze_message_violated`, `Heap.C64_close_violated`, `Memspace.C36_fromNumaMemory_violated`, `Memspace.C36_fromNumaTwice_violated`, `Memspace.C50_retry_violated`, `Native.C71_bindLog_violated`, `Native.C71_close_violated`, `Native.C71_log_violated`
* `propext`: `Api.C33_hiddenProvider_violated`, `Api.C33_ipc_violated`, `Api.Pool.C34_succeeds`, `Coarse.C05_hostOom_violated`, `Coarse.C05_uninit_violated`, `Coarse.Index.C05_emptyList_violated`, `Disjoint.C22_aboveCutOff_violated`, `FileProv.C31_fileOddFail_violated`, `FileProv.C48_leak_violated`, `FileProv.C48_outside_violated`, `FromSpace.C89_null`, `Gpu.C55_unaligned_violated`, `Heap.C62_usable_je`, `Heap.C62_usable_proxy`, `Heap.C62_usable_tbb`, `Heap.C63_alloc`, `Heap.C63_purge_forced`, `Heap.C63_purge_lazy`, `Heap.C64_load_violated`, `Ipc.C18_merge_violated`, `Ipc.C18_reuse_violated`, `IpcEnd.C84_destroy_violated`, `IpcMem.C75_exit_violated`, `IpcMem.C75_mutex_violated`, `Os.C31_alignedOffset_violated`, `Os.Stats.C30_reset_violated`, `Policy.C51_policy`, `PolicyMem.C87_array_violated`, `PolicyMem.C87_destroy`, `PolicyMem.C87_freed_violated`, `PolicyMem.C87_fresh`, `PolicyMem.C87_partSize`, `PolicyMem.C87_parts_partial`, `PolicyMem.C87_refused`, `PoolApi.C86_early_violated`, `PoolApi.C86_init`, `PoolApi.C86_noInit_violated`, `PoolApi.C86_null`, `PoolApi.C86_refused`, `Topo.C81_null`, `Tracker.C15_overlap_violated`, `Tracker.C15_refusedAlloc`, `Tracker.C16_freeOom_violated`, `Tracker.C16_freeSize_violated`, `Tracker.C16_nestedMerge_violated`, `Tracker.C16_splitOom_violated`, `Tracker.C45_lostUpdate_violated`, `TrkPass.C88_bottom`, `TrkPass.C88_null`, `TrkPass.C88_refused`, `TrkPass.C88_reported_violated`
* `propext`, `Quot.sound`: `Api.Pool.C34_cacheNull_violated`, `Api.Pool.C34_createLeak_violated`, `BaseAlloc.Fixed.C19_hugeElement_violated`, `BaseAlloc.Global.C21_hugeRequest_violated`, `BaseAlloc.Global.C21_refused_violated`, `BaseAlloc.Linear.C20_hugeRequest_violated`, `Coarse.C01_hostOom_violated`, `CoarseMem.C76_emptyList_violated`, `CoarseMem.C76_leak_violated`, `CoarseMem.C76_uninit_violated`, `CoarseMem.C76_usedByte_violated`, `CoarseMem.C77_refused_violated`, `Critnib.Conc.C13_findLe_present_violated`, `Critnib.Conc.C13_findLe_violated`, `Critnib.Conc.C78_reads`, `Ctl.C38_api`, `Ctl.C38_indexes_violated`, `Ctl.C39_string`, `Disjoint.Bitmap.read_ok`, `Disjoint.C24_padding_violated`, `Disjoint.C24_roundUp_violated`, `Disjoint.C25_alignedFree_violated`, `Disjoint.C25_slabMin0_refused_violated`, `Disjoint.C25_slabMin0_violated`, `Disjoint.C26_capacity0_violated`, `Disjoint.Conc.C67_free_violated`, `Disjoint.Limits.canPool_eq`, `FileProv.C31_fileAligned_violated`, `FileProv.C31_fileMerge_violated`, `Files.C90_create`, `Files.C90_file`, `Files.C90_others`, `Files.C90_shmOpen`, `FromSpace.C89_count_violated`, `FromSpace.C89_new`, `FromSpace.C89_pool`, `FromSpace.C89_pool_violated`, `FromSpace.C89_targets`, `Gpu.C54_ipc_violated`, `Gpu.C55_resident_violated`, `Gpu.C56_params_violated`, `Gpu.C56_policy_violated`, `Gpu.C56_probe_violated`, `Gpu.C56_type_violated`, `Gpu.C58_closes`, `Heap.C60_calls_violated`, `Heap.C61_violated`, `Heap.C64_load_partial`, `Heap.C65_violated`, `Heap.C65_zero_violated`, `Init.C44_lastFirst_violated`, `Init.C44_orderly_partial`, `Init.C44_race_violated`, `Init.C44_retry_violated`, `Init.C52_ctl_violated`, `Init.C52_free`, `Init.C52_free_violated`, `Init.C52_osCtl_violated`, `Init.C52_scalable_violated`, `Ipc.C17_failedOpen_violated`, `Ipc.C17_limit_violated`, `Ipc.C17_newHandle_violated`, `Ipc.C17_wrongProvider_violated`, `IpcEnd.C84_defined`, `IpcEnd.C84_export`, `IpcEnd.C84_free`, `IpcEnd.C84_merge_violated`, `Log.C40_complete_partial`, `Log.C40_sound`, `Log.C40_soundArg`, `Memspace.C36_cloneEmpty_violated`, `Memspace.C36_filterMemory_violated`, `Memspace.C36_fromNuma`, `Memspace.C36_removeLast_violated`, `Memspace.C37_capacityLeak_violated`, `Memspace.C37_ties_violated`, `Memspace.C50_again_partial`, `Memspace.C50_latency_violated`, `Os.C27_overflow_violated`, `Os.C28_overflow_violated`, `Os.Stats.C30_stats_partial`, `Policy.C51_bind`, `Policy.C51_default`, `Policy.C51_highestCapacity_violated`, `Policy.C51_interleave`, `Policy.C51_preferred`, `PolicyMem.C87_count_violated`, `PoolApi.C86_calls`, `PoolApi.C86_ctl`, `PoolApi.C86_destroy`, `PoolApi.C86_failed`, `PoolApi.C86_missing_violated`, `PoolApi.C86_nullDestroy_violated`, `PoolApi.C86_provider`, `Proxy.C43_calloc_violated`, `Proxy.C43_flagLost_violated`, `Proxy.C43_linked_violated`, `Proxy.C43_nested_partial`, `Proxy.C43_recursion_violated`, `Proxy.C53_aligned_violated`, `Proxy.C53_alignment_violated`, `Proxy.C53_overlap_violated`, `Topo.C81_attribute_partial`, `Topo.C81_idle_violated`, `Topo.C81_numbers_violated`, `Topo.C81_once`, `Topo.C81_retry_violated`, `Topo.C81_topology_partial`, `TrkConc.C45_conc_lookup_violated`, `TrkConc.C45_conc_remove_violated`, `TrkMem.C82_create`, `TrkMem.C82_destroy`, `TrkMem.C82_mergeKids_violated`, `TrkMem.C82_mergeUpdate_violated`, `TrkMem.C82_splitUpdate_violated`, `TrkPass.C88_passed`, `Utils.C41_sizeDown_wraps`
* `propext`, `Classical.choice`, `Quot.sound`: `Api.C32_create`, `Api.C32_dispatch`, `Api.C33_lastFailed_partial`, `Api.Pool.C34_live_partial`, `Api.Pool.C34_safe_partial`, `BaseAlloc.Fixed.C19_destroy`, `BaseAlloc.Fixed.C19_elements_partial`, `BaseAlloc.Fixed.C19_failsOnlyIfRefused`, `BaseAlloc.Fixed.C19_reuse`, `BaseAlloc.Global.C21_classChunks`, `BaseAlloc.Global.C21_free_partial`, `BaseAlloc.Global.C21_ranges_partial`, `BaseAlloc.Global.C21_succeeds_partial`, `BaseAlloc.Global.C21_usable_partial`, `BaseAlloc.Linear.C20_allocations_partial`, `BaseAlloc.Linear.C20_contains`, `BaseAlloc.Linear.C20_destroy`, `BaseAlloc.Linear.C20_failsOnlyIfRefused`, `BaseAlloc.Linear.C20_free`, `BaseAlloc.Linear.C20_interior`, `Coarse.C01_liveDisjoint`, `Coarse.C02_alignedAndSized`, `Coarse.C02_badAlignmentRefused`, `Coarse.C03_statsExact`, `Coarse.C04_allFreed`, `Coarse.C04_coalesced`, `Coarse.C04_partition`, `Coarse.C05_failureChangesNothing_partial`, `Coarse.C05_failureKeepsBlocks_partial`, `Coarse.C06_checkAll`, `Coarse.C06_fastest`, `Coarse.C07_free`, `Coarse.C07_merge`, `Coarse.C07_split`, `Coarse.C07_splitMerge`, `Coarse.Index.C06_index`, `Coarse.Index.C06_indexAdd`, `Coarse.Index.C06_indexListed`, `Coarse.Index.C06_indexRemove`, `CoarseMem.C76_blocks`, `CoarseMem.C76_defined_partial`, `CoarseMem.C76_delete_partial`, `CoarseMem.C76_enough`, `CoarseMem.C76_held`, `CoarseMem.C76_stats`, `CoarseMem.C77_alloc`, `CoarseMem.C77_coalesced`, `CoarseMem.C77_defined`, `CoarseMem.C77_fits`, `CoarseMem.C77_free`, `CoarseMem.C77_history`, `CoarseMem.C77_live`, `CoarseMem.C77_refines`, `CoarseMem.C77_stats`, `CpuIpc.C69_again_partial`, `CpuIpc.C69_bytes_partial`, `CpuIpc.C69_close_partial`, `CpuIpc.C69_covered_partial`, `CpuIpc.C69_fd0Leak_violated`, `CpuIpc.C69_fd0_violated`, `CpuIpc.C69_named_violated`, `CpuIpc.C69_open_partial`, `CpuIpc.C69_place_violated`, `CpuIpc.C69_put_partial`, `CpuIpc.C69_reach_partial`, `CpuIpc.C69_sameName_violated`, `CpuIpc.C69_splitClose_violated`, `CpuIpc.C69_split_violated`, `CpuProv.C68_create_partial`, `CpuProv.C68_defined_partial`, `CpuProv.C68_destroy_partial`, `CpuProv.C68_fd_violated`, `CpuProv.C68_firstBind`, `CpuProv.C68_good`, `CpuProv.C68_head_violated`, `CpuProv.C68_live_partial`, `CpuProv.C68_longPath_violated`, `CpuProv.C68_nodeset_violated`, `CpuProv.C68_nothing_partial`, `CpuProv.C68_partitions_violated`, `CpuProv.C68_sharedFd_violated`, `CpuProv.C68_shmName_violated`, `Critnib.C10_radixTreeIsMap`, `Critnib.C11_directedLookup`, `Critnib.C11_findLe`, `Critnib.C12_iterate_partial`, `Critnib.C12_iterate_violated`, `Critnib.Conc.C13_findLe_partial`, `Critnib.Conc.C13_get`, `Critnib.Conc.C13_safe`, `Critnib.Conc.C78_bounded`, `Critnib.Conc.C78_delete`, `Critnib.Conc.C78_readers`, `Critnib.Conc.C78_writes`, `Ctl.C38_custom`, `Ctl.C38_ignored_violated`, `Ctl.C38_leaf_partial`, `Ctl.C38_local`, `Ctl.C38_nested_violated`, `Ctl.C38_os`, `Ctl.C38_scalable`, `Ctl.C38_subtree`, `Ctl.C38_tooLong_violated`, `Ctl.C38_unknown`, `Ctl.C39_all`, `Ctl.C39_boolean`, `Ctl.C39_fails`, `Ctl.C39_fields`, `Ctl.C39_file`, `Ctl.C39_integer_partial`, `Ctl.C39_malformed`, `Ctl.C39_smallest_violated`, `Ctl.C39_tooMany_violated`, `Ctl.C39_trailing_violated`, `Ctl.C39_write`, `CtlMem.C80_fileGrows_violated`, `CtlMem.C80_file_memory_partial`, `CtlMem.C80_file_same_partial`, `CtlMem.C80_numbers_violated`, `CtlMem.C80_query_defined_partial`, `CtlMem.C80_query_memory_partial`, `CtlMem.C80_query_refused`, `CtlMem.C80_query_same`, `CtlMem.C80_string_defined_partial`, `CtlMem.C80_string_memory_partial`, `CtlMem.C80_string_refused`, `CtlMem.C80_string_same`, `Disjoint.Bitmap.find_ok`, `Disjoint.Bitmap.init_ok`, `Disjoint.Bitmap.set_ok`, `Disjoint.C22_classes`, `Disjoint.C22_mallocClass`, `Disjoint.C22_tightestClass`, `Disjoint.C23_defined_partial`, `Disjoint.C23_disjoint_partial`, `Disjoint.C23_usable_partial`, `Disjoint.C24_aligned_partial`, `Disjoint.C25_destroy_partial`, `Disjoint.C25_free_partial`, `Disjoint.C25_inUse_partial`, `Disjoint.C26_idle_partial`, `Disjoint.C26_kept_partial`, `Disjoint.Conc.C23_threadsUsable_partial`, `Disjoint.Conc.C23_threads_partial`, `Disjoint.Conc.C25_threadsDestroy_partial`, `Disjoint.Conc.C25_threadsFree_partial`, `Disjoint.Conc.C25_threadsRelease_partial`, `Disjoint.Conc.C25_threads_partial`, `Disjoint.Conc.C26_threads_partial`, `Disjoint.Conc.C67_bounded`, `Disjoint.Conc.C67_onlyLarge_partial`, `Disjoint.Conc.C67_pooled_partial`, `Disjoint.Conc.C67_progress_partial`, `Disjoint.Limits.C26_counter`, `Disjoint.Limits.C26_limit`, `Disjoint.Limits.C46_available_partial`, `Disjoint.Limits.C46_destroyReturnsShare_violated`, `DjHost.C73_array_violated`, `DjHost.C73_defined`, `DjHost.C73_enough`, `DjHost.C73_failed_create`, `DjHost.C73_failed_malloc`, `DjHost.C73_leak_violated`, `DjHost.C73_live`, `DjHost.C73_live_apart`, `DjHost.C73_noleak_partial`, `FileProv.C31_fileDistinct_partial`, `FileProv.C31_fileExport_partial`, `FileProv.C48_alloc_partial`, `FileProv.C48_destroySafe_partial`, `FileProv.C48_destroy_partial`, `FileProv.C48_mapped_partial`, `Files.C90_anonymous_partial`, `Files.C90_anonymous_violated`, `Files.C90_atMostZero`, `Files.C90_both`, `Files.C90_devdax_partial`, `Files.C90_devdax_violated`, `Files.C90_device`, `Files.C90_duplicate`, `Files.C90_error_partial`, `Files.C90_error_violated`, `Files.C90_name_violated`, `Files.C90_reason`, `Files.C90_shm`, `Files.C90_shmName`, `FromSpace.C89_provider`, `FromSpace.C89_succeeds`, `Gpu.C54_context_kept`, `Gpu.C54_context_used_partial`, `Gpu.C55_calls_valid`, `Gpu.C55_memory`, `Gpu.C55_no_leak_partial`, `Gpu.C56_cuda_created`, `Gpu.C56_defined_partial`, `Gpu.C56_ze_created`, `Gpu.C57_cuda_message`, `Gpu.C57_native_code`, `Gpu.C58_open`, `Gpu.C59_error`, `Gpu.C59_success`, `Gpu.C59_works`, `Heap.C60_blocks_partial`, `Heap.C60_calls_partial`, `Heap.C61_partial`, `Heap.C62_error_partial`, `Heap.C62_free_partial`, `Heap.C63_books`, `Heap.C63_books_exact`, `Heap.C64_noLeak_partial`, `Heap.C65_partial`, `Init.C44_inUse`, `Init.C52_cycles_partial`, `Ipc.C17_distinctMapping`, `Ipc.C17_limit_partial`, `Ipc.C17_mappedOnce`, `Ipc.C17_sameMapping`, `Ipc.C17_staysOpen_partial`, `Ipc.C18_handleIds_partial`, `Ipc.C18_reallocated_partial`, `Ipc.C18_roundTrip_partial`, `IpcEnd.C84_end_partial`, `IpcEnd.C84_handles_partial`, `IpcExp.C79_all_returned`, `IpcExp.C79_bounded`, `IpcExp.C79_defined`, `IpcExp.C79_granted`, `IpcExp.C79_handle`, `IpcExp.C79_kept`, `IpcExp.C79_released`, `IpcExp.C79_same`, `IpcMem.C75_blocks`, `IpcMem.C75_clean`, `IpcMem.C75_defined_partial`, `IpcMem.C75_enough`, `Log.C40_fileName_violated`, `Log.C40_log_partial`, `Log.C49_line`, `Log.C49_message`, `Memspace.C36_add`, `Memspace.C36_clone_partial`, `Memspace.C36_destroy`, `Memspace.C36_filterAll_violated`, `Memspace.C36_filterByCapacity_partial`, `Memspace.C36_filterById_partial`, `Memspace.C36_filter_partial`, `Memspace.C36_noLeak`, `Memspace.C36_remove_partial`, `Memspace.C36_sound`, `Memspace.C37_bandwidth_noTies`, `Memspace.C37_bandwidth_partial`, `Memspace.C37_capacity`, `Memspace.C37_latency_partial`, `Native.C71_bitmap_violated`, `Native.C71_defined_partial`, `Native.C71_enosys_violated`, `Native.C71_fileOverwrite_violated`, `Native.C71_first_violated`, `Native.C71_report_partial`, `Native.C71_stale_violated`, `Native.C71_threads`, `Os.C27_alloc_partial`, `Os.C27_free_partial`, `Os.C28_bindFails`, `Os.C28_share`, `Os.C28_split_partial`, `Os.C29_interleave`, `Os.C31_distinct_partial`, `Os.C31_export_partial`, `Os.C31_hugeFail_violated`, `Os.C31_merge_violated`, `Os.C47_oddSize_violated`, `Params.C72_calls_partial`, `Params.C72_cuda_violated`, `Params.C72_defaultName_violated`, `Params.C72_name64_violated`, `Params.C72_noleak_partial`, `Params.C72_nullName_violated`, `Params.C72_residentFreed_violated`, `Params.C72_resident_violated`, `Params.C72_values_partial`, `Policy.C51_interleaveParts`, `Policy.C51_refused`, `Policy.C51_split_partial`, `Proxy.C43_alloc`, `Proxy.C43_free`, `Proxy.C43_realloc`, `Proxy.C43_realloc0`, `Proxy.C43_usable`, `Proxy.C53_aligned`, `Proxy.C53_blocks`, `Proxy.C53_realloc_partial`, `ProxyOpt.C83_debug_violated`, `ProxyOpt.C83_otherName_violated`, `ProxyOpt.C83_overflow_violated`, `ProxyOpt.C83_refused`, `ProxyOpt.C83_sound`, `ProxyOpt.C83_start_partial`, `ProxyOpt.C83_suffix_violated`, `ProxyOpt.C83_tearDown`, `ProxyOpt.C83_unset`, `Ravl.C08_orderedTree`, `Ravl.C09_height`, `RavlMem.C74_defined`, `RavlMem.C74_delete`, `RavlMem.C74_node_stays_valid_violated`, `RavlMem.C74_ordered_nodes`, `RavlMem.C74_remove_nodes`, `RavlMem.C74_smaller_stay`, `Stack.C70_defined_partial`, `Stack.C70_destroy_partial`, `Stack.C70_disjoint_partial`, `Stack.C70_free_partial`, `Stack.C70_owner_partial`, `Stack.C70_room_partial`, `Stack.C70_usable_partial`, `Tag.C66_tag_atomic`, `Topo.C81_capacity`, `Tracker.C14_poolByPtr`, `Tracker.C15_add_partial`, `Tracker.C15_remove`, `Tracker.C16_free_partial`, `Tracker.C16_merge_partial`, `Tracker.C16_split_partial`, `Tracker.C16_tracked_partial`, `Tracker.C35_umfFree`, `Tracker.C45_topLevel_partial`, `TrkConc.C45_conc_answer_partial`, `TrkConc.C45_conc_bounded_partial`, `TrkConc.C45_conc_defined_partial`, `TrkConc.C45_conc_entries_partial`, `TrkConc.C45_conc_idle_partial`, `TrkConc.C45_conc_mutex_partial`, `TrkConc.C45_conc_no_deadlock_partial`, `TrkConc.C45_conc_tracked_partial`, `TrkMem.C82_alloc_partial`, `TrkMem.C82_empty_partial`, `TrkMem.C82_exact_partial`, `TrkMem.C82_free_partial`, `TrkMem.C82_ipc`, `TrkMem.C82_ipcInfo`, `TrkMem.C82_lookup_partial`, `TrkMem.C82_merge_partial`, `TrkMem.C82_safe_partial`, `TrkMem.C82_split_partial`, `TrkMem.C85_exact_partial`, `TrkMem.C85_report_partial`, `TrkPass.C88_error`, `Utils.C41_alignDown`, `Utils.C41_alignPtrDownSizeUp`, `Utils.C41_alignPtrUpSizeDown`, `Utils.C41_alignUpSafe`, `Utils.C41_isAligned`, `Utils.C41_isPowerOf2`, `Utils.C42_protection`, `Utils.C42_translateFlags`

### Which functions are modelled

For every source file: the modules (directories of `lean/Verif`) that cite it, and the functions that no definition of them cites. Files for Windows and macOS only are left out: nothing of them is modelled.

| file | functions cited | modules | functions not cited |
|---|---|---|---|
| `base_alloc/base_alloc.c` | 5 of 8 | BaseAlloc, Init, TrkMem | `ba_debug_checks`, `ba_os_alloc_annotated`, `pool_contains_pointer` |
| `base_alloc/base_alloc_global.c` | 8 of 10 | BaseAlloc, Critnib, Init, Memspace | `umf_ba_create_global`, `umf_ba_global_is_destroyed` |
| `base_alloc/base_alloc_linear.c` | 6 of 7 | BaseAlloc | `ba_debug_checks` |
| `base_alloc/base_alloc_linux.c` | 0 of 4 | none | `_ba_os_init_page_size`, `ba_os_alloc`, `ba_os_free`, `ba_os_get_page_size`: wrappers of `mmap`, `munmap` and `sysconf`; what they may answer is a parameter of `BaseAlloc` |
| `coarse/coarse.c` | 34 of 42 | Coarse, CoarseMem, CpuProv, Native, Ravl, RavlMem, Stack | `can_provider_split`, `debug_check`, `debug_verify_all_blocks_cb`, `get_block_next`, `get_block_prev`, `get_node_block`, `ravl_cb_count`: the rest are debug checks and accessors |
| `critnib/critnib.c` | 22 of 22 | Critnib, Tracker, TrkMem |  |
| `ctl/ctl.c` | 23 of 26 | Ctl, CtlMem, Init | `ctl_delete`, `ctl_exec_query_subtree`, `ctl_new`: the rest are covered under the names of their callers, or free temporaries |
| `ipc.c` | 5 of 6 | Ipc, IpcEnd, IpcExp | `umfPoolGetIPCHandler` |
| `ipc_cache.c` | 6 of 8 | Init, Ipc, IpcMem | `getGlobalLruListSize`, `umfIpcCacheGlobalInitMaxOpenedHandles` |
| `libumf.c` | 3 of 4 | Ctl, Init, ProxyOpt, Topo | `umfGetCurrentVersion` |
| `libumf_linux.c` | 0 of 3 | none | `libumfInit`: constructor and destructor attributes; the functions that they call are in `Init` |
| `memory_pool.c` | 17 of 17 | Api, Ctl, Heap, PoolApi, Stack, Tag, Tracker |  |
| `memory_provider.c` | 36 of 37 | Api, CpuProv, Ctl, Native, Tracker, TrkPass | `umfMemoryProviderGetPriv` |
| `memory_provider_get_last_failed.c` | 0 of 1 | Api | `umfGetLastFailedMemoryProviderPtr` |
| `mempolicy.c` | 4 of 4 | Policy, PolicyMem |  |
| `memspace.c` | 19 of 20 | FromSpace, Memspace, Policy | `verifyMemTargetsTypes` |
| `memspaces/memspace_highest_bandwidth.c` | 4 of 6 | Memspace | `umfMemspaceHighestBandwidthCreate`, `umfMemspaceHighestBandwidthGet` |
| `memspaces/memspace_highest_capacity.c` | 5 of 5 | Memspace |  |
| `memspaces/memspace_host_all.c` | 4 of 5 | Memspace | `umfMemspaceHostAllGet` |
| `memspaces/memspace_lowest_latency.c` | 4 of 6 | Memspace | `umfMemspaceLowestLatencyCreate`, `umfMemspaceLowestLatencyGet` |
| `memspaces/memspace_numa.c` | 2 of 2 | Memspace |  |
| `memtarget.c` | 7 of 9 | Memspace, Topo | `umfMemtargetGetId`, `umfMemtargetGetType`: the rest pass the call on to the target |
| `memtargets/memtarget_numa.c` | 10 of 13 | FromSpace, Memspace, Policy, PolicyMem, Topo | `numa_finalize`, `numa_get_id`, `numa_get_type`: the values that hwloc gives are parameters of `Memspace` |
| `pool/pool_disjoint.c` | 41 of 51 | Disjoint, DjHost, Params, Stack | `bucket_slab_min_size`, `bucket_update_stats`, `disjoint_pool_calloc`, `disjoint_pool_get_last_allocation_error`, `disjoint_pool_realloc`, `get_chunk_idx`, `get_unaligned_ptr`, `slab_get`, `slab_get_num_free_chunks`, `slab_has_avail`: the rest are accessors, statistics, and calls that are not supported |
| `pool/pool_disjoint_internal.h` | 2 of 2 | Disjoint, DjHost, Params |  |
| `pool/pool_jemalloc.c` | 19 of 21 | Heap | `op_get_last_allocation_error`, `umfJemallocPoolOps` |
| `pool/pool_proxy.c` | 8 of 10 | Heap | `proxy_get_last_allocation_error`, `umfProxyPoolOps` |
| `pool/pool_scalable.c` | 20 of 22 | Ctl, Heap, Init, Params | `tbb_get_last_allocation_error`, `umfScalablePoolOps` |
| `provider/provider_cuda.c` | 27 of 32 | Gpu, Params | `cu_memory_provider_get_ipc_handle_size`, `cu_memory_provider_get_name`, `cu_memory_provider_put_ipc_handle`, `fini_cu_global_state`, `umfCUDAMemoryProviderOps`: the rest are constants and the unloading of the library |
| `provider/provider_devdax_memory.c` | 19 of 31 | CpuIpc, CpuProv, Native, Params | `devdax_alloc`, `devdax_allocation_merge`, `devdax_allocation_merge_cb`, `devdax_allocation_split`, `devdax_allocation_split_cb`, `devdax_free`, `devdax_get_ipc_handle_size`, `devdax_get_min_page_size`, `devdax_get_name`, `devdax_get_recommended_page_size`, `devdax_store_last_native_error`, `umfDevDaxMemoryProviderOps`: the rest are constants, and calls passed on to the coarse provider |
| `provider/provider_file_memory.c` | 27 of 36 | CpuIpc, CpuProv, FileProv, Native, Params | `file_allocation_merge`, `file_allocation_split`, `file_free`, `file_get_ipc_handle_size`, `file_get_min_page_size`, `file_get_name`, `file_get_recommended_page_size`, `file_store_last_native_error`, `umfFileMemoryProviderOps`: the rest are constants, and calls passed on to the coarse provider |
| `provider/provider_fixed_memory.c` | 13 of 19 | CpuProv, Native, Params, Stack | `fixed_allocation_merge`, `fixed_allocation_split`, `fixed_get_min_page_size`, `fixed_get_name`, `fixed_get_recommended_page_size`, `fixed_store_last_native_error`: the rest are constants, and calls passed on to the coarse provider |
| `provider/provider_level_zero.c` | 32 of 42 | Gpu, Params | `fini_ze_global_state`, `store_last_native_error`, `umfLevelZeroMemoryProviderOps`, `ze_memory_provider_allocation_merge`, `ze_memory_provider_allocation_split`, `ze_memory_provider_get_ipc_handle_size`, `ze_memory_provider_get_name`, `ze_memory_provider_get_recommended_page_size`, `ze_memory_provider_purge_force`, `ze_memory_provider_purge_lazy`: the rest are constants and calls that are not supported |
| `provider/provider_os_memory.c` | 56 of 62 | CpuIpc, CpuProv, Ctl, FromSpace, Init, Native, Os, Params, Policy, PolicyMem | `assert_is_page_aligned`, `os_get_ipc_handle_size`, `os_get_name`, `os_get_recommended_page_size`, `print_numa_nodes`, `umfOsMemoryProviderOps` |
| `provider/provider_tracking.c` | 32 of 35 | Api, Init, Ipc, IpcEnd, IpcExp, IpcMem, Stack, Tracker, TrkConc, TrkMem, TrkPass | `getIpcDataFromIpcHandle`, `trackingPutIpcHandle`, `umfTrackingMemoryProviderGetUpstreamProvider`: the rest pass the call on to the upstream provider, or do nothing |
| `proxy_lib/proxy_lib.c` | 14 of 27 | Proxy, ProxyOpt | `_aligned_free`, `_aligned_malloc`, `_aligned_msize`, `_aligned_offset_malloc`, `_aligned_offset_realloc`, `_aligned_offset_recalloc`, `_aligned_realloc`, `_aligned_recalloc`, `ba_leak_calloc`, `ba_leak_free`, `ba_leak_malloc`, `ba_leak_pool_contains_pointer`, `ba_leak_realloc`: the `_aligned_` functions exist on Windows only; `ba_leak_` are calls of the linear allocator of `BaseAlloc` |
| `proxy_lib/proxy_lib_linux.c` | 0 of 2 | none | `proxy_lib_create`, `proxy_lib_destroy`: constructor and destructor attributes; the functions that they call are in `Proxy` |
| `ravl/ravl.c` | 29 of 37 | Ravl, RavlMem | `ravl_delete`, `ravl_emplace_copy`, `ravl_empty`, `ravl_insert`, `ravl_new`, `ravl_node_copy_constructor`, `ravl_node_insert_constructor`, `ravl_node_rank_difference`: the rest are covered by `RavlMem` under the names of their callers |
| `topology.c` | 3 of 3 | Topo |  |
| `uthash/utlist.h` | 1 of 1 | DjHost, IpcMem |  |
| `utils/utils_common.c` | 6 of 8 | BaseAlloc, CpuIpc, CpuProv, Log, ProxyOpt, Utils | `utils_max`, `utils_min` |
| `utils/utils_common.h` | 3 of 3 | Coarse, CpuIpc, Disjoint, FileProv, Init, Os, Proxy, ProxyOpt, Utils |  |
| `utils/utils_concurrency.h` | 0 of 18 | none | `utils_atomic_decrement_u64`, `utils_atomic_increment_u64`, `utils_atomic_load_acquire_ptr`, `utils_atomic_load_acquire_u64`, `utils_atomic_store_release_ptr`, `utils_atomic_store_release_u64`, `utils_compare_exchange_u64`, `utils_fetch_and_add_u64`, `utils_fetch_and_sub_u64`: atomic operations and mutexes are single steps of the step machines |
| `utils/utils_level_zero.cpp` | 0 of 15 | none | `InitLevelZeroOps`, `utils_ze_create_context`, `utils_ze_destroy_context`, `utils_ze_find_driver_with_gpu`, `utils_ze_find_gpu_device`, `utils_ze_get_devices`, `utils_ze_get_drivers`, `utils_ze_get_mem_type`, `utils_ze_get_num_memory_properties`, `utils_ze_init_level_zero`, `utils_ze_init_level_zero_lib`, `utils_ze_init_level_zero_once`, `utils_ze_level_zero_copy`, `utils_ze_level_zero_fill`: helpers of the tests and examples |
| `utils/utils_linux_common.c` | 7 of 11 | CpuIpc, CpuProv, Files | `utils_fallocate`, `utils_get_file_size`, `utils_shm_unlink`, `utils_translate_mem_visibility_flag`: the rest are wrappers of system calls; what they answer is a parameter of `CpuProv` and `CpuIpc` |
| `utils/utils_load_library.c` | 0 of 6 | none | `utils_close_library`, `utils_get_symbol_addr`, `utils_open_library`: wrappers of `dlopen`, `dlsym`, `dlclose`; parameters of `Gpu` and `Heap` |
| `utils/utils_log.c` | 4 of 6 | Log, Native, ProxyOpt | `bool_to_str`, `utils_plog` |
| `utils/utils_math.h` | 4 of 4 | Critnib, Disjoint, Utils |  |
| `utils/utils_posix_common.c` | 12 of 19 | CpuIpc, CpuProv, Files, Gpu, Native, Os, ProxyOpt, Utils | `_utils_get_page_size`, `get_max_file_size`, `utils_get_page_size`, `utils_gettid`, `utils_purge`, `utils_translate_mem_protection_flags`, `utils_translate_purge_advise`: the rest are wrappers of system calls and translations of flags; what they answer is a parameter of the providers |
| `utils/utils_posix_concurrency.c` | 0 of 12 | none | `utils_init_once`, `utils_mutex_destroy_not_free`, `utils_mutex_get_size`, `utils_mutex_init`, `utils_mutex_lock`, `utils_mutex_unlock`, `utils_read_lock`, `utils_read_unlock`, `utils_rwlock_destroy_not_free`, `utils_rwlock_init`, `utils_write_lock`, `utils_write_unlock`: mutexes and one-time initialization are single steps of the step machines |

## Findings

Places where the unchanged code does not have a property; each has a Lean witness, except for the few marked as not modelled.

* Coarse allocator, host out-of-memory (`C01_hostOom_violated`, `C05_hostOom_violated`).
  When the free-list element for the remainder of a split cannot be allocated,
  `split_current_block` leaves the remainder block in the tree while the original block
  keeps its size. Later requests of that size fail, and after a neighbouring block is freed
  two live allocations can overlap.
* Coarse allocator, empty list after a failed free (`Index.C05_emptyList_violated`). When the
  element of the free list cannot be allocated for a size that had no free block,
  `free_blocks_add` fails but leaves the new, empty list in the tree. The next allocation that
  finds this size reads through a null pointer in `node_list_rm_first` (the check is an
  assertion only).
* Coarse allocator, uninitialised flag (`C05_uninit_violated`). `coarse_ravl_add_new` does
  not set `used`. If an aligned allocation fails after `create_aligned_block`, a free block
  can be marked used. An address the client never received can then be freed.
* Radix tree iteration (`C12_iterate_violated`). `iter` skips a subtree if
  `path | path_mask(shift) < min`; the mask selects the bits above the subtree instead of those
  below it. At the top node (shift 60) the expression is 0, so a range not starting at 0 visits
  nothing when keys with different top nibbles are present.
* Fixed-chunk base allocator (`C19_hugeElement_violated`). `128 * chunk_size` is not checked for
  overflow. With an element size of 2^57 the pool is one page and the element lies outside it.
* Linear base allocator (`C20_hugeRequest_violated`). For requests above 2^64-24 bytes the size of
  the new pool wraps around; the request succeeds with a one-page pool.
* Global base allocator (`C21_hugeRequest_violated`, `C21_refused_violated`). In release builds a
  request of 4 GiB or more corrupts the metadata word, and free passes a wrong address to a size
  class. If the OS refuses memory the metadata is written relative to a null pointer.
* Tracker, overlapping regions (`C15_overlap_violated`). Only the start address of a new region is
  checked. A region that starts before a tracked one and reaches into it is accepted. Removing a
  region with nested ones is refused by the tracker, but the tracking provider still passes the
  free on to the upstream provider.
* Tracker, split and free with host memory exhausted (`C16_splitOom_violated`,
  `C16_freeOom_violated`). The upstream provider has split the allocation but the tracker has not;
  an allocation whose upstream free failed is no longer tracked.
* Tracker, failed free with a wrong size (`C16_freeSize_violated`). The region is added back with
  the caller's size instead of the recorded one.
* Tracker, merge of nested allocations (`C16_nestedMerge_violated`). The child count of the
  enclosing region is not decremented, so that region can never be removed.
* Tracker, entry read after it was freed (`C45_conc_lookup_violated`, `C45_conc_remove_violated`). `umfMemoryTrackerAdd` finds a
  neighbouring entry with `critnib_find` (195-197) and then reads its size (202) without protection. If the neighbour is removed
  and its block used for another region in between, the new region may look nested in the neighbour and is registered on level 1 under it:
  `umfPoolByPtr` of the new region finds nothing, and the other region can no longer be removed.
* Tracker, lost update (`C45_lostUpdate_violated`). The child count is incremented without a lock
  or an atomic operation.
* IPC cache, newer handle (`C17_newHandle_violated`). Opening cached memory with another handle
  identifier evicts the cached entry without looking at its reference count. A client that still
  uses the mapping loses it.
* IPC cache, eviction (`C17_wrongProvider_violated`). The eviction callback gets the key of the new
  entry. When an open of one provider evicts a mapping of another one, the close goes to the wrong
  provider and the mapping is leaked.
* IPC cache, limit (`C17_limit_violated`, `C17_failedOpen_violated`). One open evicts at most one
  entry, so the cache never shrinks after it has exceeded its limit. A failed open keeps its
  reference and occupies its slot until the provider is destroyed.
* Exported handles (`C18_merge_violated`, `C18_reuse_violated`). Handles are cached by start address
  and dropped only by a free of that address. After a merge the handle of the low part stands for
  the whole, and the handle of the high part survives the memory.
* Disjoint pool, largest pooled size (`C22_aboveCutOff_violated`). `max_poolable_size` above 2 GiB is
  accepted, but the largest class is 2 GiB. A request in between indexes past the bucket array.
* Disjoint pool, huge aligned requests (`C24_roundUp_violated`, `C24_padding_violated`). The rounded
  or padded size is not checked for overflow. The request succeeds with a chunk of the smallest
  class.
* Disjoint pool, `slab_min_size` 0 (`C25_slabMin0_violated`, `C25_slabMin0_refused_violated`). The
  end of a slab is computed from `slab_min_size`, so no pointer is ever found to be in a slab. The
  first free returns the slab to the provider while the pool still has it; destroying the pool
  releases it again, and a new slab at the same address is refused.
* Disjoint pool, aligned addresses in large classes (`C25_alignedFree_violated`). For the same reason
  an aligned address past `slab_min_size` is freed as if it came straight from the provider. The
  provider is asked to release a range it never gave out.
* Disjoint pool, frees of large allocations (`C67_free_violated`). `disjoint_pool_free` looks up the greatest slab address not
  above the pointer without a lock and then reads `slab->bucket`. For an allocation that is not in a slab this is some
  neighbour, and another thread may destroy it in between: the object is used after it was freed. The same holds for
  `umfPoolMallocUsableSize`. `C67_onlyLarge_partial` proves that allocations in slabs are not affected.
* Disjoint pool, capacity 0 (`C26_capacity0_violated`). Classes of at most half a slab keep one empty
  slab whatever the capacity.
* Disjoint pool, shared limit (`C46_destroyReturnsShare_violated`). Destroying a pool releases its
  empty slabs but leaves them in the shared total. The limit shrinks for ever.
* OS provider, huge aligned requests (`C27_overflow_violated`). Size plus alignment is not checked for
  overflow. A short mapping is made, the call succeeds, and the computed tail, which lies below the
  mapping, is unmapped with whatever memory was there.
* OS provider, split mode (`C28_overflow_violated`). Pages times weight is computed in 64 bits. With
  weights near 2^32 and more than 2^32 pages the shares are wrong, and after the last partition the
  same binding is repeated (in a debug build an assertion fails).
* OS provider, NUMA lists (`C68_partitions_violated`, `C68_nodeset_violated`). The result of `initializePartitions` is ignored, so without host
  memory the first allocation reads a null pointer. The error path of `initialize_nodeset` frees the
  first bitmap with the wrong allocator.
* OS provider, statistics (`C30_reset_violated`). The reset is a read and a later write. An allocation in
  between is forgotten and the peak is below the allocated memory.
* OS provider, exported offset (`C31_alignedOffset_violated`). For alignments above the page size the head of
  the mapping is cut off, but the recorded offset is that of the uncut mapping. The importer sees
  other bytes.
* OS provider, failing huge request (`C31_hugeFail_violated`). The file position is advanced before
  the mapping is made, modulo 2^64. After a failing request of nearly 2^64 bytes the position has moved back
  and two live allocations share bytes of the file.
* OS provider, merges (`C31_merge_violated`). Merging does not check that the parts are adjacent in the
  file. The handle of the merged allocation shows other bytes behind the first part.
* OS provider, odd sizes (`C47_oddSize_violated`). The file position is advanced by the unrounded size.
  After one allocation whose size is not a multiple of the page size the kernel refuses every later
  mapping.
* File provider, alignments above the page size (`C31_fileAligned_violated`, `C48_outside_violated`). A new
  mapping is aligned by skipping bytes, but the file position is not moved. Handles show other bytes, and the
  next mapping shares file bytes with a live block. In an existing mapping the remaining size underflows when
  the skip exceeds it. The call then returns memory outside the mapping.
* File provider, failing requests (`C31_fileOddFail_violated`). The file position is rounded up before the
  mapping is made. If the mapping fails, the position no longer fits the place in the current mapping.
* File provider, merges (`C31_fileMerge_violated`). `coarse` merges free blocks that are adjacent in memory.
  Blocks of two mappings can be adjacent in memory and not in the file.
* File provider, host memory (`C48_leak_violated`). A mapping that cannot be recorded is used anyway and never
  unmapped.
* File provider, creation (`C68_longPath_violated`). When the path does not fit, `file_initialize` frees the provider and
  returns success.
* Provider interface (`C33_ipc_violated`, `C33_hiddenProvider_violated`). Failing IPC calls are not
  reported by `umfGetLastFailedMemoryProvider`. With a tracked pool it reports the internal wrapper, a handle
  the user does not know, and its native error text cannot be asked of the user's provider.
* Pool creation (`C34_createLeak_violated`, `C34_cacheNull_violated`). When the wrapper provider cannot be
  allocated, the map of exported handles and the cache of opened handles are leaked. The creation of the cache is not
  checked; without host memory the pool works and its destruction uses a null pointer.
* Pool creation (`C86_missing_violated`, `C86_noInit_violated`, `C86_nullDestroy_violated`). The operation table of a pool is not validated; a missing
  function is called as a null pointer. `umfPoolDestroy` and `umfPoolGetMemoryProvider` with a null handle crash.
* Pool creation (`C86_early_violated`). While `initialize` runs, memory it allocates already belongs to the pool in the tracker, but the pool's private data is
  not written yet. `umfFree` of such memory then passes an uninitialised pointer to the pool's `free`.
* Logger options (`C40_fileName_violated`). Only the first occurrence of an option's text is looked at. If a file
  name contains it, the option after it is ignored.
* Memspaces (`C36_removeLast_violated`). Removing the only target always fails, because an array of 0 bytes is
  asked for.
* Memspaces, filters (`C36_filterAll_violated`, `C36_filterMemory_violated`). A filter that rejects all targets of a memspace
  with two or more, or that runs out of memory after the first removal, adds destroyed targets again. They are
  used after they are freed.
* Memspaces (`C36_cloneEmpty_violated`). An empty memspace cannot be copied.
* Memspaces from arrays (`C36_fromNumaTwice_violated`, `C36_fromNumaMemory_violated`). Duplicates are
  accepted. The error path frees the array of targets before it reads the targets from it.
* Best targets (`C37_ties_violated`). Of several best targets only the first one is taken.
* Highest capacity (`C37_capacityLeak_violated`). If the targets cannot be sorted, the copy of the memspace is leaked.
* Lowest latency (`C50_latency_violated`). The once flag is not reset at shut-down; the memspace is NULL afterwards.
* Predefined memspaces (`C50_retry_violated`). A creation that failed is never tried again, also if the reason was a
  temporary lack of memory.
* Attributes of targets (`C81_numbers_violated`). `query_attribute_value` passes the physical number of a node to `hwloc_get_obj_by_type`, which expects the logical one (`memtarget_numa.c:266-279`); `numa_get_capacity` uses
  the physical one. Where the two differ (nodes 0 and 8, or nodes in another order) the bandwidth and latency of another node are reported, or an existing node is refused.
* Policies (`C51_highestCapacity_violated`). A provider from the memspace of highest capacity uses its first node
  only, with every policy.
* Policies (`C87_array_violated`, `C87_freed_violated`, `C87_count_violated`). `umfMempolicySetCustomSplitPartitions` keeps the pointer of the caller. If the program changes its array before it makes a provider, the provider
  gets the new contents; if it frees it, freed memory is read. The number of partitions is cut to 32 bits without an error (`memtarget_numa.c:107`).
* Control names (`C38_tooLong_violated`). A name that goes on after a leaf, as in
  `umf.provider.by_handle.stats.reset.now` for an OS provider, reads a null pointer.
* Control names (`C38_indexes_violated`). The list of indexes is built in the callee's copy of the pointer. No function ever
  gets an index, and the entries are never freed.
* Control results (`C38_ignored_violated`). The handlers for `by_handle` drop the result. Unknown settings, read-only
  settings, failing user functions and providers without `ctl` function all report success.
* Control names (`C38_nested_violated`). Providers look names up in the global tree first. A repeated
  `umf.provider.by_handle` runs the function for handles on the private data of the provider.
* Configurations (`C39_trailing_violated`, `C39_smallest_violated`, `C39_tooMany_violated`). Text after a number and surplus
  values are ignored; -2^63 is refused. Also, without a context, failing queries are not reported (`C39_all`, `strict = false`).
* Initialisation (`C44_race_violated`, `C44_lastFirst_violated`, `C44_retry_violated`). A second concurrent `umfInit` returns
  success before the tracker exists. A last `umfTearDown` that overlaps with an `umfInit` destroys the tracker of the new user.
  A failed `umfInit` leaves the counter incremented, so a second call returns success without a tracker.
* Rounds (`C52_ctl_violated`, `C52_free_violated`, `C52_osCtl_violated`, `C52_scalable_violated`). Every initialisation adds an
  entry to an array of 100; the 101st is written behind it. After the first shut-down freed host memory is never given back.
  The trees of the control functions point to destroyed memory, and the TBB library is not loaded again.
  `init_tbb_callbacks` closes the library if a symbol is missing, and the shut-down closes it again (`C64_close_violated`); the CUDA and
  Level Zero providers have the same once flags.
* Malloc replacement (`C43_linked_violated`). `LD_PRELOAD` decides whether the destructor destroys the pool. In a program linked
  with the library memory of the pool is unmapped at exit while it is in use; later `free` calls send its pointers to the system.
* Malloc replacement (`C43_calloc_violated`, `C53_aligned_violated`). The product in `calloc`, and size plus alignment in
  `aligned_alloc`, are not checked for overflow in the start-up phase.
* Malloc replacement (`C43_recursion_violated`, `C43_flagLost_violated`). `free` does not set the mark against recursion, and
  `realloc` and `malloc_usable_size` clear it when they are nested.
* Malloc replacement (`C53_alignment_violated`, `C53_overlap_violated`). Memory of the start-up phase is aligned to 8 bytes only,
  and growing a block copies between overlapping ranges with `memcpy`.
* Radix lookups (`C13_findLe_violated`, `C13_findLe_present_violated`). `find_predecessor` loads the slot it chose a second
  time and returns NULL if it is empty by then. A `find_le` concurrent with the removal of a neighbour can miss a key
  that is in the map during the whole call. Users of the map look up addresses inside a region, with no other key between the
  start of the region and the address; for these `C13_findLe_partial` is enough.
* Radix lookups (not modelled). The last load of `remove_count` is an acquire load, which does not keep earlier plain loads
  (`k->value`, `n->path`) before it on weakly ordered processors. The theorems assume sequential consistency.
* CUDA provider, contexts (`C54_ipc_violated`). Getting an IPC handle and closing an opened handle do not set the provider's
  context, unlike opening. They act in whatever context is current in the calling thread.
* Level Zero provider, residency (`C55_resident_violated`). When memory cannot be made resident on a device, the
  allocation reports an error but does not free the memory.
* Level Zero provider, creation (`C56_type_violated`, `C56_probe_violated`). When the query of the page size fails,
  `ze_memory_provider_initialize` passes `provider`, the address of the caller's variable, to the finalizer, which frees it as
  if it were the provider. Memory types that do not exist are not refused and end there too.
* Level Zero provider, free policy (`C56_policy_violated`). `zeMemFreeExt` is not among the required functions. With a free policy
  and an older driver it is called through a null pointer.
* CUDA parameters (`C56_params_violated`). `umfCUDAMemoryProviderParamsCreate` leaks the parameters when the library cannot be
  loaded.
* Level Zero native errors (`C57_ze_message_violated`). The message pointer is never written.
* CUDA provider (`C55_unaligned_violated`). When the driver's memory is not aligned as asked it is freed and an error returned, but the
  result pointer stays set to it.
* jemalloc pool, creation and destruction (`C60_calls_violated`). `op_finalize` destroys the arena first and clears the table entry
  of its index afterwards. A pool created in between can get the same index and enters itself in the table; its entry is then
  cleared, and the next callback follows a null pointer.
* Scalable and jemalloc pools, arrays (`C61_violated`). The product in `tbb_calloc` and `op_calloc` is not checked for overflow.
* Scalable pool, loading (`C64_load_violated`, `C64_close_violated`). `pool_msize` is not among the checked functions. If another one
  is missing the library is closed, but its handle is kept and closed again at shut-down.
* jemalloc pool, alignments (`C65_violated`, `C65_zero_violated`). `MALLOCX_ALIGN` keeps only the lowest set bit of the
  alignment. For alignment 0 it sets all bits of the flags, also those of the arena and the cache.
* Scalable pool (not a violation of C62 as stated). `umfPoolRealloc` to size 0 frees the memory, and the last allocation error is
  then "unknown".
* File and devdax providers, long paths (`C68_longPath_violated`). When the path has 4096 characters or more, `utils_copy_path` fails,
  but `file_initialize` and `devdax_initialize` return the result of the step before, success, without a provider.
  `umfMemoryProviderCreate` then returns a handle with a pointer it never wrote.
* OS provider, shared memory (`C68_sharedFd_violated`, `C68_fd_violated`). `os_finalize` closes no descriptor and unlinks no named
  file; neither does `os_initialize` when the mutex cannot be made. Descriptor 0 is taken for a failure and not closed.
* OS provider, bitmaps (`C68_nodeset_violated`). The error path of `initialize_nodeset` frees the first bitmap instead of the array: the
  array is leaked, and a bitmap that was already released is passed to the base allocator.
* OS provider, partitions (`C68_partitions_violated`). The result of `initializePartitions` is not looked at. Without host memory
  the provider exists, and its first allocation follows a null pointer.
* Fixed and devdax providers (`C68_head_violated`). The empty list of the finding about `free_blocks_add` above is leaked when creation fails.
* OS provider, names (`C68_shmName_violated`). For a name with a slash or a name that is too long, and when the file cannot be made, the creation
  returns -1, which is no `umf_result_t`.
* OS provider, handles of a provider with a shared memory name (`C69_named_violated`). `os_open_ipc_handle` removes the name after the first
  open. No second process can open the handle, nor can any process open a handle of another allocation of the same provider.
* OS provider, names (`C69_sameName_violated`). A provider created with a name that is in use takes the name. Handles of the first
  provider then open the second provider's memory, without an error.
* Descriptor 0 (`C69_fd0_violated`, `C69_fd0Leak_violated`). When it is free in the opening process the new descriptor is 0. `utils_mmap` takes 0 for
  "no file": the handle opens anonymous memory, without an error. With a shared memory name the open fails and descriptor 0 stays open.
* Devdax and fsdax handles at other offsets (`C69_split_violated`, `C69_splitClose_violated`). For an allocation that begins at an
  offset that is no multiple of 2 MB (the upper half of a split allocation), open maps from the multiple below and returns the start of the mapping: the
  consumer sees other bytes. Close computes the length from the size alone and can leave 2 MB mapped.
* Fsdax handles at other addresses (`C69_place_violated`). `file_close_ipc_handle` rounds the address down to 2 MB. When the mapping is
  not at such an address, it unmaps memory below the mapping.
* Native errors, first query (`C71_first_violated`). The records start with code 0, the tables start at 1000, 2000, 3000, 4000: a query in a
  thread without an earlier failure on that kind of provider reads `Native_error_str` far outside.
* OS provider, split mode (`C71_bitmap_violated`, `C71_stale_violated`). When `hwloc_bitmap_alloc` fails, the provider specific error is
  returned and nothing is recorded: the query reads outside the table, or reports an earlier failure.
* Native errors overwritten by other calls (`C71_fileOverwrite_violated`, `C71_enosys_violated`). `file_alloc_cb` records an error for every failure, also
  those that are not provider specific; `os_alloc` records one when it succeeds without binding.
* Native errors and `errno` (`C71_close_violated`, `C71_log_violated`, `C71_bindLog_violated`). `file_open_ipc_handle` and `devdax_open_ipc_handle` read `errno`
  after `close` and, in devdax, after printing a message; `os_alloc` decides by `errno` after printing a message whether a failed binding may be ignored.
* Level Zero parameters (`C72_resident_violated`, `C72_residentFreed_violated`). `umfLevelZeroMemoryProviderParamsSetResidentDevices` keeps the caller's pointer;
  the OS provider's lists are copied. A provider made after the caller reused or freed the array sees other devices or reads freed memory.
* Disjoint pool parameters (`C72_defaultName_violated`, `C72_name64_violated`, `C72_nullName_violated`). `.name = {*DEFAULT_NAME}` stores the letter `d` only; the header says that
  names longer than 64 letters are cut, a name of exactly 64 is; `umfDisjointPoolParamsSetName` does not check for `NULL`.
* CUDA parameters (`C72_cuda_violated`). `umfCUDAMemoryProviderParamsCreate` allocates the object before it looks for the library and does not free it when that fails.
* Disjoint pool (`C73_array_violated`, `C73_leak_violated`). `disjoint_pool_finalize` destroys the buckets but never frees the array `buckets` that `disjoint_pool_initialize` allocated
  (its own error path does free it). Each pool that is destroyed leaves this block at the base allocator.
* Ordered tree (`C74_node_stays_valid_violated`). `ravl_remove` of a node with two children copies the next element into it and frees the next element's node. A pointer to that
  node, kept by a caller because its element is still in the tree, is dangling. `coarse.c`, the only user, keeps across a removal only a
  pointer to a smaller node, which stays (`C74_smaller_stay`).
* IPC cache, lack of memory (`C75_exit_violated`). `ipc_cache.c` does not define `HASH_NONFATAL_OOM` or `uthash_fatal`, so `uthash_fatal` is `exit(-1)` (`uthash.h:136`). When the base allocator has
  memory for an entry but not for the hash table (first entry of a provider) or for a larger bucket array, `umfOpenIPCHandle` ends the process instead of returning an error.
* IPC cache, mutex (`C75_mutex_violated`). If `utils_mutex_init` fails for a new entry, the entry, allocated with `umf_ba_alloc`, is freed with `umf_ba_global_free` (`ipc_cache.c:240-245`), which reads
  a size from before the entry.
* Coarse allocator, empty list (`C76_emptyList_violated`, `C76_leak_violated`). `free_blocks_add` puts a new list head in the tree before it allocates the list element; if that allocation is refused, the empty list stays
  (`coarse.c:336-354`). `node_list_rm_first` reads the first element without a check (`coarse.c:276-278`): the next allocation of at most that size reads through NULL. `coarse_delete` frees the tree but not the head.
* Coarse allocator, unwritten byte (`C76_uninit_violated`, `C76_usedByte_violated`). `create_aligned_block` does not set `used` of the new descriptor, which comes from memory that is not cleared (`coarse.c:690-709`). If the allocation
  fails afterwards (the second split is refused), the block goes to the free list with the byte as it was found. In a debug build the next allocation that takes it fails `assert(curr->used == false)`. In a release build freeing
  its address, which nobody holds, is accepted instead of refused; the block is then on the free list twice and two allocations return the same address.
* Coarse allocator, refused list head (`C77_refused_violated`). The failure of C01 (`C01_hostOom_violated`) happens in the pointer code too, on zeroed memory and for a user that gives back only what it holds: `split_current_block`
  leaves the new block in the tree when `free_blocks_add` fails (`coarse.c:731-738`), and two later allocations share bytes.
* Configuration files (`C80_fileGrows_violated`). `ctl_load_config_from_file` allocates the size that `ftell` gave plus one and then copies characters until the end of the file without looking at the size
  (`ctl.c:525-580`). A file that grows in between is written past the end of the buffer.
* Control names with numbers (`C80_numbers_violated`). `ctl_find_node` gets the list of indexes by value and prepends to its own copy (`ctl.c:122-165`), so `ctl_query` does not see the entries: no handler gets them
  (`C38_indexes_violated`) and nobody frees them. Each query of a name such as `5` leaves one block.
* Control names, refused allocation (`C80_query_refused`). When the copy of the name is refused in the search of the global tree, `ctl_query` takes it for "not found" and searches the tree of the handle: a name that is in both
  trees reaches the other handler.
* Topology (`C81_idle_violated`, `C81_retry_violated`). `umfDestroyTopology` does not set `topology` to `NULL` (`topology.c:18-27`). If the library is initialised again and shut down without anything that needs the topology, the same
  topology is destroyed twice. If it could not be loaded, the once flag is never reset, and no later round tries again.
* Tracker, replacing an entry (`C82_splitUpdate_violated`, `C82_mergeUpdate_violated`). `critnib_insert` allocates a leaf before it looks for the key (`critnib.c:313`), so it can fail with `ENOMEM` also when it only replaces a value.
  `trackingAllocationSplit` and `trackingAllocationMerge` take for granted that it cannot ("nothing to allocate", `provider_tracking.c:551-556`, `677-682`; an `assert` only) and free the old entry, which is still in the map. Later
  lookups and frees read and free it again. `Tracker/Model.lean` and `TrkConc/Model.lean` assume that this leaf is available.
* Tracker, merging outer regions (`C82_mergeKids_violated`). A merge does not decrement the parent's count of children, so an outer region can have a count above zero and no children. `get_most_nested_alloc_segment` then returns the outer
  entry together with the number of the next level. If two such regions are merged, the new entry goes into the wrong map, and the freed one stays in the right one. All calls are ordinary, and no memory is refused.
* Proxy library, text after the number (`C83_suffix_violated`). Only the first character of the value is checked, so `size.threshold=64k` is accepted and means 64 bytes.
* Proxy library, other options (`C83_otherName_violated`). The options are searched for with `strstr` and need not begin at an item: `my.size.threshold=1;size.threshold=64` gives a threshold of 1.
* Proxy library, large numbers (`C83_overflow_violated`). `atol` is undefined for numbers above `LONG_MAX`, which are valid thresholds of type `size_t`.
* Proxy library, debug messages (`C83_debug_violated`). `get_size_threshold` prints the string with `%s` before it is tested for NULL (`proxy_lib.c:138`), so with `UMF_LOG=level:debug;output:stderr` and no size threshold the start-up is undefined by the C standard (the GNU library prints `(null)`).
* Exported handles, merging (`C84_merge_violated`). `trackingAllocationMerge` removes the upper region from the tracker but not its exported handle from `ipcCache`. No later call frees that address, so the handle is never put back, even if the pool
  frees everything before it is destroyed. Jemalloc pools merge regions by themselves.
* Exported handles, destruction (`C84_destroy_violated`). `trackingFinalize` deletes `ipcCache` without putting back the handles in it and without freeing their blocks (`provider_tracking.c:840`), so a pool that is destroyed with an exported
  allocation left leaks both.
* Tracking providers (`C88_reported_violated`). A purge that fails below a tracking provider is reported by `umfGetLastFailedMemoryProvider` as a failure of the tracking provider, which the caller has not created; `umfMemoryProviderGetIPCHandleSize` does not report failures; `umfMemoryProviderGetLastNativeError(NULL, ..)` is undefined in release builds.
* Pools from memspaces (`C89_pool_violated`). `umfPoolCreateFromMemspace` fails with `UMF_RESULT_ERROR_NOT_SUPPORTED` for every memspace; the only kind of target does not support it.
* Providers from memspaces (`C89_count_violated`). The number of partitions of a policy is cut to 32 bits: with 2^32 partitions the provider is created without any and without an error.
* devdax paths (`C90_devdax_violated`). `utils_devdax_open` opens the path and then calls `stat` on the path, not `fstat` on the descriptor. If the path is replaced in between, the descriptor of an ordinary file is returned.
* Named shared memory (`C90_name_violated`). `utils_shm_create` unlinks the name before it creates the file. If the creation fails, shared memory of another provider with that name can no longer be opened by name.
* Anonymous memory (`C90_anonymous_violated`). `utils_create_anonymous_fd` takes descriptor 0 from `memfd_secret` for a failure, opens a second descriptor and never closes the first.
* Duplicated descriptors (`C90_error_violated`). `utils_duplicate_fd` reads `errno` after `close` and after printing a message; the result can be the code of an error that no system call has reported.
