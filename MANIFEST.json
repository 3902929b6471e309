{
 "claims": [
  {
   "property": "C01",
   "status": "proved",
   "theorems": [
    "Verif.Coarse.C01_liveDisjoint"
   ],
   "note": "Assumes, per call, that free-list elements can be allocated and that new block descriptors are zero-filled (or the callbacks succeed); upstream memory is fresh. C01_hostOom_violated shows that after one failing host allocation two live allocations can overlap."
  },
  {
   "property": "C02",
   "status": "proved",
   "theorems": [
    "Verif.Coarse.C02_alignedAndSized",
    "Verif.Coarse.C02_badAlignmentRefused"
   ],
   "note": "Assumes, per call, that free-list elements can be allocated and that new block descriptors are zero-filled (or the callbacks succeed); upstream memory is fresh. "
  },
  {
   "property": "C03",
   "status": "proved",
   "theorems": [
    "Verif.Coarse.C03_statsExact"
   ],
   "note": "Assumes, per call, that free-list elements can be allocated and that new block descriptors are zero-filled (or the callbacks succeed); upstream memory is fresh. "
  },
  {
   "property": "C04",
   "status": "proved",
   "theorems": [
    "Verif.Coarse.C04_partition",
    "Verif.Coarse.C04_coalesced",
    "Verif.Coarse.C04_allFreed"
   ],
   "note": "Assumes, per call, that free-list elements can be allocated and that new block descriptors are zero-filled (or the callbacks succeed); upstream memory is fresh. "
  },
  {
   "property": "C05",
   "status": "partial",
   "theorems": [
    "Verif.Coarse.C05_failureChangesNothing_partial",
    "Verif.Coarse.C05_failureKeepsBlocks_partial",
    "Verif.Coarse.C05_hostOom_violated",
    "Verif.Coarse.C05_uninit_violated",
    "Verif.Coarse.C01_hostOom_violated",
    "Verif.Coarse.Index.C05_emptyList_violated"
   ],
   "note": "The full property (every failing host allocation) is false of the code; the witnesses prove it. The partial theorems cover every failing callback and every refused argument."
  },
  {
   "property": "C06",
   "status": "proved",
   "theorems": [
    "Verif.Coarse.C06_fastest",
    "Verif.Coarse.C06_checkAll",
    "Verif.Coarse.Index.C06_index",
    "Verif.Coarse.Index.C06_indexAdd",
    "Verif.Coarse.Index.C06_indexRemove",
    "Verif.Coarse.Index.C06_indexListed"
   ],
   "note": "Assumes, per call, that free-list elements can be allocated and that new block descriptors are zero-filled (or the callbacks succeed); upstream memory is fresh. The Index theorems are about the tree of linked lists that holds the free blocks: after any history it is searched without a null access and answers like the list of the model (Index.rmGe_stands)."
  },
  {
   "property": "C07",
   "status": "proved",
   "theorems": [
    "Verif.Coarse.C07_split",
    "Verif.Coarse.C07_merge",
    "Verif.Coarse.C07_splitMerge",
    "Verif.Coarse.C07_free"
   ],
   "note": "Assumes, per call, that free-list elements can be allocated and that new block descriptors are zero-filled (or the callbacks succeed); upstream memory is fresh. "
  },
  {
   "property": "C08",
   "status": "proved",
   "theorems": [
    "Verif.Ravl.C08_orderedTree"
   ],
   "note": ""
  },
  {
   "property": "C09",
   "status": "proved",
   "theorems": [
    "Verif.Ravl.C09_height"
   ],
   "note": ""
  },
  {
   "property": "C10",
   "status": "proved",
   "theorems": [
    "Verif.Critnib.C10_radixTreeIsMap"
   ],
   "note": ""
  },
  {
   "property": "C11",
   "status": "proved",
   "theorems": [
    "Verif.Critnib.C11_directedLookup",
    "Verif.Critnib.C11_findLe"
   ],
   "note": ""
  },
  {
   "property": "C12",
   "status": "partial",
   "theorems": [
    "Verif.Critnib.C12_iterate_partial",
    "Verif.Critnib.C12_iterate_violated"
   ],
   "note": "The full property is false of the code (witness): a range not starting at 0 is skipped when keys differing in the top four bits are present. The partial theorem covers ranges from 0 and all key sets below 2^60."
  },
  {
   "property": "C13",
   "status": "partial",
   "theorems": [
    "Verif.Critnib.Conc.C13_get",
    "Verif.Critnib.Conc.C13_safe",
    "Verif.Critnib.Conc.C13_findLe_partial",
    "Verif.Critnib.Conc.C13_findLe_violated",
    "Verif.Critnib.Conc.C13_findLe_present_violated"
   ],
   "note": "Every schedule, number of readers and history, on sequentially consistent memory: get is linearizable; find_le returns keys that were present, and the greatest key up to the query if that does not change during the call. find_le is not linearizable (witness: it misses a key that is present during the whole call)."
  },
  {
   "property": "C14",
   "status": "proved",
   "theorems": [
    "Verif.Tracker.C14_poolByPtr"
   ],
   "note": "For all histories of tracked allocations, frees, splits and top-level merges with upstream and host failures; frees of an allocation that still contains a newer one, and merges inside another allocation, are excluded (see C15, C16). link_findLe relates the lookups to the radix tree."
  },
  {
   "property": "C15",
   "status": "partial",
   "theorems": [
    "Verif.Tracker.C15_add_partial",
    "Verif.Tracker.C15_refusedAlloc",
    "Verif.Tracker.C15_remove",
    "Verif.Tracker.C15_overlap_violated"
   ],
   "note": "Ranges that start inside a tracked allocation and end outside are refused and refusals change nothing; ranges that start outside and overlap are accepted (witness)."
  },
  {
   "property": "C16",
   "status": "partial",
   "theorems": [
    "Verif.Tracker.C16_tracked_partial",
    "Verif.Tracker.C16_free_partial",
    "Verif.Tracker.C16_split_partial",
    "Verif.Tracker.C16_merge_partial",
    "Verif.Tracker.C16_splitOom_violated",
    "Verif.Tracker.C16_freeOom_violated",
    "Verif.Tracker.C16_freeSize_violated",
    "Verif.Tracker.C16_nestedMerge_violated"
   ],
   "note": "Proved for all histories without host memory exhaustion after the upstream call and without merges of nested allocations; false otherwise (witnesses)."
  },
  {
   "property": "C17",
   "status": "partial",
   "theorems": [
    "Verif.Ipc.C17_staysOpen_partial",
    "Verif.Ipc.C17_mappedOnce",
    "Verif.Ipc.C17_sameMapping",
    "Verif.Ipc.C17_distinctMapping",
    "Verif.Ipc.C17_limit_partial",
    "Verif.Ipc.C17_newHandle_violated",
    "Verif.Ipc.C17_wrongProvider_violated",
    "Verif.Ipc.C17_limit_violated",
    "Verif.Ipc.C17_failedOpen_violated"
   ],
   "note": "For every interleaving of opens (two steps), closes, eviction callbacks and provider destructions in which no cached memory is opened with another handle; false otherwise, and the limit is not restored once exceeded (witnesses)."
  },
  {
   "property": "C18",
   "status": "partial",
   "theorems": [
    "Verif.Ipc.C18_roundTrip_partial",
    "Verif.Ipc.C18_handleIds_partial",
    "Verif.Ipc.C18_reallocated_partial",
    "Verif.Ipc.C18_merge_violated",
    "Verif.Ipc.C18_reuse_violated"
   ],
   "note": "Exporter: any history of allocations, frees and exports, tracker included; importer: any interleaving. False after merges in the exporter (witnesses)."
  },
  {
   "property": "C19",
   "status": "partial",
   "theorems": [
    "Verif.BaseAlloc.Fixed.C19_elements_partial",
    "Verif.BaseAlloc.Fixed.C19_failsOnlyIfRefused",
    "Verif.BaseAlloc.Fixed.C19_reuse",
    "Verif.BaseAlloc.Fixed.C19_destroy",
    "Verif.BaseAlloc.Fixed.C19_hugeElement_violated"
   ],
   "note": "Proved for all histories and all element sizes of which 128 fit the address space; for larger ones the property is false of the code (witness)."
  },
  {
   "property": "C20",
   "status": "partial",
   "theorems": [
    "Verif.BaseAlloc.Linear.C20_allocations_partial",
    "Verif.BaseAlloc.Linear.C20_free",
    "Verif.BaseAlloc.Linear.C20_contains",
    "Verif.BaseAlloc.Linear.C20_destroy",
    "Verif.BaseAlloc.Linear.C20_failsOnlyIfRefused",
    "Verif.BaseAlloc.Linear.C20_interior",
    "Verif.BaseAlloc.Linear.C20_hugeRequest_violated"
   ],
   "note": "Proved for all histories of requests up to 2^64-24 bytes; for larger ones the property is false of the code (witness)."
  },
  {
   "property": "C21",
   "status": "partial",
   "theorems": [
    "Verif.BaseAlloc.Global.C21_ranges_partial",
    "Verif.BaseAlloc.Global.C21_free_partial",
    "Verif.BaseAlloc.Global.C21_usable_partial",
    "Verif.BaseAlloc.Global.C21_succeeds_partial",
    "Verif.BaseAlloc.Global.C21_classChunks",
    "Verif.BaseAlloc.Global.C21_hugeRequest_violated",
    "Verif.BaseAlloc.Global.C21_refused_violated"
   ],
   "note": "Proved for all histories of requests with size + 8 + alignment below 2^32; for larger ones, and when a chunk source refuses, the property is false of the code (witnesses)."
  },
  {
   "property": "C22",
   "status": "partial",
   "theorems": [
    "Verif.Disjoint.C22_tightestClass",
    "Verif.Disjoint.C22_classes",
    "Verif.Disjoint.C22_mallocClass",
    "Verif.Disjoint.C22_aboveCutOff_violated"
   ],
   "note": "Tightest class proved for every accepted minimum bucket size and every request up to 2 GiB. A configured largest pooled size above 2 GiB is accepted at creation and makes requests above 2 GiB index past the bucket array (witness)."
  },
  {
   "property": "C23",
   "status": "partial",
   "theorems": [
    "Verif.Disjoint.C23_disjoint_partial",
    "Verif.Disjoint.C23_usable_partial",
    "Verif.Disjoint.C23_defined_partial",
    "Verif.Disjoint.Conc.C23_threads_partial",
    "Verif.Disjoint.Conc.C23_threadsUsable_partial"
   ],
   "note": "All histories of malloc, aligned malloc, usable size and free, including provider and host failures, first as atomic operations, then (Conc) for every interleaving of the steps of any number of threads up to a first undefined behaviour (C67). Partial: slab_min_size > 0, max_poolable_size <= 2 GiB, aligned requests satisfy AlignOk."
  },
  {
   "property": "C24",
   "status": "partial",
   "theorems": [
    "Verif.Disjoint.C24_aligned_partial",
    "Verif.Disjoint.Conc.C23_threads_partial",
    "Verif.Disjoint.C24_roundUp_violated",
    "Verif.Disjoint.C24_padding_violated"
   ],
   "note": "Proved for requests whose padded size is representable and routable (AlignOk); sizes near 2^64 wrap around and are served from the smallest class (witnesses)."
  },
  {
   "property": "C25",
   "status": "partial",
   "theorems": [
    "Verif.Disjoint.C25_free_partial",
    "Verif.Disjoint.C25_inUse_partial",
    "Verif.Disjoint.C25_destroy_partial",
    "Verif.Disjoint.Conc.C25_threads_partial",
    "Verif.Disjoint.Conc.C25_threadsFree_partial",
    "Verif.Disjoint.Conc.C25_threadsRelease_partial",
    "Verif.Disjoint.Conc.C25_threadsDestroy_partial",
    "Verif.Disjoint.C25_slabMin0_violated",
    "Verif.Disjoint.C25_slabMin0_refused_violated",
    "Verif.Disjoint.C25_alignedFree_violated",
    "Verif.Disjoint.Bitmap.init_ok",
    "Verif.Disjoint.Bitmap.set_ok",
    "Verif.Disjoint.Bitmap.read_ok",
    "Verif.Disjoint.Bitmap.find_ok"
   ],
   "note": "Proved for CfgOk configurations and AlignOk requests, for atomic calls and (Conc) for every interleaving. With slab_min_size = 0, or an aligned address past slab_min_size in a large class, the free is sent to the provider for memory it never gave out (witnesses). The 64-bit words of the chunk bitmap refine the flags of the model."
  },
  {
   "property": "C26",
   "status": "partial",
   "theorems": [
    "Verif.Disjoint.C26_kept_partial",
    "Verif.Disjoint.C26_idle_partial",
    "Verif.Disjoint.Conc.C26_threads_partial",
    "Verif.Disjoint.C26_capacity0_violated",
    "Verif.Disjoint.Limits.C26_limit",
    "Verif.Disjoint.Limits.C26_counter",
    "Verif.Disjoint.Limits.canPool_eq"
   ],
   "note": "The shared limit holds for every interleaving of any number of pools and buckets (counter does not wrap). Per class the bound is 1 for classes of at most half a slab even when the configured capacity is 0 (witness)."
  },
  {
   "property": "C27",
   "status": "partial",
   "theorems": [
    "Verif.Os.C27_alloc_partial",
    "Verif.Os.C27_free_partial",
    "Verif.Os.C27_overflow_violated"
   ],
   "note": "Every page size, address space, kernel answer and request with size + alignment below 2^64; beyond that the length wraps and foreign memory is unmapped (witness)."
  },
  {
   "property": "C28",
   "status": "partial",
   "theorems": [
    "Verif.Os.C28_split_partial",
    "Verif.Os.C28_share",
    "Verif.Os.C28_bindFails",
    "Verif.Os.C28_overflow_violated"
   ],
   "note": "Every accepted list of partitions and every number of pages with pages * weight below 2^64; beyond that pages are bound to the wrong node (witness)."
  },
  {
   "property": "C29",
   "status": "proved",
   "theorems": [
    "Verif.Os.C29_interleave"
   ],
   "note": "Every number of nodes, part size, page size, history and allocation size."
  },
  {
   "property": "C30",
   "status": "partial",
   "theorems": [
    "Verif.Os.Stats.C30_stats_partial",
    "Verif.Os.Stats.C30_reset_violated"
   ],
   "note": "Every interleaving of any number of threads in which resets do not overlap with other operations; false with overlapping resets (witness)."
  },
  {
   "property": "C31",
   "status": "partial",
   "theorems": [
    "Verif.Os.C31_distinct_partial",
    "Verif.Os.C31_export_partial",
    "Verif.Os.C31_alignedOffset_violated",
    "Verif.Os.C31_hugeFail_violated",
    "Verif.Os.C31_merge_violated",
    "Verif.FileProv.C31_fileDistinct_partial",
    "Verif.FileProv.C31_fileExport_partial",
    "Verif.FileProv.C31_fileAligned_violated",
    "Verif.FileProv.C31_fileOddFail_violated",
    "Verif.FileProv.C31_fileMerge_violated"
   ],
   "note": "File provider: all histories of its callbacks with alignments up to the page size, merges of file-adjacent blocks, and failing calls only if sizes are whole pages; the exclusions are necessary (witnesses). OS provider with shared visibility: all histories of allocations, frees, splits and merges without wrap-around, without a cut head, and with merges of file-adjacent memory; the three exclusions are necessary (witnesses)."
  },
  {
   "property": "C32",
   "status": "proved",
   "theorems": [
    "Verif.Api.C32_create",
    "Verif.Api.C32_dispatch"
   ],
   "note": "All tables, all calls, all arguments. Which arguments may pass and which function stands for a call is given in Api/Spec.lean."
  },
  {
   "property": "C33",
   "status": "partial",
   "theorems": [
    "Verif.Api.C33_lastFailed_partial",
    "Verif.Api.C33_ipc_violated",
    "Verif.Api.C33_hiddenProvider_violated"
   ],
   "note": "All histories of calls by all threads in which no IPC call fails. Failures of IPC calls are not reported (witness); with a tracked pool the reported handle is the internal wrapper (proved for all failing allocations)."
  },
  {
   "property": "C34",
   "status": "partial",
   "theorems": [
    "Verif.Api.Pool.C34_live_partial",
    "Verif.Api.Pool.C34_safe_partial",
    "Verif.Api.Pool.C34_succeeds",
    "Verif.Api.Pool.C34_order",
    "Verif.Api.Pool.C34_createLeak_violated",
    "Verif.Api.Pool.C34_cacheNull_violated"
   ],
   "note": "All histories of creations, failed creations and destructions of any number of pools, all flags and failure points except host memory for the tracking wrapper and its cache; those leak or crash (witnesses)."
  },
  {
   "property": "C35",
   "status": "proved",
   "theorems": [
    "Verif.Tracker.C35_umfFree"
   ],
   "note": "For all reachable trackers and all addresses."
  },
  {
   "property": "C36",
   "status": "partial",
   "theorems": [
    "Verif.Memspace.C36_sound",
    "Verif.Memspace.C36_add",
    "Verif.Memspace.C36_remove_partial",
    "Verif.Memspace.C36_removeLast_violated",
    "Verif.Memspace.C36_filter_partial",
    "Verif.Memspace.C36_filterAll_violated",
    "Verif.Memspace.C36_filterMemory_violated",
    "Verif.Memspace.C36_filterById_partial",
    "Verif.Memspace.C36_filterByCapacity_partial",
    "Verif.Memspace.C36_clone_partial",
    "Verif.Memspace.C36_cloneEmpty_violated",
    "Verif.Memspace.C36_destroy",
    "Verif.Memspace.C36_noLeak",
    "Verif.Memspace.C36_fromNuma",
    "Verif.Memspace.C36_fromNumaTwice_violated",
    "Verif.Memspace.C36_fromNumaMemory_violated"
   ],
   "note": "All histories of all memspace calls, all memory failures. The last target cannot be removed, a filter that keeps nothing uses freed targets, empty memspaces cannot be copied, duplicates are accepted from arrays (witnesses)."
  },
  {
   "property": "C37",
   "status": "partial",
   "theorems": [
    "Verif.Memspace.C37_bandwidth_partial",
    "Verif.Memspace.C37_bandwidth_noTies",
    "Verif.Memspace.C37_latency_partial",
    "Verif.Memspace.C37_ties_violated",
    "Verif.Memspace.C37_capacity",
    "Verif.Memspace.C37_capacityLeak_violated"
   ],
   "note": "All machines: every target shown is the best for some initiator and every initiator has a best target shown. With ties only the first best target is taken (witness). Capacity: exactly the targets of greatest capacity."
  },
  {
   "property": "C38",
   "status": "partial",
   "theorems": [
    "Verif.Ctl.C38_leaf_partial",
    "Verif.Ctl.C38_subtree",
    "Verif.Ctl.C38_unknown",
    "Verif.Ctl.C38_local",
    "Verif.Ctl.C38_api",
    "Verif.Ctl.C38_custom",
    "Verif.Ctl.C38_os",
    "Verif.Ctl.C38_scalable",
    "Verif.Ctl.C38_tooLong_violated",
    "Verif.Ctl.C38_indexes_violated",
    "Verif.Ctl.C38_ignored_violated",
    "Verif.Ctl.C38_nested_violated"
   ],
   "note": "Every tree and every name; the settings of OS providers and scalable pools end to end. Partial: a name that goes on after a leaf reads a null pointer; the value of an index never reaches the function; the result of the ctl function of a provider or pool is dropped, so errors are reported as success; a name that repeats the first parts runs the function on the wrong object."
  },
  {
   "property": "C39",
   "status": "partial",
   "theorems": [
    "Verif.Ctl.C39_all",
    "Verif.Ctl.C39_malformed",
    "Verif.Ctl.C39_fails",
    "Verif.Ctl.C39_file",
    "Verif.Ctl.C39_write",
    "Verif.Ctl.C39_fields",
    "Verif.Ctl.C39_integer_partial",
    "Verif.Ctl.C39_boolean",
    "Verif.Ctl.C39_string",
    "Verif.Ctl.C39_smallest_violated",
    "Verif.Ctl.C39_trailing_violated",
    "Verif.Ctl.C39_tooMany_violated"
   ],
   "note": "Every text, tree and argument description. Partial: text after a number and surplus values are ignored instead of reported, and the smallest 64-bit number is refused."
  },
  {
   "property": "C40",
   "status": "partial",
   "theorems": [
    "Verif.Log.C40_sound",
    "Verif.Log.C40_soundArg",
    "Verif.Log.C40_complete_partial",
    "Verif.Log.C40_log_partial",
    "Verif.Log.C40_fileName_violated"
   ],
   "note": "An option that takes effect is always an item. The converse and the resulting configuration are proved for all variables of the documented form whose file name does not contain the text of an option; with such a name an option is ignored (witness)."
  },
  {
   "property": "C41",
   "status": "proved",
   "theorems": [
    "Verif.Utils.C41_alignUpSafe",
    "Verif.Utils.C41_alignDown",
    "Verif.Utils.C41_isAligned",
    "Verif.Utils.C41_isPowerOf2",
    "Verif.Utils.C41_alignPtrUpSizeDown",
    "Verif.Utils.C41_sizeDown_wraps",
    "Verif.Utils.C41_alignPtrDownSizeUp"
   ],
   "note": "C41_sizeDown_wraps records the wrap-around behaviour of the size helper when the range is shorter than the skipped prefix."
  },
  {
   "property": "C42",
   "status": "proved",
   "theorems": [
    "Verif.Utils.C42_translateFlags",
    "Verif.Utils.C42_protection"
   ],
   "note": ""
  },
  {
   "property": "C43",
   "status": "partial",
   "theorems": [
    "Verif.Proxy.C43_free",
    "Verif.Proxy.C43_realloc",
    "Verif.Proxy.C43_realloc0",
    "Verif.Proxy.C43_usable",
    "Verif.Proxy.C43_alloc",
    "Verif.Proxy.C43_nested_partial",
    "Verif.Proxy.C43_calloc_violated",
    "Verif.Proxy.C43_linked_violated",
    "Verif.Proxy.C43_recursion_violated",
    "Verif.Proxy.C43_flagLost_violated"
   ],
   "note": "Every history, thread and threshold while the pool exists, with calls nested in functions of the pool. False after the destructor in programs that are linked with the library, for calloc with an overflow, and for recursion while the pool frees (witnesses)."
  },
  {
   "property": "C44",
   "status": "partial",
   "theorems": [
    "Verif.Init.C44_orderly_partial",
    "Verif.Init.C44_inUse",
    "Verif.Init.C44_race_violated",
    "Verif.Init.C44_lastFirst_violated",
    "Verif.Init.C44_retry_violated"
   ],
   "note": "All threads and histories in which a call that initialises or shuts down the library does not overlap with other calls; false when they overlap, and after a failed initialisation (witnesses)."
  },
  {
   "property": "C45",
   "status": "partial",
   "theorems": [
    "Verif.Tracker.C45_topLevel_partial",
    "Verif.Tracker.C45_lostUpdate_violated",
    "Verif.TrkConc.C45_conc_answer_partial",
    "Verif.TrkConc.C45_conc_tracked_partial",
    "Verif.TrkConc.C45_conc_idle_partial",
    "Verif.TrkConc.C45_conc_entries_partial",
    "Verif.TrkConc.C45_conc_defined_partial",
    "Verif.TrkConc.C45_conc_mutex_partial",
    "Verif.TrkConc.C45_conc_bounded_partial",
    "Verif.TrkConc.C45_conc_no_deadlock_partial",
    "Verif.TrkConc.C45_conc_lookup_violated",
    "Verif.TrkConc.C45_conc_remove_violated"
   ],
   "note": "Registering, removing, splitting, merging and looking up regions that are not nested, step by step, for any number of threads and every schedule in which the base allocator does not hand out an entry again between the moment a registering thread finds it and the moment it reads its size. If it does, a region is put under an unrelated one: lookups of it find nothing and the other cannot be removed (witnesses). With nested regions a lost update of the child count makes the lookup wrong (witness)."
  },
  {
   "property": "C46",
   "status": "partial",
   "theorems": [
    "Verif.Disjoint.Limits.C46_destroyReturnsShare_violated",
    "Verif.Disjoint.Limits.C46_available_partial"
   ],
   "note": "Violated: destruction does not subtract the kept slabs from the shared total. What remains available is proved to be the limit minus what destroyed pools had."
  },
  {
   "property": "C47",
   "status": "partial",
   "theorems": [
    "Verif.Os.C47_oddSize_violated"
   ],
   "note": "Violated: after an allocation whose size is not a multiple of the page size every later request of a provider with a file fails, proved for all requests and kernels."
  },
  {
   "property": "C48",
   "status": "partial",
   "theorems": [
    "Verif.FileProv.C48_mapped_partial",
    "Verif.FileProv.C48_alloc_partial",
    "Verif.FileProv.C48_destroy_partial",
    "Verif.FileProv.C48_destroySafe_partial",
    "Verif.FileProv.C48_outside_violated",
    "Verif.FileProv.C48_leak_violated"
   ],
   "note": "All histories of the callbacks with alignments up to the page size. With a larger alignment unmapped memory is returned, and without host memory a mapping is leaked (witnesses)."
  },
  {
   "property": "C49",
   "status": "proved",
   "theorems": [
    "Verif.Log.C49_message",
    "Verif.Log.C49_line"
   ],
   "note": "All texts; the name of the function is shorter than the buffer. The order of the levels (debug, info, warning, error, fatal) is taken from the definition Level.num, not stated separately: swapping two levels there is not noticed."
  },
  {
   "property": "C50",
   "status": "partial",
   "theorems": [
    "Verif.Memspace.C50_again_partial",
    "Verif.Memspace.C50_latency_violated",
    "Verif.Memspace.C50_retry_violated"
   ],
   "note": "Proved for three of the memspaces and creations that succeed; the lowest latency memspace is NULL after re-initialisation, and a failed creation is never retried (witnesses)."
  },
  {
   "property": "C51",
   "status": "partial",
   "theorems": [
    "Verif.Policy.C51_bind",
    "Verif.Policy.C51_preferred",
    "Verif.Policy.C51_default",
    "Verif.Policy.C51_interleave",
    "Verif.Policy.C51_interleaveParts",
    "Verif.Policy.C51_split_partial",
    "Verif.Policy.C51_refused",
    "Verif.Policy.C51_highestCapacity_violated",
    "Verif.Policy.C51_policy"
   ],
   "note": "From the memspace and the policy to the calls of hwloc for every allocation size and history. Split: pages times weight below 2^64. The memspace of highest capacity uses only its first node (witness)."
  },
  {
   "property": "C52",
   "status": "partial",
   "theorems": [
    "Verif.Init.C52_cycles_partial",
    "Verif.Init.C44_orderly_partial",
    "Verif.Init.C52_free",
    "Verif.Init.C52_ctl_violated",
    "Verif.Init.C52_free_violated",
    "Verif.Init.C52_osCtl_violated",
    "Verif.Init.C52_scalable_violated"
   ],
   "note": "Up to 100 rounds, without control functions and scalable pools; false in the 101st round, for freed memory in every round after the first, and after the use of these features (witnesses)."
  },
  {
   "property": "C53",
   "status": "partial",
   "theorems": [
    "Verif.Proxy.C53_blocks",
    "Verif.Proxy.C53_aligned",
    "Verif.Proxy.C53_realloc_partial",
    "Verif.Proxy.C53_alignment_violated",
    "Verif.Proxy.C53_overlap_violated",
    "Verif.Proxy.C53_aligned_violated",
    "Verif.Proxy.C43_calloc_violated"
   ],
   "note": "The start-up phase (the pool and the system are assumed). False for the alignment of malloc, for overflows, and realloc copies overlapping memory (witnesses)."
  },
  {
   "property": "C54",
   "status": "partial",
   "theorems": [
    "Verif.Gpu.C54_context_kept",
    "Verif.Gpu.C54_context_used_partial",
    "Verif.Gpu.C54_ipc_violated"
   ],
   "note": "Every number of threads, schedule and answer of the driver. Partial: getting an IPC handle and closing a mapping do not set the context (witnesses)."
  },
  {
   "property": "C55",
   "status": "partial",
   "theorems": [
    "Verif.Gpu.C55_memory",
    "Verif.Gpu.C55_calls_valid",
    "Verif.Gpu.C55_no_leak_partial",
    "Verif.Gpu.C55_resident_violated",
    "Verif.Gpu.C55_unaligned_violated",
    "Verif.Gpu.C59_success"
   ],
   "note": "Every number of threads, schedule and answer of the drivers. Partial: Level Zero memory is leaked when it cannot be made resident (witness); a CUDA allocation that fails for its alignment stores the address of freed memory (witness); no claim about leaks when the driver refuses to free or to change the context."
  },
  {
   "property": "C56",
   "status": "partial",
   "theorems": [
    "Verif.Gpu.C56_cuda_created",
    "Verif.Gpu.C56_ze_created",
    "Verif.Gpu.C56_defined_partial",
    "Verif.Gpu.C59_error",
    "Verif.Gpu.C55_no_leak_partial",
    "Verif.Gpu.C56_type_violated",
    "Verif.Gpu.C56_probe_violated",
    "Verif.Gpu.C56_policy_violated",
    "Verif.Gpu.C56_params_violated"
   ],
   "note": "Every parameter value and answer. Partial: Level Zero creation is undefined in three cases, and CUDA parameters are leaked without the library (witnesses)."
  },
  {
   "property": "C57",
   "status": "partial",
   "theorems": [
    "Verif.Gpu.C57_native_code",
    "Verif.Gpu.C57_cuda_message",
    "Verif.Gpu.C57_ze_message_violated"
   ],
   "note": "Every schedule, history and text. Partial: the Level Zero provider never gives a message (witness)."
  },
  {
   "property": "C58",
   "status": "proved",
   "theorems": [
    "Verif.Gpu.C58_open",
    "Verif.Gpu.C58_closes"
   ],
   "note": "Every handle, schedule and answer; closing a descriptor is assumed to release it."
  },
  {
   "property": "C59",
   "status": "proved",
   "theorems": [
    "Verif.Gpu.C59_success",
    "Verif.Gpu.C59_error",
    "Verif.Gpu.C59_works"
   ],
   "note": "Every call and every sequence of answers at all."
  },
  {
   "property": "C60",
   "status": "partial",
   "theorems": [
    "Verif.Heap.C60_calls_partial",
    "Verif.Heap.C60_blocks_partial",
    "Verif.Heap.C60_calls_violated"
   ],
   "note": "Every number of threads and pools, every interleaving and callback. Partial: a jemalloc pool created while another one is destroyed may follow a null pointer (witness); the libraries are described by assumptions."
  },
  {
   "property": "C61",
   "status": "partial",
   "theorems": [
    "Verif.Heap.C61_partial",
    "Verif.Heap.C61_violated"
   ],
   "note": "Every array smaller than the address space; the product wraps for larger ones (witness)."
  },
  {
   "property": "C62",
   "status": "partial",
   "theorems": [
    "Verif.Heap.C62_error_partial",
    "Verif.Heap.C62_free_partial",
    "Verif.Heap.C62_usable_proxy",
    "Verif.Heap.C62_usable_tbb",
    "Verif.Heap.C62_usable_je"
   ],
   "note": "Every interleaving without a creation of a jemalloc pool during the destruction of another one; realloc to size 0, which frees, is not a failure."
  },
  {
   "property": "C63",
   "status": "proved",
   "theorems": [
    "Verif.Heap.C63_books",
    "Verif.Heap.C63_books_exact",
    "Verif.Heap.C63_alloc",
    "Verif.Heap.C63_purge_lazy",
    "Verif.Heap.C63_purge_forced"
   ],
   "note": "Every sequence of callbacks of one pool that the library may make."
  },
  {
   "property": "C64",
   "status": "partial",
   "theorems": [
    "Verif.Heap.C64_noLeak_partial",
    "Verif.Heap.C64_load_partial",
    "Verif.Heap.C64_load_violated",
    "Verif.Heap.C64_close_violated"
   ],
   "note": "Every history without a creation of a jemalloc pool during the destruction of another one. A missing function is not noticed, and a library with missing functions is closed twice (witnesses)."
  },
  {
   "property": "C65",
   "status": "partial",
   "theorems": [
    "Verif.Heap.C65_partial",
    "Verif.Heap.C65_violated",
    "Verif.Heap.C65_zero_violated"
   ],
   "note": "Powers of two for all three pools; jemalloc pools neither grant nor refuse other alignments (witnesses)."
  },
  {
   "property": "C66",
   "status": "proved",
   "theorems": [
    "Verif.Tag.C66_tag_atomic"
   ],
   "note": "Every schedule of any number of threads and pools."
  },
  {
   "property": "C67",
   "status": "partial",
   "theorems": [
    "Verif.Disjoint.Conc.C67_free_violated",
    "Verif.Disjoint.Conc.C67_onlyLarge_partial",
    "Verif.Disjoint.Conc.C67_pooled_partial",
    "Verif.Disjoint.Conc.C67_progress_partial",
    "Verif.Disjoint.Conc.C67_bounded"
   ],
   "note": "Violated: a free or size query of an allocation above the largest pooled size can use a slab object another thread has just freed (witness). Proved: this is the only undefined behaviour, it needs such an allocation, there is no deadlock and a call takes at most twelve steps. Partial: CfgOk, AlignOk."
  },
  {
   "property": "C68",
   "status": "partial",
   "theorems": [
    "Verif.CpuProv.C68_create_partial",
    "Verif.CpuProv.C68_destroy_partial",
    "Verif.CpuProv.C68_live_partial",
    "Verif.CpuProv.C68_defined_partial",
    "Verif.CpuProv.C68_nothing_partial",
    "Verif.CpuProv.C68_good",
    "Verif.CpuProv.C68_firstBind",
    "Verif.CpuProv.C68_longPath_violated",
    "Verif.CpuProv.C68_sharedFd_violated",
    "Verif.CpuProv.C68_nodeset_violated",
    "Verif.CpuProv.C68_partitions_violated",
    "Verif.CpuProv.C68_fd_violated",
    "Verif.CpuProv.C68_head_violated",
    "Verif.CpuProv.C68_shmName_violated"
   ],
   "note": "Every history and every failure outside the excluded cases; for each excluded case a witness shows what the code does wrong (paths of 4096 characters, shared OS providers, failing bitmaps, partitions or mutexes, an element of a free list that cannot be made). What use does to the blocks of coarse is taken from C06."
  },
  {
   "property": "C69",
   "status": "partial",
   "theorems": [
    "Verif.CpuIpc.C69_bytes_partial",
    "Verif.CpuIpc.C69_open_partial",
    "Verif.CpuIpc.C69_close_partial",
    "Verif.CpuIpc.C69_covered_partial",
    "Verif.CpuIpc.C69_again_partial",
    "Verif.CpuIpc.C69_reach_partial",
    "Verif.CpuIpc.C69_put_partial",
    "Verif.CpuIpc.C69_named_violated",
    "Verif.CpuIpc.C69_sameName_violated",
    "Verif.CpuIpc.C69_fd0_violated",
    "Verif.CpuIpc.C69_fd0Leak_violated",
    "Verif.CpuIpc.C69_split_violated",
    "Verif.CpuIpc.C69_splitClose_violated",
    "Verif.CpuIpc.C69_place_violated"
   ],
   "note": "Every history of any number of processes outside the excluded cases; each excluded case has a witness: OS providers with a shared memory name (second open, second provider of the same name), descriptor 0 free in the opening process, devdax and fsdax allocations that do not begin at a multiple of 2 MB, fsdax mappings placed at other addresses. That the provider knows the offset of an allocation is C31 and C48."
  },
  {
   "property": "C70",
   "status": "partial",
   "theorems": [
    "Verif.Stack.C70_disjoint_partial",
    "Verif.Stack.C70_owner_partial",
    "Verif.Stack.C70_free_partial",
    "Verif.Stack.C70_usable_partial",
    "Verif.Stack.C70_defined_partial",
    "Verif.Stack.C70_destroy_partial",
    "Verif.Stack.C70_room_partial"
   ],
   "note": "The models of C01-C07 (coarse), C14-C16 (tracker) and C22-C26 (disjoint pool) in one system; nothing is assumed of the providers. Missing: failures of the host allocator for list elements of the coarse allocator (C01_hostOom_violated), parameters and alignments outside AlignOk and ParamsOk (C24 violations), limits shared by several pools, pools destroyed with live allocations, interleaved calls."
  },
  {
   "property": "C71",
   "status": "partial",
   "theorems": [
    "Verif.Native.C71_report_partial",
    "Verif.Native.C71_threads",
    "Verif.Native.C71_defined_partial",
    "Verif.Native.C71_first_violated",
    "Verif.Native.C71_bitmap_violated",
    "Verif.Native.C71_stale_violated",
    "Verif.Native.C71_fileOverwrite_violated",
    "Verif.Native.C71_enosys_violated",
    "Verif.Native.C71_close_violated",
    "Verif.Native.C71_log_violated",
    "Verif.Native.C71_bindLog_violated"
   ],
   "note": "Holds outside the listed cases, each of which has a witness: the query before the first failure, the bitmap of the split mode, failed allocations of the file provider with other errors, successful OS allocations without memory binding, errno changed by closing a descriptor or by printing a message."
  },
  {
   "property": "C72",
   "status": "partial",
   "theorems": [
    "Verif.Params.C72_values_partial",
    "Verif.Params.C72_calls_partial",
    "Verif.Params.C72_noleak_partial",
    "Verif.Params.C72_resident_violated",
    "Verif.Params.C72_residentFreed_violated",
    "Verif.Params.C72_defaultName_violated",
    "Verif.Params.C72_name64_violated",
    "Verif.Params.C72_nullName_violated",
    "Verif.Params.C72_cuda_violated"
   ],
   "note": "Holds for all histories outside the listed cases, each of which has a witness: the array of resident devices is kept by pointer, the default name of a disjoint pool is its first letter, a name of 64 letters is cut, the name NULL is undefined, CUDA parameters without the CUDA library leak."
  },
  {
   "property": "C73",
   "status": "partial",
   "theorems": [
    "Verif.DjHost.C73_defined",
    "Verif.DjHost.C73_failed_create",
    "Verif.DjHost.C73_failed_malloc",
    "Verif.DjHost.C73_enough",
    "Verif.DjHost.C73_live",
    "Verif.DjHost.C73_live_apart",
    "Verif.DjHost.C73_noleak_partial",
    "Verif.DjHost.C73_array_violated",
    "Verif.DjHost.C73_leak_violated"
   ],
   "note": "All of it holds, for calls one after another, except that every destroyed pool leaves its bucket array behind (witness). Allocations too large for any class go straight to the provider and are in C70."
  },
  {
   "property": "C74",
   "status": "partial",
   "theorems": [
    "Verif.RavlMem.C74_defined",
    "Verif.RavlMem.C74_ordered_nodes",
    "Verif.RavlMem.C74_delete",
    "Verif.RavlMem.C74_remove_nodes",
    "Verif.RavlMem.C74_smaller_stay",
    "Verif.RavlMem.C74_node_stays_valid_violated"
   ],
   "note": "All of it holds except the last sentence: removing a node with two children frees the node of the next element, which stays in the tree in the node of the removed one (witness); C74_remove_nodes says exactly which node changes."
  },
  {
   "property": "C75",
   "status": "partial",
   "theorems": [
    "Verif.IpcMem.C75_defined_partial",
    "Verif.IpcMem.C75_enough",
    "Verif.IpcMem.C75_blocks",
    "Verif.IpcMem.C75_clean",
    "Verif.IpcMem.C75_exit_violated",
    "Verif.IpcMem.C75_mutex_violated"
   ],
   "note": "All of it holds except the report of a lack of memory: when the base allocator has no memory for a hash table or for more buckets, uthash ends the process (witness); and if the mutex of a new entry cannot be made, the entry is freed with the wrong allocator (witness). C75_defined_partial says that nothing else goes wrong, for every hash function."
  },
  {
   "property": "C76",
   "status": "partial",
   "theorems": [
    "Verif.CoarseMem.C76_defined_partial",
    "Verif.CoarseMem.C76_enough",
    "Verif.CoarseMem.C76_held",
    "Verif.CoarseMem.C76_blocks",
    "Verif.CoarseMem.C76_stats",
    "Verif.CoarseMem.C76_delete_partial",
    "Verif.CoarseMem.C76_emptyList_violated",
    "Verif.CoarseMem.C76_leak_violated",
    "Verif.CoarseMem.C76_uninit_violated",
    "Verif.CoarseMem.C76_usedByte_violated"
   ],
   "note": "Everything holds as long as the base allocator refuses nothing, for users that give back only what they hold or on zeroed memory. After a refused list element an empty list stays: the next allocation reads through NULL and the destruction leaves the head behind (witnesses); C76_defined_partial and C76_delete_partial say that nothing else goes wrong. create_aligned_block leaves a byte unwritten, so a free of an address that is not held can succeed and the block is handed out twice (witness)."
  },
  {
   "property": "C77",
   "status": "partial",
   "theorems": [
    "Verif.CoarseMem.C77_refines",
    "Verif.CoarseMem.C77_history",
    "Verif.CoarseMem.C77_defined",
    "Verif.CoarseMem.C77_live",
    "Verif.CoarseMem.C77_alloc",
    "Verif.CoarseMem.C77_stats",
    "Verif.CoarseMem.C77_coalesced",
    "Verif.CoarseMem.C77_fits",
    "Verif.CoarseMem.C77_free",
    "Verif.CoarseMem.C77_refused_violated"
   ],
   "note": "The pointer code of C76 refines the list model of C01-C07, call by call, for every pattern of refusals (C77_refines), and for whole histories with arbitrary arguments as long as no internal allocation is refused. As in the list model, a new block of unknown content in the byte used needs a split callback that agrees (or zeroed memory). With one refused list head two live allocations overlap (C77_refused_violated), so the statement is partial."
  },
  {
   "property": "C78",
   "status": "proved",
   "theorems": [
    "Verif.Critnib.Conc.C78_delete",
    "Verif.Critnib.Conc.C78_readers",
    "Verif.Critnib.Conc.C78_reads",
    "Verif.Critnib.Conc.C78_writes",
    "Verif.Critnib.Conc.C78_bounded"
   ],
   "note": "On the interleaving model of C13 (sequentially consistent memory, critnib_find with FIND_LE only), to which critnib_delete is added."
  },
  {
   "property": "C79",
   "status": "proved",
   "theorems": [
    "Verif.IpcExp.C79_defined",
    "Verif.IpcExp.C79_handle",
    "Verif.IpcExp.C79_kept",
    "Verif.IpcExp.C79_same",
    "Verif.IpcExp.C79_released",
    "Verif.IpcExp.C79_all_returned",
    "Verif.IpcExp.C79_bounded",
    "Verif.IpcExp.C79_granted"
   ],
   "note": "One pool whose regions are not nested, radix tree operations as single steps, sequentially consistent memory, ids that do not wrap around; the size of an upstream handle does not change, and each upstream handle is an object of its own. C79_rule_needed shows that the rule for callers is needed. Splitting and merging are not part of these histories (C18)."
  },
  {
   "property": "C80",
   "status": "partial",
   "theorems": [
    "Verif.CtlMem.C80_query_same",
    "Verif.CtlMem.C80_query_defined_partial",
    "Verif.CtlMem.C80_query_memory_partial",
    "Verif.CtlMem.C80_query_refused",
    "Verif.CtlMem.C80_string_same",
    "Verif.CtlMem.C80_string_defined_partial",
    "Verif.CtlMem.C80_string_memory_partial",
    "Verif.CtlMem.C80_string_refused",
    "Verif.CtlMem.C80_file_same_partial",
    "Verif.CtlMem.C80_file_memory_partial",
    "Verif.CtlMem.C80_fileGrows_violated",
    "Verif.CtlMem.C80_numbers_violated"
   ],
   "note": "Fails for: names that go on after a leaf (undefined, C38_tooLong_violated), names with numbers (an index entry leaks per query, C80_numbers_violated), files that grow while they are read (the buffer overflows, C80_fileGrows_violated). Everything else is proved, for every tree, text, refusal and handler. With a refused allocation, a query may do what it does without the global tree (C80_query_refused). Environment variables go through ctl_load_config_from_string and are not modelled apart."
  },
  {
   "property": "C81",
   "status": "partial",
   "theorems": [
    "Verif.Topo.C81_capacity",
    "Verif.Topo.C81_null",
    "Verif.Topo.C81_attribute_partial",
    "Verif.Topo.C81_numbers_violated",
    "Verif.Topo.C81_topology_partial",
    "Verif.Topo.C81_once",
    "Verif.Topo.C81_idle_violated",
    "Verif.Topo.C81_retry_violated"
   ],
   "note": "Capacity and null pointers: for all machines. Bandwidth and latency: for machines whose physical node numbers are the logical ones; on every other machine the answer is wrong for some values (C81_numbers_violated). Topology: for histories in which every round needs it; a round without need destroys it twice (C81_idle_violated), and a failure lasts for ever (C81_retry_violated). The values of hwloc are a parameter."
  },
  {
   "property": "C82",
   "status": "partial",
   "theorems": [
    "Verif.TrkMem.C82_safe_partial",
    "Verif.TrkMem.C82_exact_partial",
    "Verif.TrkMem.C82_empty_partial",
    "Verif.TrkMem.C82_lookup_partial",
    "Verif.TrkMem.C82_alloc_partial",
    "Verif.TrkMem.C82_free_partial",
    "Verif.TrkMem.C82_split_partial",
    "Verif.TrkMem.C82_merge_partial",
    "Verif.TrkMem.C82_ipc",
    "Verif.TrkMem.C82_ipcInfo",
    "Verif.TrkMem.C82_create",
    "Verif.TrkMem.C82_destroy",
    "Verif.TrkMem.C82_splitUpdate_violated",
    "Verif.TrkMem.C82_mergeUpdate_violated",
    "Verif.TrkMem.C82_mergeKids_violated"
   ],
   "note": "One thread. For all histories in which the radix tree is not refused the leaf with which a split or merge replaces a value, and in which merged regions have no count of children; otherwise freed entries stay in the map (C82_splitUpdate_violated, C82_mergeUpdate_violated, C82_mergeKids_violated). Opened regions, creation and destruction: without such exceptions. C82_alloc, _free, _split, _merge and _lookup say that the entries mean what the tracker of regions (C14 to C16) says."
  },
  {
   "property": "C83",
   "status": "partial",
   "theorems": [
    "Verif.ProxyOpt.C83_start_partial",
    "Verif.ProxyOpt.C83_unset",
    "Verif.ProxyOpt.C83_refused",
    "Verif.ProxyOpt.C83_sound",
    "Verif.ProxyOpt.C83_tearDown",
    "Verif.ProxyOpt.C83_suffix_violated",
    "Verif.ProxyOpt.C83_otherName_violated",
    "Verif.ProxyOpt.C83_overflow_violated",
    "Verif.ProxyOpt.C83_debug_violated"
   ],
   "note": "Documented values: proved for thresholds below 2^63 and with debug messages off; otherwise undefined behaviour (C83_overflow_violated, C83_debug_violated). Other values: what is accepted is characterised by C83_sound, which is weaker than one would wish (C83_suffix_violated, C83_otherName_violated). Linux only."
  },
  {
   "property": "C84",
   "status": "partial",
   "theorems": [
    "Verif.IpcEnd.C84_defined",
    "Verif.IpcEnd.C84_export",
    "Verif.IpcEnd.C84_free",
    "Verif.IpcEnd.C84_handles_partial",
    "Verif.IpcEnd.C84_end_partial",
    "Verif.IpcEnd.C84_merge_violated",
    "Verif.IpcEnd.C84_destroy_violated"
   ],
   "note": "One thread (several: C79). Everything is well defined, and exports and frees are right, for all histories with any merges. That every handle that is out belongs to a region: for histories in which no exported region is merged into the one below it (C84_merge_violated otherwise). Destruction leaves nothing if the pool has freed its regions; it drops the handles of regions that are left (C84_destroy_violated)."
  },
  {
   "property": "C85",
   "status": "partial",
   "theorems": [
    "Verif.TrkMem.C85_exact_partial",
    "Verif.TrkMem.C85_report_partial"
   ],
   "note": "Over the histories of C82: the radix tree gets the memory it needs to replace a value, and merges of nested regions are as there. A region at address 0, which only a split that wraps around can make, is not counted. The search of the radix tree is modelled by its result."
  },
  {
   "property": "C86",
   "status": "partial",
   "theorems": [
    "Verif.PoolApi.C86_calls",
    "Verif.PoolApi.C86_null",
    "Verif.PoolApi.C86_provider",
    "Verif.PoolApi.C86_ctl",
    "Verif.PoolApi.C86_destroy",
    "Verif.PoolApi.C86_refused",
    "Verif.PoolApi.C86_init",
    "Verif.PoolApi.C86_failed",
    "Verif.PoolApi.C86_missing_violated",
    "Verif.PoolApi.C86_noInit_violated",
    "Verif.PoolApi.C86_nullDestroy_violated",
    "Verif.PoolApi.C86_early_violated"
   ],
   "note": "Everything for tables that have the function asked for. Tables are not checked (C86_missing_violated, C86_noInit_violated); destruction and umfPoolGetMemoryProvider do not refuse a null handle (C86_nullDestroy_violated). The functions of the table are not modelled, only that they are called; their answers are arbitrary. Concurrent changes of a table while it is copied are not modelled."
  },
  {
   "property": "C87",
   "status": "partial",
   "theorems": [
    "Verif.PolicyMem.C87_fresh",
    "Verif.PolicyMem.C87_partSize",
    "Verif.PolicyMem.C87_parts_partial",
    "Verif.PolicyMem.C87_refused",
    "Verif.PolicyMem.C87_destroy",
    "Verif.PolicyMem.C87_array_violated",
    "Verif.PolicyMem.C87_freed_violated",
    "Verif.PolicyMem.C87_count_violated"
   ],
   "note": "Everything but partitions holds for all histories. Partitions: if the program leaves its array as it is until the provider is made (C87_array_violated, C87_freed_violated otherwise) and there are fewer than 2^32 (C87_count_violated). What the provider does with the policy is C51."
  },
  {
   "property": "C88",
   "status": "partial",
   "theorems": [
    "Verif.TrkPass.C88_bottom",
    "Verif.TrkPass.C88_passed",
    "Verif.TrkPass.C88_refused",
    "Verif.TrkPass.C88_null",
    "Verif.TrkPass.C88_error",
    "Verif.TrkPass.C88_reported_violated"
   ],
   "note": "All of it except who is reported: it is the provider of the pool that was called, not the one that failed, but its last error is that of the provider that failed (C88_error); a failed query of the IPC handle size is not reported; the last error of NULL follows a null pointer."
  },
  {
   "property": "C89",
   "status": "partial",
   "theorems": [
    "Verif.FromSpace.C89_provider",
    "Verif.FromSpace.C89_succeeds",
    "Verif.FromSpace.C89_null",
    "Verif.FromSpace.C89_pool",
    "Verif.FromSpace.C89_new",
    "Verif.FromSpace.C89_targets",
    "Verif.FromSpace.C89_pool_violated",
    "Verif.FromSpace.C89_count_violated"
   ],
   "note": "All of it for providers with fewer than 2^32 nodes and partitions (C89_count_violated: the number of partitions is cut). Pools are never created (C89_pool_violated). The memspace of the highest capacity uses its first node, as in C51. The OS provider is assumed to leave nothing if it refuses."
  },
  {
   "property": "C90",
   "status": "partial",
   "theorems": [
    "Verif.Files.C90_file",
    "Verif.Files.C90_create",
    "Verif.Files.C90_shmOpen",
    "Verif.Files.C90_devdax_partial",
    "Verif.Files.C90_device",
    "Verif.Files.C90_shm",
    "Verif.Files.C90_shmName",
    "Verif.Files.C90_anonymous_partial",
    "Verif.Files.C90_duplicate",
    "Verif.Files.C90_error_partial",
    "Verif.Files.C90_reason",
    "Verif.Files.C90_both",
    "Verif.Files.C90_others",
    "Verif.Files.C90_atMostZero",
    "Verif.Files.C90_devdax_violated",
    "Verif.Files.C90_name_violated",
    "Verif.Files.C90_anonymous_violated",
    "Verif.Files.C90_error_violated"
   ],
   "note": "All of it except: a devdax is a character device only if nobody changes its path in between (C90_devdax_violated); a failing creation of shared memory removes the name of a file of others (C90_name_violated); descriptor 0 leaks (C90_anonymous_violated); messages may change the error code (C90_error_violated)."
  }
 ]
}