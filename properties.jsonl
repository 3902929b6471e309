{"id": "C01", "title": "Coarse-backed providers never hand out overlapping memory", "statement": "For a fixed/file/devdax provider (the providers built on the coarse allocator), after any history of alloc, free, split, merge and add-memory calls, the byte ranges of any two distinct live allocations are disjoint and every live allocation lies inside memory that was given to the provider.", "quantifier": "every finite history of provider operations, every size, alignment, strategy and memory layout, every answer of the callbacks (with the provider's own bookkeeping records allocated and zero-filled; C05 covers the rest)", "why_tests_cant": "the set of histories and layouts is unbounded; a test samples a few block patterns", "anchors": ["src/coarse/coarse.c: coarse_alloc, coarse_free, coarse_split, coarse_merge, coarse_add_memory_fixed", "src/provider/provider_fixed_memory.c"]}
{"id": "C02", "title": "Coarse-backed providers honour size and alignment", "statement": "When an allocation from a coarse-backed provider succeeds, the returned range has exactly the requested size and its address is a multiple of the page size and of the requested alignment; an alignment that is neither zero nor a power of two is refused with INVALID_ALIGNMENT.", "quantifier": "every reachable provider state, every size and alignment, every answer of the callbacks (with the provider's own bookkeeping records allocated and zero-filled; C05 covers the rest)", "why_tests_cant": "alignment failures depend on the address of the particular free block chosen, which depends on the whole history", "anchors": ["src/coarse/coarse.c: coarse_alloc, create_aligned_block, find_free_block"]}
{"id": "C03", "title": "Coarse statistics are exact", "statement": "After any history the reported used size is the sum of the sizes of the live allocations, the reported allocated size is the sum of the sizes of all memory obtained, the number of blocks and free blocks is exact, and used never exceeds allocated.", "quantifier": "every finite history of provider operations, every answer of the callbacks (with the provider's own bookkeeping records allocated and zero-filled; C05 covers the rest)", "why_tests_cant": "counters drift only after particular interleavings of split/merge/aligned allocation", "anchors": ["src/coarse/coarse.c: coarse_get_stats, coarse_get_stats_no_lock, coarse_alloc, coarse_free"]}
{"id": "C04", "title": "Freeing everything restores the provider's memory completely", "statement": "No byte of provider memory is ever lost or duplicated: at every point live ranges and free ranges partition the memory given to the provider, and with mergeable memory no two adjacent free ranges stay unmerged, so once every allocation is freed a fixed provider has one free block covering its whole range.", "quantifier": "every finite history of provider operations, every answer of the callbacks (with the provider's own bookkeeping records allocated and zero-filled; C05 covers the rest)", "why_tests_cant": "fragmentation defects depend on the order of frees and neighbours over unbounded histories", "anchors": ["src/coarse/coarse.c: free_block_merge_with_prev, free_block_merge_with_next, coarse_free"]}
{"id": "C05", "title": "A failed coarse operation changes nothing", "statement": "When alloc, free, split or merge on a coarse-backed provider returns an error, the set of live allocations, their contents' owners, the free memory and the statistics are what they were before the call.", "quantifier": "every reachable state, every operation, every failing callback or failing host allocation", "why_tests_cant": "failure points (host out-of-memory between two bookkeeping updates) are hard to hit in tests", "anchors": ["src/coarse/coarse.c: coarse_alloc, split_current_block, create_aligned_block, free_blocks_re_add, coarse_split, coarse_merge"]}
{"id": "C06", "title": "Allocation from free memory succeeds when the strategy promises it", "statement": "If a coarse-backed provider has a free block of at least size+alignment bytes (any strategy), or, with the check-all strategy, a free block of exactly the requested size already aligned, then alloc succeeds without asking upstream for memory.", "quantifier": "every reachable state, every size, alignment and strategy (with the provider's own bookkeeping records allocated and zero-filled; C05 covers the rest)", "why_tests_cant": "needs every free-list shape", "anchors": ["src/coarse/coarse.c: find_free_block, free_blocks_rm_ge"]}
{"id": "C07", "title": "Split and merge of provider allocations conserve memory", "statement": "A successful split of a live allocation [p,p+t) at f produces exactly the live allocations [p,p+f) and [p+f,p+t); a successful merge of two live allocations requires them to be adjacent and produces exactly their union; split followed by merge of the two halves restores the original state; freeing with a wrong size or a pointer that is not live is refused.", "quantifier": "every reachable state, every pointer and size (with the provider's own bookkeeping records allocated and zero-filled; C05 covers the rest)", "why_tests_cant": "unbounded pointers/sizes and histories", "anchors": ["src/coarse/coarse.c: coarse_split, coarse_merge, coarse_free"]}
{"id": "C08", "title": "Ordered-tree lookups are exact", "statement": "The internal ordered tree (used to find blocks by address and by size) behaves as a sorted set: after any history of insertions and removals, a lookup with predicate equal / less / greater / less-equal / greater-equal returns exactly the element a sorted set would give, and in-order traversal visits every element once in increasing order.", "quantifier": "every finite history of insert/remove, every key and predicate", "why_tests_cant": "tree shapes are unbounded; rotations and two-child removals are history dependent", "anchors": ["src/ravl/ravl.c: ravl_emplace, ravl_remove, ravl_find, ravl_foreach, ravl_first, ravl_last"]}
{"id": "C09", "title": "The ordered tree stays balanced under insertion", "statement": "After any number of insertions into an empty tree its height is at most logarithmic in the number of elements, so lookups take logarithmic time.", "quantifier": "every insertion sequence", "why_tests_cant": "needs every insertion order", "anchors": ["src/ravl/ravl.c: ravl_balance, ravl_rotate, ravl_node_promote"]}
{"id": "C10", "title": "The radix tree is a map", "statement": "The pointer-keyed tree used by the tracker and the file providers behaves as a map from 64-bit keys to values: insert fails exactly when the key is present (or memory is exhausted), get returns the value of the last insert not followed by a remove, remove returns that value and deletes only that key.", "quantifier": "every finite history, every 64-bit key", "why_tests_cant": "2^64 keys and unbounded histories; node splitting and collapsing depend on key bit patterns", "anchors": ["src/critnib/critnib.c: critnib_insert, critnib_remove, critnib_get"]}
{"id": "C11", "title": "Ordered radix lookups are exact", "statement": "find_le returns the value of the greatest present key that is not above the query; find with L/LE/EQ/GE/G returns exactly the entry a sorted map would return, or nothing when there is none.", "quantifier": "every reachable tree, every 64-bit query key and direction", "why_tests_cant": "exactness depends on nibble patterns of all present keys", "anchors": ["src/critnib/critnib.c: critnib_find_le, critnib_find, find_le, find_ge, find_predecessor, find_successor"]}
{"id": "C12", "title": "Radix iteration visits exactly the requested range", "statement": "Iterating over [min,max] calls the callback exactly once, in increasing order, for each present key in the range and for no other key, until the callback asks to stop.", "quantifier": "every reachable tree, every min and max, every callback", "why_tests_cant": "depends on the tree shape and bounds", "anchors": ["src/critnib/critnib.c: critnib_iter, iter"]}
{"id": "C13", "title": "Concurrent radix lookups are linearizable", "statement": "A lock-free get or find_le running concurrently with inserts and removes returns a result that was correct at some instant during the call.", "quantifier": "every interleaving of one or more readers with any sequence of updates", "why_tests_cant": "schedules cannot be enumerated by tests", "anchors": ["src/critnib/critnib.c: critnib_get, critnib_find_le, remove_count, pending_del_nodes"]}
{"id": "C14", "title": "umfPoolByPtr returns the innermost owning pool", "statement": "With tracking enabled, for every address the library reports the pool of the innermost tracked live allocation that contains the address, and reports none when no live tracked allocation contains it.", "quantifier": "every address and every history of tracked allocations and frees with nested pools", "why_tests_cant": "the address space and nesting histories are unbounded", "anchors": ["src/provider/provider_tracking.c: umfMemoryTrackerGetPool, umfMemoryTrackerGetAllocInfo, umfMemoryTrackerAdd, umfMemoryTrackerRemove, get_most_nested_alloc_segment"]}
{"id": "C15", "title": "The tracker refuses inconsistent regions", "statement": "Registering an allocation that partially overlaps a tracked one (neither inside it nor disjoint from it) is refused; removing a region that still contains a nested tracked region is refused; a refused call changes nothing.", "quantifier": "every tracker state, every region", "why_tests_cant": "unbounded region layouts", "anchors": ["src/provider/provider_tracking.c: umfMemoryTrackerAdd, umfMemoryTrackerRemove"]}
{"id": "C16", "title": "Tracked free, split and merge stay consistent with the upstream provider", "statement": "The tracked set of live allocations always equals what the upstream provider believes: a failed upstream free leaves the allocation tracked; split and merge either happen in both or in neither.", "quantifier": "every history and every upstream failure", "why_tests_cant": "failure points inside two-step updates", "anchors": ["src/provider/provider_tracking.c: trackingFree, trackingAllocationSplit, trackingAllocationMerge, trackingAlloc"]}
{"id": "C17", "title": "Opened IPC handles are cached, reference counted and closed only when unused", "statement": "Opening the same remote memory twice maps it once; a mapping is never closed while some opener has not closed it; the number of cached mappings stays within the configured limit as long as some cached mapping is unreferenced.", "quantifier": "every history of open and close by every cache, every limit", "why_tests_cant": "LRU histories over several caches are unbounded", "anchors": ["src/ipc_cache.c: umfOpenedIpcCacheGet, umfIpcHandleMappedCacheRelease, umfIpcOpenedCacheDestroy", "src/provider/provider_tracking.c: trackingOpenIpcHandle, trackingCloseIpcHandle"]}
{"id": "C18", "title": "IPC round trip preserves the pointer's offset", "statement": "A pointer into an allocation, exported with umfGetIPCHandle and opened with umfOpenIPCHandle, yields the address in the mapping that corresponds to the same byte of the allocation, and umfCloseIPCHandle of that address releases that mapping.", "quantifier": "every allocation, every interior pointer, every mapping address", "why_tests_cant": "all offsets and nestings", "anchors": ["src/ipc.c: umfGetIPCHandle, umfOpenIPCHandle, umfCloseIPCHandle"]}
{"id": "C19", "title": "Fixed-chunk base allocator is sound", "statement": "Chunks handed out by the fixed-size base allocator are pairwise disjoint, inside memory obtained from the OS, aligned, never overlap allocator metadata, and a freed chunk can be reused; alloc fails only if the OS refuses a new slab.", "quantifier": "every history of alloc and free, every chunk size", "why_tests_cant": "unbounded histories and pool growth", "anchors": ["src/base_alloc/base_alloc.c: umf_ba_create, umf_ba_alloc, umf_ba_free, ba_divide_memory_into_chunks"]}
{"id": "C20", "title": "Linear base allocator is sound", "statement": "Allocations of the linear base allocator are pairwise disjoint and inside its pools; it reports a pointer as its own exactly when the pointer is inside one of its pools, with the number of bytes to the end of that pool.", "quantifier": "every history of alloc and free, every size", "why_tests_cant": "unbounded histories and pool growth", "anchors": ["src/base_alloc/base_alloc_linear.c: umf_ba_linear_alloc, umf_ba_linear_free, umf_ba_linear_pool_contains_pointer"]}
{"id": "C21", "title": "Global base allocator round trip", "statement": "For every size and power-of-two alignment the address returned by the library's internal allocator is aligned, has at least the requested usable bytes inside the underlying chunk, and free recovers exactly the chunk, size class and total size that were allocated.", "quantifier": "every size, alignment and underlying address", "why_tests_cant": "2^64 sizes times alignments times addresses", "anchors": ["src/base_alloc/base_alloc_global.c: umf_ba_global_aligned_alloc, umf_ba_global_free, umf_ba_global_malloc_usable_size, size_to_idx"]}
{"id": "C22", "title": "Disjoint pool picks the tightest size class", "statement": "For every request up to the pool's largest class the chosen size class is the smallest configured class that can hold the request, for every minimum bucket size setting.", "quantifier": "every size up to 2^31 and every min-bucket-size power of two", "why_tests_cant": "2^31 sizes times settings; bit tricks at class boundaries", "anchors": ["src/pool/pool_disjoint.c: size_to_idx, disjoint_pool_initialize"]}
{"id": "C23", "title": "Disjoint pool never hands out overlapping memory", "statement": "Pointers returned by umfPoolMalloc/umfPoolAlignedMalloc on a disjoint pool and not yet freed denote pairwise disjoint ranges of at least the requested size inside provider memory.", "quantifier": "every history of malloc, aligned malloc and free, every size and alignment", "why_tests_cant": "unbounded histories; slab reuse and pooling paths", "anchors": ["src/pool/pool_disjoint.c: slab_get_chunk, slab_free_chunk, bucket_get_free_chunk, disjoint_pool_malloc, disjoint_pool_free"]}
{"id": "C24", "title": "Disjoint pool honours alignment", "statement": "umfPoolAlignedMalloc on a disjoint pool returns an address that is a multiple of the requested power-of-two alignment, with at least the requested bytes usable.", "quantifier": "every size, every power-of-two alignment, every provider page size and slab address", "why_tests_cant": "combination of class sizes, page size and alignment is too large to sample; overflow corners", "anchors": ["src/pool/pool_disjoint.c: disjoint_pool_aligned_malloc"]}
{"id": "C25", "title": "Freeing into a disjoint pool reaches the right place", "statement": "A pointer obtained from a disjoint pool and passed to umfPoolFree is returned to the slab it came from if it came from a slab, and to the provider otherwise; no provider memory is released twice.", "quantifier": "every pool configuration and history", "why_tests_cant": "depends on slab size configuration and the pointer's offset in the slab", "anchors": ["src/pool/pool_disjoint.c: disjoint_pool_free, slab_get_end, slab_reg, slab_unreg"]}
{"id": "C26", "title": "Disjoint pool respects its pooling limits", "statement": "Each class keeps at most the configured number of empty slabs, and the total size kept by all pools sharing a limit object never exceeds that limit.", "quantifier": "every history, every configuration and every interleaving of threads", "why_tests_cant": "concurrent fetch-add / check / fetch-sub schedules", "anchors": ["src/pool/pool_disjoint.c: bucket_can_pool, bucket_max_pooled_slabs, umfDisjointPoolSharedLimitsCreate"]}
{"id": "C27", "title": "OS provider memory is aligned and exactly trimmed", "statement": "When an OS-provider allocation succeeds, the address is a multiple of the requested alignment, the whole requested range is mapped, and everything else that was mapped for the purpose has been unmapped while nothing else is.", "quantifier": "every length, alignment, page size and address the kernel may choose", "why_tests_cant": "kernel-chosen addresses and near-overflow sizes", "anchors": ["src/provider/provider_os_memory.c: utils_mmap_aligned, os_alloc"]}
{"id": "C28", "title": "OS provider split mode distributes pages by weight", "statement": "In NUMA split mode every page of an allocation is bound, in address order, to the partitions whose share of the allocation it overlaps, so each partition receives its weight's share up to rounding, no page is left unbound and none is bound twice.", "quantifier": "every number of pages and every list of partition weights", "why_tests_cant": "infinitely many weight lists and sizes", "anchors": ["src/provider/provider_os_memory.c: nextBind, membindFirst, membindNext, initializePartitions"]}
{"id": "C29", "title": "OS provider interleave mode covers the allocation", "statement": "In NUMA interleave mode with a part size, consecutive parts of the allocation go to consecutive nodes round robin, cover the allocation exactly once and never pass its end.", "quantifier": "every size, part size, node count and history", "why_tests_cant": "unbounded sizes and history offset", "anchors": ["src/provider/provider_os_memory.c: membindFirst, membindNext"]}
{"id": "C30", "title": "OS provider memory statistics are exact under concurrency", "statement": "At quiescence allocated_memory is the sum of the sizes of live allocations, and peak_memory is the largest value allocated_memory had since creation or reset.", "quantifier": "every interleaving of concurrent alloc, free and reset", "why_tests_cant": "schedules of the compare-exchange loop cannot be enumerated", "anchors": ["src/provider/provider_os_memory.c: os_alloc, os_free, peak_memory reset"]}
{"id": "C31", "title": "Shared memory provider allocations occupy distinct file ranges", "statement": "For the file provider and the shared OS provider, two live allocations never share bytes of the backing file, and the file offset exported for IPC is the offset at which the allocation's first byte is mapped.", "quantifier": "every history of allocations with every size and alignment and every kernel-chosen address", "why_tests_cant": "depends on kernel-chosen addresses and alignment history", "anchors": ["src/provider/provider_file_memory.c: file_mmap_aligned, file_alloc_aligned, file_alloc_cb, file_allocation_split_cb, file_allocation_merge_cb, file_get_ipc_handle", "src/provider/provider_os_memory.c: utils_mmap_aligned, os_alloc, os_get_ipc_handle"]}
{"id": "C32", "title": "Provider dispatch validates arguments and operation tables", "statement": "umfMemoryProviderCreate accepts an operation table exactly when all mandatory operations are present, split and merge come together and the five IPC operations come all or none; an absent optional operation answers NOT_SUPPORTED; split and merge reach the provider only with a non-null pointer, non-zero sizes and a cut strictly inside the allocation.", "quantifier": "every operation table and every argument", "why_tests_cant": "2^n tables and unbounded arguments", "anchors": ["src/memory_provider.c: validateOps, assignOpsExtDefaults, assignOpsIpcDefaults, umfMemoryProviderAllocationSplit, umfMemoryProviderAllocationMerge"]}
{"id": "C33", "title": "Last-failed-provider reporting", "statement": "umfGetLastFailedMemoryProvider returns, per thread, the provider of the most recent failing provider call made by that thread.", "quantifier": "every history of calls by every thread", "why_tests_cant": "unbounded histories", "anchors": ["src/memory_provider.c: checkErrorAndSetLastProvider, umfGetLastFailedMemoryProvider"]}
{"id": "C34", "title": "Pool creation and destruction release everything exactly once", "statement": "umfPoolCreate either returns a fully built pool or releases everything it acquired, leaving the caller's provider alive; umfPoolDestroy finalizes the pool before its provider wrapper and destroys the caller's provider exactly when ownership was transferred.", "quantifier": "every failure point and flag combination", "why_tests_cant": "every crash/failure point of construction", "anchors": ["src/memory_pool.c: umfPoolCreateInternal, umfPoolDestroy"]}
{"id": "C35", "title": "umfFree reaches the owning pool", "statement": "umfFree(ptr) frees ptr in the pool that allocated it and only there, and does nothing for an address no pool owns.", "quantifier": "every address and tracker state", "why_tests_cant": "all addresses and nestings", "anchors": ["src/memory_pool.c: umfFree", "src/provider/provider_tracking.c: umfMemoryTrackerGetPool"]}
{"id": "C36", "title": "Memspace contents behave as an ordered set", "statement": "Adding a target keeps the others and refuses duplicates and mixed kinds; removing deletes exactly that target; filtering keeps exactly the targets the filter accepts; a failing operation leaves the memspace unchanged.", "quantifier": "every memspace, every filter, every failing allocation", "why_tests_cant": "filters and sizes are unbounded; failure points", "anchors": ["src/memspace.c: umfMemspaceMemtargetAdd, umfMemspaceMemtargetRemove, umfMemspaceFilterHelper"]}
{"id": "C37", "title": "Predefined memspaces contain exactly the best targets", "statement": "The highest-bandwidth (lowest-latency) memspace contains exactly the targets that are best for some initiator, without duplicates; the highest-capacity memspace is sorted by capacity.", "quantifier": "every topology", "why_tests_cant": "all topologies", "anchors": ["src/memspace.c: umfMemspaceFilter, umfMemspaceSortDesc", "src/memspaces/memspace_highest_bandwidth.c: getBestBandwidthTarget", "src/memspaces/memspace_lowest_latency.c: getBestLatencyTarget"]}
{"id": "C38", "title": "Control names resolve to the right handler or fail", "statement": "umfCtlGet/Set/Exec with a dotted name run exactly the handler registered under that name with the given argument, report an error for every name without a handler, and report the handler's own failure.", "quantifier": "every name and every registered tree", "why_tests_cant": "infinitely many names and trees", "anchors": ["src/ctl/ctl.c: ctl_find_node, ctl_query, umfCtlGet, umfCtlSet, umfCtlExec", "src/memory_provider.c: by_handle", "src/memory_pool.c: by_handle"]}
{"id": "C39", "title": "Control configuration parsing", "statement": "Loading a configuration string executes exactly its name=value queries, in order, and reports a malformed query.", "quantifier": "every configuration string", "why_tests_cant": "infinitely many strings", "anchors": ["src/ctl/ctl.c: ctl_load_config, ctl_parse_query, ctl_arg_boolean, ctl_arg_integer"]}
{"id": "C40", "title": "Environment option parsing", "statement": "An option in a semicolon-separated environment variable (UMF_LOG) takes effect exactly when it is one of the items of the list.", "quantifier": "every environment string", "why_tests_cant": "infinitely many strings", "anchors": ["src/utils/utils_common.c: utils_parse_var", "src/utils/utils_log.c: utils_log_init"]}
{"id": "C41", "title": "Alignment arithmetic is exact on 64-bit values", "statement": "Rounding an address or size up to a power-of-two alignment yields the least multiple not below it, or a detectable failure when that does not fit 64 bits; shrinking/growing a range to alignment yields the largest aligned range inside / smallest aligned range around it.", "quantifier": "every 64-bit value and power of two", "why_tests_cant": "2^64 values", "anchors": ["src/utils/utils_common.h: ALIGN_UP, ALIGN_UP_SAFE, ALIGN_DOWN, IS_ALIGNED", "src/utils/utils_common.c: utils_align_ptr_up_size_down, utils_align_ptr_down_size_up"]}
{"id": "C42", "title": "Flag translation is exact", "statement": "Translating a combination of protection flags succeeds exactly when every set bit is a known flag, and yields exactly the union of the translations.", "quantifier": "every 32-bit flag word", "why_tests_cant": "2^32 words", "anchors": ["src/utils/utils_common.c: utils_translate_flags", "src/utils/utils_posix_common.c: utils_translate_mem_protection_flags"]}
{"id": "C43", "title": "The proxy library sends every pointer back to the allocator it came from", "statement": "With the malloc-replacement library loaded, free/realloc/malloc_usable_size of a pointer reach the allocator (startup, UMF pool, or system) that produced it, for every threshold setting and whatever happened in between; calloc never returns fewer bytes than requested.", "quantifier": "every history of malloc/calloc/aligned_alloc/realloc/free during and after start-up", "why_tests_cant": "interleavings of start-up, recursion and thresholds", "anchors": ["src/proxy_lib/proxy_lib.c: malloc, calloc, free, realloc, aligned_alloc, malloc_usable_size"]}
{"id": "C44", "title": "Library initialisation is complete when umfInit returns", "statement": "After a successful umfInit the tracker and IPC cache exist, and they are destroyed exactly when the last user tears down.", "quantifier": "every interleaving of init and teardown calls", "why_tests_cant": "schedules", "anchors": ["src/libumf.c: umfInit, umfTearDown"]}
{"id": "C45", "title": "Concurrent tracking keeps ownership right", "statement": "When several threads register and remove tracked allocations at the same time, the reported owner of every address in a completely registered allocation is that allocation's pool (or that of an allocation nested in it).", "quantifier": "every number of threads and every interleaving", "why_tests_cant": "schedules", "anchors": ["src/provider/provider_tracking.c: umfMemoryTrackerAdd, umfMemoryTrackerAddAtLevel, umfMemoryTrackerRemove"]}
{"id": "C46", "title": "Destroying a pool gives its share of a shared limit back", "statement": "When a disjoint pool that uses a shared limits object is destroyed, the memory it kept no longer counts against the limit, so the remaining pools can keep up to the whole limit again.", "quantifier": "every set of pools sharing the limit, every interleaving, every order of destruction", "why_tests_cant": "The effect shows only in long-lived processes that create and destroy pools around one limits object; tests check single pools.", "anchors": ["src/pool/pool_disjoint.c: disjoint_pool_finalize, destroy_bucket, bucket_can_pool, umfDisjointPoolSharedLimitsCreate"]}
{"id": "C47", "title": "An allocation with a shared mapping does not spoil later ones", "statement": "For an OS or file provider whose memory is backed by a file, whether an allocation can be served depends on the free file space and the kernel, not on the sizes of earlier allocations.", "quantifier": "every sequence of request sizes and alignments", "why_tests_cant": "Tests allocate multiples of the page size, so the file position is always at a page boundary.", "anchors": ["src/provider/provider_os_memory.c: utils_mmap_aligned, os_alloc", "src/provider/provider_file_memory.c: file_alloc_aligned, file_mmap_aligned"]}
{"id": "C48", "title": "A file provider's memory is mapped, aligned and given back", "statement": "Every allocation of a file memory provider is aligned as requested and consists of mapped bytes of the file, inside the file's size; it leaves all memory that was mapped as it was; destroying the provider restores the address space as it was before.", "quantifier": "every history of requests, splits and merges, every kernel address and every failure", "why_tests_cant": "The outcome depends on addresses the kernel chooses and on failures that tests cannot produce.", "anchors": ["src/provider/provider_file_memory.c: file_alloc_cb, file_alloc_aligned, file_mmap_aligned, file_finalize"]}
{"id": "C49", "title": "Log messages are complete or marked, and stay in their buffers", "statement": "Whatever the length of a log message and of the system error text, the logger writes inside its buffers, prints an initial part of the text, and marks a text that is not complete; a message is printed exactly when its level reaches the configured one (and an output is set, or it is fatal).", "quantifier": "every message text, error text, level and configuration", "why_tests_cant": "Tests log short messages; cut-off errors appear at exact lengths near the buffer size.", "anchors": ["src/utils/utils_log.c: utils_log_internal"]}
{"id": "C50", "title": "Predefined memspaces are available again after shut-down", "statement": "After the library is shut down and initialised again, asking for a predefined memspace gives the same answer as the first time: a memspace if the machine allows one, never a destroyed one.", "quantifier": "every sequence of requests, shut-downs and initialisations, every outcome of the creation", "why_tests_cant": "Tests initialise the library once; a second initialisation in one process is not exercised.", "anchors": ["src/memspaces/memspace_host_all.c: umfMemspaceHostAllGet, umfMemspaceHostAllDestroy", "src/memspaces/memspace_highest_capacity.c", "src/memspaces/memspace_highest_bandwidth.c", "src/memspaces/memspace_lowest_latency.c", "src/libumf.c: umfTearDown"]}
{"id": "C51", "title": "A provider made from a memspace and a policy follows the policy", "statement": "Memory of a provider created from a memspace and a memory policy is bound to the nodes of the memspace as the policy says: bind: only these nodes; preferred: these nodes first; interleave: in turn, page by page or in parts of the given size; split: every page only from nodes whose share contains part of it; no policy: only these nodes, and no binding for the memspace of all host memory. Empty memspaces, unknown policies and invalid partitions are refused.", "quantifier": "every memspace, policy, part size, list of partitions, page size, allocation size and history", "why_tests_cant": "Placement depends on page counts, weights and node numbers in combination; tests run on machines with one or two nodes.", "anchors": ["src/memspace.c: umfMemoryProviderCreateFromMemspace", "src/memtargets/memtarget_numa.c: numa_memory_provider_create_from_memspace", "src/mempolicy.c", "src/provider/provider_os_memory.c: translate_params, initialize_nodeset, initializePartitions, membindFirst, membindNext"]}
{"id": "C52", "title": "The library can be used again after shut-down", "statement": "The library can be shut down and initialised any number of times: after each initialisation everything works as after the first one, and freed host memory is given back.", "quantifier": "every number of rounds and every use of the library in each of them", "why_tests_cant": "Tests initialise the library once per process; limits and stale state show only in later rounds.", "anchors": ["src/libumf.c: umfInit, umfTearDown", "src/ctl/ctl.c: ctl_register_module_node", "src/base_alloc/base_alloc_global.c: ba_is_destroyed, umf_ba_global_free", "src/provider/provider_os_memory.c: initialize_os_ctl", "src/pool/pool_scalable.c: init_tbb_callbacks_once, fini_tbb_global_state"]}
{"id": "C53", "title": "The malloc replacement keeps the promises of the C library", "statement": "Memory that malloc, calloc, aligned_alloc and realloc of the malloc replacement return has the requested size and is not shared with other blocks, is aligned for every type or as requested, and realloc keeps the contents, also in the start-up phase.", "quantifier": "every history of calls during and after the start-up, every size and alignment, every thread", "why_tests_cant": "The start-up phase is over before a test program runs; sizes near the limits and overlaps depend on the history.", "anchors": ["src/proxy_lib/proxy_lib.c: ba_leak_aligned_alloc, ba_generic_realloc, ba_leak_calloc", "src/base_alloc/base_alloc_linear.c: umf_ba_linear_alloc, umf_ba_linear_free, umf_ba_linear_pool_contains_pointer"]}
{"id": "C54", "title": "GPU providers leave the caller's CUDA context alone and use their own", "statement": "Every call of a CUDA provider that allocates, frees, exports, maps or unmaps memory acts in the context the provider was created with, and when it returns the calling thread's current context is the one the caller had, unless the driver itself refuses to restore it.", "quantifier": "every number of threads, every interleaving of their calls, every answer of the driver, every context the callers make current", "why_tests_cant": "Needs several contexts and driver failures in the middle of a call; tests run with one context and a working driver.", "anchors": ["src/provider/provider_cuda.c: set_context, cu_memory_provider_alloc, cu_memory_provider_free, cu_memory_provider_get_ipc_handle, cu_memory_provider_open_ipc_handle, cu_memory_provider_close_ipc_handle"]}
{"id": "C55", "title": "GPU memory is what was asked for, is freed correctly and never leaked", "statement": "Memory that a CUDA or Level Zero provider returns is of the configured kind, in the configured context and device, of the requested size and alignment and resident on the configured devices; it is released by the driver function that belongs to it, only while it is in use; a failing call leaves no memory behind and stores no address.", "quantifier": "every number of threads, every interleaving, every history of creations, allocations, frees and IPC calls, every answer of the driver", "why_tests_cant": "Failures of single driver calls cannot be provoked in tests, and leaks of device memory are not visible to them.", "anchors": ["src/provider/provider_cuda.c: cu_memory_provider_alloc, cu_memory_provider_free", "src/provider/provider_level_zero.c: ze_memory_provider_alloc, ze_memory_provider_free"]}
{"id": "C56", "title": "Creating a GPU provider checks its parameters and is well defined", "statement": "Creating a CUDA or Level Zero provider from any parameters either gives a provider with exactly these parameters, or reports an error and leaves nothing behind; unknown memory types and missing contexts or devices are refused.", "quantifier": "every value of the parameters, every answer of the driver and of the host allocator, every set of functions found in the driver libraries", "why_tests_cant": "The error paths need failing drivers or drivers without some functions.", "anchors": ["src/provider/provider_cuda.c: umfCUDAMemoryProviderParamsCreate, cu_memory_provider_initialize", "src/provider/provider_level_zero.c: ze_memory_provider_initialize, query_min_page_size, ze_memory_provider_finalize"]}
{"id": "C57", "title": "The native error of a GPU provider belongs to the failed call", "statement": "After a call of a GPU provider that reports a provider specific error, the native error code of the thread is the code the driver gave for the call that failed, also when restoring the context failed later; the message is the driver's name and text for it, cut to the buffer, properly terminated.", "quantifier": "every number of threads, every interleaving, every history, every code, every length of the driver's texts", "why_tests_cant": "Tests provoke one error in one thread; the message is only cut for texts longer than any test uses.", "anchors": ["src/provider/provider_cuda.c: cu2umf_result, cu_memory_provider_get_last_native_error", "src/provider/provider_level_zero.c: ze2umf_result, ze_memory_provider_get_last_native_error"]}
{"id": "C58", "title": "Opening a Level Zero handle of another process uses its descriptor and leaks none", "statement": "Opening an exported Level Zero handle uses the exporter's descriptor if the exporter is the calling process, otherwise a duplicate of it that is open during the driver's call; the duplicate is closed before the call returns, whatever happens.", "quantifier": "every handle, every process, every interleaving of threads, every answer of the driver and of the system", "why_tests_cant": "Leaks of descriptors show after many failures only.", "anchors": ["src/provider/provider_level_zero.c: ze_memory_provider_open_ipc_handle", "src/utils/utils_posix_common.c: utils_duplicate_fd, utils_close_fd"]}
{"id": "C59", "title": "GPU providers report what the driver did", "statement": "A call of a GPU provider reports success only if the driver did what was asked, with the driver's own values; every error stands for a driver call that was refused with a matching code, for an argument that is not acceptable, or for a missing library; with a driver that refuses nothing, calls on a provider succeed.", "quantifier": "every call, every sequence of answers of the driver", "why_tests_cant": "Each refused driver call in each function is one case, most of which cannot be provoked.", "anchors": ["src/provider/provider_cuda.c", "src/provider/provider_level_zero.c"]}
{"id": "C60", "title": "Pools on top of oneTBB, jemalloc and providers use them correctly, whatever threads do", "statement": "While any number of threads use, create and destroy scalable, jemalloc and proxy pools, every call that a pool makes to the library below is one the library allows; when a library asks a pool for memory or gives it back, the request reaches the memory provider the pool was created with; memory handed to users is as large as asked, never shared, and comes from the pool they asked.", "quantifier": "every number of threads and pools, every interleaving, every answer of the libraries and providers, every callback at any moment the libraries allow", "why_tests_cant": "Races between creation, destruction and callbacks need particular schedules; wrong providers go unnoticed if they behave alike.", "anchors": ["src/pool/pool_scalable.c", "src/pool/pool_jemalloc.c: op_initialize, op_finalize, arena_extent_alloc, get_pool_by_arena_index", "src/pool/pool_proxy.c"]}
{"id": "C61", "title": "Arrays from scalable and jemalloc pools are large enough and zero", "statement": "If umfPoolCalloc of a scalable or jemalloc pool returns memory, it has room for all elements and every byte is zero, or the request is refused.", "quantifier": "every number and size of elements, every history of the memory, every interleaving", "why_tests_cant": "Overflows need huge numbers; fresh memory is usually zero anyway.", "anchors": ["src/pool/pool_scalable.c: tbb_calloc", "src/pool/pool_jemalloc.c: op_calloc"]}
{"id": "C62", "title": "The last allocation error of a pool belongs to the failed call of the thread", "statement": "After a failed allocation, umfPoolGetLastAllocationError in the same thread reports an error for that call: out of memory for jemalloc pools; for scalable pools out of memory exactly if the provider refused memory during the call. A failing free reports the provider's error. The usable size of a block is the library's answer; a proxy pool answers 0 and reports that the question is not supported.", "quantifier": "every interleaving of threads and callbacks, every answer of provider and library", "why_tests_cant": "Needs providers that fail inside callbacks while other threads fail differently.", "anchors": ["src/pool/pool_scalable.c: tbb_malloc, tbb_realloc, tbb_aligned_malloc, tbb_free, tbb_raw_alloc_wrapper, tbb_raw_free_wrapper", "src/pool/pool_jemalloc.c", "src/pool/pool_proxy.c", "src/memory_pool.c: umfPoolGetLastAllocationError"]}
{"id": "C63", "title": "Callbacks keep the books of library and provider equal", "statement": "After any sequence of callbacks, the memory the provider has given out is exactly the memory the library believes it has, apart from pieces the provider itself refused to take back; memory for a wanted address is at that address or refused, and zero if wanted. A purge of a part of a piece reaches the provider of the pool for exactly that part, and succeeds exactly if the provider does it.", "quantifier": "every sequence of callbacks with split, merge, purge and destruction, every answer of the provider", "why_tests_cant": "The callbacks run inside the libraries; tests see neither their arguments nor their results.", "anchors": ["src/pool/pool_jemalloc.c: arena_extent_alloc, arena_extent_dalloc, arena_extent_destroy, arena_extent_split, arena_extent_merge, arena_extent_purge_lazy, arena_extent_purge_forced", "src/pool/pool_scalable.c: tbb_raw_alloc_wrapper, tbb_raw_free_wrapper"]}
{"id": "C64", "title": "Creating and destroying scalable, jemalloc and proxy pools leaks nothing", "statement": "Whatever fails during creations and destructions, when no call is in progress exactly the library pools and arenas of existing pools exist, with the parameters of their creation; a scalable pool is created only if the library has all functions the pool calls, and the library is opened and closed equally often.", "quantifier": "every history of creations and destructions, every failure of host memory, library and loader", "why_tests_cant": "The error paths need failing libraries or libraries without some functions.", "anchors": ["src/pool/pool_scalable.c: tbb_pool_initialize, tbb_pool_finalize, init_tbb_callbacks_once, fini_tbb_global_state", "src/pool/pool_jemalloc.c: op_initialize, op_finalize", "src/pool/pool_proxy.c: proxy_pool_initialize"]}
{"id": "C65", "title": "Aligned allocations of these pools are aligned or refused", "statement": "Memory that umfPoolAlignedMalloc of a scalable, jemalloc or proxy pool returns is a multiple of the requested alignment; alignments that cannot be granted are refused.", "quantifier": "every alignment, every size, every history", "why_tests_cant": "Addresses are often better aligned than promised, which hides errors.", "anchors": ["src/pool/pool_scalable.c: tbb_aligned_malloc", "src/pool/pool_jemalloc.c: op_aligned_alloc", "src/pool/pool_proxy.c: proxy_aligned_malloc"]}
{"id": "C66", "title": "Tags of pools are exchanged atomically", "statement": "umfPoolSetTag and umfPoolGetTag behave, for all threads together, as if each call had its effect at one instant between its call and its return: every exchange returns the tag that was set by the one before it; missing handles and places are refused.", "quantifier": "every number of threads and pools, every interleaving, every sequence of calls", "why_tests_cant": "Lost or duplicated tags need particular schedules.", "anchors": ["src/memory_pool.c: umfPoolSetTag, umfPoolGetTag"]}
{"id": "C67", "title": "Calls of the disjoint pool by several threads are safe and finish", "statement": "Any correct use of a disjoint pool from several threads has no undefined behaviour, never deadlocks, and every call ends after a bounded number of its own steps.", "quantifier": "every number of threads, every interleaving of their steps, every answer of the provider", "why_tests_cant": "A race between a free and the destruction of a slab needs two calls to meet within a few instructions.", "anchors": ["src/pool/pool_disjoint.c: disjoint_pool_free, disjoint_pool_malloc_usable_size, disjoint_pool_allocate, bucket_free_chunk, destroy_slab", "src/critnib/critnib.c: critnib_find_le"]}
{"id": "C68", "title": "Creating and destroying OS, file, devdax and fixed providers leaks nothing", "statement": "umfMemoryProviderCreate for the OS, file, devdax and fixed providers either fails with an error and leaves no memory, descriptor, mapping or lock behind, or gives a provider that can be used; umfMemoryProviderDestroy then releases everything the provider holds, each thing once.", "quantifier": "every history of creations, failed creations, uses and destructions of any number of providers, every set of parameters, every failure of host memory, hwloc and the operating system at every step", "why_tests_cant": "The error paths need failing allocations, mutexes and system calls at every position; leaks are not visible in results.", "anchors": ["src/provider/provider_os_memory.c: os_initialize, os_finalize, translate_params, initialize_nodeset, initializePartitions, create_fd_for_mmap", "src/provider/provider_file_memory.c: file_initialize, file_finalize", "src/provider/provider_devdax_memory.c: devdax_initialize, devdax_finalize", "src/provider/provider_fixed_memory.c: fixed_initialize, fixed_finalize", "src/coarse/coarse.c: coarse_new, coarse_delete, coarse_add_memory_fixed", "src/memory_provider.c: umfMemoryProviderCreate, umfMemoryProviderDestroy"]}
{"id": "C69", "title": "An opened IPC handle of an OS, file or devdax provider shows the exporter's bytes", "statement": "A handle made by umfGetIPCHandle for memory of an OS, file or devdax provider can be opened by any process, any number of times, as long as the exporter's file can be reached. Every byte of the opened memory is the exporter's byte, with the same protection, until the handle is closed. Opening touches no other memory and leaves no descriptor; a failed open maps nothing. Closing unmaps exactly what opening mapped. umfPutIPCHandle accepts the provider's own handles.", "quantifier": "every history of handles made, opened and closed by any number of processes and providers, every allocation, every answer of the kernel", "why_tests_cant": "Needs several processes, unusual kernel answers and allocations at every offset; wrong bytes or left mappings are not reported as errors.", "anchors": ["src/provider/provider_os_memory.c: os_get_ipc_handle, os_put_ipc_handle, os_open_ipc_handle, os_close_ipc_handle", "src/provider/provider_file_memory.c: file_get_ipc_handle, file_put_ipc_handle, file_open_ipc_handle, file_close_ipc_handle", "src/provider/provider_devdax_memory.c: devdax_get_ipc_handle, devdax_put_ipc_handle, devdax_open_ipc_handle, devdax_close_ipc_handle", "src/utils/utils_linux_common.c: utils_mmap_file, utils_shm_create", "src/utils/utils_posix_common.c: utils_mmap, utils_munmap, utils_duplicate_fd", "src/utils/utils_common.c: utils_align_ptr_down_size_up"]}
{"id": "C70", "title": "Any number of disjoint pools on fixed providers keep the user's allocations apart, from end to end", "statement": "Create any number of fixed providers on memory areas without common bytes and any number of disjoint pools on them, several on one provider. Then, whatever is allocated, aligned, freed and destroyed in between: live allocations of all pools have no common byte and lie in the area their pool was created on; umfPoolByPtr names the right pool for every byte of them; umfFree does what umfPoolFree does; freeing succeeds; the usable size covers the request and runs into no other allocation of any pool; no call has undefined behaviour; a request fails only if there is no run of unused bytes for it or host memory runs out; destroying the last pool of a provider gives the whole area back.", "quantifier": "every history of creations, allocations, releases and destructions of any number of providers and pools, every answer of the host allocator to the parts that may fail", "why_tests_cant": "The layers are tested one at a time on fakes. Errors in how pool, tracker and provider rely on each other only show in long mixed histories.", "anchors": ["src/pool/pool_disjoint.c: disjoint_pool_allocate, disjoint_pool_aligned_malloc, disjoint_pool_free, disjoint_pool_malloc_usable_size, disjoint_pool_finalize, bucket_create_slab, bucket_free_chunk", "src/provider/provider_tracking.c: trackingAlloc, trackingFree, umfMemoryTrackerGetAllocInfo", "src/provider/provider_fixed_memory.c: fixed_initialize, fixed_alloc, fixed_free", "src/coarse/coarse.c: coarse_alloc, coarse_free", "src/memory_pool.c: umfPoolCreate, umfPoolMalloc, umfPoolFree, umfFree, umfPoolByPtr, umfPoolDestroy"]}
{"id": "C71", "title": "The last native error of a CPU provider belongs to the failed call of the thread", "statement": "When a call on an OS, file, devdax or fixed provider returns the provider specific error, umfMemoryProviderGetLastNativeError in the same thread gives the documented code of what failed and a terminated message: the text of that failure and, for a failed system call, the system's explanation of its errno. Calls of other threads, calls on other kinds of providers, and calls that do not return the provider specific error do not change that. The query never reads or writes outside its table and buffer.", "quantifier": "every history of calls and queries by any number of threads, every answer of the kernel, hwloc and the host allocator, every text of the system's error messages", "why_tests_cant": "The failures have to be provoked one by one in system calls that rarely fail, and stale or foreign records only show in certain orders of calls.", "anchors": ["src/provider/provider_os_memory.c: os_store_last_native_error, os_get_last_native_error, os_alloc, os_free, os_purge_lazy, os_purge_force, os_open_ipc_handle, os_close_ipc_handle", "src/provider/provider_file_memory.c: file_get_last_native_error, file_alloc_cb, file_purge_force, file_open_ipc_handle, file_close_ipc_handle", "src/provider/provider_devdax_memory.c: devdax_get_last_native_error, devdax_purge_force, devdax_open_ipc_handle, devdax_close_ipc_handle", "src/provider/provider_fixed_memory.c: fixed_get_last_native_error, fixed_purge_force", "src/utils/utils_posix_common.c: utils_strerror"]}
{"id": "C72", "title": "Parameter objects keep the values that were set, apart from the caller's memory", "statement": "A parameter object of a provider or pool holds, from the call that made it to the call that destroys it, the values set by the last successful calls, and the documented defaults for the rest. Strings and arrays are taken over when they are set: the caller may change or free its own afterwards. Wrong arguments are refused, a failed call changes nothing, no legal call is undefined, and when the objects are destroyed no memory is left.", "quantifier": "every history of create, set and destroy calls on any number of parameter objects of the OS, file, devdax, fixed, Level Zero and CUDA providers and the scalable and disjoint pools, every change of the caller's own memory in between, every pattern of failing host allocations", "why_tests_cant": "Use of the caller's memory after the call, leaks and double frees only show for certain orders of calls and certain failing allocations.", "anchors": ["src/provider/provider_os_memory.c: umfOsMemoryProviderParams*", "src/provider/provider_file_memory.c: umfFileMemoryProviderParams*", "src/provider/provider_devdax_memory.c: umfDevDaxMemoryProviderParams*", "src/provider/provider_fixed_memory.c: umfFixedMemoryProviderParams*", "src/provider/provider_level_zero.c: umfLevelZeroMemoryProviderParams*", "src/provider/provider_cuda.c: umfCUDAMemoryProviderParams*", "src/pool/pool_scalable.c: umfScalablePoolParams*", "src/pool/pool_disjoint.c: umfDisjointPoolParams*"]}
{"id": "C73", "title": "The disjoint pool keeps its own memory in order", "statement": "Whatever the base allocator and the provider answer, every legal call on disjoint pools and shared limits is defined: no structure is used before it exists or after it is freed, none is freed twice, no assertion fails and every list walk ends. A refused creation or allocation leaves everything as it was; an allocation is refused only for lack of memory; the memory of live allocations is memory the provider has not got back; and when all pools and limits are destroyed, with or without freeing the allocations, nothing is left at the provider or the base allocator.", "quantifier": "every history of creations, allocations, frees and destructions of any number of disjoint pools with any parameters and of shared limits, every pattern of refusals by the base allocator, the provider and the radix tree", "why_tests_cant": "The lists are rewired by every call; a wrong link shows only many calls later, and leaks on refused allocations only if the right allocation is made to fail.", "anchors": ["src/pool/pool_disjoint.c: disjoint_pool_initialize, disjoint_pool_finalize, create_slab, destroy_slab, bucket_get_avail_slab, bucket_free_chunk, create_bucket, destroy_bucket", "src/pool/pool_disjoint_internal.h", "src/uthash/utlist.h: DL_PREPEND, DL_DELETE, LL_DELETE, LL_FOREACH_SAFE"]}
{"id": "C74", "title": "The ordered tree's nodes are used and freed correctly", "statement": "After any history of calls on an ordered tree that name only live nodes, every call is defined: it follows no pointer to a freed or missing node, fails no assertion and ends. The nodes allocated are exactly the nodes of the elements, each in one node; lookups, steps and traversal answer with the nodes of an ordered set; a refused or duplicate insertion changes nothing; clearing or deleting the tree frees every node once. A node stays valid as long as its element is in the tree.", "quantifier": "every history of insertions, removals by node, lookups, first/last, steps to the next or previous node, traversals and clears; every element type and key function, every choice of addresses and every pattern of refused allocations", "why_tests_cant": "Rotations and removals rewire parent and child pointers; a wrong pointer shows only in the next rotation or walk through that node, which depends on the whole history.", "anchors": ["src/ravl/ravl.c: ravl_emplace, ravl_balance, ravl_rotate, ravl_remove, ravl_find, ravl_node_successor, ravl_node_predecessor, ravl_foreach, ravl_clear, ravl_delete_cb"]}
{"id": "C75", "title": "The cache of opened IPC handles uses its hash tables and lists correctly", "statement": "After any history of calls of the tracking providers on the cache of opened IPC handles, every call is defined: it reads and writes no freed or missing block, uses no bucket outside its array, fails no assertion and ends. A lookup returns the entry of the key and the limit, the eviction and the callbacks are those of an ordinary list in order of last use; a lack of memory is reported as an error. The blocks in use are one for each entry and each cache and at most one hash table with one bucket array for each provider with entries; after the caches are destroyed nothing is left.", "quantifier": "every history of creating and destroying caches, getting, mapping and releasing entries; every hash function (any collisions), every limit, any number of providers and entries, every choice of addresses and every pattern of refused allocations", "why_tests_cant": "Each entry is in three linked lists at once, tables grow and disappear as entries of other providers are evicted, and a wrong link shows only when a later call walks through that entry; refused allocations inside the hash macros need fault injection.", "anchors": ["src/ipc_cache.c: umfIpcCacheGlobalInit, umfIpcCacheGlobalTearDown, umfIpcOpenedCacheCreate, umfIpcOpenedCacheDestroy, umfIpcOpenedCacheGet, umfIpcHandleMappedCacheRelease", "src/uthash/uthash.h: HASH_FIND, HASH_ADD, HASH_DEL, HASH_EXPAND_BUCKETS", "src/uthash/utlist.h: DL_PREPEND, DL_DELETE, DL_COUNT"]}
{"id": "C76", "title": "The coarse allocator uses its own memory correctly", "statement": "After any history of allocations, frees, splits, merges and additions of memory (through the providers that manage blocks themselves), every call is defined: it reads and writes no block descriptor, list or tree node that was freed or never allocated, reads through no NULL, and ends. An address that is handed out is never one the user still holds. The statistics count each block once. Destroying the provider gives each block back to the upstream provider exactly once and leaves nothing of the allocator's own memory behind. This holds whatever the base allocator refuses.", "quantifier": "every history of calls and arguments, every allocation strategy, every answer of the callbacks (split, merge, upstream allocation), every choice of addresses, every pattern of refused internal allocations and every content of fresh memory", "why_tests_cant": "Descriptors, list elements, list heads and nodes of two trees point to each other; a dangling link shows only when a later search walks through it, and the failing paths need a refused internal allocation at one particular request.", "anchors": ["src/coarse/coarse.c: coarse_alloc, coarse_free, coarse_split, coarse_merge, coarse_add_memory_fixed, coarse_add_memory_from_provider, coarse_get_stats, coarse_delete, free_blocks_add, free_blocks_rm_ge, free_blocks_rm_node, node_list_add, node_list_rm, node_list_rm_first, create_aligned_block", "src/ravl/ravl.c"]}
{"id": "C77", "title": "The coarse allocator's pointer structures implement its bookkeeping", "statement": "What a user sees of the providers that manage blocks themselves does not depend on how the blocks are linked together. After any history of calls with any arguments, in which no internal allocation is refused: every call is defined; the allocations that are held are exactly the blocks marked used, share no byte, lie in memory the provider was given and have the size and alignment that were asked; the statistics are the sums of what was given and what is held; free and held blocks together are exactly the memory that was given; free neighbours are merged; an allocation for which there is room succeeds; and a free succeeds exactly for NULL and for held addresses with the right size.", "quantifier": "every history of calls and arguments, every allocation strategy, every answer of the callbacks, every choice of addresses by the base allocator and every content of fresh memory", "why_tests_cant": "The blocks are held by two trees and by linked lists; whether the lists agree with the trees after a long mixed history cannot be seen from the results of a finite number of runs.", "anchors": ["src/coarse/coarse.c: coarse_alloc, coarse_free, coarse_split, coarse_merge, coarse_add_memory_fixed, coarse_add_memory_from_provider, coarse_get_stats", "src/ravl/ravl.c"]}
{"id": "C78", "title": "The radix tree's own memory is used and freed correctly", "statement": "Whatever threads do with the tree that tracks allocations, at all times: a lock-free lookup holds and reads only memory the tree obtained and has not given back, even while the part it looks at is being removed and reused; an update writes only to such memory; while the tree has at most N entries it obtains at most N + 17 leaves and N + 17 inner nodes, however many updates are made. When the tree is destroyed, while no update is under way, all its memory is given back, each piece once, and nothing is read after it was given back.", "quantifier": "every interleaving of any number of lookups with any sequence of insertions and removals, every refusal of memory, every content of fresh memory, every moment of destruction between updates", "why_tests_cant": "A lookup that runs over freed memory needs a stalled reader and a removal at the right moment, and usually still gives a plausible answer; a leaked or doubly freed node shows only after particular histories of removals.", "anchors": ["src/critnib/critnib.c: critnib_delete, delete_node, alloc_node, alloc_leaf, free_node, free_leaf, critnib_insert, critnib_remove, critnib_get, critnib_find"]}
{"id": "C79", "title": "IPC handles exported by several threads at once are shared, kept, and released once", "statement": "However many threads ask for IPC handles, also of the same allocation at the same time, as long as nobody frees an allocation while a handle is being made for it: all handles of one allocation carry the same id and provider data, handles of different allocations carry different ones, each has the right base, size and offset, and its provider data stays valid until the allocation is freed. Every handle taken from the memory provider is put back exactly once, at once if another thread was faster or at the latest when the allocation is freed; a failed call leaves nothing behind, no freed memory is used, and once all is freed and put the library holds nothing. A call ends after a bounded number of its own steps, whatever the others do, and one that is refused nothing returns a handle.", "quantifier": "every interleaving of any number of exporting, putting and freeing threads, every refusal of the provider or of the allocator at every step", "why_tests_cant": "The window between the miss in the cache and the insertion is a few instructions wide; a handle that is put twice or never shows only in the driver's accounting.", "anchors": ["src/ipc.c: umfGetIPCHandle, umfPutIPCHandle, umfPoolGetIPCHandleSize", "src/provider/provider_tracking.c: trackingGetIpcHandle, trackingFree, trackingPutIpcHandle"]}
{"id": "C80", "title": "Reading a control name or a configuration never touches wrong memory and leaves none behind", "statement": "A query by name, a configuration string and a configuration file, which the library splits in place in buffers of its own, have the results and call the handlers that the text alone determines. Whichever allocation is refused, and whatever a handler writes over the argument text it is given, the call is defined: it reads and writes only memory that is in use, inside its bounds, and frees each block once. Afterwards the file is closed, all memory of the call is free again, and nothing of the caller's has changed but the argument text. A query of which an allocation was refused fails without calling a handler, or does what it would have done.", "quantifier": "all trees of names, names, configurations and files, all refusals of the allocator, everything a handler may do to its argument", "why_tests_cant": "The splitting is done in place at three levels in one buffer by strtok_r; an off-by-one, a block freed twice on a rare path or a leak per query needs particular texts together with a refused allocation to show.", "anchors": ["src/ctl/ctl.c: ctl_query, ctl_find_node, ctl_delete_indexes, ctl_parse_args, ctl_query_cleanup_real_args, ctl_exec_query_*, ctl_parse_query, ctl_load_config, ctl_load_config_from_string, ctl_load_config_from_file"]}
{"id": "C81", "title": "Memory targets report the attributes of their own node, from a topology that is there", "statement": "The capacity of a memory target is that of the NUMA node with its number. The bandwidth and the latency between two targets are those the machine has between the processors of the first node and the memory of the second, the worst value if no processor is near both, and an error with nothing written if the machine has no value, a node does not exist or a pointer is null. However often the library is initialised, used and shut down, and whatever fails, the topology is loaded at most once per round, never used or destroyed when it is not there, and gone after the shut-down; a failure to load it does not outlast the round.", "quantifier": "all machines (any number of nodes with any numbering, processors and values), all pairs of targets, all histories of uses and shut-downs, all failures of the topology library", "why_tests_cant": "The machine of the tests has nodes 0, 1, ... in order, one round per process, and a topology that loads.", "anchors": ["src/memtargets/memtarget_numa.c: numa_get_capacity, query_attribute_value, memattr_get_worst_value, numa_get_bandwidth, numa_get_latency", "src/memtarget.c: umfMemtargetGetCapacity, umfMemtargetGetBandwidth, umfMemtargetGetLatency", "src/topology.c: umfCreateTopology, umfDestroyTopology, umfGetTopology"]}
{"id": "C82", "title": "The tracker uses and frees its own memory correctly", "statement": "Whatever pools allocate, free, split and merge, with any arguments, nesting and refusals of host memory, and whatever is looked up, the tracker reads and frees only entries that are allocated, frees each once, and has exactly one entry for each tracked region and for each region opened from another process; what a lookup answers is what the entries say. Creating the tracker with any part of it refused leaves nothing behind, and destroying it destroys each part once.", "quantifier": "all histories of calls with any arguments and any upstream answers, all refusals of entries, of nodes of the radix trees and of the mutex, all subsets of the parts of a tracker that cannot be made", "why_tests_cant": "A test sees neither freed entries that are still in a map nor lost ones, and does not refuse the one leaf a split asks for.", "anchors": ["src/provider/provider_tracking.c: get_most_nested_alloc_segment, umfMemoryTrackerAddAtLevel, umfMemoryTrackerAdd, umfMemoryTrackerRemove, umfMemoryTrackerAddIpcSegment, umfMemoryTrackerRemoveIpcSegment, umfMemoryTrackerGetAllocInfo, umfMemoryTrackerGetIpcInfo, trackingAlloc, trackingAllocationSplit, trackingAllocationMerge, trackingFree, umfMemoryTrackerCreate, umfMemoryTrackerDestroy", "src/critnib/critnib.c: critnib_insert"]}
{"id": "C83", "title": "The proxy library starts with what its options ask for", "statement": "For every value of UMF_PROXY of the documented form the proxy library runs with exactly the size threshold of its first size.threshold item (0 without one), with shared memory if and only if a page.disposition option is an item, and with the documented shared memory name for shared-shm. For every value at all, it never runs with a threshold that is not written as a number after the option, and never ignores one; it runs only if nothing it needs was refused, and with a threshold above 0 only if all functions of the system allocator were found. At the end of a process with a threshold the tracker is kept, and without the library preloaded it is destroyed.", "quantifier": "all values of UMF_PROXY, UMF_LOG and LD_PRELOAD, all sets of refusals and of missing symbols, all process numbers", "why_tests_cant": "The options are free text searched for with strstr; tests try a few values.", "anchors": ["src/proxy_lib/proxy_lib.c: get_size_threshold, get_system_allocator_symbols, proxy_lib_create_common", "src/utils/utils_posix_common.c: utils_get_size_threshold", "src/utils/utils_common.c: utils_env_var_get_str", "src/utils/utils_common.h: utils_env_var_has_str, utils_is_running_in_proxy_lib, utils_is_running_in_proxy_lib_with_size_threshold", "src/libumf.c: umfTearDown"]}
{"id": "C84", "title": "Exported IPC handles are given back to the provider by the end of the pool", "statement": "Whatever a pool allocates, exports, frees, splits and merges, with any arguments and refusals: each handle that the provider made for an export is given back once, at the latest when its allocation is freed, is the same for all exports of the allocation until then, and when a pool is destroyed no handle is left with the provider and no memory of the library is left for one.", "quantifier": "all histories of a pool, all arguments, all refusals of host memory and of the upstream provider", "why_tests_cant": "Whether handles are left behind shows only after long histories, in the resources of the driver.", "anchors": ["src/provider/provider_tracking.c: trackingGetIpcHandle, trackingFree, trackingAllocationSplit, trackingAllocationMerge, trackingFinalize", "src/ipc.c: umfGetIPCHandle"]}
{"id": "C85", "title": "The report of memory that is left at the end is exact", "statement": "Whatever was allocated, freed, split and merged before, by any pools and with any refusals, in nested pools too: when the library shuts down in a debug build, its check for regions that are left uses no memory that was freed, comes to an end, prints nothing if no region is left, and otherwise prints the exact number of regions that are left, each counted once; in the proxy library it prints nothing.", "quantifier": "all histories of all pools, all numbers and nestings of regions left", "why_tests_cant": "A count that is off by one level or by one region is only wrong for some nestings.", "anchors": ["src/provider/provider_tracking.c: check_if_tracker_is_empty, umfMemoryTrackerDestroy"]}
{"id": "C86", "title": "A pool keeps the functions, the private data and the provider it was created with", "statement": "Whatever the caller does to the table of functions after the creation of a pool began, and whatever other pools are created (also by the functions of the table), used and destroyed: each call on the pool calls exactly the function that was in the table, with the private data its initialization returned and the caller's arguments, and returns its answer; the pool reports the provider it was created with; its destruction calls its own finalization once and destroys the provider if and only if the pool owns it. A table in which a function is missing, and a null handle, are refused. A creation that fails leaves everything as before.", "quantifier": "all histories of creations, calls, changes of tables and destructions of any number of pools, all arguments and refusals", "why_tests_cant": "It is about everything that may happen between a creation and a call, and about tables that no test has.", "anchors": ["src/memory_pool.c: umfPoolCreateInternal, umfPoolDestroy, umfPoolMalloc, umfPoolAlignedMalloc, umfPoolCalloc, umfPoolRealloc, umfPoolMallocUsableSize, umfPoolFree, umfPoolGetLastAllocationError, umfPoolGetMemoryProvider, by_handle_pool", "include/umf/memory_pool_ops.h: umf_memory_pool_ops_t"]}
{"id": "C87", "title": "A memory policy keeps what was set", "statement": "After any calls that create, change and destroy any number of policies, and whatever the program does to its own arrays: a provider made from a policy gets the part size that was set last, or the partitions that were in the array when they were set last, or the documented default if nothing was set; settings that do not belong to the type of the policy, and null handles, are refused and change nothing; destroying a policy changes no other.", "quantifier": "all histories of all policies, all arrays and their changes, all numbers of partitions", "why_tests_cant": "Arrays of a test live until the end of the test.", "anchors": ["src/mempolicy.c: umfMempolicyCreate, umfMempolicyDestroy, umfMempolicySetInterleavePartSize, umfMempolicySetCustomSplitPartitions", "src/memtargets/memtarget_numa.c: numa_memory_provider_create_from_memspace", "src/provider/provider_os_memory.c: umfOsMemoryProviderParamsSetPartitions"]}
{"id": "C88", "title": "A pool's view of a provider passes on what it does not track", "statement": "The provider that a pool is given by umfPoolCreate answers queries of page sizes, names, IPC handle sizes and last errors, and purges, like the provider that the pool was created on, through any number of pools created on each other's providers: that provider's function is called exactly once, with the same arguments, and its answer is returned; bad arguments are refused without calling anything; after a failure, the last failed provider of the thread is the one that failed, and its last error can be asked for.", "quantifier": "all towers of pools, all calls and arguments, all answers of providers", "why_tests_cant": "A function that is passed on with wrong arguments or twice is seen only with a provider that tells the difference, at that height.", "anchors": ["src/provider/provider_tracking.c: trackingGetLastError, trackingGetRecommendedPageSize, trackingGetMinPageSize, trackingPurgeLazy, trackingPurgeForce, trackingName, trackingGetIpcHandleSize", "src/memory_provider.c: checkErrorAndSetLastProvider, umfMemoryProviderGetRecommendedPageSize"]}
{"id": "C89", "title": "Creating providers and pools from memspaces leaks nothing and gives what was asked for", "statement": "umfMemoryProviderCreateFromMemspace uses no memory that was freed and leaves no memory behind except the new provider, whichever allocation fails; on success the provider has the nodes of the memspace, in order, and the mode, part size and partitions of the policy; on failure no handle is written; it fails only if memory is refused, the memspace is empty, the policy is invalid, or the provider refuses these settings. umfPoolCreateFromMemspace gives a pool likewise. A new memspace is empty, and umfMemspaceMemtargetGet enumerates exactly the targets.", "quantifier": "all memspaces, policies, refusals of memory and answers of the OS provider", "why_tests_cant": "Each clean-up path is taken only if one particular allocation fails.", "anchors": ["src/memspace.c: umfPoolCreateFromMemspace, umfMemoryProviderCreateFromMemspace, memoryTargetHandlesToPriv, umfMemspaceNew, umfMemspaceMemtargetNum, umfMemspaceMemtargetGet", "src/memtargets/memtarget_numa.c: numa_memory_provider_create_from_memspace, numa_pool_create_from_memspace", "src/provider/provider_os_memory.c: umfOsMemoryProviderParamsSetNumaList, umfOsMemoryProviderParamsSetPartitions"]}
{"id": "C90", "title": "Opening files leaks no descriptors and gives the file asked for", "statement": "Whatever the kernel answers and whatever other threads and processes do between its system calls, opening or creating a file, a devdax, named or anonymous shared memory, or a descriptor of another process either fails and leaves no descriptor open, or returns a descriptor of the file asked for and leaves no other descriptor open; descriptors of others are never closed. A devdax is a character device under /dev/dax; new shared memory is a new file with the size asked for under its name, and names and files of others stay as they are; the error code is the one of the error the kernel reported; it fails only for a reason.", "quantifier": "all paths, names, sizes, answers of the kernel and interleavings with other threads and processes", "why_tests_cant": "Each descriptor leaks only if one particular call fails or gives a particular number; what others do between two calls cannot be scheduled by a test.", "anchors": ["src/utils/utils_posix_common.c: utils_file_open, utils_file_open_or_create, utils_devdax_open, utils_duplicate_fd, utils_errno_to_umf_result", "src/utils/utils_linux_common.c: utils_shm_create, utils_shm_open, utils_create_anonymous_fd, syscall_memfd_secret, syscall_memfd_create, utils_set_file_size"]}
