{"id": "C01", "title": "A file behaves as a flat byte array", "statement": "After any sequence of writes (any offset, any data) and truncations, the bytes of a file are exactly those of a flat byte array to which the same operations were applied: a write at offset o replaces bytes o..o+len, everything else is unchanged, and a gap between the old end and o reads as zeros.", "quantifier": "all finite histories of write/truncate on one file, all offsets, all data lengths, all buffer layouts they produce", "why_tests_cant": "The chunked 4 KiB buffer arithmetic has boundary cases for every alignment of offset, length and previous size; tests sample a handful.", "anchors": ["kernel/src/fs/file.rs: File::write_file, File::increase_file_size, File::read_file, File::file_truncate"]}
{"id": "C02", "title": "Reported file size is the true length", "statement": "The size reported for a file equals the length of its contents after every history: a write of len bytes at offset o makes it max(old, o+len), a truncate makes it 0, and a read never changes it.", "quantifier": "all histories of file operations", "why_tests_cant": "The size is recomputed from the buffer layout with a special case for an empty last buffer; it must be right for every reachable layout.", "anchors": ["kernel/src/fs/file.rs: File::get_size", "kernel/src/fs/mnode.rs: MemNode::get_file_size"]}
{"id": "C03", "title": "Reads return exactly the requested existing bytes", "statement": "A permitted read of n bytes at offset o returns min(n, size-o) bytes (0 when o is at or past the end), they are exactly the stored bytes, and nothing else of the caller's buffer is modified; without read permission, or on a directory, it fails with a permission error and changes nothing.", "quantifier": "all files, offsets, buffer lengths, permissions", "why_tests_cant": "Universally quantified over the contents and the chunk boundaries a read crosses.", "anchors": ["kernel/src/fs/mnode.rs: MemNode::read", "kernel/src/fs/file.rs: File::read_file"]}
{"id": "C04", "title": "File permissions are enforced on the data path", "statement": "A file created without write permission is never modified by any write or truncate, and one created without read permission never yields data, whatever the flags given at open time.", "quantifier": "all histories of file system calls", "why_tests_cant": "Has to hold for every interleaving of opens, writes and truncates by any number of processes.", "anchors": ["kernel/src/fs/mnode.rs: MemNode::write/read/file_truncate", "kernel/src/fs/cnrfs.rs: MlnrKernelNode::dispatch_mut"]}
{"id": "C05", "title": "Descriptor allocation returns the lowest unused number", "statement": "Opening a file returns the smallest descriptor number not currently open in the process, fails only when all 4096 are in use, and never disturbs another open descriptor; closing frees exactly that descriptor and closing an unopened one is an error with no effect.", "quantifier": "all states of the descriptor table and all open/close histories", "why_tests_cant": "Quantifies over all 2^4096 occupancy patterns.", "anchors": ["kernel/src/fs/fd.rs: FileDescriptorTable::allocate_fd/deallocate_fd/get_fd"]}
{"id": "C06", "title": "A freshly opened descriptor starts at offset zero", "statement": "After a successful open the descriptor refers to the opened file with the given flags and its implicit offset is 0, even if the number was used before by another file with a different offset.", "quantifier": "all open/close/read/write histories", "why_tests_cant": "A stale offset only shows up after specific close/reopen histories.", "anchors": ["kernel/src/fs/fd.rs: FileDescriptorEntry::update", "kernel/src/fs/cnrfs.rs: Modify::FileOpen"]}
{"id": "C07", "title": "Implicit-offset I/O advances sequentially", "statement": "On one replica, consecutive writes without explicit offset concatenate at the descriptor's offset (at end of file with O_APPEND), consecutive reads without explicit offset return consecutive pieces of the file, and I/O with an explicit offset never moves the implicit offset.", "quantifier": "all histories of reads and writes through a descriptor", "why_tests_cant": "Requires every history of mixed explicit and implicit I/O.", "anchors": ["kernel/src/fs/cnrfs.rs: Modify::FileWrite, Access::FileRead"]}
{"id": "C08", "title": "Names map to distinct live files", "statement": "At every reachable file-system state each name denotes an existing inode, two different names never denote the same inode, inode numbers are never reused, and '/' style directories never get file contents.", "quantifier": "all histories of create/mkdir/rename/delete/truncate/write", "why_tests_cant": "A global invariant over all histories of namespace operations.", "anchors": ["kernel/src/fs/mod.rs: MlnrFS::create/delete/rename/mkdir/lookup"]}
{"id": "C09", "title": "Namespace operations have exactly their documented effect", "statement": "Creating, deleting, renaming and making directories affect only the named entries; all other names keep denoting the same contents; failing operations change nothing; renaming onto another existing name replaces it.", "quantifier": "all file-system states and all names", "why_tests_cant": "Frame conditions over an arbitrary number of other files cannot be enumerated.", "anchors": ["kernel/src/fs/mod.rs: MlnrFS::create/delete/rename/mkdir/truncate"]}
{"id": "C10", "title": "Renaming a file to its own name keeps the file", "statement": "rename(a, a) of an existing file succeeds and leaves the file and its contents in place.", "quantifier": "all file-system states and names", "why_tests_cant": "A data-loss corner case no unit test covers.", "anchors": ["kernel/src/fs/mod.rs: MlnrFS::rename"]}
{"id": "C11", "title": "System calls on files cannot crash the kernel", "statement": "No file operation submitted on behalf of a registered process reaches a kernel panic, whatever files were deleted while descriptors were open.", "quantifier": "all histories of file operations by registered processes", "why_tests_cant": "Needs all histories, including delete while open.", "anchors": ["kernel/src/fs/cnrfs.rs: dispatch_mut, dispatch, LogMapper::hash", "kernel/src/fs/mod.rs: MlnrFS::file_info, rename"]}
{"id": "C12", "title": "Replicas that applied the same log agree", "statement": "Two replicas of any replicated kernel structure that consumed the same prefix of the operation log have equal state, and each operation gets the same response on every replica; a replica that is behind catches up to exactly the same state.", "quantifier": "all operation sequences, all replica counts, all interleavings of appends and replays", "why_tests_cant": "Quantifies over all schedules of replicas consuming the log.", "anchors": ["kernel/src/nr.rs: KernelNode", "kernel/src/nrproc.rs: NrProcess", "kernel/src/fs/cnrfs.rs: MlnrKernelNode"]}
{"id": "C13", "title": "Reads through the log are linearizable", "statement": "A read that first brings its replica up to the log tail observed at invocation returns the value of the abstract sequential object at some point between invocation and response, and sees every write that completed before it started.", "quantifier": "all interleavings of reads and writes on all replicas", "why_tests_cant": "Schedules of arbitrarily many clients on arbitrarily many replicas.", "anchors": ["kernel/src/nr.rs", "kernel/src/nrproc.rs", "kernel/src/fs/cnrfs.rs"]}
{"id": "C14", "title": "Concurrent logs never make replicas diverge", "statement": "File operations that are mapped to different logs commute: applying them in either order gives the same file-system state and the same responses, so replicas replaying different logs in different relative orders agree.", "quantifier": "all file-system states and all pairs of operations mapped to disjoint logs", "why_tests_cant": "Commutation has to hold in every state for every operation pair.", "anchors": ["kernel/src/fs/cnrfs.rs: impl LogMapper for Modify / Access, dispatch_mut"]}
{"id": "C15", "title": "Reading a file does not change replicated state", "statement": "Read-class operations (which are executed on one replica only) leave the replicated state unchanged, so replicas cannot diverge because of them.", "quantifier": "all states and read operations", "why_tests_cant": "Every read operation in every state.", "anchors": ["kernel/src/fs/cnrfs.rs: dispatch (Access::FileRead)"]}
{"id": "C16", "title": "Reader-writer lock excludes writers from readers", "statement": "No thread can hold the inode lock for writing while any other thread holds it for reading or writing.", "quantifier": "all numbers of threads, core counts and interleavings of the lock's atomic steps", "why_tests_cant": "Races are schedule dependent.", "anchors": ["kernel/src/fs/rwlock.rs: RwLock::read/write/read_unlock/write_unlock"]}
{"id": "C17", "title": "Kernel work queue delivers each element exactly once in FIFO order", "statement": "For any number of concurrent producers and consumers, every successfully pushed element is popped at most once, nothing is popped that was not pushed, and elements leave in the order in which their pushes were serialised.", "quantifier": "all capacities, thread counts and interleavings at the granularity of atomic accesses", "why_tests_cant": "Lock-free interleavings are unbounded.", "anchors": ["kernel/src/mpmc.rs: State::push/pop"]}
{"id": "C18", "title": "Bounded queue capacity", "statement": "The queue never holds more than its capacity (a power of two, at least 2); push reports full only when it was full, and pop reports empty only when it was empty at some moment during the call; a rejected push leaves no trace.", "quantifier": "all interleavings", "why_tests_cant": "Schedule dependent.", "anchors": ["kernel/src/mpmc.rs: Queue::with_capacity, push, pop"]}
{"id": "C19", "title": "Shared-memory transport delivers messages intact", "statement": "Messages sent through the shared-memory queue arrive in order, each exactly once, with the bytes of the concatenated payload slices, and scatter reception splits them as requested.", "quantifier": "all payloads, slice partitions and interleavings of senders and receivers", "why_tests_cant": "All sizes and splits.", "anchors": ["lib/rpc/src/transport/shmem/queue_mpmc.rs", "lib/rpc/src/transport/shmem/transport.rs: send_msg, recv_msg"]}
{"id": "C20", "title": "Splitting a frame partitions it", "statement": "Splitting a physical memory block at any page multiple yields two blocks that are disjoint, page aligned, keep the NUMA affinity and cover exactly the same bytes; splitting at the nearest large-page boundary gives a high part aligned to 2 MiB; iterating a block yields each 4 KiB page exactly once in order.", "quantifier": "all page-aligned frames and split sizes", "why_tests_cant": "All frame addresses and sizes.", "anchors": ["kernel/src/memory/frame.rs: Frame::split_at, split_at_nearest_large_page_boundary, IntoBasePageIter::next"]}
{"id": "C21", "title": "The page cache conserves memory", "statement": "A page cache hands out only pages it holds, never the same page twice without a release in between, all pages it hands out are pairwise disjoint, aligned and of its NUMA node, and every operation conserves the multiset of pages (allocated + cached).", "quantifier": "all histories of allocate/release/grow/reap on a cache of any capacity", "why_tests_cant": "Conservation over all histories.", "anchors": ["kernel/src/memory/mcache.rs: MCache"]}
{"id": "C22", "title": "Populating a cache neither invents nor duplicates memory", "statement": "Building a cache from a memory block yields pages that lie inside the block and are pairwise disjoint, for any block and any capacity.", "quantifier": "all frames and capacities", "why_tests_cant": "Arithmetic over all frame sizes and offsets.", "anchors": ["kernel/src/memory/mcache.rs: populate_4k_first, populate_2m_first, populate"]}
{"id": "C23", "title": "Refill sizing is sufficient", "statement": "The number of base and large pages computed for a byte size covers the size, and wastes less than one base page.", "quantifier": "all sizes", "why_tests_cant": "All 64-bit sizes.", "anchors": ["kernel/src/memory/utils.rs: size_to_pages", "kernel/src/memory/mod.rs: KernelAllocator::refill_amount"]}
{"id": "C24", "title": "Emergency allocations are disjoint and inside the region", "statement": "The boot-time allocator returns blocks that are inside its region, at least as large as asked, pairwise disjoint, and fails rather than exceed the region.", "quantifier": "all allocation histories", "why_tests_cant": "All histories of layouts.", "anchors": ["kernel/src/memory/emem.rs: EmergencyAllocator"]}
{"id": "C25", "title": "Deterministic allocation gives every replica the same outcome", "statement": "For the k-th allocation request of the replicated process, every replica gets either memory on its own node or a failure, and all replicas agree on which; memory handed out is never simultaneously freed.", "quantifier": "all request sequences, replica counts, success/failure patterns of the underlying allocator and replica orders", "why_tests_cant": "Depends on the schedule of replicas and on allocation failures.", "anchors": ["kernel/src/memory/detmem.rs: DeterministicAlloc::alloc"]}
{"id": "C26", "title": "Switching memory affinity keeps arenas consistent", "statement": "After any sequence of affinity switches the current allocator is the one of the last successfully selected node, arenas are never lost or duplicated, and an invalid node is rejected with no change.", "quantifier": "all switch sequences", "why_tests_cant": "All histories.", "anchors": ["kernel/src/memory/per_core.rs: PerCoreAllocatorState::swap_manager, set_mem_affinity"]}
{"id": "C27", "title": "Per-core user heaps never overlap", "statement": "Two user-level allocations served from heap regions, on whatever cores, never overlap.", "quantifier": "all cores, layouts and allocation histories", "why_tests_cant": "All histories of allocation sizes.", "anchors": ["lib/vibrio/src/mem.rs: Pager::allocate, PerCorePagers"]}
{"id": "C28", "title": "Mapping makes exactly the requested range translate", "statement": "After a successful map of a frame at a virtual base, each address in the mapped range resolves to the corresponding physical address with the requested rights, and the translation of every other address is unchanged.", "quantifier": "all page-table states, addresses, frame sizes and rights", "why_tests_cant": "All 2^48 addresses and all page-table shapes.", "anchors": ["kernel/src/arch/x86_64/vspace/page_table.rs: map_generic, resolve", "kernel/src/arch/x86_64/vspace/mod.rs: VSpace::map_frame"]}
{"id": "C29", "title": "Unmapping removes exactly the requested mapping", "statement": "After a successful unmap no address of the mapping translates any more, and all other addresses translate as before.", "quantifier": "all page-table states and addresses", "why_tests_cant": "All page-table shapes.", "anchors": ["kernel/src/arch/x86_64/vspace/page_table.rs: unmap, modify_generic", "kernel/src/arch/x86_64/vspace/mod.rs: VSpace::unmap"]}
{"id": "C30", "title": "Changing rights affects only the mapping's rights", "statement": "After a successful change of rights the addresses of that page translate to the same physical addresses with the new rights, and other addresses are unaffected.", "quantifier": "all page-table states, addresses, rights", "why_tests_cant": "All page-table shapes.", "anchors": ["kernel/src/arch/x86_64/vspace/page_table.rs: adjust, modify_generic"]}
{"id": "C31", "title": "A failed map leaves translations unchanged", "statement": "Mapping over an existing mapping is refused (error naming a conflicting base) and no translation changes.", "quantifier": "all vspace states and map requests", "why_tests_cant": "All overlap patterns.", "anchors": ["kernel/src/arch/x86_64/vspace/mod.rs: VSpace::map_frame"]}
{"id": "C32", "title": "Map rights survive the hardware encoding", "statement": "Encoding map rights into page-table flags at any level and decoding them again gives the same rights.", "quantifier": "all combinations of rights and all table levels", "why_tests_cant": "Finite but only sampled by tests; the model covers every combination.", "anchors": ["kernel/src/arch/x86_64/vspace/mod.rs: From<MapAction> for PDPTFlags/PDFlags/PTFlags and back", "kernel/src/memory/vspace.rs: MapAction"]}
{"id": "C33", "title": "Core sets are represented faithfully", "statement": "Adding a core to a shootdown set makes it a member and changes no other core's membership; iterating the set visits each member exactly once.", "quantifier": "all sets over 256 cores", "why_tests_cant": "2^256 sets.", "anchors": ["kernel/src/memory/vspace.rs: CoreBitMap, CoreBitMapIter, TlbFlushHandle"]}
{"id": "C34", "title": "Global thread ids round-trip", "statement": "Packing a machine id and thread id into a global thread id is injective and both parts can be recovered.", "quantifier": "all 32-bit machine and thread ids", "why_tests_cant": "2^64 combinations.", "anchors": ["lib/kpi/src/system.rs: new_gtid, mtid_from_gtid, mid_from_gtid"]}
{"id": "C35", "title": "Process ids are unique while live", "statement": "A pid returned by process creation is not in use by any live process, is the smallest free one below the limit, and creation fails only when all ids are in use; freeing makes exactly that pid reusable.", "quantifier": "all allocation/free histories", "why_tests_cant": "All histories.", "anchors": ["kernel/src/nr.rs: Op::AllocatePid, Op::FreePid"]}
{"id": "C36", "title": "A core runs at most one process", "statement": "At any time a core is assigned to at most one process; a process can only release cores assigned to it; failed requests change nothing; a query for a core reports the process it was last assigned to.", "quantifier": "all scheduling histories", "why_tests_cant": "All histories of allocate/release by all processes.", "anchors": ["kernel/src/nr.rs: Op::SchedAllocateCore, Op::SchedReleaseCore, ReadOps::CurrentProcess"]}
{"id": "C37", "title": "Terminated processes hold no cores", "statement": "Once a pid has been freed, no core is assigned to it, so a later process that gets the same pid does not inherit cores.", "quantifier": "all histories", "why_tests_cant": "All histories including pid reuse.", "anchors": ["kernel/src/nr.rs: Op::FreePid"]}
{"id": "C38", "title": "Physical frames cannot be released while mapped", "statement": "A registered physical frame can be released only when it is not mapped, and after all its mappings were removed it can be released; its identifier then becomes invalid until reissued.", "quantifier": "all histories of allocate/map/unmap/release of a process", "why_tests_cant": "Reference counts over all histories including failing maps.", "anchors": ["kernel/src/process.rs: ProcessFrames", "kernel/src/nrproc.rs: Op::MemMapFrameId, Op::MemUnmap"]}
{"id": "C39", "title": "Unmap notifies every core running the process", "statement": "The shootdown set returned by an unmap contains exactly the cores (machine and thread) on which the process was given an executor.", "quantifier": "all histories of core assignment and unmap", "why_tests_cant": "All histories.", "anchors": ["kernel/src/nrproc.rs: Op::AssignExecutor, Op::MemUnmap"]}
{"id": "C40", "title": "Executors have unique ids and disjoint memory", "statement": "Every executor handed to a core has an id no other executor of the process has, and its stacks and control area are disjoint from those of any other executor and inside the memory donated for it.", "quantifier": "all histories of donating memory and taking executors", "why_tests_cant": "All frame sizes and histories.", "anchors": ["kernel/src/arch/x86_64/process.rs: Ring3Process::allocate_executors, get_executor"]}
{"id": "C41", "title": "User buffers passed to the kernel are confined to user space", "statement": "A user buffer argument is accepted only if it lies entirely in the user half of the address space, above the zero page, without address wrap-around and below the size limit.", "quantifier": "all base/length pairs", "why_tests_cant": "All 2^128 argument pairs.", "anchors": ["kernel/src/process.rs: UserSlice::new"]}
{"id": "C42", "title": "The kernel only accesses user memory the user may access", "statement": "A read of a user buffer succeeds only if all its pages are readable by the user, a write only if all its pages are writable by the user.", "quantifier": "all address spaces and buffers", "why_tests_cant": "All page-table states and buffers.", "anchors": ["kernel/src/process.rs: UserSlice::is_accessible, with_slice, with_slice_mut"]}
{"id": "C43", "title": "TLB shootdown completes only after every target flushed", "statement": "When an unmap shootdown returns, no targeted core can use the stale translation any more.", "quantifier": "all target sets and interleavings of initiator and targets", "why_tests_cant": "Cross-core schedules.", "anchors": ["kernel/src/arch/x86_64/tlb.rs: Shootdown::process, shootdown, dequeue, enqueue"]}
{"id": "C44", "title": "Every targeted core gets an interrupt", "statement": "For every non-empty set of target cores an inter-processor interrupt reaches each core of the set (and no other core).", "quantifier": "all sets of cores", "why_tests_cant": "Exponentially many sets.", "anchors": ["kernel/src/arch/x86_64/tlb.rs: shootdown, send_ipi_multicast"]}
{"id": "C45", "title": "RPC server dispatches to the registered handler", "statement": "A request is processed by exactly the handler registered for its type; registering a type twice is refused; the reply carries the header returned by the handler.", "quantifier": "all registration and request histories", "why_tests_cant": "All histories.", "anchors": ["lib/rpc/src/server.rs: Server::register, handle, try_handle"]}
{"id": "C46", "title": "Every RPC request is answered", "statement": "For each request the server receives it sends exactly one reply, so that a client waiting for the answer makes progress.", "quantifier": "all requests, including unknown types and failing handlers", "why_tests_cant": "All message contents.", "anchors": ["lib/rpc/src/server.rs: handle, try_handle", "lib/rpc/src/client.rs: call"]}
{"id": "C47", "title": "Controller never gives the same hardware thread out twice", "statement": "Claiming hardware threads of a machine returns pairwise distinct threads in ascending order that belong to the machine, until none is left.", "quantifier": "all machines, thread counts and claim histories", "why_tests_cant": "All histories.", "anchors": ["kernel/src/arch/x86_64/rackscale/controller_state.rs: ThreadMap, ControllerState::claim_hardware_thread"]}
{"id": "C48", "title": "Resource assignments are matched to their requests", "statement": "Each node assignment of a resource request is delivered to the requester in request order exactly once regardless of the order in which the assignments arrive, and the request terminates.", "quantifier": "all arrival orders of assignments", "why_tests_cant": "All permutations and interleavings.", "anchors": ["kernel/src/arch/x86_64/rackscale/dcm/resource_alloc.rs: dcm_resource_alloc", "kernel/src/arch/x86_64/rackscale/dcm/mod.rs: handle_dcm_node_assignment"]}
{"id": "C49", "title": "User-level mutex is mutually exclusive", "statement": "At most one user-level thread owns a mutex; each release admits the next waiter, no waiter is lost.", "quantifier": "all thread counts and interleavings on all cores", "why_tests_cant": "Schedule dependent.", "anchors": ["lib/lineup/src/mutex.rs: MutexInner::enter, enter_nowrap, try_enter, exit"]}
{"id": "C50", "title": "User-level reader-writer lock excludes writers", "statement": "A writer never holds the lock together with another writer or a reader, including across downgrade and upgrade.", "quantifier": "all interleavings", "why_tests_cant": "Schedule dependent.", "anchors": ["lib/lineup/src/rwlock.rs: RwLockInner"]}
{"id": "C51", "title": "Semaphore permits are counted", "statement": "The number of completed down operations never exceeds the initial value plus the number of up operations, and a down blocks only when no permit is left.", "quantifier": "all histories and interleavings of up and down", "why_tests_cant": "Schedule dependent.", "anchors": ["lib/lineup/src/semaphore.rs: up, down"]}
{"id": "C52", "title": "Condition variable wakes waiting threads", "statement": "A signal wakes exactly one waiting thread if there is one, a broadcast wakes all of them, and a woken thread returns owning the mutex it passed.", "quantifier": "all waiter sets", "why_tests_cant": "Schedule dependent.", "anchors": ["lib/lineup/src/condvar.rs: wait, signal, broadcast"]}
{"id": "C53", "title": "Timers fire in order, never early", "statement": "A sleeping thread is made runnable only when its deadline has passed, all expired threads are woken on the next check, earlier deadlines first.", "quantifier": "all sets of sleeping threads and times", "why_tests_cant": "All timer sets.", "anchors": ["lib/lineup/src/scheduler.rs: waitlist_insert, check_wakeups"]}
{"id": "C54", "title": "User-level scheduling neither loses nor duplicates threads", "statement": "A runnable thread stays scheduled until it blocks or exits, runs only on its core, a joiner is resumed exactly when the joined thread has exited, and round-robin order is kept.", "quantifier": "all scheduling histories", "why_tests_cant": "All histories of yields.", "anchors": ["lib/lineup/src/scheduler.rs: handle_yield_request, run"]}
{"id": "C55", "title": "System-call numbers are decoded faithfully", "statement": "Each system call and operation number accepted by the kernel decodes to exactly one operation, user-space encodings decode to the same operation, and every other number is rejected with an error.", "quantifier": "all 64-bit numbers", "why_tests_cant": "2^64 numbers.", "anchors": ["lib/kpi/src/lib.rs: SystemCall, ProcessOperation, VSpaceOperation, FileOperation, SystemOperation", "kernel/src/syscalls.rs: validate, handle"]}
{"id": "C56", "title": "Kernel command line options are parsed positionally", "statement": "For a well-formed token sequence each option gets exactly the last value given for it, options not mentioned keep their defaults, and a value or '=' without option is rejected.", "quantifier": "all token sequences", "why_tests_cant": "All command lines.", "anchors": ["kernel/src/cmdline.rs: CommandLineArguments::from_str"]}
{"id": "C57", "title": "Boot hands every page to at most one allocator, of its own NUMA node", "statement": "After boot, the memory in the early page cache, the per-node emergency caches, the pages that back the node caches and the node caches is pairwise disjoint; all of it lies in conventional memory above 1 MiB reported by the firmware, and memory given to node i lies in an address range the firmware assigns to node i.", "quantifier": "all firmware memory maps without overlaps and all disjoint NUMA range tables for which boot succeeds", "why_tests_cant": "A test runs on a handful of machine layouts; overlaps depend on arbitrary region sizes, alignments and node boundaries.", "anchors": ["kernel/src/arch/x86_64/memory.rs: process_uefi_memory_regions, identify_numa_affinity", "kernel/src/memory/global.rs: GlobalMemory::new"]}
{"id": "C58", "title": "A memory-map system call maps what was asked or fails cleanly", "statement": "The system call that maps memory either maps exactly the requested size, rounded up to pages, at the requested user address to fresh memory, or returns an error; it never stops the kernel and never changes mappings of kernel addresses.", "quantifier": "all addresses and sizes a process can pass, in every reachable address space", "why_tests_cant": "All argument values and address-space histories; tests use a few aligned ones.", "anchors": ["kernel/src/arch/x86_64/syscall.rs: map_generic", "kernel/src/nrproc.rs: map_frames", "kernel/src/arch/x86_64/vspace/mod.rs: map_frame"]}
{"id": "C59", "title": "A started program finds exactly its image in memory", "statement": "Loading a program maps each of its segments at its address with exactly the rights the segment asks for, filled with the bytes of the file, zero after them, and the relocations applied; replicas share writeable memory; nothing else is mapped or changed; a program that cannot be loaded is refused with an error.", "quantifier": "all program files, relocation tables, numbers of replicas and states of memory", "why_tests_cant": "A test loads a few programs into memory that happens to be zero.", "anchors": ["kernel/src/process.rs: DataSecAllocator, make_process", "kernel/src/arch/x86_64/process.rs: ElfLoader for Ring3Process, Process::load"]}
{"id": "C60", "title": "File operations on a client machine of a rack behave like local ones", "statement": "Opening, reading, writing, closing, deleting, renaming files, asking for their size and making directories from a client machine of a rack gives the result, the error, the bytes and the new file contents that the same calls in the same order would give on the controller alone.", "quantifier": "all calls with all names, data, offsets and descriptors, in every history of calls by any number of clients", "why_tests_cant": "All argument bytes, message layouts and interleavings of clients.", "anchors": ["kernel/src/arch/x86_64/rackscale/fileops/", "kernel/src/arch/x86_64/rackscale/kernelrpc.rs", "kernel/src/arch/x86_64/rackscale/controller.rs: register_rpcs", "kernel/src/arch/x86_64/rackscale/syscalls.rs: FsDispatch"]}
{"id": "C61", "title": "Processes and kernel never share memory by accident", "statement": "Memory that a process got from the system calls that map memory or allocate pages, or at its start, is reachable by that process only: no other process can read or write it and no part of the kernel holds it, until the process has unmapped it and released it; it keeps what the process wrote, and memory from the map call is zero at first.", "quantifier": "all interleavings of memory system calls, program starts and kernel allocations on all cores, any number of processes, cores and nodes", "why_tests_cant": "Needs every interleaving of steps of allocations, releases and mappings on all cores.", "anchors": ["kernel/src/arch/x86_64/syscall.rs: map_generic, unmap_generic, allocate_physical, release_physical, map_frame_id", "kernel/src/memory/mcache.rs", "kernel/src/nrproc.rs: map_frames, allocate_frame_to_process, release_frame_from_process", "kernel/src/arch/x86_64/process.rs: frame table"]}
{"id": "C62", "title": "Allocating and releasing physical pages is exact", "statement": "Asking for a physical page returns one of the requested size under the lowest free identifier if and only if the size is that of a page, a page is free and an identifier is free, and otherwise fails and changes nothing; releasing an unmapped page makes page and identifier available again, and neither call crashes the kernel.", "quantifier": "all sizes, identifiers, contents of page caches and frame tables", "why_tests_cant": "All states of the caches and tables; the failing cases need exhausted or full caches.", "anchors": ["kernel/src/arch/x86_64/syscall.rs: allocate_physical, release_physical", "kernel/src/memory/mod.rs: KernelAllocator::try_refill_tcache", "kernel/src/memory/mcache.rs", "kernel/src/arch/x86_64/process.rs: add_frame, deallocate_frame"]}
{"id": "C63", "title": "The kernel heap hands out sound memory", "statement": "Every object the kernel allocates is aligned, as big as asked for, backed by memory and shares no byte with any other live object; the allocator never changes bytes of live objects; growing or shrinking an object keeps its contents; allocation fails only if there is no memory of the right kind; freed memory can be allocated again and pages are neither lost nor given out twice; freeing and allocating never crash.", "quantifier": "all histories of allocating, resizing, freeing and writing, all sizes, alignments and contents of the page caches, any choice of slots by the slab allocator", "why_tests_cant": "Overlap and corruption depend on the whole history of sizes and on which slots were reused.", "anchors": ["kernel/src/memory/mod.rs: KernelAllocator, GlobalAlloc::alloc, dealloc, realloc, try_alloc, try_refill"]}
{"id": "C64", "title": "Cores of a rack are requested and released like on one machine", "statement": "A process on any client machine that asks for a core gets a hardware thread of a registered machine that no process has, starting at the address it gave; no thread is given out twice while held; only the process that has a core can release it, afterwards it has one core less, and a released thread can be given out again; neither call crashes the controller.", "quantifier": "all histories of requests and releases by any number of clients and processes, all choices of the resource manager, all registered thread lists", "why_tests_cant": "Needs all histories of several clients and all answers of the resource manager; tests request a few cores and release none.", "anchors": ["kernel/src/arch/x86_64/rackscale/processops/request_core.rs", "kernel/src/arch/x86_64/rackscale/processops/release_core.rs", "kernel/src/arch/x86_64/rackscale/controller.rs: register_rpcs", "kernel/src/arch/x86_64/rackscale/syscalls.rs: ProcessDispatch", "kernel/src/arch/x86_64/rackscale/controller_state.rs: ControllerState"]}
{"id": "C65", "title": "Physical pages of a rack are never shared", "statement": "Physical memory that processes on client machines allocate lies in the shared memory of the machine its affinity names; no two allocated frames overlap and no frame overlaps memory that is still free anywhere in the rack; releasing an unmapped frame makes exactly its memory available again on the machine it came from; an allocation that fails loses nothing, and no size a program passes crashes a kernel.", "quantifier": "all histories of allocations and releases by any number of clients and processes, all sizes and identifiers, all choices of the resource manager, all shared memory regions", "why_tests_cant": "Needs all histories of several clients, sizes and choices of the resource manager.", "anchors": ["kernel/src/arch/x86_64/rackscale/processops/allocate_physical.rs", "kernel/src/arch/x86_64/rackscale/processops/release_physical.rs", "kernel/src/arch/x86_64/rackscale/registration.rs: register_client", "kernel/src/process.rs: ProcessFrames"]}
{"id": "C66", "title": "Memory mapped on a rack is private and zero", "statement": "A process on a client machine that maps memory at a free aligned range of user addresses gets exactly that range, writable, backed by pages that no other process, kernel or client has, that nobody can allocate any more, and that contain only zeros; no size or address a program passes crashes a kernel.", "quantifier": "all histories of mappings, physical allocations and releases by any number of clients and processes and of requests by kernels, all sizes and addresses, all choices of the resource manager, all contents of memory", "why_tests_cant": "Needs all histories of several clients, contents of every page and choices of the resource manager.", "anchors": ["kernel/src/arch/x86_64/rackscale/syscalls.rs: map_mem", "kernel/src/arch/x86_64/rackscale/get_shmem_frames.rs", "kernel/src/arch/x86_64/rackscale/dcm/affinity_alloc.rs", "kernel/src/arch/x86_64/rackscale/client_state.rs: per_process_base_pages", "kernel/src/nrproc.rs: map_frames"]}
{"id": "C67", "title": "A rack kernel that runs out of shared memory gets the pages it asks for", "statement": "When a core of a rack machine needs shared memory, it ends up with at least the number of base and large pages asked for, as far as its cache has room, taken from the shared memory of the machine it currently allocates from; no page is lost or in two places; pages given to a kernel are given to nobody else; a refusal leaves the core as it was; and no request crashes the kernel.", "quantifier": "all numbers of pages, contents of the core's and the machine's caches, histories of the rack and choices of the resource manager, on clients and on the controller", "why_tests_cant": "All states of three levels of caches and all answers of the resource manager; the failing cases need exhausted memory.", "anchors": ["kernel/src/memory/mod.rs: KernelAllocator::try_refill_tcache, try_refill_shmem", "kernel/src/arch/x86_64/rackscale/get_shmem_frames.rs", "kernel/src/arch/x86_64/rackscale/dcm/affinity_alloc.rs", "kernel/src/memory/per_core.rs: set_mem_affinity", "kernel/src/arch/x86_64/rackscale/client_state.rs: affinity_base_pages"]}
{"id": "C68", "title": "Unmapping on a rack reaches the cores of every machine", "statement": "When a call that unmaps memory or changes its rights returns on a machine of a rack, no core of any machine that runs the process still uses the removed translation, and none can begin to use it again; the call always returns.", "quantifier": "all interleavings of any number of cores on any number of machines, all sizes of the queues, all sets of machines and cores the process runs on, all ranges, all speeds of the page-table replicas", "why_tests_cant": "A stale translation shows only for particular orders of memory accesses on several machines.", "anchors": ["kernel/src/arch/x86_64/tlb.rs: remote_shootdown, remote_enqueue, remote_dequeue, shootdown, enqueue, dequeue, eager_advance_fs_replica, REMOTE_WORKQUEUE_CAPACITY", "kernel/src/arch/x86_64/irq.rs: handle_generic_exception", "kernel/src/nrproc.rs: unmap", "kernel/src/memory/vspace.rs: TlbFlushHandle"]}
{"id": "C69", "title": "Work that cores send to a core is done", "statement": "Requests sent to a core (to flush translations or to catch up with a log) are done in the order they were sent, each once, and when the core runs the user program again and has taken all its interrupts, none is left undone.", "quantifier": "all sequences of requests, kernel entries and exits and interrupts of a core", "why_tests_cant": "Needs requests from several cores that arrive while the target is in the kernel.", "anchors": ["kernel/src/arch/x86_64/tlb.rs: enqueue, dequeue, remote_enqueue, remote_dequeue, shootdown, send_ipi_to_cluster", "kernel/src/arch/x86_64/irq.rs: handle_generic_exception"]}
{"id": "C70", "title": "An interrupt does not change the program it interrupts", "statement": "A program that is interrupted at any instruction continues, once the kernel has dealt with the interrupt and has decided to go back to it, with all general registers, the instruction pointer, the flags, the stack, the segment bases and the floating point and vector state it had, in user mode; nothing else in memory than the core's save area and interrupt stack changes on the way in; and the next interrupt finds the core's control block again.", "quantifier": "all programs (values of every register and memory cell), all vectors and error codes, everything the kernel's handler may do with its own registers and stack", "why_tests_cant": "A register that is saved or restored wrongly shows only in a program that has a live value in it at the instruction at which an interrupt arrives.", "anchors": ["kernel/src/arch/x86_64/isr.S: isr_handler, isr.handler_number", "kernel/src/arch/x86_64/process.rs: Ring3Resumer::iret_restore, restore, Ring0Resumer", "kernel/src/arch/x86_64/irq.rs: handle_generic_exception", "lib/kpi/src/x86_64.rs: SaveArea"]}
{"id": "C71", "title": "Interrupts reach the program's handler, and the program continues after it", "statement": "A device interrupt that arrives while a program runs calls the handler the program has registered, once for each interrupt and in order, on its own stack and with the number of the interrupt; when the handler is done the program continues exactly where it was, and further interrupts reach it.", "quantifier": "all programs and handlers (any registers and any code between the interrupts), all sequences of interrupts, at every instruction of program, handler and of the code that leaves the handler", "why_tests_cant": "Needs interrupts at each instruction of the code that leaves the handler.", "anchors": ["kernel/src/arch/x86_64/irq.rs: handle_generic_exception, bkp_handler", "kernel/src/arch/x86_64/process.rs: upcall, Ring3Resumer::new_upcall", "lib/kpi/src/x86_64.rs: VirtualCpu", "lib/vibrio/src/upcalls.rs: upcall_while_enabled, resume", "lib/vibrio/src/rumprt/crt/mod.rs: install_vcpu_area", "usr/init/src/init.rs: install_vcpu_area"]}
{"id": "C72", "title": "Every stack of a core is its own", "statement": "When a core has been set up, each of the stacks the processor switches to (for interrupts, for fatal faults, for debug exceptions, for system calls) is aligned memory that the core owns and that nothing else uses: not another stack of the core, and no object that was or will be allocated.", "quantifier": "all states of the kernel heap at the time the core is set up, all later histories of the heap", "why_tests_cant": "Overlapping stacks show only when one is used while the other is in use.", "anchors": ["kernel/src/arch/x86_64/kcb.rs: Arch86Kcb::install, set_interrupt_stacks, set_syscall_stack", "kernel/src/stack.rs: OwnedStack", "kernel/src/memory/mod.rs: GlobalAlloc"]}
{"id": "C73", "title": "Messages over TCP arrive complete, unchanged and in order", "statement": "The k-th message received on a connection is the k-th message sent, with the same header and payload and without touching the rest of the receiver's buffers, or an error if it does not fit; a receive returns once a message was sent, a non-blocking call that reports nothing to do has sent or taken nothing, and the answer a call returns is the server's answer to that call.", "quantifier": "all sequences of messages and payload slices, all receive buffers, all ways in which the bytes are cut into pieces by sockets and network, all interleavings of client, server and network", "why_tests_cant": "The pieces in which bytes are accepted and delivered depend on the network.", "anchors": ["lib/rpc/src/transport/smoltcp.rs: TCPTransport::send, recv, recv_msg, send_msg, try_send_msg, try_recv_msg", "lib/rpc/src/rpc.rs: RPCHeader", "lib/rpc/src/client.rs: Client::call", "lib/rpc/src/server.rs: Server::handle, try_handle, receive, reply"]}
{"id": "C74", "title": "Frames handed to the network card are sent once, in order, and their buffers come back after that", "statement": "The frames the card puts on the wire are the chains the transmit queue accepted, segment by segment, in the order in which they were accepted and without a gap; chains come back to the caller in that order, unchanged and not before they were sent; a chain is refused exactly if there is no room for it; every accepted chain can be sent and given back; no assertion of the driver fails.", "quantifier": "all sizes of the ring that are powers of two, all sequences of chains of non-empty segments the length field can hold, all interleavings of the single memory writes of the driver with the steps of the card", "why_tests_cant": "The card reads descriptors while the driver writes them; which state it sees depends on timing and on the position in the ring.", "anchors": ["lib/vmxnet3/src/var.rs: TxQueue::new, enqueue, flush, can_enqueue, dequeue, can_dequeue", "lib/vmxnet3/src/smoltcp.rs: DevQueuePhy::transmit, TxPacket::consume"]}
{"id": "C75", "title": "Frames received by the network card come out once, in order, in the buffers handed in for them", "statement": "The k-th chain given back by the receive queue is the k-th chain handed in and holds exactly the bytes of the k-th frame received (lengths 0 if the frame had an error); a frame that is complete and reported is given back by the next call; the card writes only to buffers that are lent to it; while a chain is outstanding the card can receive a frame; no assertion of the driver fails.", "quantifier": "all ring sizes, all sequences of chains of two buffers, all frames of one or two pieces, all interleavings of the single memory writes of the driver with the steps of the card", "why_tests_cant": "The card fills buffers and writes completions while the driver refills the ring; what is read depends on timing and on the position in two rings.", "anchors": ["lib/vmxnet3/src/var.rs: RxQueue::new, len, enqueue, dequeue, can_dequeue", "lib/vmxnet3/src/smoltcp.rs: DevQueuePhy::receive"]}
{"id": "C76", "title": "An unpark of a C thread is not lost", "statement": "A thread of a C program that is blocked in `_lwp_park` and is unparked with `_lwp_unpark` goes on: it is in the scheduler's queue, or the unparking thread is about to put it there, and its park then returns 0. A thread that is unparked while it is not parked returns from its next park at once, with EALREADY; a thread that has not been unparked blocks. A park returns only if the thread was unparked since its previous park returned, and no more often than it was woken. Neither call makes the process panic.", "quantifier": "every number of threads, every interleaving of their parks, unparks and other wake-ups at the granularity of accesses to the status word and requests to the scheduler, on any number of cores", "why_tests_cant": "lost wake-ups depend on an unpark falling between two instructions of a park on another core", "anchors": ["lib/vibrio/src/rumprt/prt/mod.rs: ___lwp_park60, _lwp_unpark, _lwp_unpark_all, _lwp_exit, rumprun_makelwp, rumprun_lwp_init", "lib/lineup/src/tls2/mod.rs: ThreadControlBlock::block, make_runnable"]}
{"id": "C77", "title": "The heap of a program hands out memory that is its own", "statement": "Objects a program has allocated and not freed never share a byte, on whatever cores they were allocated; they are aligned as asked for, not at address 0, and every byte of them is mapped. Allocating, freeing and resizing objects changes no byte of another object; resizing keeps the contents up to the smaller of the two sizes, and if it fails the object is as before. Freeing works for every object; the memory of a freed object is used again. An allocation fails, with a null pointer, only if the kernel has no memory or the part of the address space of the core is used up, and never with a panic.", "quantifier": "every history of allocations, frees and resizes of any size and alignment on any cores, every choice of slots by the slab allocator, every pattern of mappings the kernel refuses, every content of the objects", "why_tests_cant": "overlaps depend on the history of the heap and on which mappings fail", "anchors": ["lib/vibrio/src/mem.rs: PerCoreAllocator, SafeZoneAllocator::alloc, realloc, dealloc, try_alloc_page, try_alloc_largepage, Pager::alloc_page, allocate, PAGER"]}
{"id": "C78", "title": "malloc and its relatives keep the promises of the C library", "statement": "Objects that a C program has from malloc, calloc, realloc or posix_memalign and has not freed, and memory from mmap, never share a byte, are mapped, and are aligned to 16 bytes; posix_memalign returns the alignment that was asked for. None of the calls changes a byte of another object; calloc returns zeros, realloc keeps the contents up to the smaller size, realloc(NULL, n) is malloc(n), free(NULL) does nothing, and free works for every object by its pointer alone, whatever the program wrote into its objects. mmap returns memory that was not mapped before. Calls that cannot be served return NULL (or an error), and do not end the program.", "quantifier": "every history of these calls and of writes of the program to its own memory, of any sizes, on any cores, every pattern of refused mappings", "why_tests_cant": "a header in front of each object has its size; whether it survives depends on all other objects and writes", "anchors": ["lib/vibrio/src/rumprt/crt/mem.rs: malloc, calloc, free, realloc, posix_memalign, mmap, HEADER_SIZE", "lib/vibrio/src/mem.rs: PerCoreAllocator"]}
{"id": "C79", "title": "Every thread has its own copy of each thread-local variable", "statement": "A variable declared thread-local has, in every new thread (and on every core of the kernel), the initial value that the binary gives it, and afterwards the value that this thread last assigned to it, whatever other threads assign and whatever else happens to the heap; it is aligned as declared and in mapped memory. A running thread always finds its own control block, which points to itself. Creating a thread fails with an error if there is no memory for its variables.", "quantifier": "every TLS segment (data, size, alignment), every history of thread creations, context switches, assignments and heap operations on any cores", "why_tests_cant": "wrong layouts overlap only for particular sizes and alignments, and show only in what other threads see", "anchors": ["lib/lineup/src/tls2/mod.rs: ThreadControlBlock::new_tls_area", "lib/lineup/src/tls2/nrk.rs: get_tls_info, set_tcb", "lib/lineup/src/scheduler.rs: spawn, run", "kernel/src/arch/x86_64/tls.rs: ThreadControlBlock::new, init, get_tls_region"]}
{"id": "C80", "title": "The kernel finds its image, its stack and all memory where it expects them", "statement": "When the boot loader jumps to the kernel, every address is translated as expected: the regions of UEFI's memory map at their own addresses, and, moved up by 2^46, the pages of the kernel's segments with the rights that the file gives them, a guard page and the stack, and the regions that the kernel uses; everything else is unmapped. The memory of every segment holds the bytes of the file with the relocations applied, zeros elsewhere. The image is aligned as the file demands, lies in memory that UEFI gave for it, no other memory is written, and what is given back to UEFI is not part of the image.", "quantifier": "every kernel file (headers, bytes, relocations), every memory map and every answer of UEFI's allocator, every initial content of memory", "why_tests_cant": "the address space depends on page sizes chosen from alignments and lengths; a test boots one kernel on one machine", "anchors": ["bootloader/src/main.rs: uefi_start, map_physical_memory", "bootloader/src/kernel.rs: Kernel::allocate, load, relocate", "bootloader/src/vspace.rs: VSpace::map_generic, map_identity_with_offset, allocate_pages_aligned, resolve_addr"]}
{"id": "C81", "title": "The page tables behave like the project's own reference model", "statement": "Any sequence of map, adjust, resolve and unmap calls gives, call by call, the same results on the page tables as on a plain list of mappings (the reference address space that the project's randomised test compares with): the same successes and errors, the same translations and rights, the same ranges from adjust and unmap. When a mapping is refused, the address reported is that of a mapping that overlaps the range asked for.", "quantifier": "every sequence of calls of any length on an address space with nothing mapped in user space, every address, frame and right", "why_tests_cant": "the project tests this with random sequences of at most 512 calls within 6 MiB, and does not compare the conflict addresses at all", "anchors": ["kernel/src/memory/vspace_model.rs: ModelAddressSpace::map_frame, adjust, resolve, unmap", "kernel/src/arch/x86_64/vspace/test.rs: model_equivalence", "kernel/src/arch/x86_64/vspace/mod.rs: VSpace"]}
{"id": "C82", "title": "The file system behaves like the project's own reference model", "statement": "Any sequence of create, write (of one repeated byte), read, delete and lookup calls on the in-memory file system gives, call by call, the results of the reference model that the project's randomised test compares with, a plain log of creations and writes searched backwards: the same inode numbers, counts, bytes and errors. The only difference is that a read may report more bytes than the reference, namely the zeros in gaps that were never written; if no write begins behind the end of its file there is no difference.", "quantifier": "every sequence of calls of any length, every name, mode, inode number, offset, length and read buffer, from the empty file system, when memory does not run out and no file is open elsewhere", "why_tests_cant": "the project tests this with random sequences; its read buffers have length 0, so contents are never compared, and a passing run says nothing about the bytes", "anchors": ["kernel/src/fs/test.rs: ModelFS::create, write, read, lookup, delete, model_equivalence", "kernel/src/fs/mod.rs: MlnrFS"]}
{"id": "C83", "title": "The file system calls behave like the reference of the user-level test", "statement": "For a program that makes open, read, write, read-at, write-at, close and delete calls, every call gives what the user-level reference (a log of creations and writes with a table of open descriptors, searched backwards) gives: the same descriptors, counts, bytes and error codes; and no call crashes the kernel. Left out are: the directory /, opening for appending and truncating at once, opening when all 4096 descriptors are in use, reading without offset through a descriptor opened for appending, and appending to a file after its deletion; in each of these the two differ.", "quantifier": "every sequence of such calls of any length by one process, every name, flag combination, mode, descriptor, offset, length and read buffer, from the state after the process was registered", "why_tests_cant": "the project compares random sequences of at most 512 calls; its flags are below 0xfff and so never include append (0x2000), and ten descriptors never fill the table", "anchors": ["usr/init/src/fs.rs: ModelFIO, TestAction, model_equivalence", "kernel/src/fs/cnrfs.rs: MlnrKernelNode", "kernel/src/fs/fd.rs: FileDescriptorTable", "kernel/src/arch/x86_64/syscall.rs: FsDispatch"]}
{"id": "C84", "title": "Debugger breakpoints and watchpoints", "statement": "After any sequence of debugging stops with insert and remove requests, the processor watches exactly the points that are in force (inserted and not removed), each with its address, kind of access and length; a fifth point is refused; when a point is hit the debugger is told the kind of stop and the address of that point; and resuming with a step runs one instruction and leaves all other processor flags alone. Proved for sessions in which lengths are 1, 2, 4 or 8, no point is inserted twice, and no watchpoint is removed while a different one is at the same address, and for a processor that reports only registers that are on; each exclusion is needed.", "quantifier": "every sequence of stops, each with any list of requests, any addresses, kinds and lengths; every status the processor can report; every value of the flags", "why_tests_cant": "a debugger session is interactive and no test of the project removes a point while others are set, or makes the processor report a disabled register", "anchors": ["kernel/src/arch/x86_64/gdb/breakpoints.rs: add_sw_breakpoint, add_hw_breakpoint, add_hw_watchpoint, remove_*", "kernel/src/arch/x86_64/gdb/mod.rs: KernelDebugger, determine_stop_reason, BreakState", "kernel/src/arch/x86_64/gdb/single_thread_ops.rs: resume"]}
{"id": "C85", "title": "Debugger registers", "statement": "When the kernel stops in the debugger, the registers the debugger shows are those the kernel was interrupted with; registers the debugger writes are those it goes on with; and changing one general register changes only that one. Proved for the general registers, rip, flags, and xmm registers when the values fit the fields of the protocol (otherwise the kernel panics, exactly then); false for the floating point stack, and false for the FS base, which is set to 0 by every change.", "quantifier": "every save area, every set of register values, every general register and value", "why_tests_cant": "the project's test reads a few registers once; the space of register values is not enumerable", "anchors": ["kernel/src/arch/x86_64/gdb/single_thread_ops.rs: read_registers, write_registers", "lib/kpi/src/x86_64.rs: SaveArea, FxSave, st"]}
{"id": "C86", "title": "Debugger memory access", "statement": "A read of any length gives the bytes of the range if all of it is mapped, and otherwise an error, without a fault in the kernel. A write changes exactly the bytes of the range if all of it is mapped, writable and not code; otherwise it reports an error, has changed only the bytes before the first page that refuses, and never touches code or read-only memory. A read after a write gives what was written. Proved for ranges without user pages: reading a user page faults in the kernel, since access to user memory is not enabled.", "quantifier": "every page table (pages of 4 KiB, 2 MiB and 1 GiB in any arrangement) with nothing at non-canonical addresses, every memory content, start address, length and data", "why_tests_cant": "the pages that a range crosses, their sizes and rights and the alignment of its ends are unbounded combinations", "anchors": ["kernel/src/arch/x86_64/gdb/single_thread_ops.rs: read_addrs, write_addrs", "kernel/src/arch/x86_64/vspace/page_table.rs: resolve"]}
{"id": "C87", "title": "The queue between benchmark threads is a FIFO queue", "statement": "For any number of senders and one receiver: what pop returns is, in order, a prefix of what push put in (nothing twice, nothing invented, nothing overtaken); pop returns nothing only if the queue was empty at some moment during the call; a push that returns has put its element in, unless the receiver was being dropped; the receiver never follows a pointer to freed memory; and when no call is in progress there is exactly one node in memory for each element in the queue. All but one part is proved for every execution; that a push is not given up while the receiver is there is proved for executions in which no sender reads freed memory, and is false otherwise: the code lets a sender look at a node that the receiver has freed.", "quantifier": "every number of senders and calls, every interleaving of single memory accesses, every choice of the allocator including reuse of freed addresses, every content of freed memory", "why_tests_cant": "the failing interleaving needs a node to be handed out and freed between two instructions of a sender; schedules and address reuse are not controlled by a test", "anchors": ["usr/init/src/vmops/queue.rs: QueueSender::push, QueueReceiver::pop, Drop for QueueReceiver, Queue::unbounded"]}
{"id": "C88", "title": "Dropping an address space gives back the memory of its page tables", "statement": "Whatever a process maps, unmaps and re-protects below the kernel's addresses: when its address space is dropped, every page given back is one that was taken from the allocator for a table of this address space, no page is given back twice (so no mapped frame and no table of the kernel is freed), the kernel's slots of the root table are as they were, and every page taken is given back. The last part is proved for mappings smaller than 2 MiB (1 GiB in builds without 2 MiB pages) and is false otherwise: a mapping with a larger page over an emptied table loses the page of that table, without bound; and pages for mappings above the kernel base are never given back.", "quantifier": "every sequence of map, unmap and adjust calls of any length and any sizes and addresses in the user half, every initial kernel half, every order in which the allocator hands out pages", "why_tests_cant": "a leak or double free depends on which tables earlier calls left behind; tests never drop an address space after such a history and do not count table pages", "anchors": ["kernel/src/arch/x86_64/vspace/page_table.rs: Drop for PageTable, map_generic, can_map_as_huge_page, can_map_as_large_page, alloc_frame, modify_generic", "kernel/src/arch/x86_64/process.rs: load (kernel mappings)"]}
{"id": "C89", "title": "Machines of a rack talk through shared memory as through independent channels", "statement": "Each client machine has a channel to and from the controller in the first 2 MiB of its shared-memory device. Once the controller has set up the channels of a client, everything the machines see, in every history of sends, receives, set-ups and accesses to the rest of the shared memory, is what they would see with two independent first-in first-out channels of 32 messages per client and plain memory beside them: messages arrive whole, in order, once, and only at the right machine; a send on a full channel and a receive on an empty one say so; a message longer than 8192 bytes or than the receiver's buffers stops the machine; no access leaves the devices; the channels never touch memory that is given to allocators, and writes to that memory never touch a channel. This holds whatever the devices contained before and although every machine maps the devices at addresses of its own. Setting up the controller's end empties the channels, so a message a client sent before it is lost.", "quantifier": "any number of machines, any placement and size of the devices on each machine, any initial contents of the memory, any history of any length", "why_tests_cant": "the two ends find the queues by separate address arithmetic on separate mappings; the tests run both ends in one address space with one queue object, on fresh memory, and never look at neighbouring memory", "anchors": ["kernel/src/transport/shmem.rs: create_shmem_transport, get_affinity_shmem_by_mid, SHMEM_TRANSPORT_SIZE", "lib/rpc/src/transport/shmem/allocator.rs: ShmemAllocator::allocate, try_alloc", "lib/rpc/src/transport/shmem/queue_mpmc.rs: State::with_capacity_in, init, capacity, push, pop", "lib/rpc/src/transport/shmem/mod.rs: Sender, Receiver", "kernel/src/arch/x86_64/rackscale/controller.rs: run"]}
{"id": "C90", "title": "What programs print comes out on the console", "statement": "Whatever programs on any number of cores print, the bytes on the console that came from a core are, at every moment, what was printed there, in order, unchanged and without repetition, except for an end that is still in the core's buffer; when the call has returned the missing end is never longer than the buffer (128 bytes). Every call returns. If programs print pieces of lines, with line feeds only at the end of a piece, and no line is longer than the buffer, then the console shows whole lines that are not mixed with each other, and all complete lines of a core are there when its call has returned. On a client of a rack the controller logs the same text. An ASCII character printed by C code comes out as it is, with a carriage return before a line feed.", "quantifier": "any number of cores, any texts, any interleaving of the cores byte by byte, any buffer size; for the C library any byte", "why_tests_cant": "cores race for the serial line and each keeps a part of its output back; the tests print complete short lines from one core and look for a word in the output", "anchors": ["kernel/src/arch/x86_64/serial.rs: SerialControl::buffered_print, buffered_print_and_return, PRINT_BUFFER", "kernel/src/arch/x86_64/syscall.rs: log, exit", "kernel/src/arch/x86_64/rackscale/processops/print.rs: rpc_log, handle_log", "lib/vibrio/src/writer.rs: Writer, sys_println!", "lib/vibrio/src/rumprt/mod.rs: rumpuser_putchar"]}
{"id": "C91", "title": "A program is told the truth about itself, its machine and its arguments", "statement": "A program that asks for its process information gets exactly the process number, the description of its thread-local storage and the two command lines the kernel has. A program that asks for the hardware threads gets all threads of the machine, on a rack those of all machines, each as it is and in order; the number of a thread tells its machine and its number there. A C program started with initargs=n runs on the core it was started on and n-1 others, without a number on all; its arguments are its name and the words of appcmd in their order.", "quantifier": "any process information, any list of hardware threads, any command lines, any answers of the kernel to requests for cores", "why_tests_cant": "everything goes through two serialisation formats and buffers of fixed sizes on both sides; the tests use one machine, short command lines and arguments whose order does not matter", "anchors": ["kernel/src/arch/x86_64/syscall.rs: get_process_info, get_hardware_threads", "lib/kpi/src/syscalls/process.rs: Process::process_info", "lib/kpi/src/syscalls/system.rs: System::threads", "lib/kpi/src/process.rs: ProcessInfo", "kernel/src/arch/x86_64/rackscale/systemops/get_hardware_threads.rs: rpc_get_hardware_threads, handle_get_hardware_threads", "lib/vibrio/src/rumprt/crt/mod.rs: main"]}
{"id": "C92", "title": "Every core of the machine is started, once, and finds what is its own", "statement": "When the kernel has started the other cores of its machine, each of them has been sent the interrupts that start it exactly once, the first core none. Each runs the kernel's entry function in the kernel's address space, on a stack of its own, with arguments that were meant for it (its number, its NUMA node, memory of its node, the replicas of its node), and has registered once with each replica of its node, under a number nobody else has. No two cores are ever on their way at the same time. The first core goes on only when all this has happened, its own memory comes from its own node again, and outside the start-up code nothing in low memory has changed.", "quantifier": "any topology, any sizes and contents of the start-up code and of low memory, any memory of the nodes, every interleaving of the first core with those it starts", "why_tests_cant": "it depends on how the steps of the cores interleave around five words in low memory that are used again for every core, and on what the machine looks like; the tests start one or two cores on one kind of machine", "anchors": ["kernel/src/arch/x86_64/coreboot.rs: boot_app_cores, initialize, setup_bootstrap_code, copy_bootstrap_code, wakeup_core", "kernel/src/arch/x86_64/start_ap.S", "kernel/src/arch/x86_64/mod.rs: start_app_core", "kernel/src/nrproc.rs: register_thread_with_process_replicas", "kernel/src/stack.rs: OwnedStack"]}
{"id": "C93", "title": "Shared memory stays shared and local memory stays local in the kernel's heap", "statement": "A kernel of a rack takes memory from its own nodes and from the shared memory of each machine. Memory that kernel code gets while it has asked for the shared memory of machine m is memory of machine m that the whole rack sees, and never the part of it that carries messages; memory it gets while it has asked for a node of its own is memory no other machine sees. This stays so however memory is released, resized and used again, on whichever cores and with whatever is asked for at that moment. No byte is handed out twice, and none is forgotten: releasing never panics, memory comes back to the arena it belongs to or is lost for good, and it is exactly known when. An allocator for the memory of machine m gives memory of machine m or none, and leaves what the core had asked for as it was. Resizing panics exactly when an object that has to move is of another kind than what the core asks for now.", "quantifier": "every history of allocations, releases, changes of size and of what is asked for, and refills, on any number of cores; any devices of shared memory that do not overlap, any sizes, any choice of free memory by the allocators", "why_tests_cant": "which arena memory goes to depends on its address and on what the core asks for at the time of the release, not on where it came from, so every order of requests and releases matters; tests release with the affinity they allocated with", "anchors": ["kernel/src/memory/mod.rs: KernelAllocator::alloc, dealloc, realloc", "kernel/src/memory/per_core.rs: set_mem_affinity, swap_manager", "kernel/src/memory/shmemalloc.rs: ShmemAlloc", "kernel/src/memory/shmem_affinity.rs", "kernel/src/transport/shmem.rs: is_shmem_addr, is_shmem_addr_with_affinity, get_affinity_shmem_by_mid"]}
{"id": "C94", "title": "A program's drivers reach the devices, the memory and the interrupts they mean", "statement": "Drivers in a program read and write configuration registers of PCI devices from any number of threads. Each access takes effect at one moment between its call and its return, on exactly the register that was named, and a read returns what the device gave at that moment; the accesses never block each other for good. The address a driver is given for a byte of its memory is where that byte is at that moment. Memory allocated for a device was not in use, has the size asked for without gaps in physical memory, starts at the address returned and has the alignment asked for; its address stays the same. An interrupt of a device runs the handler that the device's driver named. The kernel's own drivers that take devices never get the same device twice, get one they asked for, and go without only if all of them are taken. What the kernel reads for ACPI is the field at the offset that was asked for.", "quantifier": "every kind of device (any effect of reads and writes), every interleaving of any number of threads, all registers, every history of allocations, translations and mappings, all orders of claims", "why_tests_cant": "an access is two port operations that any other access may come between, and a wrong device is hit only on some schedules; a cached translation is wrong only after some histories; tests drive one device from one thread", "anchors": ["lib/vibrio/src/rumprt/dev.rs: rumpcomp_pci_confread, rumpcomp_pci_confwrite, rumpcomp_pci_virt_to_mach, rumpcomp_pci_dmalloc, rumpcomp_pci_irq_map, rumpcomp_pci_irq_establish, irq_handler", "lib/vibrio/src/mem.rs: Pager::allocate", "kernel/src/arch/x86_64/acpi.rs: AcpiOsReadPciConfiguration", "kernel/src/pci.rs: claim_device, claim_devices"]}
{"id": "C95", "title": "The network card finds in memory and at its registers what the driver means", "statement": "The driver and the card share records and registers. Reading a field of a descriptor or of a completion gives what the card reads at the place of that field; setting it makes the card read that value, cut to the width of the field, and changes no other field. When the driver brings up a card, it tells it to start once; at that moment the card finds the shared record at the address in its registers, and from it all the queues of both kinds, with empty rings of the right length at the right addresses, and no other queues. Only a card that offers the supported versions and kinds of interrupts is started; otherwise the caller gets an error. The driver has the card's own Ethernet address, and reports the link as the card last did. Different machines of a rack get different Ethernet and IP addresses, none of them the router's.", "quantifier": "all records, contents, fields and values; all cards (any answers that depend on all the accesses so far), numbers of queues, places of memory and contents of memory before; all numbers of machines", "why_tests_cant": "a field that overlaps another, or a queue that the card looks for in the wrong place, shows only with values or numbers of queues that no test uses, and on a card with other answers than the emulated one", "anchors": ["lib/vmxnet3/src/reg.rs: TxDesc, TxCompDesc, RxDesc, RxCompDesc, DriverShared", "lib/vmxnet3/src/vmx.rs: VMXNet3::new, attach_pre, init, retrieve_lladdr, set_lladdr, reinit_shared_data, enable_device, link_is_up", "lib/vmxnet3/src/var.rs: TxQueue::new, RxQueue::new", "lib/vmxnet3/src/lib.rs: BoundedUSize", "kernel/src/transport/ethernet.rs: init_network"]}
{"id": "C96", "title": "The latencies that a benchmark reports are those it measured", "statement": "A program records samples in a histogram, may take samples away again, clear it, and merge another one. The number of entries is the number of samples. The count for a value is the number of samples near to it, and exact for small values. A percentile that is reported is the value of the sample of that rank (at least that part of the samples is not above it, and it is the least such sample), rounded up by at most one thousandth and one; minimum and maximum are those of the samples. A sample beyond the configured greatest value is refused with an error and never silently reported as a smaller one. Merging two histograms is the same as having recorded the samples of both in one. No sequence of these calls panics.", "quantifier": "all greatest values, all sequences of recordings, removals and clears with any values and counts, all percentiles", "why_tests_cant": "an off-by-one in the rank, or a bucket that overlaps another, is visible only for some numbers of samples and some values; the tests use a few uniform inputs", "anchors": ["usr/init/src/histogram.rs: Histogram::configured, increment_by, decrement_by, clear, get, get_index, index_value, percentile, minimum, maximum, merge, Iter::next"]}
{"id": "C97", "title": "The host gives a rump kernel memory of its own, a clock that never goes back, and true parameters", "statement": "Memory that a rump kernel asks for is aligned as asked, mapped, and no part of any other object in use, and its contents stay until it is freed; if there is none, the call reports an error. A call for random bytes fills exactly the bytes it reports. The time since boot and the Unix time are those of the machine's counter, as seconds and nanoseconds below one second, and never go back. A sleep lasts as long as asked, or until the clock has reached the given time, and returns at once if that has passed. A parameter that exists is written to the buffer as text with a zero at the end; the number of processors is the one the program was started with, or one; any other name, or a buffer that is too small, is an error.", "quantifier": "all heaps, sizes, alignments, sources of random numbers, clocks, times, command lines, parameter names and buffers", "why_tests_cant": "tests have memory left, a source of random numbers that never fails, a counter that starts at zero and buffers that are large enough", "anchors": ["lib/vibrio/src/rumprt/mod.rs: rumpuser_malloc, rumpuser_free, rumpuser_getrandom, rumpuser_clock_gettime, rumpuser_getparam", "lib/vibrio/src/rumprt/threads.rs: rumpuser_clock_sleep"]}
{"id": "C98", "title": "The files that a rump kernel opens on its host behave as files", "statement": "A rump kernel opens, reads, writes, closes and asks about files of the host. A file opens if it exists or is to be created, and unless it must not exist and does; a new one is empty. The descriptor was free, and allows exactly what was asked for. A read returns the bytes at the given offset, or at the position of the descriptor, as far as the file has them, and leaves the rest of the buffer; a write puts its bytes there. A question about a name gives the kind and the true size. Nothing else changes, in particular no other file and no descriptor of another process. What cannot be done is an error without effect; no call ends the program.", "quantifier": "all states of the file system, all other processes, all sequences of calls, names, flags, descriptors, buffers and offsets", "why_tests_cant": "the tests mount one image; an offset, a flag or a buffer that no test uses takes another path", "anchors": ["lib/vibrio/src/rumprt/fs.rs: rumpuser_open, rumpuser_close, rumpuser_getfileinfo, rumpuser_iovread, rumpuser_iovwrite", "lib/kpi/src/syscalls/io.rs: Fs::open, close, read_at, write_at, getinfo"]}
{"id": "C99", "title": "A C thread knows its id, shows its core and keeps its own rump context", "statement": "Every C thread has a positive id that no other thread ever has; it keeps it, and always runs on the same core. The id that the maker of a thread gets is the id of the new thread, which is put on the core of the process that the id selects; if the rump kernel refuses, the maker gets its error and nothing has happened. The word that a thread shares with the thread library shows the core it runs on while it runs, and none when another thread has taken over; its counter goes up by one exactly when the thread gets its core. What a rump kernel sets as the current context of a thread is what it reads back in this thread, whatever the other threads do. A thread that the rump kernel creates is put on the core it names.", "quantifier": "all sets of cores, all numbers of threads, all interleavings of starting, switching, blocking, waking, interrupts and idle cores", "why_tests_cant": "the tests start a few threads on one or two cores; whether a word or a context is right depends on which threads have run on the core before", "anchors": ["lib/vibrio/src/rumprt/prt/mod.rs: rumprun_lwp_init, rumprun_makelwp, _lwp_self, _lwp_ctl, context_switch", "lib/vibrio/src/rumprt/threads.rs: rumpuser_thread_create, rumpuser_curlwpop, rumpuser_curlwp", "lib/lineup/src/scheduler.rs: SmpScheduler::run", "lib/lineup/src/tls2/mod.rs: ThreadControlBlock"]}
{"id": "C100", "title": "A core runs the process it was given, in its address space, where it was told to start", "statement": "A core executes user code only of a process that it was given to: by a system call that succeeded, made by a core that already ran that process, or by the kernel when it started the program. It executes in the address space of that process, with the page table of its own node, on stacks and a control area that no other core of the process uses and that lie in memory of its node, and it started at the address of the request (a program's first core at the program's entry point) with its control area, the mark of a new core and its number. A core that was given to nobody runs no user code. Interrupts and system calls of others leave a running core as it is. An idle core that is given to a process gets to run it: its scheduler finds it, gets an executor, making some if there are none for the node, and never stops the kernel on the way. A core that is released stops running the process, and can be given to another one.", "quantifier": "all machines (cores, nodes), all processes, all interleavings of the cores' scheduler steps, interrupts, system calls and other operations on the processes", "why_tests_cant": "tests start one process on a few cores and look at its output; which process a core runs, with which executor, depends on how requests, releases and the schedulers of all cores interleave", "anchors": ["kernel/src/scheduler/mod.rs: schedule", "kernel/src/arch/x86_64/process.rs: CURRENT_EXECUTOR, swap_current_executor, Ring3Executor::start, maybe_switch_vspace, spawn", "kernel/src/nrproc.rs: try_assign_executor, allocate_executor, allocate_dispatchers", "kernel/src/process.rs: allocate_dispatchers", "kernel/src/arch/x86_64/syscall.rs: request_core, release_core", "kernel/src/arch/x86_64/irq.rs: timer_handler, handle_generic_exception"]}
{"id": "C101", "title": "A thread that waits in a hypercall gives up its virtual CPU and gets it back as it was", "statement": "A thread of a rump kernel that waits in a call to its host, for a mutex, a condition variable, a reader-writer lock, a time or an interrupt, until another thread wakes it up or time has passed, has no virtual CPU while it waits, and does not hold the big lock of the rump kernel. When the call returns it has a virtual CPU again, holds the big lock exactly as often as before, and has the mutexes that the call is about. There are never more threads with a virtual CPU than there are virtual CPUs, and if none is free a thread that has one is not waiting. The handler of an interrupt runs once for each interrupt, with a virtual CPU and the big lock.", "quantifier": "every hypercall with every kind of mutex, every behaviour of other threads (mutex free or taken, any number of rounds until it is free), every number of times that the big lock is held, every set of mutexes; all histories of any number of threads with any number of virtual CPUs and any number of interrupts", "why_tests_cant": "which thread has to wait, and for how long, depends on the schedule; a thread that keeps its virtual CPU in one case stops the rump kernel only if the others need it at that moment", "anchors": ["lib/vibrio/src/rumprt/mod.rs: rumpkern_unsched, rumpkern_sched", "lib/lineup/src/mutex.rs: MutexInner::enter, enter_nowrap", "lib/lineup/src/condvar.rs: wait, timed_wait, wait_nowrap, cv_unschedule, cv_schedule_enter", "lib/lineup/src/rwlock.rs: enter", "lib/vibrio/src/rumprt/locking.rs: rumpuser_mutex_init, rumpuser_mutex_enter, rumpuser_cv_wait, rumpuser_cv_timedwait, rumpuser_rw_enter", "lib/vibrio/src/rumprt/threads.rs: rumpuser_clock_sleep", "lib/vibrio/src/rumprt/dev.rs: irq_handler"]}
{"id": "C102", "title": "Interrupts go to the core, the machine and the vector that were asked for", "statement": "When the kernel sets up an interrupt vector of the shared-memory device, the message the device then sends means, by the manual of the processor, exactly the core and the vector that were given, whatever the entry of the device's table held before; other entries and the reserved bits keep their values, the vector is unmasked, and vectors outside the range of device interrupts or entries the device does not have are refused. A machine of a rack that interrupts another one by the doorbell of the device reaches that machine, the entry set up for it, and no other machine. A program that allocates an interrupt line for a core gets that line's interrupts on that core.", "quantifier": "all tables of a device with any contents, entries, cores and vectors; all pairs of machine id and vector; all machines of a rack; all sets of interrupt controllers, lines and cores", "why_tests_cant": "the table is changed by masks and shifts over whatever the device left in it, so 2^128 earlier contents times all cores and vectors; a wrong bit shows only as an interrupt that does not arrive", "anchors": ["kernel/src/transport/shmem.rs: ShmemDevice::enable_msix_vector, set_doorbell", "kernel/src/arch/x86_64/irq.rs: ioapic_establish_route", "kernel/src/arch/x86_64/syscall.rs: allocate_vector", "kernel/src/arch/x86_64/tlb.rs: remote_shootdown", "kernel/src/arch/x86_64/mod.rs: _start (client set-up of the vector)"]}
{"id": "C103", "title": "The programs on the boot medium reach the kernel, whole and under their names", "statement": "Every file in the root directories of the boot media, apart from the boot loader itself and files whose name takes 32 bytes or more, is a module the kernel gets: under its name, with its exact content, still intact when all others were loaded, and nothing else is. Directories are skipped. The boot loader starts exactly if there is a kernel, a command line and no more modules than the kernel takes, and the first module is the kernel that runs. A process started by name is built from the module with that name, and there is none for other names.", "quantifier": "all boot media: any number of file systems, directories with any entries, names and contents; all page allocators that never give a page twice; all program names", "why_tests_cant": "depends on which other files are on the media and in which order, on name encodings, and on what the firmware allocates; tests boot one image with a handful of files", "anchors": ["bootloader/src/modules.rs: load_modules_on_all_sfs, load_modules, load_binary_into_memory, locate_binary, DCStr16", "bootloader/src/main.rs: uefi_start, allocate_pages", "lib/bootloader_shared/src/lib.rs: Module::new, Module::name, as_slice, KernelArgs::kernel_binary", "kernel/src/process.rs: make_process", "kernel/src/arch/x86_64/process.rs: Ring3Process::load"]}
{"id": "C104", "title": "The ACPI interpreter gets the memory, the tables and the ports it asks for", "statement": "The kernel finds CPUs, memory nodes and devices by running an ACPI interpreter on functions it provides. Objects the interpreter allocates share no byte with each other and with memory of other kernel code, are aligned to 8 bytes, keep what is written into them until they are freed, and each is given back to the kernel's allocator exactly once and with the size it was allocated with; a request fails, with null and without effect, only if there is no memory. After any sequence of map and unmap calls every byte of physical memory that was mapped is read at the address the map call returned. The root of the tables is the one the firmware lists, that of ACPI 2 if there is one and otherwise that of ACPI 1. Port accesses with 8, 16 or 32 bits reach exactly the port asked for, in order, and all others fail without an access.", "quantifier": "all histories of allocations, frees and writes by the interpreter and by other kernel code, all allocators that keep their promises, all sequences of map, unmap and port calls, all lists of firmware tables, all devices", "why_tests_cant": "a free reads the size from a header in memory, so that it depends on everything written before; tests boot on one emulator with one set of tables", "anchors": ["kernel/src/arch/x86_64/acpi.rs: AcpiOsAllocate, AcpiOsFree, AcpiOsMapMemory, AcpiOsUnmapMemory, AcpiOsGetRootPointer, AcpiOsReadPort, AcpiOsWritePort, HEADER_SIZE", "kernel/src/prelude.rs: round_up", "kernel/src/arch/x86_64/vspace/page_table.rs: map_identity_with_offset", "bootloader/src/main.rs: uefi_start"]}
{"id": "C105", "title": "Persistent memory the kernel manages can be used", "statement": "At boot the kernel takes the persistent memory of the machine into a memory manager of its own. All of it is taken, and nothing else; what the manager holds is pairwise disjoint, belongs to the NUMA node it is held for, and every byte of it can be reached by the kernel, at its physical address and in the kernel's window. A machine without persistent memory gets an empty manager and no mappings.", "quantifier": "all lists of memory regions in the firmware's tables, of any type, number, size and order, and all lists of NUMA ranges", "why_tests_cant": "depends on the regions and NUMA ranges of the machine; tests run with one emulated NVDIMM", "anchors": ["kernel/src/arch/x86_64/memory.rs: map_physical_persistent_memory, init_persistent_memory, identify_numa_affinity", "kernel/src/arch/x86_64/mod.rs: _start", "kernel/src/memory/global.rs: GlobalMemory::new"]}
{"id": "C106", "title": "Every way into the kernel and back has the right privilege, segments, stack and handler", "statement": "Every interrupt, exception or `int` instruction on a vector the kernel handles gets to the handler of that vector with the kernel's privilege and code segment, on a stack of the kernel; all other vectors are protection faults. The handler reads exactly what the processor has pushed. A system call gets the kernel's segments with interrupts, single stepping, direction flag and alignment checks off, whatever the flags of the program are. Going back to a program gives it the segments and the privilege of programs.", "quantifier": "all vectors, sources of interrupts, privilege levels, flags, old contents of the register for system calls, addresses of the task state segment, and states of the program that runs `int`", "why_tests_cant": "256 vectors, each from devices, exceptions and `int`, with every privilege; tests raise a few of them. Programs that run `int` on purpose are not among the tests", "anchors": ["kernel/src/arch/x86_64/gdt.rs: GdtTable::new, Default for GdtTable, tss_descriptor", "kernel/src/arch/x86_64/irq.rs: idt_set!, Default for IdtTable", "kernel/src/arch/x86_64/isr.S: isr_handler", "kernel/src/arch/x86_64/syscall.rs: enable_fast_syscalls", "lib/kpi/src/x86_64.rs: CS_SELECTOR, SS_SELECTOR"]}
