# Formal model of node-replicated-kernel in Lean 4

## Trusted base

* Lean 4.33.0's kernel (every theorem is elaborated to a proof term and checked by it).
* Axioms: at most `propext`, `Classical.choice`, `Quot.sound` (checked with
  `#print axioms` for every theorem in MANIFEST.json). No axiom is added, there is no
  `sorry`, `native_decide` or `bv_decide`.
* The reading of the Rust source: the code is not run, the tie between model and code is
  the citation on every definition.

## Layout

`lean/Verif/<Area>/*Model.lean` holds the model (each definition cites the file and lines it models),
`*Spec.lean` (or the first section of the Props file) a small specification written without the model's
helpers, `*Lemmas.lean` the helper lemmas, `*Props.lean` the property theorems together with a concrete
example that satisfies each theorem's hypotheses, and `*Witness.lean` longer concrete executions.
Property theorems are named `cNN_...`; a suffix `_partial` means that the property holds only under the
hypotheses shown, and the note in MANIFEST.json says what is missing.

| Directory | Properties | Code modelled |
|---|---|---|
| `Fs` | C01-C11, C14, C15, C82, C83 | `kernel/src/fs/{file,mnode,fd,mod,cnrfs}.rs`, `ModelFS` of `kernel/src/fs/test.rs`, `ModelFIO` of `usr/init/src/fs.rs` |
| `Nr` | C12, C13 | the protocol of the crate `node-replication` as it is used by `nr.rs`, `nrproc.rs`, `fs/cnrfs.rs` (the crate itself is not in /repo) |
| `Sync` | C16-C18, C87 | `kernel/src/fs/rwlock.rs`, `kernel/src/mpmc.rs`, `usr/init/src/vmops/queue.rs` |
| `Rpc` | C19, C45, C46, C73 | `lib/rpc/src/` (shared-memory transport, TCP transport, server, client) |
| `Mem` | C20-C27, C57 | `kernel/src/memory/{frame,mcache,utils,emem,detmem,per_core,mod}.rs`, boot distribution in `arch/x86_64/mod.rs`, `lib/vibrio/src/mem.rs` |
| `VSpace` | C28-C32, C58, C81, C88 | `kernel/src/arch/x86_64/vspace/{mod,page_table}.rs`, `kernel/src/memory/{vspace,vspace_model}.rs`, `map_generic` of `arch/x86_64/syscall.rs` |
| `Proc` | C33-C42, C100 | `kernel/src/{nr,nrproc,process}.rs`, `kernel/src/scheduler/mod.rs`, `arch/x86_64/process.rs` (executors, frames), `lib/kpi/src/system.rs`, core bit maps |
| `Net` | C74, C75 | `lib/vmxnet3/src/var.rs` (transmit and receive queue; the card is modelled as the code expects it) |
| `Gdb` | C84-C86 | `kernel/src/arch/x86_64/gdb/{breakpoints,mod,single_thread_ops}.rs`, the save area of `lib/kpi/src/x86_64.rs` (the crate `gdbstub`, the serial line and `single_register.rs`, which is switched off, are not modelled) |
| `Console` | C90 | `kernel/src/arch/x86_64/serial.rs`, `log` and `exit` of `arch/x86_64/syscall.rs`, `rackscale/processops/print.rs`, `lib/vibrio/src/writer.rs`, `rumpuser_putchar` |
| `Start` | C91 | `get_process_info`, `get_hardware_threads` of `arch/x86_64/syscall.rs`, `lib/kpi/src/syscalls/{process,system}.rs`, `rackscale/systemops/get_hardware_threads.rs`, start of `main` in `lib/vibrio/src/rumprt/crt/mod.rs` (the crates `serde_cbor` and `abomonation` from their formats) |
| `Coreboot` | C92 | `arch/x86_64/coreboot.rs`, the loads of `start_ap.S`, registrations and the flag of `start_app_core` in `arch/x86_64/mod.rs`, `register_thread_with_process_replicas` |
| `Rack/Arena*` | C93 | the rack-scale parts of `alloc`, `dealloc`, `realloc` in `memory/mod.rs`, `set_mem_affinity`, `memory/shmemalloc.rs`, address checks of `transport/shmem.rs`; one arena by its contract |
| `Pci` | C94 | `rumprt/dev.rs`, `Pager::allocate` in vibrio's `mem.rs`, `AcpiOsReadPciConfiguration` in `acpi.rs`, `kernel/src/pci.rs`; PCI devices are any state machine over registers; the map call by its contract |
| `Nic` | C95 | `lib/vmxnet3`: `reg.rs`, `new`, `attach_pre`, `init` of `vmx.rs`, `new` of the queues in `var.rs`; `init_network`; a card is any function from the accesses so far to answers; memory is bytes; MMIO in program order |
| `Hist` | C96 | `usr/init/src/histogram.rs` without mean and variance; numbers are exact instead of `f64` |
| `Rump` | C97-C99, C101 | what the user library gives a rump kernel: memory (on the heap of C77), random bytes, clocks, sleeping, parameters (`rumprt/mod.rs`, `threads.rs`), files (`rumprt/fs.rs` and the stubs of `kpi/src/syscalls/io.rs`, on the file system of C01-C11), the identity of C threads (`rumprt/prt/mod.rs`, `threads.rs`, on the scheduler of C54); the virtual CPU around hypercalls that wait (`VcpuModel.lean`: `lineup/src/{mutex,condvar,rwlock}.rs`, `rumprt/{mod,locking,threads,dev}.rs`) |
| `Irq` | C102 | routes of device interrupts: the MSI-X table and doorbell of the shared-memory device (`transport/shmem.rs`), the I/O interrupt controllers (`irq.rs`, `ioapic_establish_route`); the bit layout of messages from the processor manual is the specification |
| `Tlb` | C43, C44, C68, C69 | `kernel/src/arch/x86_64/tlb.rs` |
| `Rack` | C47, C48, C60, C64-C67, C89 | `rackscale/controller_state.rs`, `rackscale/dcm/`, `rackscale/fileops/`, `rackscale/processops/` (cores, pages), `rackscale/get_shmem_frames.rs`, `map_mem` of `rackscale/syscalls.rs`, `rackscale/kernelrpc.rs`, `try_refill_shmem` of `memory/mod.rs`; `transport/shmem.rs` (transport, regions) with `lib/rpc/src/transport/shmem/` on raw memory |
| `Lineup` | C49-C54, C76 | `lib/lineup/src/{mutex,condvar,rwlock,semaphore,scheduler,tls2}.rs`, `lib/vibrio/src/rumprt/prt/mod.rs` |
| `UHeap` | C77-C79 | `lib/vibrio/src/mem.rs`, `lib/vibrio/src/rumprt/crt/mem.rs`, `lib/lineup/src/tls2`, `kernel/src/arch/x86_64/tls.rs` |
| `Sys` | C55, C56 | `lib/kpi/src/lib.rs`, `lib/kpi/src/syscalls/`, `kernel/src/syscalls.rs`, `kernel/src/error.rs`, `exec.S`, `kernel/src/cmdline.rs` |
| `Load` | C59 | `kernel/src/process.rs` (`DataSecAllocator`, `make_process`), `arch/x86_64/process.rs` (`ElfLoader`, `load`) |
| `Cpu` (files `Seg*`) | C106 | `gdt.rs`, `StaticStack` and `SliceStack` of `stack.rs`, the interrupt table of `irq.rs`, which handlers of `isr.S` take an error code, `enable_fast_syscalls`; the processor's rules are in `SegSpec`; how the `x86` crate packs descriptors into bits and the early tables are not modelled |
| `Mem` (files `Pmem*`) | C105 | `map_physical_persistent_memory` and `init_persistent_memory` of `kernel/src/arch/x86_64/memory.rs`, their use in `mod.rs`; the capacity of the region vector and failing map calls are not modelled |
| `Acpi` | C104 | `AcpiOsAllocate`, `AcpiOsFree`, `AcpiOsMapMemory`, `AcpiOsUnmapMemory`, `AcpiOsGetRootPointer`, `AcpiOsReadPort`, `AcpiOsWritePort` of `kernel/src/arch/x86_64/acpi.rs`; the boot loader's search for the tables; the interpreter itself (C code) is any caller; the kernel's allocator and the map call by their contracts (C63, C28) |
| `Boot` | C80, C103 | `bootloader/src/{main,kernel,vspace}.rs`: loading the kernel and building its first address space; `bootloader/src/modules.rs` and `Module` of `bootloader_shared`: the programs from the boot medium to the kernel's lookup by name (UEFI's directories and page allocator are parameters; names are compared exactly) |
| `Machine` | C61, C62 | the memory system calls of `arch/x86_64/syscall.rs` step by step over all of `Mem`, `VSpace` and `Proc` |
| `Cpu` | C70-C72 | `isr.S`, the resumers of `arch/x86_64/process.rs`, `irq.rs` dispatch, upcalls in `lib/kpi` and `lib/vibrio`, stacks in `kcb.rs` |
| `Heap` | C63 | the kernel heap, `memory/mod.rs` (`GlobalAlloc`); crate slabmalloc by its contract |

## General modelling conventions

* Sequential code becomes total functions `State -> Args -> Result x State`.
  `Result`/`Option` stay data. A Rust panic (`unwrap`, `expect`, `assert!`,
  `unreachable!`, index out of bounds, arithmetic underflow in debug builds) is an explicit
  `panic` outcome so that "does not panic" is a statement.
* `usize`/`u64` are `Nat` unless a property is about wrap-around; where the code truncates
  or could wrap this is noted at the definition.
* Concurrent code is a labelled transition system whose steps are the individual atomic
  accesses of the code (sequentially consistent interleaving; weaker orderings of the
  hardware memory model are not modelled). Any number of threads.
* Hash maps become association lists / functions; the observable get/insert/remove
  behaviour is what matters.
* Allocation failure (`try_reserve`, `Box::try_new`) is modelled where the code has a
  distinct recovery path that a property talks about; elsewhere memory is assumed to be
  available and this is said at the definition.

## Plan, property by property

| Property | What is modelled, how it is proved |
|---|---|
| C01-C03 | `fs/file.rs` chunk list, `fs/mnode.rs`; refinement to `List UInt8` by an invariant on the chunk layout (all chunks but the last are full) |
| C04 | `MemNode` permission checks lifted through all file-system operations; invariant over histories |
| C05-C07 | `fs/fd.rs` table and the descriptor part of `cnrfs.rs`; decision logic + histories |
| C08-C11 | `fs/mod.rs` `MlnrFS` and `cnrfs.rs` dispatch; invariants over histories, frame theorems; negations with witnesses for the corner cases the code gets wrong |
| C12-C13 | a generic node-replication log: arbitrary deterministic object, arbitrary number of replicas, transition system of append/replay/read; instantiated with the kernel, process and fs objects |
| C14-C15 | `LogMapper::hash` and commutation of the fs object's operations |
| C16 | `fs/rwlock.rs` as a transition system over atomics |
| C17-C18 | `mpmc.rs` as a transition system (Vyukov queue), ghost history, FIFO refinement |
| C19 | `lib/rpc` shared-memory queue and transport: sequential content model on top of the queue protocol |
| C20-C22 | `memory/frame.rs`, `memory/mcache.rs`; partition/conservation theorems |
| C23-C24 | `memory/utils.rs`, `memory/emem.rs`; arithmetic and history invariants |
| C25 | `memory/detmem.rs`; history model, negation for the failure path |
| C26 | `memory/per_core.rs` arena swap |
| C27 | `lib/vibrio/src/mem.rs` pagers |
| C28-C31 | four-level page table (`page_table.rs`) and `VSpace`; refinement to a partial map from addresses to (frame, rights) |
| C32-C34 | flag encodings, core bit maps, gtid packing; finite tables by kernel evaluation lifted to all values, BitVec/Nat arithmetic |
| C35-C37 | `nr.rs` `KernelNode`; invariants over histories |
| C38-C40 | `process.rs` `ProcessFrames`, `nrproc.rs`, executors of `arch/x86_64/process.rs` |
| C41-C42 | `process.rs` `UserSlice` on top of an abstract address space |
| C43-C44 | `arch/x86_64/tlb.rs` protocol as a transition system; IPI destination masks |
| C45-C46 | `lib/rpc` server/client |
| C47-C48 | `rackscale/controller_state.rs`, `rackscale/dcm` |
| C49-C52 | `lib/lineup` mutex, rwlock, semaphore, condvar as transition systems |
| C53-C54 | `lib/lineup/src/scheduler.rs` |
| C55-C56 | `lib/kpi` operation numbers and stubs, registers saved by `exec.S`, `syscalls.rs`; `cmdline.rs` token loop |
| C57 | distribution of the boot memory map over the allocators (`arch/x86_64/mod.rs`, `memory/mod.rs`); partition theorem for any memory map |
| C58 | the map system call on top of the page-table model of C28 |
| C59 | the loader of the writeable part and the loader of each replica's address space, on the page-table model of C28; image of the file as specification; induction over pages, bytes and relocations |
| C60 | requests and answers byte by byte, the registration table, the message queue of C19/C45 and the handlers over the file system of C01; refinement: the remote call equals the local one, induction over histories of several clients |
| C61 | a machine of cores, nodes, page caches, processes and memory; every system call is cut at its locks and the cores interleave; invariant: what caches, cores and processes own is pairwise disjoint, and page tables point only into what the process owns |
| C62 | the same calls without interference, characterised exactly from the state of caches and frame table |
| C63 | heap state = both page caches, slots, big mappings and memory; invariant over all histories of alloc, realloc, dealloc and writes; the slab allocator picks any fitting slot and writes its own part of pages at will |
| C64 | the messages of C60 extended to all handlers, which act on the kernel's core table (C36) and the controller's thread table (C47); induction over histories; the resource manager's answer is an input |
| C65 | same messages; free pages of each machine (C22), frame table of each process (C62); invariant over histories: free and registered pages are distinct, in the machine's region, and fit the table; histories include the page requests of C66 |
| C66 | `map_mem` of a client with its request to the controller, the pages kept per process, the address space (C58) and the contents of memory; exact result of one call; invariant over histories: pages handed out are distinct from free and registered ones, and pages mapped or kept do not overlap (`Sep`) |
| C67 | `try_refill_shmem` over the arenas of a core (C26), the machine's page caches (C21) and the rack of C65; exact result of one refill for every state; the pages given to kernels are part of the invariant of C66 |
| C68 | `remote_shootdown`, `remote_dequeue`, `shootdown` of all cores of all machines as a transition system, one memory access per step; translations carry the log position they were read at; invariant over all interleavings |
| C69 | one queue and the interrupt that announces its work, as a function over event lists; induction |
| C70 | the entry code of interrupts and the code that goes back, instruction by instruction, on a machine with registers and memory; symbolic execution; the kernel's handler in between is any code that respects a contract (`Handled`) |
| C71 | same for the entry and exit of the program's handler; on top of it a program with its virtual CPU as a function over events (interrupt, user code, `resume` in two steps); induction over histories |
| C72 | `install` of the control block over the heap of C63 |
| C73 | transition system of `send_msg`, `recv_msg` and a byte stream cut anywhere; invariant: bytes sent = bytes received + bytes under way; decreasing measure for progress |
| C74 | transition system: every store of `enqueue` to a descriptor is a step, so are the reads of the card; the invariant ties absolute positions to ring indices and generations; induction over runs, decreasing measure for draining |
| C75 | same for the receive queue with its two rings and memory; invariant: the card is at two descriptors per frame, memory of lent buffers holds the frames, completions not yet read are in the ring |
| C76 | status word, position, queue entries and unparks in flight of every C thread, one step per access; invariants over the history of calls and returns: the status word says whether an unpark is outstanding, every return is paid for by a wake-up |
| C77 | slots of all cores' slab allocators, pages, pagers and (ghost) mappings; invariant over histories: slots, allocator data and objects are pairwise disjoint and mapped, so a fresh mapping overlaps none of them |
| C78 | the C functions over the heap of C77, with the bytes of the headers in memory; histories with writes of the program are simulated by histories of C77 in which the object is the header and the bytes; the invariant says that every header holds its size |
| C79 | areas of threads as objects of the heap of C77, `fs` per core, memory bytes; ghost values of the variables per thread; refinement: what is at the addresses that the compiler uses is the ghost value, over all histories; the kernel's layout function on its own |
| C80 | the page-table type of `VSpace` as target; `map_generic` with its three loops, alignment of the allocation, copying and relocating through the tables, the memory map; specification `expected`: the translation of each address as a function of file and memory map; induction over the recursion of `map_generic` and over segments, relocations and entries |
| C81 | the project's reference list `ModelAddressSpace` as it is written; simulation between the page tables of C28 and the list, step by step, for whole sequences of calls; converse for growing requests |
| C82 | the project's reference log `ModelFS` as it is written; simulation between `MlnrFS` and the log, step by step, for whole sequences; exact equality when no write leaves a gap |
| C83 | the user-level reference `ModelFIO` as it is written; simulation between the system calls of one process and the reference, step by step, for whole sequences that meet `Tame`; a witness for each case that `Tame` leaves out |
| C84 | the table of points, the debug registers and the status register; invariant that the table and the registers hold the points in force, by induction over sessions; the specification is a plain list of points; stop reason read off the status register |
| C85 | the save area and the register block of the protocol as bit vectors; equality field by field for all values, panics characterised exactly; composition read/change/write |
| C86 | the two byte loops over the page tables of C28, with the processor's own check at each byte; induction over the bytes, with the lemma that all addresses of a page are translated alike |
| C87 | senders and receiver as interleaved single accesses to a heap of nodes with address reuse; invariant that gives each address one owner and describes the linked lists; order and emptiness from it |
| C88 | the page table of C28 with the page each table lives in; ownership invariant (tables of the user half and lost pages are the pages taken, each once) over all histories; the depth-first walk of `drop`; a simulation shows that the mappings are those of C28 |
| C89 | every machine's view of every shared-memory device, byte memory, the bump allocator, the queues as addresses, loads and stores through the view; a representation invariant of one queue in memory (positions modulo 2^64 with unbounded ghost positions); refinement of all histories to a specification of independent channels and plain memory |
| C90 | the print buffer of each core, the lock of the serial line, and the line byte by byte; one invariant over all interleavings (whole blocks and the beginning of one), with what one call does as a parameter: once for completeness, once for lines |
| C91 | CBOR and the memory format byte by byte, the buffers of kernel and program, the loop that requests cores, the splitting of arguments; round trips for all values, and exact conditions for everything else |
| C92 | first core and started cores as one interleaved system, low memory by bytes with the layout of `start_ap.S` for any code length; one invariant (which core is on its way, which words are written, what it has read; pages, arguments and registrations); a decreasing rank for the end |
| C93 | state = free pieces of every arena of every core, memory to be had, objects, lost pieces; invariant: every piece lies in memory of its arena's kind; all pieces together are a permutation, or a refinement by cutting, of those at the start; the address checks are shown to decide the kind from the first byte |
| C94 | threads step by step (lock, address port, data port) over any device; the history carries the moment of each effect, invariant: replaying the effects gives the devices; bit layout of the address by arithmetic; the cache of translations by an invariant per page; claims by an invariant over slots and threads |
| C95 | the bit loops by induction over the width, a field is a number read off the bytes; the card's layout is a separate table of widths; `bringUp` by symbolic execution with frame lemmas for separate pieces of memory, log of accesses with the memory at each |
| C96 | bucket index monotone and reported value near to the sample by arithmetic on binary logarithms; invariant: the histogram holds a list of samples (counts per bucket); scans of `percentile` by induction; ranks defined on the list of samples |
| C97 | `rumpuser_malloc`/`free` on the heap of C77; `getrandom`, `clock_gettime`, `clock_sleep`, `getparam` as functions of counter, command line and buffer | Memory: from C77 for every run of the heap. Others: for all inputs, against a small grammar of decimal numbers and a table of parameters; violations as theorems |
| C98 | the calls of `rumprt/fs.rs` on the file system model; a specification with names, objects and descriptors, as a relation | Simulation: in every reachable state each call is a step of the specification between what the process sees before and after; sequences by induction; a witness for each case left out |
| C99 | ids, control words, thread control blocks and the switch of contexts on the model of the scheduler | An invariant of all histories (`Inv` in `LwpReach.lean`: ids belong to one thread, threads stay on their core, a running thread that has been switched to is what its core's scheduler remembers); then what one action does to a word, an id or a context; histories by induction; a witness for each case left out |
| C100 | the scheduler of every core on the models of the core table and of processes, with interrupts and the system calls that change the table (`Proc/Dispatch*.lean`) | Every action is one of five moves (`act_move`); an invariant of all histories ties what a core runs, or is about to run, to an event that granted it, and executors in use to the histories of C40; a second one counts executors kept and in use against the cores of the node; a witness for each case left out |
| C101 | each hypercall that waits as the list of what it does to the virtual CPU, to mutexes and to the scheduler, with the behaviour of other threads as a parameter; all threads and a number of virtual CPUs on top | For each call by cases and induction over the rounds of the spin loop (`c101_back`, `c101_gives_up`); for all threads by an invariant (`inv_reach`: free and used virtual CPUs add up, no thread that waits has one). The upcalls `hyp_backend_unschedule` and `hyp_backend_schedule` are C code of NetBSD outside the repository and are taken as documented. |
| C102 | an entry of the table as three bit vectors, `enable_msix_vector` with its masks and shifts, the doorbell value, the lines of each controller | The bits of the new address and data as a function of the old ones (`enable_addr_bit`, `enable_data_bit`), from which every field of the specification follows for all earlier contents (`c102_message`); the doorbell by arithmetic (`c102_doorbell`); both together for a rack (`c102_machines`); the lines by membership (`c102_lines`). The mask, the reserved bits and `irqalloc` are partial because of the findings |
| C103 | directories as lists of entries with 16-bit names, the loop of 32 rounds with UEFI's position, memory as a function, any page allocator that never gives a page twice; the lookups in the boot loader and the kernel | Induction over the rounds with the invariant that every loaded module owns its pages, so that later loads keep its content (`loop_ok`); names by the round trip of UTF-8 (`c103_names`); the lookups by the first and the last of the modules with a name |
| C104 | byte memory with the header in it, blocks the allocator has given out, the callers' view (objects, bytes written); a page table as a function; devices as state machines | Invariant over all histories of the interpreter and other kernel code: blocks in use are exactly the objects with their headers and the blocks of others, and every header holds the size (`Inv.step`); round trip of storing and loading 8 bytes; maps by the invariant that all mappings have the same offset; ports by induction over the accesses |
| C105 | the loop that maps, the loop that collects frames, NUMA annotation and `GlobalMemory::new` of C57, any function that sorts by node | Exactly which mappings there are (`mapPmem_ok`) and which frames (`initPmem_frames`), by induction over the regions; then `c57_global_memory` |
| C106 | segments by what they mean, the table of gates as the list of `idt_set!` calls, `IA32_STAR` and `IA32_FMASK` as bit vectors; the assembly code of C70 for `int` | The interrupt table in closed form for every vector (`idt_eq`), then by cases; bits of the masks one by one; a trap without an error code is one with an error code of a program that is one word off (`trap_shifted`), to which C70 applies |

## Seeded faults

`seeded/LOG.jsonl` has one line per edit of the model that was tried in a scratch copy: which theorems
failed, and which were tightened because they did not.

## Not modelled

* Device drivers (`lib/vmxnet3` but for the queues of C74 and C75 and the start of C95, smoltcp; of PCI and ACPI only what C94 says), interrupt controllers beyond the destination of
  interrupts, UEFI itself, its memory attributes and the boot loader's modules and arguments (C80 takes UEFI's answers as arguments), the protocol of the gdb stub, logging, performance counters, the
  aarch64 and unix ports.
* Hardware: the memory model is sequentially consistent; the TLB, `syscall`/`sysret`, `fxsave` are
  modelled only as far as said at the definitions.
* Crates outside /repo: `node-replication`, `slabmalloc`, `arrayvec`, `logos`, `spin`, `fallible_collections`.
  What is assumed of them is said where they are used.
* Time and liveness under an unfair scheduler: progress theorems say that a step is possible or that a
  waiter is recorded where the next release finds it, not that it is taken.

## Findings: where the code does not have the property

Each has a proved witness (a concrete reachable execution of the model) unless it says "read".

Files
* C02 `c02_failed_write_may_grow_file`: a write that fails for lack of memory leaves the file longer, filled
  with zeroes; a write of no bytes beyond the end also extends the file.
* C10: `rename(a, a)` deletes the file.
* C11: deleting `/` or an open file succeeds; an appending write through a stale descriptor panics; reading,
  writing or asking for information about `/` underflows in the log mapper; file calls of a process that was
  not registered panic.
* C14: the number that selects the log was looked up earlier and can be stale. C15, C07: a read that uses the
  descriptor's own offset changes only one replica.
* C16: a writer checks the reader slots of one NUMA node only.
* C18: a push can be refused while a pop that will make room is in progress.
* C82: the randomised test of the file system reads into `Vec::with_capacity(len)`, a buffer of length 0, so it never
  compares contents (`c82_test_reads_nothing`); with real buffers it would fail on gaps (`c82_gap`) and on empty writes
  behind the end (`c82_empty_write`). In a gap the file system does what POSIX says
  and the reference does not; an empty write that makes the file longer is not POSIX.
* C83: the user-level test never opens a file for appending (flags below `0xfff`, `O_APPEND` is `0x2000`), and there the
  kernel differs from its reference: append with truncate is accepted, a read without offset begins at 0 and not at the
  end, and an append to a deleted file is a panic. With a full table the reference's failed `open` leaves a new file.

RPC
* C46: no reply if the type is unknown, the handler fails, or the reply is too long; a message of no bytes is
  dropped. C73: over TCP the payload of a message that does not fit stays on the connection and is read as the
  next message. C19: more than 8188 bytes, or more slices than the transport holds, panic.

Memory
* C21: the rackscale grow path changes the node a page is labelled with. C22: a debug assertion fails for the
  early cache. C23: more than 128 large pages panic. C25: replicas diverge when an allocation fails, and a replica
  that is 32 000 requests behind ends the kernel (`c25_lag_panics`).
  C27: the last allocation of a heap runs into the next core's region.
* C28: a larger frame over a base page of the same frame is reported as mapped; an empty table left by an
  earlier mapping panics. C29, C30: frames of more than one page are unmapped or adjusted in part.
  C31: `map_frames` is not atomic; the pages a multi-page unmap leaves behind are not recorded, mapping over
  them panics. C32: the cache-disable attribute is lost.
* C88: a 2 MiB (1 GiB) mapping over a table that earlier unmaps left empty overwrites the entry for the table and
  forgets its page ("TODO: pager.release_base_page()"): mapping and unmapping a 4 KiB and a 2 MiB page in turn
  loses a page each time (`c88_leak`). Tables above `KERNEL_BASE`, which a process may ask for (C58), are not
  freed (`c88_kernel_half`). Read: `drop` always frees with the global allocator, also pages from `allocator`.
* C81: mapping a large page over a base page with the same frame and rights is Ok for both the page tables and
  the reference model, but only the model maps the rest of it (`c81_growth_always_differs`; the randomised test
  resolves too rarely to notice); `unmap` of an unaligned address gives different errors.
* C58: size 0, unaligned or already mapped bases panic the kernel; kernel addresses are not refused.
* C57 (read): the first frame is labelled node 0 whatever its node.
* C61: pages from `allocate_physical` are not cleared, so a process reads what the previous owner left;
  `map_device` maps any physical memory; memory from the map call is never returned when it is unmapped (read).
* C62: releasing a page on a core that allocates from another node, or when core and node cache are full,
  panics the kernel; allocation fails when the node's cache is empty although the core's has pages; a page is
  lost when the process has no free identifier.
* C63: freeing an object of 128 KiB to 2 MiB panics when the core's cache of large pages is full (small pages
  would go to the node's cache); `realloc` to a smaller size class keeps the pointer, and the object is then
  freed into a class it is not from; objects above 2 MiB are never returned; alignments above 2 MiB are ignored;
  a small object with an alignment above 4 KiB can be refused after three pages were spent on it.

Processes
* C37: a process that is freed keeps its cores. C38: a failed or repeated map leaks a reference count.
  C40: executors overlap after an allocation failure. C42: a write checks only that the buffer is readable.
* C43: with two page-table replicas the other one's cores keep stale entries; a full queue hangs; cores
  acknowledge before they flush. C44: no interrupt is sent to some sets of cores.
* C69: requests sent while an interrupt already waits are left in the queue, since the handler takes one item;
  the cores that sent them wait until somebody sends another request.

* C70: interrupts while upcalls are off and all debug exceptions go back with `sysret`, which changes `rcx`, `r11`
  and the flags of the program. A byte on the debugger's serial line while a program runs resumes it with the
  kernel's code segment. Every other fault of a program (division by zero, unmapped address, ...) ends the kernel;
  all gates can be called from user mode (read), so `int 13` does too.
  A debug exception in the kernel while the core has a program continues kernel code in user mode; a breakpoint
  without one continues with the `gs` of the last program.
* C71: an interrupt while upcalls are off is dropped, the pending flag is never set. `resume` turns upcalls on
  before it leaves; an interrupt after that turns them off again for good, or, in programs that do not set the
  window (`usr/init`), overwrites the saved context, and the program loops in `resume`. The handler starts
  with the kernel's `fs` base and vector registers.
* C72: `set_interrupt_stacks` drops the debug stack, whose memory becomes the system call stack; a breakpoint in
  a system call overwrites it. A failed allocation of a stack is not noticed (read).

Rackscale
* C93: memory of one node that is released with the affinity of another is handed out as memory of the other
  (`c93_numa_mixed`); local memory that starts right behind a device of shared memory is taken for shared memory
  (`is_shmem_addr` compares with `<=`), so it is lost when released and panics the kernel when resized
  (`c93_end_lost`, `c93_end_realloc`); resizing an object above 2 MiB with an affinity of shared memory always panics
  (`c93_big_realloc`); before the devices are looked up local memory can become "shared" (`c93_before_init`).
* C89: `create_shmem_transport` on the controller clears both queues of a client, and nothing in the transport makes
  the client wait for it; a message sent before is acknowledged and lost. `ShmemAllocator::allocate` ignores the
  alignment it is asked for (harmless: all sizes are multiples of 8 and devices are page aligned; read).
* C47: released threads are never given out again; a second registration gives threads out twice.
  C48: assignments that arrive before the table entry hang.
* C68: after an unmap returned, a core of another machine can read the removed translation from its machine's own
  replica of the page table, which nobody brought up to date. The queue of a machine holds four requests per other
  machine; one more panics the kernel inside the system call.
* C60: names or writes that make a request longer than 8188 bytes, and reads of more than 8192 bytes, panic the
  client's kernel although the same call works on one machine.
* C64: the release-core message is registered with the handler for requests. Releasing a core therefore gives the
  process another core, which starts at the number of the released one; it crashes the controller if no thread is
  left, or if byte 16 of the previous reply happens to be nonzero and the process is known to the file system.
  `handle_release_core` never runs, released threads are never reused. A request crashes the controller if the chosen
  machine has no thread left; running out of memory while recording a core loses the thread.
* C65: the controller ignores size and affinity and always gives one 2 MiB page; the client registers the size the
  program asked for. Larger sizes give frames that overlap those of other processes; sizes that are not whole pages
  panic the client; in that case and when the frame table is full the page is lost. If the resource manager refuses a
  release the caller gets an error although the page was given back. No free page panics the controller.
* The layout of the request-core message (a Rust struct with unspecified field order) is taken to be by decreasing
  alignment; the second crash in C64 depends on it.
* C66: base pages left over from a large page are kept per process without being zeroed, and mapped later with
  their old contents, possibly those of another process. Any frame that cannot be mapped (unaligned or mapped
  address), size 0, a machine without free pages, and more than 508 large pages (the reply does not fit one
  message) crash a kernel. When the request crashes, the pages taken before are lost. Pages taken from the cache
  get the client's affinity, whichever machine they belong to.
* C67: if the scheduler refuses pages to a kernel, the core stays on the affinity of the local node and later kernel
  data meant to be shared is allocated there. A client's refill of nothing (also when the core's cache is full)
  crashes. A client that allocates from another machine's memory asks for its own pages: large pages crash it, base
  pages are filed under the wrong machine. The controller crashes when base pages of its own memory are missing.

User level
* C98: a rump kernel that opens a file only to write can read it as well, since the flag to read is 0
  (`c98_write_only`); the flag that a file must not exist is ignored (`c98_excl`).
* C98: a read at the position of the descriptor always fails: the stub of the system call refuses the offset -1 for reads,
  but not for writes (`c98_read_here`). Empty buffers are an error (`c98_nothing`).
* C98: more than one buffer ends the program (`c98_vectors`); the root directory panics the kernel (`c98_root_panics`).
* C100: the kernel never takes an executor off a core. A core that was released goes on running the process
  (`c100_released_runs`); another process that asks for it is told that it has it, and never runs there
  (`c100_other_never_runs`).
* C100: the scheduler asks for more executors only if the node never had any. If a core makes them in several rounds (more than
  10 cores on the node), the others can use up the first round and the next one that asks stops the kernel: possible from
  12 cores on a node (`c100_exhausted`), and not with 11 (`c100_schedules_partial`).
* C100: executors are mapped at a fixed place of the address space. A process that maps something there first and then asks for a
  core on another node stops the kernel (`c100_place_taken`).
* C100: `request_core` and `release_core` check the number of the core within its machine, and use the whole number: one with
  the machine's part set stops the kernel (`c100_machine_part`).
* C100: the address `0xdeadffff` of a request is taken for the mark of a program's first core (`c100_magic_address`).
* C100: an idle core that gets the interrupt for progress of the file system loops for ever, and is lost for processes
  (`c100_idle_core_lost`).
* C99: the scheduler remembers the C thread it ran last in a local variable of `run`. When a core runs out of threads, `run`
  returns and forgets it; a thread that blocked then still shows its core while another runs there (`c99_idle_stale`).
* C99: a C thread that has never been switched to shows core 0 (`c99_new_shows_zero`, `c99_main_shows_zero`).
* C101: a spin mutex that is not a `kmutex` is waited for with a virtual CPU in `enter`, and its owner waits for a virtual CPU at
  the end of `wait`: with one virtual CPU both wait forever (`c101_spin_order`; no other kind of mutex has this).
* C102: `enable_msix_vector` flips the mask of the vector instead of clearing it: called a second time, for example to move the vector
  to another core, it masks the vector (`c102_twice`). Bit 11 of the address is reserved but not in the mask `7F0` and is cleared, and the
  upper 32 bits of the address become ones (`c102_addr_lost`). `irqalloc(vector, core)` ignores both arguments and enables lines 0 and 3-15
  for core 0 (`c102_irqalloc_ignored`).
* C106: all gates have privilege 3, so that a program may run `int` with any vector that has a handler. With those of
  exceptions with an error code (8, 10-14, 17, 30) the processor pushes none but the handler takes one: the kernel sees the
  code segment as the instruction pointer, the stack pointer as the flags and so on (`c106_int_frame`), and for a page
  fault at an address that is mapped by now continues the program like that (`c106_int_back`). `int 8` and `int 18` reach
  the handler that shuts the machine down (`c106_shutdown`). `enable_fast_syscalls` puts the kernel's stack selector where `sysretq`
  expects the base of the selectors for programs; with the order of the segment table this swaps the two
  (`c106_sysret`). It also uses `or` on a register that may not be 0 (`c106_star_old`).
* C105: `map_physical_persistent_memory` skips regions that start at 0 or whose end or inside is at 0xfee00000, but
  `init_persistent_memory` gives them to the memory manager all the same, so that using that memory is a page fault in
  the kernel (`c105_not_mapped`). A region that ends exactly at 0xfee00000 does not even cover the APIC. With NUMA
  information a persistent region at 0 stops the boot (`c105_zero_case`).
* C104: `AcpiOsAllocate` adds its header to the size without a check, so that a request for 2^64 - 16 bytes or more gets a
  tiny block (`c104_memory_violated`; a debug build panics). `AcpiOsGetRootPointer` prefers the ACPI 2 root whenever
  there are kernel arguments, even if it is 0, so that firmware with tables of ACPI 1 only looks like firmware without
  tables (`c104_root_violated`). Ports are cut to 16 bits: address 0x10064 reaches the keyboard controller at 0x64
  (`c104_ports_violated`).
* C103: `load_modules` reads 32 directory entries, not 32 modules, and stays at an entry whose information does not fit its buffer of
  256 bytes (a name of more than 87 characters): files after either are silently missing (`c103_directory`, `wit_limit`, `wit_long`). A name
  with a character outside 16 bits is shortened and then not found: panic (`c103_surrogate`). With one program name on two file systems
  `make_process` takes the writable sections of the last and `Ring3Process::load` everything else of the first (`c103_mixed`); with two
  kernels the last one runs and `kernel_binary` is the first (`c103_two_kernels`).
* C99: the number of cores on the command line is trusted (`c99_too_many_cores`), and is taken as one if the command line does
  not give it; C threads that exit stay in the scheduler for good, so that the 2050th thread ends the program (`c99_full`).
* C97: a rump kernel that asks for memory when there is none is told that it succeeded, with a null pointer
  (`c97_no_memory`); an object smaller than its alignment ends the program (`c97_small`).
* C97: if the source of random numbers fails, one byte fewer than was written is reported (`c97_random_short`).
* C97: a sleep until a given time compares the time since boot with the raw counter: it ends too early if the counter
  was not 0 at boot (`c97_sleep_early`), and panics for times that are past, or look so (`c97_sleep_past`,
  `c97_sleep_future_panics`).
* C97: a buffer too small for a parameter ends the program (`c97_param_panic`).
* C96: percentiles from 50 on are those of the next sample: the median of 1, 2 and 3 is reported as 3 (`c96_median`).
* C96: merging a histogram into another moves its samples above 1024 up by one bucket (`c96_merge_moves`).
* C96: a histogram whose greatest value is just below a power of two panics when that value is recorded
  (`c96_no_bucket`); with a precision of four digits later values are in earlier buckets (`c96_four_digits`).
* C94: the lock around the PCI ports is per program, so two programs (or a program and the kernel) can hit each other's
  devices. The cache of translations for DMA is never invalidated: a page that was unmapped and mapped again is given to
  the device with its old physical address. `rumpcomp_pci_dmalloc` ignores the alignment, `rumpcomp_pci_dmafree` frees
  nothing. All devices share one interrupt handler slot (`IRQS[0]`): the last driver gets all interrupts; an interrupt
  before a handler is named panics. Configuration reads on cores above 96 (rack) return success without a value.
  Negative offsets pass the assertion, and device numbers above 31 reach another bus.
  `AcpiOsReadPciConfiguration` reads bytes and words at the start of the register: offset 0x0e gives the byte at 0x0c.
* C91: the buffer for the process information has 256 bytes; command lines of 169 bytes or more (from 128 on it depends) end every
  program before `main`. With more than 511 hardware threads `System::threads` fails, with more than 203 in a rack it
  panics the controller. The words of `appcmd` are passed to C programs in reverse (`rsplit`), so `create dbfarm` of the
  benchmark arrives as `dbfarm create`; without `appcmd` there is one empty argument; no null pointer follows the
  arguments (read). `initargs=0`, or more cores than there are, ends the program.
* C49: two owners after a timed wait; `try_enter` can wait; `Mutex::new` panics; a full wait list panics.
  C50: `try_enter` panics. C51: two downs complete for one up, permits are lost. C52: a finished timed wait
  takes a signal. C53: a sleep is cut short. C54: stale timers and woken joiners panic, interrupts run a
  thread on another core, 2049 threads, indices of cores clash from 24 hardware threads per machine on and are
  out of bounds from the fifth machine on.
* C76: an unpark during the creation of a thread wakes thread 0 instead (`c76_unnamed`); `RL_MASK_PARKED` and
  `RL_MASK_UNPARK` are the same value, so a second unpark in a row puts a running thread in the queue and a later
  park returns for no reason (`c76_spurious`); parks with a timeout, unparks of exited and unknown threads panic.
* C77: when the kernel refuses a page, core 0 panics in a debug build, because `my_core_index - 1` underflows
  (`c77_core0_panics`); the other cores never try the pager of the core before them (`c77_neighbour_not_tried`);
  objects above 128 KiB panic instead of returning a null pointer (`c77_mid_panics`), and so does a small object
  with an alignment above a page although there is memory (`c77_align_panics`). The pages of an object above 2 MiB
  need not be next to each other if a page in between is refused (`c77_big_scattered`). An object freed on another
  core goes to the wrong slab allocator (`c77_other_core_free`); one that was shrunk in place and is freed with its
  new size is looked for in the wrong size class (`c77_shrink_free`); memory of objects above 128 KiB is never used
  again (`c77_mid_leak`).
* C78: `posix_memalign` with an alignment above 16 bytes always returns a pointer that is off by the 16 bytes of
  the header (`c78_memalign_misaligned`); `realloc` without memory writes its header to address 0
  (`c78_realloc_crashes`); `free` of an object that `realloc` made smaller panics (`c78_shrink_free`); `calloc` of
  more than 2^64 bytes panics, or in a release build returns too few (`c78_calloc_overflow`); `mmap` of one page
  or less, or at an address, panics (`c78_mmap_small`).
* C79: the area of a thread is laid out with the size of the segment not rounded up to its alignment: for binaries
  whose linker does not pad the segment all variables are looked for too low, in the memory of others
  (`c79_shift`, `c79_unpadded`); there is no check for a failed allocation (`c79_null_crashes`); the control block
  is not aligned if the segment's size is not (`c79_tcb_unaligned`). Areas are never freed, and `_rtld_tls_free`
  panics (read).
* C80: `#[cfg(feature = "all-writable")]` is the wrong way round in `bootloader/src/kernel.rs` (and no `Cargo.toml`
  declares the feature), so the kernel's code and constants are mapped writable (`c80_text_writable`).
* C80: `Kernel::allocate` asks for `max_end - min_base` bytes but places segments at `pbase + page_base`; a kernel
  that does not begin at page 0 is written beyond the memory that UEFI gave (`c80_high_base`).
* C80: two segments on a page, or one that is not readable, are panics (`c80_shared_page_panics`,
  `c80_unreadable_panics`).
* C80: `map_generic` looks only at the first of the slots for large pages; a mapping over the later ones replaces them
  silently, although its comment promises a panic (`c80_overwrites`).
* C80: a region that begins at address 0, or that contains or merely ends at 0xfee00000, is not mapped
  (`c80_left_out`), though the kernel takes usable regions of the same map into its memory manager.
* C80: `allocate_pages_aligned` gives back one page less than it could at either end.
* C92: `start_ap.S` loads the root of the page table with 32 bits only. The delay in `wakeup_core` is the wrong way round
  (`while elapsed > 10 ms`): STARTUP follows INIT at once, and if the first core is held up for more than 10 ms in between
  it loops for ever. Node numbers with gaps index `replicas` out of bounds. The affinity for persistent memory stays
  at the node of the last core started. `OwnedStack::new` does not look at a null pointer (read).
* C87: `push` looks at the node it found after its exchange failed; the receiver may have freed it. If the memory then looks
  like a node without element, the element is dropped although the receiver is there (`c87_use_after_free`). Dropping the
  receiver forgets the elements it had taken (`c87_drop_leaks`); an element can be put in front of the last node
  (`c87_after_close`).

System calls and command line
* C90: `exit` ends the machine without writing the print buffers out: output without a line feed at its end is lost, and
  so is the second line of a text with two lines, since only the first line feed of a text is looked for. Lines of more
  than 128 bytes are mixed with those of other cores. Text that is not UTF-8 is dropped and the call succeeds. On a client of a
  rack `buffered_print_and_return` overwrites the first line with the rest if the rest does not fit the buffer, so
  the controller never sees it. `rumpuser_putchar` takes bytes for Latin-1 and doubles those from 128 on.
* C55: the stubs do not declare `rdi`/`rsi` as changed; unknown file and system operations give the wrong
  error; the test call can overflow; a read of no bytes is refused by the library; `unmap` ignores its
  length; the affinity argument is not set; `irqalloc` panics on error.
* C56: a quoted mode is skipped and the next word taken for it; option names cannot be values; stray quoted
  strings are skipped; unreadable values become defaults.
* C59: zero-initialised data is not zeroed (the program sees the old content of the pages); a relocation at the
  first bytes of a writeable page is also stored behind the previous frame; a second writeable segment aliases
  the first; segments that share a large page panic.

Network driver

* C95: `reinit_shared_data` exchanges the numbers of the queues that send and that receive; with different numbers the
  card takes queues of one kind for the other (`c95_exchanged`, `c95_wrong_numbers`).
* C95: `init` returns nothing; that the card could not be enabled is only logged (`c95_not_started`).  Calling
  `attach_pre` twice is not modelled.
* C95: the debug build insists on an Ethernet address that begins with 56:b4:44:e9:62 (`c95_other_address`).
* C95: machine 9 of a rack has the IP address of the router (`c95_router`).
* C95: registers are accessed with plain reads and writes, not volatile ones; the flag bits of a base address register
  are not masked; the rings are vectors of packed structures, so nothing makes them aligned as the card demands; the
  vector for events is not the last one, as the comment says.  These are noted, not modelled.
* A chain without segments hands the card a stale descriptor; the next packet is not sent (`c74_empty_chain`).
* The length field has 14 bits; longer segments are cut without an error (`c74_long_segment`).
* Ring sizes that are not powers of two are accepted but end in a failed assertion (`c74_odd_size`).
* A card that reports only the frames it was asked to report trips an assertion (`c74_coalesced`).
* Frames sent faster than the card reports them fill the ring; `TxPacket::consume` then panics (`c74_burst`).
* The receive queue computes length 0 for a full ring and overwrites descriptors that are lent (`c75_overfill`).
* A packet of length 0 uses up the only chain `DevQueuePhy` has outstanding; nothing is received after it (`c75_zero`).
* The length of the receive queue is the distance between an index of the command ring and one of the completion
  ring; with frames of one and two pieces mixed, an empty queue can refuse a chain (`c75_refused`).

Kernel debugger

* C84: a point inserted twice and removed once stays in force (`c84_not_idempotent`); GDB's protocol asks for inserting to be
  idempotent.
* C84: `remove_hw_watchpoint` looks at the address alone and can remove another watchpoint (`c84_wrong_watchpoint`).
* C84: a length other than 1, 2, 4 and 8 is accepted and watched as 8 bytes (`c84_long_watch`).
* C84: the processor may set the status bit of a register that is off; the debugger then finds no reason for the stop
  and panics at `unreachable!` (`c84_stale_register`). Of two points hit at once one is reported (`c84_one_of_two`).
* C85: GDB changes a register by writing all of them back, and the FS base is not among those it was given, so every
  change sets it to 0 and the kernel loses its thread-local data (`c85_fs_lost`).
* C85: `FxSave::st` takes the first ten bytes of the big-endian form; the floating point stack is shown wrongly
  (`c85_st_wrong`).
* C86: the debugger does not lift SMAP: looking at user memory faults in the kernel (`c86_user_faults`). A write that is
  refused may have changed the pages before (`c86_half_written`).
