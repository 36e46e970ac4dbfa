{
 "claims": [
  {
   "property": "C01",
   "status": "proved",
   "theorems": [
    "NRK.Fs.c01_file_is_flat_byte_array",
    "NRK.Fs.writeAt_getElem?",
    "NRK.Fs.c01_failed_write_keeps_bytes"
   ],
   "note": "any history on a fresh readable+writable file; failed allocations covered separately"
  },
  {
   "property": "C02",
   "status": "proved",
   "theorems": [
    "NRK.Fs.c02_size_is_length",
    "NRK.Fs.c02_info_call",
    "NRK.Fs.c02_failed_write_may_grow_file"
   ],
   "note": "second theorem is a finding: a write that fails with out-of-memory can still grow the file"
  },
  {
   "property": "C03",
   "status": "proved",
   "theorems": [
    "NRK.Fs.c03_read_exact"
   ],
   "note": ""
  },
  {
   "property": "C04",
   "status": "proved",
   "theorems": [
    "NRK.Fs.c04_permissions_enforced",
    "NRK.Fs.c04_readonly_file_never_changes",
    "NRK.Fs.c04_unreadable_file_never_read",
    "NRK.Fs.c04_flags_enforced"
   ],
   "note": ""
  },
  {
   "property": "C05",
   "status": "proved",
   "theorems": [
    "NRK.Fs.c05_open_returns_lowest",
    "NRK.Fs.c05_out_of_fds_iff",
    "NRK.Fs.c05_failed_open_keeps_fds",
    "NRK.Fs.c05_close"
   ],
   "note": ""
  },
  {
   "property": "C06",
   "status": "proved",
   "theorems": [
    "NRK.Fs.c06_fresh_descriptor"
   ],
   "note": ""
  },
  {
   "property": "C07",
   "status": "proved",
   "theorems": [
    "NRK.Fs.c07_sequential_writes",
    "NRK.Fs.c07_sequential_appends",
    "NRK.Fs.c07_sequential_reads",
    "NRK.Fs.c07_explicit_offset"
   ],
   "note": "one replica; across replicas implicit-offset reads are not sequential, see C15"
  },
  {
   "property": "C08",
   "status": "proved",
   "theorems": [
    "NRK.Fs.c08_names_denote_distinct_live_inodes",
    "NRK.Fs.c08_inode_numbers_not_reused",
    "NRK.Fs.c08_kind_is_stable"
   ],
   "note": ""
  },
  {
   "property": "C09",
   "status": "proved",
   "theorems": [
    "NRK.Fs.c09_delete",
    "NRK.Fs.c09_mkdir",
    "NRK.Fs.c09_open_frame",
    "NRK.Fs.c10_rename_to_other_name_partial",
    "NRK.Fs.c09_failed_calls_change_nothing"
   ],
   "note": "rename onto itself is the exception, see C10"
  },
  {
   "property": "C10",
   "status": "partial",
   "theorems": [
    "NRK.Fs.c10_rename_to_itself_deletes",
    "NRK.Fs.c10_rename_to_other_name_partial"
   ],
   "note": "the property is false of the code: rename(a,a) deletes a; proved for different names"
  },
  {
   "property": "C100",
   "status": "partial",
   "theorems": [
    "NRK.Proc.c100_runs",
    "NRK.Proc.c100_idle",
    "NRK.Proc.c100_apart",
    "NRK.Proc.c100_stays",
    "NRK.Proc.c100_for_ever",
    "NRK.Proc.c100_polls",
    "NRK.Proc.c100_starts",
    "NRK.Proc.c100_request",
    "NRK.Proc.c100_schedules_partial",
    "NRK.Proc.c100_making",
    "NRK.Proc.c100_release",
    "NRK.Proc.c100_lost",
    "NRK.Proc.c100_released_runs",
    "NRK.Proc.c100_other_never_runs",
    "NRK.Proc.c100_exhausted",
    "NRK.Proc.c100_magic_address",
    "NRK.Proc.c100_machine_part",
    "NRK.Proc.c100_place_taken",
    "NRK.Proc.c100_idle_core_lost"
   ],
   "note": "What cores run, where they start, that executors are not shared and that interrupts leave them alone: proved for all interleavings. That the scheduler does not stop the kernel is proved for nodes of up to 11 cores; with 12 it can (c100_exhausted), and also if the process has mapped the place of the executors (c100_place_taken) or names a core of another machine (c100_machine_part). Not true of the code: a released core goes on running the process, and a process that gets it then never runs there (c100_released_runs, c100_other_never_runs); an idle core can be lost (c100_idle_core_lost); a request with the address 0xdeadffff starts elsewhere (c100_magic_address)"
  },
  {
   "property": "C101",
   "status": "proved",
   "theorems": [
    "NRK.Rump.Vcpu.c101_back",
    "NRK.Rump.Vcpu.c101_gives_up",
    "NRK.Rump.Vcpu.c101_cv",
    "NRK.Rump.Vcpu.c101_no_interlock",
    "NRK.Rump.Vcpu.c101_waits",
    "NRK.Rump.Vcpu.c101_init",
    "NRK.Rump.Vcpu.c101_irq",
    "NRK.Rump.Vcpu.c101_no_more",
    "NRK.Rump.Vcpu.c101_waiting",
    "NRK.Rump.Vcpu.c101_some_runs",
    "NRK.Rump.Vcpu.c101_spin_order",
    "NRK.Rump.Vcpu.c101_busy",
    "NRK.Rump.Vcpu.c101_sleep_lets_run"
   ],
   "note": "all hypercalls that wait, all histories of any number of threads; the upcalls of the rump kernel are C code outside the repository and are taken as documented; finding proved (c101_spin_order): a spin mutex that is not a kmutex is waited for with a virtual CPU while its owner waits for one"
  },
  {
   "property": "C102",
   "status": "partial",
   "theorems": [
    "NRK.Irq.c102_when",
    "NRK.Irq.c102_message",
    "NRK.Irq.c102_reserved",
    "NRK.Irq.c102_reserved_addr_partial",
    "NRK.Irq.c102_addr_lost",
    "NRK.Irq.c102_mask_partial",
    "NRK.Irq.c102_twice",
    "NRK.Irq.c102_doorbell",
    "NRK.Irq.c102_machines",
    "NRK.Irq.c102_lines",
    "NRK.Irq.c102_once",
    "NRK.Irq.c102_irqalloc_partial",
    "NRK.Irq.c102_irqalloc_ignored"
   ],
   "note": "message, range, other entries, doorbell and delivery to exactly the machine: full, for all earlier contents; missing because the code does otherwise (each proved): set-up toggles the mask, so a second set-up masks the vector (c102_twice), bit 11 of the address is not kept and the upper half becomes ones (c102_addr_lost), allocating an interrupt line ignores the line and the core (c102_irqalloc_ignored)"
  },
  {
   "property": "C103",
   "status": "partial",
   "theorems": [
    "NRK.Boot.Mods.c103_names",
    "NRK.Boot.Mods.c103_directory",
    "NRK.Boot.Mods.c103_all_partial",
    "NRK.Boot.Mods.c103_starts",
    "NRK.Boot.Mods.c103_handed",
    "NRK.Boot.Mods.c103_found_partial",
    "NRK.Boot.Mods.c103_not_found",
    "NRK.Boot.Mods.c103_mixed",
    "NRK.Boot.Mods.c103_two_kernels",
    "NRK.Boot.Mods.c103_surrogate"
   ],
   "note": "all media, contents and allocators; c103_directory says exactly what is loaded for every directory; missing because the code does otherwise (each proved): entries after the 32nd, counting directories, or after a name of more than 87 characters are not looked at, a name with a character outside 16 bits stops the boot loader (c103_surrogate), with one name on two media the process is built from two programs (c103_mixed) and the first module is not the kernel that runs (c103_two_kernels)"
  },
  {
   "property": "C104",
   "status": "partial",
   "theorems": [
    "NRK.Acpi.c104_memory_partial",
    "NRK.Acpi.c104_memory_violated",
    "NRK.Acpi.c104_null",
    "NRK.Acpi.c104_map",
    "NRK.Acpi.c104_map_only",
    "NRK.Acpi.c104_root_partial",
    "NRK.Acpi.c104_root_none",
    "NRK.Acpi.c104_root_violated",
    "NRK.Acpi.c104_ports_partial",
    "NRK.Acpi.c104_ports_violated"
   ],
   "note": "all histories, allocators, maps, firmware lists and devices. False of the code and shown with witnesses: sizes of 2^64 - 16 and more wrap; firmware with tables of ACPI 1 only gives null; addresses of 65536 and more reach another port. The kernel's allocator and map_identity_with_offset are used by their contracts (C63, C28)"
  },
  {
   "property": "C105",
   "status": "partial",
   "theorems": [
    "NRK.Mem.Pmem.c105_managed_partial",
    "NRK.Mem.Pmem.c105_only",
    "NRK.Mem.Pmem.c105_all",
    "NRK.Mem.Pmem.c105_bytes",
    "NRK.Mem.Pmem.c105_some",
    "NRK.Mem.Pmem.c105_not_mapped",
    "NRK.Mem.Pmem.c105_none"
   ],
   "note": "all regions and NUMA ranges that do not overlap, for any sorting function. False of the code, as c105_not_mapped shows in general: regions that start at 0, contain 0xfee00000 or end there are given to the manager but not mapped"
  },
  {
   "property": "C106",
   "status": "partial",
   "theorems": [
    "NRK.Cpu.Seg.c106_in",
    "NRK.Cpu.Seg.c106_code_partial",
    "NRK.Cpu.Seg.c106_int",
    "NRK.Cpu.Seg.c106_iretq",
    "NRK.Cpu.Seg.c106_syscall",
    "NRK.Cpu.Seg.c106_flags",
    "NRK.Cpu.Seg.c106_sysret",
    "NRK.Cpu.Seg.c106_star_old",
    "NRK.Cpu.Seg.c106_tss",
    "NRK.Cpu.c106_int_frame",
    "NRK.Cpu.c106_int_back",
    "NRK.Cpu.c106_selectors",
    "NRK.Cpu.c106_shutdown",
    "NRK.Cpu.c106_fixed_stack"
   ],
   "note": "all vectors, sources, privileges, flags and task state addresses. False of the code for `int` with vectors of exceptions that have an error code (c106_int, c106_int_frame, c106_int_back: the kernel's view of the program is one word off), for the selectors after sysretq (c106_sysret: swapped) and for other old contents of IA32_STAR (c106_star_old). How the x86 crate packs descriptors is not modelled"
  },
  {
   "property": "C11",
   "status": "partial",
   "theorems": [
    "NRK.Fs.c11_crash_iff_partial",
    "NRK.Fs.c11_append_after_delete_crashes",
    "NRK.Fs.c11_info_on_root_crashes"
   ],
   "note": "the property is false of the code; exact characterisation of the crashing calls is proved"
  },
  {
   "property": "C12",
   "status": "proved",
   "theorems": [
    "NRK.Nr.c12_replicas_agree",
    "NRK.Nr.c12_write_responses"
   ],
   "note": "Any object, any number of replicas and threads, all interleavings of the log protocol. Operations are functions of the state (determinism of allocation is C25)."
  },
  {
   "property": "C13",
   "status": "proved",
   "theorems": [
    "NRK.Nr.c13_linearizable",
    "NRK.Nr.c13_read_sees_completed_writes"
   ],
   "note": "Completed-tail reads; sequentially consistent interleavings."
  },
  {
   "property": "C14",
   "status": "partial",
   "theorems": [
    "NRK.Fs.c14_replays_agree_partial",
    "NRK.Fs.c14_disjoint_ops_commute_partial",
    "NRK.Fs.c14_read_unaffected_by_other_logs_partial",
    "NRK.Fs.c14_other_processes_keep_fresh",
    "NRK.Fs.c14_stale_writes_diverge"
   ],
   "note": "False in general: the inode number that selects the log is looked up in an earlier operation and can be stale (witness proved). Proved whenever it is fresh."
  },
  {
   "property": "C15",
   "status": "partial",
   "theorems": [
    "NRK.Fs.c15_reads_change_nothing_partial",
    "NRK.Fs.c15_implicit_read_changes_only_offset",
    "NRK.Fs.c15_implicit_reads_make_replicas_diverge"
   ],
   "note": "False for reads at the descriptor's own offset (witness proved); proved for all other read operations."
  },
  {
   "property": "C16",
   "status": "partial",
   "theorems": [
    "NRK.Sync.FsRw.c16_exclusion_partial",
    "NRK.Sync.FsRw.c16_writers_exclude_each_other",
    "NRK.Sync.FsRw.c16_read_unlock_never_panics",
    "NRK.Sync.FsRw.c16_released",
    "NRK.Sync.FsRw.c16_reader_on_other_node_not_excluded",
    "NRK.Sync.FsRw.c16_write_unlock_may_panic"
   ],
   "note": "False on machines with several NUMA nodes (witness proved for every node size): the writer checks only one node's worth of reader slots. Proved when all readers' slots are checked."
  },
  {
   "property": "C17",
   "status": "proved",
   "theorems": [
    "NRK.Sync.Mpmc.c17_exactly_once_fifo",
    "NRK.Sync.Mpmc.c17_fifo_real_time",
    "NRK.Sync.Mpmc.c17_quiescent"
   ],
   "note": "any capacity >= 2, any number of threads, sequentially consistent interleavings, positions not wrapping"
  },
  {
   "property": "C18",
   "status": "partial",
   "theorems": [
    "NRK.Sync.Mpmc.c18_capacity",
    "NRK.Sync.Mpmc.c18_never_over_capacity",
    "NRK.Sync.Mpmc.c18_full_only_if_partial",
    "NRK.Sync.Mpmc.c18_empty_only_if_partial",
    "NRK.Sync.Mpmc.c18_full_exact_when_alone",
    "NRK.Sync.Mpmc.c18_full_while_empty"
   ],
   "note": "The strict form (full only when full) is false of the algorithm while a pop is in progress (witness proved); exact conditions proved."
  },
  {
   "property": "C19",
   "status": "proved",
   "theorems": [
    "NRK.Rpc.c19_message_intact",
    "NRK.Rpc.c19_send_panics_iff",
    "NRK.Rpc.c19_recv_panics_iff",
    "NRK.Rpc.c19_delivery",
    "NRK.Rpc.c19_empty_send_is_dropped"
   ],
   "note": "exact panic conditions are part of the result; last theorem is a finding about zero-length sends"
  },
  {
   "property": "C20",
   "status": "proved",
   "theorems": [
    "NRK.Mem.c20_split_at",
    "NRK.Mem.c20_split_at_panics",
    "NRK.Mem.c20_split_at_large_boundary",
    "NRK.Mem.c20_pages"
   ],
   "note": "all frames, sizes and split points; misaligned split panics, proved as such"
  },
  {
   "property": "C21",
   "status": "proved",
   "theorems": [
    "NRK.Mem.c21_conservation",
    "NRK.Mem.c21_never_twice",
    "NRK.Mem.c21_hands_out",
    "NRK.Mem.c21_alloc_exact",
    "NRK.Mem.c21_release_exact",
    "NRK.Mem.c21_refill",
    "NRK.Mem.c21_grow_own_node",
    "NRK.Mem.c21_rackscale_relabels",
    "NRK.Mem.c21_free"
   ],
   "note": "any history of cache operations; last theorem is a finding: the rackscale grow path changes the node a page is labelled with"
  },
  {
   "property": "C22",
   "status": "proved",
   "theorems": [
    "NRK.Mem.c22_populate",
    "NRK.Mem.c22_populate_complete",
    "NRK.Mem.c22_entry_points",
    "NRK.Mem.c22_populate_keeps_disjoint",
    "NRK.Mem.c22_populate_wf",
    "NRK.Mem.c22_early_cache_debug_panic"
   ],
   "note": "last theorem is a finding: the debug assertion of the 4 KiB-first entry point fails for the early cache in debug builds"
  },
  {
   "property": "C23",
   "status": "proved",
   "theorems": [
    "NRK.Mem.c23_size_to_pages",
    "NRK.Mem.c23_refill_amount",
    "NRK.Mem.c23_map_big",
    "NRK.Mem.c23_map_bigs_disjoint",
    "NRK.Mem.c23_big_allocation",
    "NRK.Mem.c23_too_big_panics"
   ],
   "note": "requests above 128 large pages panic (finding, exact bound proved)"
  },
  {
   "property": "C24",
   "status": "proved",
   "theorems": [
    "NRK.Mem.c24_allocation",
    "NRK.Mem.c24_base_page",
    "NRK.Mem.c24_disjoint"
   ],
   "note": ""
  },
  {
   "property": "C25",
   "status": "partial",
   "theorems": [
    "NRK.Mem.Det.c25_same_outcome_partial",
    "NRK.Mem.Det.c25_queue_length_partial",
    "NRK.Mem.Det.c25_overflow_step_partial",
    "NRK.Mem.Det.c25_overflow_partial",
    "NRK.Mem.Det.c25_lag_panics",
    "NRK.Mem.Det.c25_failure_diverges",
    "NRK.Mem.Det.c25_failure_desynchronises"
   ],
   "note": "False when an allocation fails (witnesses proved); proved when every allocation succeeds. A replica that falls behind by more requests than a queue has places ends the kernel (c25_lag_panics), and only then (c25_overflow_step_partial)"
  },
  {
   "property": "C26",
   "status": "proved",
   "theorems": [
    "NRK.Mem.c26_switch",
    "NRK.Mem.c26_invalid",
    "NRK.Mem.c26_current",
    "NRK.Mem.c26_no_memory_lost"
   ],
   "note": ""
  },
  {
   "property": "C27",
   "status": "partial",
   "theorems": [
    "NRK.Mem.c27_heaps_disjoint",
    "NRK.Mem.c27_pages_stay_in_region_partial",
    "NRK.Mem.c27_crosses_region"
   ],
   "note": "Heaps never overlap provided the kernel refuses overlapping maps; staying in the region is false for the last allocation (witness proved)"
  },
  {
   "property": "C28",
   "status": "partial",
   "theorems": [
    "NRK.VSpace.c28_page_table_exact",
    "NRK.VSpace.c28_map_exact",
    "NRK.VSpace.c28_map_reachable_partial",
    "NRK.VSpace.c28_map_succeeds",
    "NRK.VSpace.c28_larger_remap_ignored",
    "NRK.VSpace.c28_leftover_table_panics"
   ],
   "note": "Exact for every fresh base (any frame size); false when a large frame is mapped over a base page with the same base, frame and rights (witness proved)"
  },
  {
   "property": "C29",
   "status": "partial",
   "theorems": [
    "NRK.VSpace.c29_unmap_exact",
    "NRK.VSpace.c29_unmap_fails",
    "NRK.VSpace.c29_map_unmap",
    "NRK.VSpace.c29_pages_4k",
    "NRK.VSpace.c29_two_page_frame"
   ],
   "note": "Proved for frames of one page without the feature pages-4k; false otherwise (witnesses proved)"
  },
  {
   "property": "C30",
   "status": "partial",
   "theorems": [
    "NRK.VSpace.c30_adjust_exact",
    "NRK.VSpace.c30_adjust_fails",
    "NRK.VSpace.c30_two_page_frame"
   ],
   "note": "Proved for frames of one page; for longer frames adjust fails after changing a page (witness proved)"
  },
  {
   "property": "C31",
   "status": "partial",
   "theorems": [
    "NRK.VSpace.c31_error_changes_nothing",
    "NRK.VSpace.c31_overlap_refused",
    "NRK.VSpace.c31_decision",
    "NRK.VSpace.c31_map_frames_not_atomic",
    "NRK.VSpace.c31_overlap_refused_any_partial",
    "NRK.VSpace.c31_recorded_apart",
    "NRK.VSpace.c31_remains",
    "NRK.VSpace.c31_any_sample"
   ],
   "note": "map_frame: refused maps change nothing (any state); map_frames is not atomic (witness proved); overlap refused for histories of one-page frames, and for frames of any size if nothing was unmapped; recorded mappings never overlap in any history; after unmapping a multi-page frame its later pages still translate and mapping there panics instead of being refused (witness proved)"
  },
  {
   "property": "C32",
   "status": "partial",
   "theorems": [
    "NRK.VSpace.c32_entry_roundtrip",
    "NRK.VSpace.c32_entry_exists",
    "NRK.VSpace.c32_hardware_rights",
    "NRK.VSpace.c32_table_entries",
    "NRK.VSpace.c32_page_bit",
    "NRK.VSpace.c32_decode",
    "NRK.VSpace.c32_roundtrip_partial",
    "NRK.VSpace.c32_no_cache_is_lost",
    "NRK.VSpace.c32_accessed_dirty",
    "NRK.VSpace.c32_or"
   ],
   "note": "Read, write, execute, user and kernel rights round-trip at every level; the cache-disable attribute is lost by the encoding (witness proved)"
  },
  {
   "property": "C33",
   "status": "proved",
   "theorems": [
    "NRK.Proc.c33_empty",
    "NRK.Proc.c33_set",
    "NRK.Proc.c33_set_out_of_range",
    "NRK.Proc.c33_is_empty",
    "NRK.Proc.c33_iterate",
    "NRK.Proc.c33_add_then_iterate"
   ],
   "note": ""
  },
  {
   "property": "C34",
   "status": "proved",
   "theorems": [
    "NRK.Proc.c34_roundtrip",
    "NRK.Proc.c34_injective",
    "NRK.Proc.c34_value",
    "NRK.Proc.c34_surjective",
    "NRK.Proc.c34_bound_sharp"
   ],
   "note": ""
  },
  {
   "property": "C35",
   "status": "proved",
   "theorems": [
    "NRK.Proc.c35_allocate",
    "NRK.Proc.c35_free",
    "NRK.Proc.c35_unique"
   ],
   "note": ""
  },
  {
   "property": "C36",
   "status": "proved",
   "theorems": [
    "NRK.Proc.c36_allocate",
    "NRK.Proc.c36_release",
    "NRK.Proc.c36_query",
    "NRK.Proc.c36_failure_changes_nothing",
    "NRK.Proc.c36_exclusive"
   ],
   "note": ""
  },
  {
   "property": "C37",
   "status": "partial",
   "theorems": [
    "NRK.Proc.c37_cores_live_partial",
    "NRK.Proc.c37_cores_survive",
    "NRK.Proc.c37_no_such_process"
   ],
   "note": "False as stated: freeing a pid keeps its cores (witness proved); proved if every core is released before its process is freed and only live processes are given cores"
  },
  {
   "property": "C38",
   "status": "partial",
   "theorems": [
    "NRK.Proc.c38_release_unmapped",
    "NRK.Proc.c38_release_succeeds_partial",
    "NRK.Proc.c38_register",
    "NRK.Proc.c38_failed_map_leaks",
    "NRK.Proc.c38_remap_leaks",
    "NRK.Proc.c38_device_not_counted",
    "NRK.Proc.c38_pages_4k"
   ],
   "note": "Release only when not mapped is proved; that an unmapped frame can be released holds only if no map of it failed or was repeated (witnesses proved)"
  },
  {
   "property": "C39",
   "status": "proved",
   "theorems": [
    "NRK.Proc.c39_shootdown",
    "NRK.Proc.c39_unmap_ok"
   ],
   "note": "any history of process operations"
  },
  {
   "property": "C40",
   "status": "partial",
   "theorems": [
    "NRK.Proc.c40_unique_ids",
    "NRK.Proc.c40_inside_donation",
    "NRK.Proc.c40_disjoint_partial",
    "NRK.Proc.c40_layout",
    "NRK.Proc.c40_donation",
    "NRK.Proc.c40_affinity",
    "NRK.Proc.c40_nodes",
    "NRK.Proc.c40_apart",
    "NRK.Proc.c40_overlap"
   ],
   "note": "Disjoint regions proved if memory does not run out while executors are made; otherwise they may overlap (witness proved)"
  },
  {
   "property": "C41",
   "status": "proved",
   "theorems": [
    "NRK.Proc.c41_accepted_iff",
    "NRK.Proc.c41_subslice"
   ],
   "note": ""
  },
  {
   "property": "C42",
   "status": "partial",
   "theorems": [
    "NRK.Proc.c42_read",
    "NRK.Proc.c42_read_succeeds",
    "NRK.Proc.c42_read_no_fault",
    "NRK.Proc.c42_write_partial",
    "NRK.Proc.c42_write_succeeds",
    "NRK.Proc.c42_write_at",
    "NRK.Proc.c42_write_readonly",
    "NRK.Proc.c42_no_current_process"
   ],
   "note": "Reads proved in full; a write to a read-only buffer is not refused: the kernel faults or changes the page (witness proved)"
  },
  {
   "property": "C43",
   "status": "partial",
   "theorems": [
    "NRK.Tlb.c43_one_replica_partial",
    "NRK.Tlb.c43_after_return_partial",
    "NRK.Tlb.c43_two_replicas",
    "NRK.Tlb.c43_queue_full_hangs",
    "NRK.Tlb.c43_acknowledged_before_flush"
   ],
   "note": "Proved for any number of cores on one page-table replica, any interleaving; false with two replicas, and a full queue makes the call hang (witnesses proved). The protocol between machines is C68"
  },
  {
   "property": "C44",
   "status": "partial",
   "theorems": [
    "NRK.Tlb.c44_exact_partial",
    "NRK.Tlb.c44_only_targets",
    "NRK.Tlb.c44_reaches_partial",
    "NRK.Tlb.c44_total",
    "NRK.Tlb.c44_no_interrupt"
   ],
   "note": "Exact characterisation proved; false of the code when every target of a cluster has an address of four or more (proved for all such sets)"
  },
  {
   "property": "C45",
   "status": "proved",
   "theorems": [
    "NRK.Rpc.c45_dispatch",
    "NRK.Rpc.c45_try_handle",
    "NRK.Rpc.c45_register",
    "NRK.Rpc.c45_first_registration_wins",
    "NRK.Rpc.c45_call_roundtrip"
   ],
   "note": ""
  },
  {
   "property": "C46",
   "status": "partial",
   "theorems": [
    "NRK.Rpc.c46_answered_iff_partial",
    "NRK.Rpc.c46_unknown_type_not_answered"
   ],
   "note": "the code answers only requests whose handler exists, succeeds and fits; the second theorem proves the negation for unknown types"
  },
  {
   "property": "C47",
   "status": "proved",
   "theorems": [
    "NRK.Rack.c47_claimed",
    "NRK.Rack.c47_claim",
    "NRK.Rack.c47_across_machines",
    "NRK.Rack.c47_released_threads_are_lost",
    "NRK.Rack.c47_second_registration",
    "NRK.Rack.c47_registers"
   ],
   "note": "any history in which a machine registers once (it does so at boot); findings proved: released threads are never given out again, and a second registration gives threads out twice"
  },
  {
   "property": "C48",
   "status": "partial",
   "theorems": [
    "NRK.Rack.Dcm.c48_result_partial",
    "NRK.Rack.Dcm.c48_progress_partial",
    "NRK.Rack.Dcm.c48_terminates_partial",
    "NRK.Rack.Dcm.c48_two_early_hangs",
    "NRK.Rack.Dcm.c48_second_early_hangs",
    "NRK.Rack.Dcm.c48_other_request_hangs"
   ],
   "note": "Proved for any number of concurrent requests and any arrival order if no assignment arrives before its request is in the table, except for the first id of a request for two or more; otherwise requests hang (witnesses proved)"
  },
  {
   "property": "C49",
   "status": "partial",
   "theorems": [
    "NRK.Lineup.c49_exclusive_partial",
    "NRK.Lineup.c49_owner_alone_partial",
    "NRK.Lineup.c49_no_waiter_lost_partial",
    "NRK.Lineup.c49_next_admitted_partial",
    "NRK.Lineup.c49_try_false_partial",
    "NRK.Lineup.c49_no_panic_partial",
    "NRK.Lineup.c49_timed_wait_two_owners",
    "NRK.Lineup.c49_try_enter_waits",
    "NRK.Lineup.c49_plain_mutex_panics",
    "NRK.Lineup.c49_list_full"
   ],
   "note": "Any number of threads, any interleaving, without timed waits. With timed waits the property is false: two threads can own the mutex (witness proved); try_enter can wait, a mutex made by Mutex::new panics, and more waiters than the wait list holds panic (witnesses proved)"
  },
  {
   "property": "C50",
   "status": "proved",
   "theorems": [
    "NRK.Lineup.Rw.c50_writer_alone",
    "NRK.Lineup.Rw.c50_held",
    "NRK.Lineup.Rw.c50_upgrade",
    "NRK.Lineup.Rw.c50_progress",
    "NRK.Lineup.Rw.c50_panic_only_in_try_enter",
    "NRK.Lineup.Rw.c50_try_enter_panics"
   ],
   "note": "Any number of threads, any interleaving; the two mutexes inside the lock are taken as locks (C49, no timed waits). Finding proved: try_enter panics when the caller was the first reader and has left"
  },
  {
   "property": "C51",
   "status": "partial",
   "theorems": [
    "NRK.Lineup.Sem.c51_one_consumer_partial",
    "NRK.Lineup.Sem.c51_bound_partial",
    "NRK.Lineup.Sem.c51_no_up",
    "NRK.Lineup.Sem.c51_blocks_partial",
    "NRK.Lineup.Sem.c51_does_not_block",
    "NRK.Lineup.Sem.c51_no_waiter_lost",
    "NRK.Lineup.Sem.c51_two_downs_for_one_up",
    "NRK.Lineup.Sem.c51_permits_lost"
   ],
   "note": "False of the code with several consumers: two downs complete for one up, and permits are lost (witnesses proved). Proved: the bound for one consumer and any number of producers, a weaker bound for any number of consumers, when a down blocks, and that no waiter is lost"
  },
  {
   "property": "C52",
   "status": "partial",
   "theorems": [
    "NRK.Lineup.c52_signal_partial",
    "NRK.Lineup.c52_broadcast_partial",
    "NRK.Lineup.c52_only_woken_partial",
    "NRK.Lineup.c52_returns_owning_partial",
    "NRK.Lineup.c52_timed_wait_takes_signal"
   ],
   "note": "Any number of threads, any interleaving, without timed waits. A timed wait that has run out can still take a signal meant for another (witness proved)"
  },
  {
   "property": "C53",
   "status": "partial",
   "theorems": [
    "NRK.Lineup.Sched.c53_check",
    "NRK.Lineup.Sched.c53_sleeps_until",
    "NRK.Lineup.Sched.c53_asleep_partial",
    "NRK.Lineup.Sched.waiting_sorted",
    "NRK.Lineup.Sched.c53_sleep_cut_short"
   ],
   "note": "The check and the list of sleeping threads: proved for any history. That a sleeping thread does not run: for threads that are not made runnable while they run or are queued; otherwise a sleep can be cut short (witness proved)"
  },
  {
   "property": "C54",
   "status": "partial",
   "theorems": [
    "NRK.Lineup.Sched.c54_no_panic_partial",
    "NRK.Lineup.Sched.c54_own_core_partial",
    "NRK.Lineup.Sched.c54_runs_once_partial",
    "NRK.Lineup.Sched.c54_stays_queued_partial",
    "NRK.Lineup.Sched.c54_round_robin_partial",
    "NRK.Lineup.Sched.c54_runs_on",
    "NRK.Lineup.Sched.c54_join_partial",
    "NRK.Lineup.Sched.c54_join_terminated",
    "NRK.Lineup.Sched.c54_new_thread_is_fresh",
    "NRK.Lineup.Sched.c54_core_index",
    "NRK.Lineup.Sched.c54_stale_timer_panics",
    "NRK.Lineup.Sched.c54_woken_joiner_panics",
    "NRK.Lineup.Sched.c54_interrupt_on_other_core",
    "NRK.Lineup.Sched.c54_interrupt_panics",
    "NRK.Lineup.Sched.c54_self_join_forever",
    "NRK.Lineup.Sched.c54_limit_off_by_one",
    "NRK.Lineup.Sched.c54_core_index_clash",
    "NRK.Lineup.Sched.c54_spawn",
    "NRK.Lineup.Sched.c54_core_index_bound",
    "NRK.Lineup.Sched.c54_core_index_out_of_bounds"
   ],
   "note": "Any number of cores and threads, any history of well-behaved threads (Calm); for others the scheduler panics, and interrupts run threads on the wrong core (witnesses proved)"
  },
  {
   "property": "C55",
   "status": "proved",
   "theorems": [
    "NRK.Sys.c55_numbers",
    "NRK.Sys.c55_unknown",
    "NRK.Sys.c55_registers",
    "NRK.Sys.c55_delivered",
    "NRK.Sys.c55_rejected",
    "NRK.Sys.c55_means_one",
    "NRK.Sys.c55_test",
    "NRK.Sys.c55_undeclared_clobber",
    "NRK.Sys.c55_wrong_error",
    "NRK.Sys.c55_test_overflow",
    "NRK.Sys.c55_empty_read",
    "NRK.Sys.c55_unmap_length",
    "NRK.Sys.c55_affinity_unset",
    "NRK.Sys.c55_irqalloc_error"
   ],
   "note": "All 64-bit numbers and registers; any handlers. From the user library's call to the handler and back. Findings proved: undeclared clobbered registers, unknown file and system operations get InternalError instead of the error for them, and five calls whose library wrapper disagrees with the kernel"
  },
  {
   "property": "C56",
   "status": "proved",
   "theorems": [
    "NRK.Sys.Cmd.c56_parse",
    "NRK.Sys.Cmd.c56_says_one",
    "NRK.Sys.Cmd.c56_stray_value",
    "NRK.Sys.Cmd.c56_stray_equals",
    "NRK.Sys.Cmd.c56_bad_token",
    "NRK.Sys.Cmd.c56_number",
    "NRK.Sys.Cmd.c56_not_a_number",
    "NRK.Sys.Cmd.c56_modes",
    "NRK.Sys.Cmd.c56_quoted_mode",
    "NRK.Sys.Cmd.c56_keyword_value",
    "NRK.Sys.Cmd.c56_quoted_stray",
    "NRK.Sys.Cmd.c56_bad_values"
   ],
   "note": "All lists of settings, at the level of tokens (the lexer is generated and not modelled). Findings proved: a quoted mode or transport is skipped and the next word taken for it, option names cannot be values, a stray quoted string is skipped, unreadable values become defaults"
  },
  {
   "property": "C57",
   "status": "proved",
   "theorems": [
    "NRK.Mem.c57_global_memory",
    "NRK.Mem.c57_boot",
    "NRK.Mem.c57_no_region_lost"
   ],
   "note": "any memory map; boot failing (assertions) is outside the claim"
  },
  {
   "property": "C58",
   "status": "partial",
   "theorems": [
    "NRK.VSpace.c58_map_syscall_partial",
    "NRK.VSpace.c58_map_syscall_panics",
    "NRK.VSpace.c58_map_syscall_kernel_address"
   ],
   "note": "Proved for aligned bases, non-zero sizes and unmapped ranges; other arguments panic the kernel or reach kernel addresses (witnesses proved)"
  },
  {
   "property": "C59",
   "status": "partial",
   "theorems": [
    "NRK.Load.c59_image_partial",
    "NRK.Load.c59_image_file",
    "NRK.Load.c59_unsupported_relocation",
    "NRK.Load.c59_bss_not_zeroed",
    "NRK.Load.c59_relocation_outside_frame",
    "NRK.Load.c59_two_writable_alias",
    "NRK.Load.c59_shared_page_panics"
   ],
   "note": "Any program with read-only segments and at most one writeable one on separate large pages (what the build scripts produce), any number of replicas, any memory. Full statement is false: memory after the file bytes is not zeroed, relocations at a page boundary are also stored outside, further writeable segments alias, shared pages panic (all proved)"
  },
  {
   "property": "C60",
   "status": "partial",
   "theorems": [
    "NRK.Rack.Remote.c60_remote_is_local_partial",
    "NRK.Rack.Remote.c60_history_partial",
    "NRK.Rack.Remote.c60_sample",
    "NRK.Rack.Remote.c60_too_long_panics",
    "NRK.Rack.Remote.c60_long_write",
    "NRK.Rack.Remote.c60_error_values"
   ],
   "note": "All calls whose request fits a queue entry (8188 bytes) and reads of at most 8192 bytes, any number of clients, any history: results, errors, read bytes and controller file system are those of local calls. Full statement is false: longer calls panic the client (proved)"
  },
  {
   "property": "C61",
   "status": "partial",
   "theorems": [
    "NRK.Machine.c61_no_sharing_partial",
    "NRK.Machine.c61_not_kernel_partial",
    "NRK.Machine.c61_own_aliases_partial",
    "NRK.Machine.c61_contents_partial",
    "NRK.Machine.c61_fresh_zero_partial",
    "NRK.Machine.c61_allocated_not_cleared",
    "NRK.Machine.c61_device_memory",
    "NRK.Machine.c61_release_elsewhere_panics"
   ],
   "note": "Every interleaving of the steps of the memory system calls on any number of cores, processes and nodes, without map_device and without the pages-4k build. Full statement is false: allocated physical pages keep old contents, map_device maps any memory, releasing on another node's core panics (all proved)"
  },
  {
   "property": "C62",
   "status": "partial",
   "theorems": [
    "NRK.Machine.c62_allocate",
    "NRK.Machine.c62_release_partial",
    "NRK.Machine.c62_round_trip",
    "NRK.Machine.c62_release_panics",
    "NRK.Machine.c62_page_lost",
    "NRK.Machine.c62_fails_with_free_pages"
   ],
   "note": "All cache and table states, without interference (with interference: C61). Full statement is false: a page is lost when no identifier is free, the call fails with free pages in the core's own cache, and releases panic on cores of other nodes or when both caches are full (all proved)"
  },
  {
   "property": "C63",
   "status": "partial",
   "theorems": [
    "NRK.Heap.c63_objects",
    "NRK.Heap.c63_alloc",
    "NRK.Heap.c63_alloc_no_panic",
    "NRK.Heap.c63_page_null_iff",
    "NRK.Heap.c63_small_null_iff",
    "NRK.Heap.c63_big_backed",
    "NRK.Heap.c63_realloc",
    "NRK.Heap.c63_dealloc",
    "NRK.Heap.c63_conserved",
    "NRK.Heap.c63_reuse",
    "NRK.Heap.c63_shrink_then_free",
    "NRK.Heap.c63_big_never_freed",
    "NRK.Heap.c63_alignment_ignored",
    "NRK.Heap.c63_full_cache_free_panics",
    "NRK.Heap.c63_shrink_witness",
    "NRK.Heap.c63_alignment_witness",
    "NRK.Heap.c63_overaligned_null",
    "NRK.Heap.real_ok"
   ],
   "note": "All histories on one core, alignments of up to a large page, slabmalloc represented by its contract. Full statement is false: freeing a large page with a full core cache panics, objects shrunk in place are freed into the wrong size class, objects above 2 MiB are never returned, larger alignments are ignored or yield null (all proved)"
  },
  {
   "property": "C64",
   "status": "partial",
   "theorems": [
    "NRK.Rack.Remote.c64_distinct",
    "NRK.Rack.Remote.c64_owner",
    "NRK.Rack.Remote.c64_request",
    "NRK.Rack.Remote.c64_release_partial",
    "NRK.Rack.Remote.c64_release_is_request",
    "NRK.Rack.Remote.c64_release_gives_another_core",
    "NRK.Rack.Remote.c64_release_run",
    "NRK.Rack.Remote.c64_release_crashes",
    "NRK.Rack.Remote.c64_crash_sample"
   ],
   "note": "All histories that did not crash the controller. Full statement is false: the release message is registered with the request handler, so a release gives the process another core or crashes the controller, and released threads are never given out again (all proved)"
  },
  {
   "property": "C65",
   "status": "partial",
   "theorems": [
    "NRK.Rack.Remote.c65_disjoint_partial",
    "NRK.Rack.Remote.c65_allocate_ok",
    "NRK.Rack.Remote.c65_release_ok",
    "NRK.Rack.Remote.c65_allocate",
    "NRK.Rack.Remote.c65_release",
    "NRK.Rack.Remote.c65_refused_page_lost",
    "NRK.Rack.Remote.c65_large_request_overlaps",
    "NRK.Rack.Remote.c65_odd_size_crashes",
    "NRK.Rack.Remote.c65_sample",
    "NRK.Rack.Remote.pageRack_hist"
   ],
   "note": "All histories with sizes of at most 2 MiB. Full statement is false: larger sizes give overlapping frames, sizes that are not whole pages crash the client, and a page is lost when the table of the process is full (all proved)"
  },
  {
   "property": "C66",
   "status": "partial",
   "theorems": [
    "NRK.Rack.Remote.c66_map_partial",
    "NRK.Rack.Remote.c66_disjoint",
    "NRK.Rack.Remote.c66_crashes",
    "NRK.Rack.Remote.c66_gigabyte_crashes",
    "NRK.Rack.Remote.c66_zero_size_crashes",
    "NRK.Rack.Remote.c66_remap_crashes",
    "NRK.Rack.Remote.c66_kept_page_not_zeroed",
    "NRK.Rack.Remote.c66_leak",
    "NRK.Rack.Remote.c66_sample",
    "NRK.Rack.Remote.memRack_hist"
   ],
   "note": "All histories with allocations of at most 2 MiB (see C65); pages from a machine are zeroed. Full statement is false: base pages that the client kept are not zeroed, so a process reads what another one wrote; mapping nothing, 1 GiB or more, an unaligned or mapped address, or more than the chosen machines have crashes a kernel (all proved)"
  },
  {
   "property": "C67",
   "status": "partial",
   "theorems": [
    "NRK.Rack.Remote.c67_refill_partial",
    "NRK.Rack.Remote.c67_kernel_request",
    "NRK.Rack.Remote.c67_controller",
    "NRK.Rack.Remote.c66_disjoint",
    "NRK.Rack.Remote.Refilled.ready",
    "NRK.Rack.Remote.c67_refused",
    "NRK.Rack.Remote.c67_nothing_crashes",
    "NRK.Rack.Remote.c67_request_crashes",
    "NRK.Rack.Remote.c67_other_machine_crashes",
    "NRK.Rack.Remote.c67_other_machine_mixed",
    "NRK.Rack.Remote.c67_sample",
    "NRK.Rack.Remote.c67_defects_sample"
   ],
   "note": "Accepted requests for memory of the own machine (clients) or of another machine (controller): exact. Full statement is false: a refusal leaves the core on the local node; a refill with a full cache or of no page, of the controller's own memory when base pages are missing, or when the machine has no page left crashes; a client that uses another machine's memory gets its own pages (all proved)"
  },
  {
   "property": "C68",
   "status": "partial",
   "theorems": [
    "NRK.Tlb.Rack.c68_flushed",
    "NRK.Tlb.Rack.c68_after_return_partial",
    "NRK.Tlb.Rack.c68_one_replica_partial",
    "NRK.Tlb.Rack.c68_request_kept",
    "NRK.Tlb.Rack.c68_local_request_kept",
    "NRK.Tlb.Rack.c68_dead",
    "NRK.Tlb.Rack.c68_sample",
    "NRK.Tlb.Rack.c68_two_machines",
    "NRK.Tlb.Rack.c68_full_queue"
   ],
   "note": "Every core's translation from before the unmap is gone or being flushed when the call returns (any interleaving); nothing stale at all if all cores share one replica. False in general: every client has its own replica and can read the removed translation again; one request more than the remote queue holds panics inside the call"
  },
  {
   "property": "C69",
   "status": "partial",
   "theorems": [
    "NRK.Tlb.Ipi.c69_order",
    "NRK.Tlb.Ipi.c69_left",
    "NRK.Tlb.Ipi.c69_done_partial",
    "NRK.Tlb.Ipi.c69_taken",
    "NRK.Tlb.Ipi.c69_stuck",
    "NRK.Tlb.Ipi.c69_merged"
   ],
   "note": "Order and exact number of undone requests for every history; false when two requests come while one interrupt waits: the handler takes one item per interrupt"
  },
  {
   "property": "C70",
   "status": "partial",
   "theorems": [
    "NRK.Cpu.c70_entry",
    "NRK.Cpu.c70_continues_partial",
    "NRK.Cpu.c70_which",
    "NRK.Cpu.c70_sysret",
    "NRK.Cpu.c70_corrupted",
    "NRK.Cpu.c70_debugger",
    "NRK.Cpu.c70_fatal",
    "NRK.Cpu.c70_kernel_entry",
    "NRK.Cpu.c70_kernel_debug",
    "NRK.Cpu.c70_kernel_breakpoint",
    "NRK.Cpu.c70_kernel_sample",
    "NRK.Cpu.c70_sample"
   ],
   "note": "Exact for all interrupts that end in iret_restore (which ones: c70_which), instruction by instruction. False for debug exceptions and for interrupts while upcalls are off (rcx, r11 and flags change), and for the debugger's serial line (the program continues in kernel mode); other faults of a program end the kernel"
  },
  {
   "property": "C71",
   "status": "partial",
   "theorems": [
    "NRK.Cpu.c71_handler",
    "NRK.Cpu.c71_sysret",
    "NRK.Cpu.c71_resume",
    "NRK.Cpu.c71_there_and_back",
    "NRK.Cpu.c71_round_partial",
    "NRK.Cpu.c71_all_delivered_partial",
    "NRK.Cpu.c71_lost",
    "NRK.Cpu.c71_off_for_ever",
    "NRK.Cpu.c71_context_lost",
    "NRK.Cpu.c71_lost_sample"
   ],
   "note": "Delivered exactly and context restored for any sequence of interrupts that do not meet. False otherwise: interrupts while upcalls are off are forgotten; one in resume turns upcalls off for good, or (program without pc_disabled window) destroys the saved context"
  },
  {
   "property": "C72",
   "status": "partial",
   "theorems": [
    "NRK.Cpu.c72_stacks_partial",
    "NRK.Cpu.c72_apart_partial",
    "NRK.Cpu.c72_debug_shared",
    "NRK.Cpu.c72_sample"
   ],
   "note": "Proved for interrupt, fault and system call stack, for every heap; false for the debug stack, which is freed during set-up and becomes the system call stack"
  },
  {
   "property": "C73",
   "status": "partial",
   "theorems": [
    "NRK.Rpc.Tcp.c73_delivered_partial",
    "NRK.Rpc.Tcp.c73_fitting",
    "NRK.Rpc.Tcp.c73_try",
    "NRK.Rpc.Tcp.c73_returns_partial",
    "NRK.Rpc.Tcp.c73_room",
    "NRK.Rpc.Tcp.c73_call_partial",
    "NRK.Rpc.Tcp.c73_sample",
    "NRK.Rpc.Tcp.c73_call_sample",
    "NRK.Rpc.Tcp.c73_out_of_step"
   ],
   "note": "Proved for every segmentation and schedule as long as every message fits the receiver's buffers; a message that does not fit is reported but left on the connection, and its payload is then taken for messages (witness proved)"
  },
  {
   "property": "C74",
   "status": "partial",
   "theorems": [
    "NRK.Net.c74_sent_partial",
    "NRK.Net.c74_returned_partial",
    "NRK.Net.c74_no_panic_partial",
    "NRK.Net.c74_refused",
    "NRK.Net.c74_completes_partial",
    "NRK.Net.c74_flush",
    "NRK.Net.c74_drains_partial",
    "NRK.Net.c74_drained_partial",
    "NRK.Net.c74_burst",
    "NRK.Net.c74_sample",
    "NRK.Net.c74_sizes",
    "NRK.Net.c74_empty_chain",
    "NRK.Net.c74_coalesced",
    "NRK.Net.c74_long_segment",
    "NRK.Net.c74_odd_size"
   ],
   "note": "Proved for rings whose size is a power of two, chains of 1..n-1 segments below 16384 bytes and a card that reports every frame; witnesses show that it fails for other sizes, empty chains, longer segments and a card that reports only the frames it was asked to"
  },
  {
   "property": "C75",
   "status": "partial",
   "theorems": [
    "NRK.Net.c75_received_partial",
    "NRK.Net.c75_no_panic_partial",
    "NRK.Net.c75_available_partial",
    "NRK.Net.c75_dma_partial",
    "NRK.Net.c75_ready_partial",
    "NRK.Net.c75_phy_partial",
    "NRK.Net.c75_sample",
    "NRK.Net.c75_sample_ok",
    "NRK.Net.c75_overfill",
    "NRK.Net.c75_zero",
    "NRK.Net.c75_refused"
   ],
   "note": "Proved for all ring sizes from 4 on as long as the caller keeps one chain less than the ring would hold, and for a card without packets of length 0; witnesses: the queue itself overfills the ring, a packet of length 0 stops reception, and a mix of frames of one and two pieces makes it refuse chains although it is empty"
  },
  {
   "property": "C76",
   "status": "partial",
   "theorems": [
    "NRK.Lineup.Park.c76_not_lost_partial",
    "NRK.Lineup.Park.c76_resumes",
    "NRK.Lineup.Park.c76_immediate",
    "NRK.Lineup.Park.c76_paid",
    "NRK.Lineup.Park.c76_only_unparked_partial",
    "NRK.Lineup.Park.c76_panic_iff",
    "NRK.Lineup.Park.c76_all",
    "NRK.Lineup.Park.c76_sample",
    "NRK.Lineup.Park.c76_spurious",
    "NRK.Lineup.Park.c76_unnamed",
    "NRK.Lineup.Park.c76_timed",
    "NRK.Lineup.Park.c76_exit",
    "NRK.Lineup.Park.c76_unknown"
   ],
   "note": "No lost wake-up is proved for unparks after the creation of the thread has returned (an earlier one wakes thread 0: witness); returns without an unpark are excluded only if no thread is unparked twice per park (witness: two unparks in a row); parks with a timeout, unparks of exited and of unknown threads panic (exact characterisation and witnesses)"
  },
  {
   "property": "C77",
   "status": "partial",
   "theorems": [
    "NRK.UHeap.c77_disjoint",
    "NRK.UHeap.c77_aligned",
    "NRK.UHeap.c77_mapped",
    "NRK.UHeap.c77_alloc_keeps",
    "NRK.UHeap.c77_free",
    "NRK.UHeap.c77_realloc_keeps",
    "NRK.UHeap.c77_realloc_null",
    "NRK.UHeap.c77_reuse",
    "NRK.UHeap.c77_spare_alloc",
    "NRK.UHeap.c77_spare_free",
    "NRK.UHeap.c77_served_small_partial",
    "NRK.UHeap.c77_served_mid",
    "NRK.UHeap.c77_served_big",
    "NRK.UHeap.c77_null",
    "NRK.UHeap.c77_mmap",
    "NRK.UHeap.c77_natural",
    "NRK.UHeap.ureal_ok",
    "NRK.UHeap.urun5",
    "NRK.UHeap.urun6",
    "NRK.UHeap.c77_core0_panics",
    "NRK.UHeap.c77_mid_panics",
    "NRK.UHeap.c77_neighbour_not_tried",
    "NRK.UHeap.c77_align_panics",
    "NRK.UHeap.c77_other_core_free",
    "NRK.UHeap.c77_shrink_free",
    "NRK.UHeap.c77_big_scattered",
    "NRK.UHeap.c77_mid_leak"
   ],
   "note": "Histories: objects are freed and resized on their core, shrink in place only within their size class, and are bigger than a large page only while the core's part of the address space has room (each with a witness of what happens otherwise). False: no panic (core 0, objects above 128 KiB, alignments above a page), memory of objects above 128 KiB used again. slabmalloc is assumed to hand out free slots of its pages"
  },
  {
   "property": "C78",
   "status": "partial",
   "theorems": [
    "NRK.UHeap.c78_disjoint",
    "NRK.UHeap.c78_mapped",
    "NRK.UHeap.c78_aligned",
    "NRK.UHeap.c78_malloc_keeps",
    "NRK.UHeap.c78_memalign_keeps",
    "NRK.UHeap.c78_calloc",
    "NRK.UHeap.c78_free",
    "NRK.UHeap.c78_free_null",
    "NRK.UHeap.c78_realloc_keeps_partial",
    "NRK.UHeap.c78_realloc_null",
    "NRK.UHeap.c78_memalign_partial",
    "NRK.UHeap.c78_memalign_misaligned",
    "NRK.UHeap.c78_served",
    "NRK.UHeap.c78_mmap",
    "NRK.UHeap.c78_mmap_small",
    "NRK.UHeap.ureal_0",
    "NRK.UHeap.ureal_16",
    "NRK.UHeap.crun5",
    "NRK.UHeap.c78_memalign_sample",
    "NRK.UHeap.c78_shrink_free",
    "NRK.UHeap.c78_realloc_crashes",
    "NRK.UHeap.c78_calloc_overflow",
    "NRK.UHeap.c78_other_core_free"
   ],
   "note": "Proved for all histories in which objects are freed and resized on their core, and shrink in place only within their size class. False: alignments above 16 bytes (never met: c78_memalign_misaligned), free after realloc to a smaller size class panics, realloc without memory writes to address 0, calloc of too many bytes panics, mmap of a page or less panics"
  },
  {
   "property": "C79",
   "status": "partial",
   "theorems": [
    "NRK.UHeap.c79_read_partial",
    "NRK.UHeap.c79_self_partial",
    "NRK.UHeap.c79_aligned_partial",
    "NRK.UHeap.c79_apart_partial",
    "NRK.UHeap.c79_served",
    "NRK.UHeap.c79_null_crashes",
    "NRK.UHeap.c79_shift",
    "NRK.UHeap.c79_kernel_partial",
    "NRK.UHeap.c79_kernel_once",
    "NRK.UHeap.c79_kernel_panics",
    "NRK.UHeap.wt_ok",
    "NRK.UHeap.trun5",
    "NRK.UHeap.c79_unpadded",
    "NRK.UHeap.c79_tcb_unaligned"
   ],
   "note": "Proved for segments whose size is a multiple of their alignment (lld pads them so). Otherwise false: c79_shift (all variables are looked for too low), c79_unpadded (a thread reads and overwrites the control block of another). Without memory the program ends instead of an error; control blocks may be unaligned"
  },
  {
   "property": "C80",
   "status": "partial",
   "theorems": [
    "NRK.Boot.c80_boot_partial",
    "NRK.Boot.c80_text_readonly",
    "NRK.Boot.c80_text_writable",
    "NRK.Boot.c80_left_out",
    "NRK.Boot.c80_high_base",
    "NRK.Boot.c80_shared_page_panics",
    "NRK.Boot.c80_unreadable_panics",
    "NRK.Boot.c80_overwrites",
    "NRK.Boot.c80_entries_are_pages",
    "NRK.Boot.sampleKernel_good",
    "NRK.Boot.sampleMachine_good"
   ],
   "note": "Proved for every kernel whose segments are readable, on separate pages and begin at page 0, with relative relocations, and for every memory map without overlaps: the loader succeeds, every address below 2^48 is translated exactly as the specification says, and the image has the file's bytes. Missing: the loader as built (without the feature all-writable) makes code and constants writable (c80_text_writable); a kernel that does not begin at page 0 is put beyond the memory that UEFI gave (c80_high_base); segments on one page and unreadable segments are panics; regions that begin at 0 or touch 0xfee00000 are not mapped (c80_left_out); overlapping large mappings replace each other (c80_overwrites). The ELF parser and UEFI are not in the model."
  },
  {
   "property": "C81",
   "status": "partial",
   "theorems": [
    "NRK.VSpace.c81_same_results_partial",
    "NRK.VSpace.c81_one_size",
    "NRK.VSpace.c81_conflict_addresses",
    "NRK.VSpace.c81_growth_always_differs",
    "NRK.VSpace.sample81_fits",
    "NRK.VSpace.sample81_noGrowth",
    "NRK.VSpace.sample81_results",
    "NRK.VSpace.c81_growth",
    "NRK.VSpace.c81_unaligned_unmap",
    "NRK.VSpace.c81_rights",
    "NRK.VSpace.c81_other_sizes"
   ],
   "note": "Proved for all sequences with frames of one base page or one large page, rights that an entry can hold, and no request that grows an existing mapping in place; for frames of one size without the last condition. Growing requests always differ (c81_growth_always_differs): the page tables say Ok and map nothing. So do unmap of addresses within a page, other rights and other frame sizes (witnesses)."
  },
  {
   "property": "C82",
   "status": "proved",
   "theorems": [
    "NRK.Fs.c82_agree",
    "NRK.Fs.c82_exact",
    "NRK.Fs.c82_test_reads_nothing",
    "NRK.Fs.sample82_noHoles",
    "NRK.Fs.sample82_results",
    "NRK.Fs.c82_gap",
    "NRK.Fs.c82_empty_write"
   ],
   "note": "Simulation between the file system and the reference log for every sequence of calls. c82_exact: equality of everything the caller sees when no write begins behind the end of its file (sample82 meets the hypothesis). c82_gap and c82_empty_write show that the exception in c82_agree is needed. c82_test_reads_nothing: with the test's read buffers of length 0 the contents are never compared. Single-threaded, no memory exhaustion, no open handles."
  },
  {
   "property": "C83",
   "status": "partial",
   "theorems": [
    "NRK.Fs.c83_same_results_partial",
    "NRK.Fs.c83_no_panic",
    "NRK.Fs.sample83_tame",
    "NRK.Fs.sample83_results",
    "NRK.Fs.c83_append_truncate",
    "NRK.Fs.c83_append_read",
    "NRK.Fs.c83_append_deleted",
    "NRK.Fs.c83_root",
    "NRK.Fs.c83_full_table",
    "NRK.Fs.c83_test_never_appends"
   ],
   "note": "Simulation between the system calls (through FileOps and the per-process descriptor table) and ModelFIO, for every sequence that meets Tame; sample83 meets it. Each exclusion has a witness or, for the full table, a general theorem. Missing: agreement in the excluded cases, where it is false. The copy of user buffers is C41 and C42 and not repeated; one process, memory does not run out."
  },
  {
   "property": "C84",
   "status": "partial",
   "theorems": [
    "NRK.Gdb.c84_points_partial",
    "NRK.Gdb.c84_stop_partial",
    "NRK.Gdb.c84_watch_exact",
    "NRK.Gdb.c84_long_watch",
    "NRK.Gdb.c84_step",
    "NRK.Gdb.sample84_plain",
    "NRK.Gdb.sample84_results",
    "NRK.Gdb.c84_not_idempotent",
    "NRK.Gdb.c84_wrong_watchpoint",
    "NRK.Gdb.c84_stale_register",
    "NRK.Gdb.c84_one_of_two"
   ],
   "note": "Proved for every session that meets PlainSession (sample84 meets it) and every status register that reports only registers that are on. Missing, with witnesses: a point inserted twice survives one removal (c84_not_idempotent); removing a watchpoint ignores kind and length (c84_wrong_watchpoint); other lengths are watched as 8 bytes (c84_long_watch, general); a bit for a disabled register ends in a panic (c84_stale_register); of two points hit at once one is reported (c84_one_of_two). One core; the gdbstub crate and the serial line are not in the model."
  },
  {
   "property": "C85",
   "status": "partial",
   "theorems": [
    "NRK.Gdb.c85_read_partial",
    "NRK.Gdb.c85_read_panics",
    "NRK.Gdb.c85_write_partial",
    "NRK.Gdb.c85_write_panics",
    "NRK.Gdb.c85_write_back",
    "NRK.Gdb.c85_change_one",
    "NRK.Gdb.c85_st_ignores",
    "NRK.Gdb.sample85_fits",
    "NRK.Gdb.c85_st_wrong",
    "NRK.Gdb.c85_fs_lost"
   ],
   "note": "Reading and writing proved for all values that fit, and that the kernel panics exactly when they do not. Missing: the floating point stack is shown wrongly (c85_st_wrong; c85_st_ignores: the low 48 bits never matter) and not written; a change of any register sets the FS base to 0 (c85_fs_lost); cs, ss and gs are written to the save area but not used on the way back. Access to single registers is switched off in the code and not modelled."
  },
  {
   "property": "C86",
   "status": "partial",
   "theorems": [
    "NRK.Gdb.c86_read_partial",
    "NRK.Gdb.c86_write_partial",
    "NRK.Gdb.c86_write_then_read",
    "NRK.Gdb.sampleTable_lower",
    "NRK.Gdb.sample86",
    "NRK.Gdb.c86_half_written",
    "NRK.Gdb.c86_user_faults",
    "NRK.Gdb.c86_user_witness"
   ],
   "note": "Proved for every page table without mappings at non-canonical addresses and every range without user pages; sampleTable and sample86 meet the hypotheses. Missing: user pages, where every access faults in the kernel (c86_user_faults, general); a refused write can have changed the pages before (c86_half_written). Page tables are kept apart from the memory that is written."
  },
  {
   "property": "C87",
   "status": "partial",
   "theorems": [
    "NRK.Sync.Conq.c87_fifo",
    "NRK.Sync.Conq.c87_receiver_safe",
    "NRK.Sync.Conq.c87_results",
    "NRK.Sync.Conq.c87_none",
    "NRK.Sync.Conq.c87_seen",
    "NRK.Sync.Conq.c87_push",
    "NRK.Sync.Conq.c87_push_begins",
    "NRK.Sync.Conq.c87_accepted_partial",
    "NRK.Sync.Conq.c87_no_leak",
    "NRK.Sync.Conq.sample87",
    "NRK.Sync.Conq.c87_use_after_free",
    "NRK.Sync.Conq.c87_drop_leaks",
    "NRK.Sync.Conq.c87_after_close"
   ],
   "note": "Order, emptiness, the receiver's memory safety and the absence of leaks are proved for every interleaving, with arbitrary reuse of addresses and arbitrary contents of freed memory. Missing: a sender can read a node that the receiver has freed and then give up its element (c87_use_after_free), so acceptance is proved for executions without such a read. After the receiver is dropped, elements it had taken stay in memory (c87_drop_leaks) and an element can be put in front of the last node (c87_after_close). Sequentially consistent memory; the reference count of the shared cell is not modelled."
  },
  {
   "property": "C88",
   "status": "partial",
   "theorems": [
    "NRK.VSpace.c88_frees_once",
    "NRK.VSpace.c88_account",
    "NRK.VSpace.c88_no_leak_partial",
    "NRK.VSpace.c88_kernel_slots",
    "NRK.VSpace.c88_same_map",
    "NRK.VSpace.sample88",
    "NRK.VSpace.c88_leak",
    "NRK.VSpace.c88_kernel_half"
   ],
   "note": "That only the address space's own table pages are freed, each once, is proved for every history in the user half; what is not freed is exactly what larger pages pushed out of the tree (c88_account). No leak is proved for mappings below 2 MiB (sample88 meets the hypotheses); c88_leak: k rounds of map and unmap lose k pages, for every k; c88_kernel_half: tables above the kernel base are not freed"
  },
  {
   "property": "C89",
   "status": "proved",
   "theorems": [
    "NRK.Rack.Shm.c89_channels",
    "NRK.Rack.Shm.rack3_ok",
    "NRK.Rack.Shm.sample89",
    "NRK.Rack.Shm.c89_early_send_lost"
   ],
   "note": "Refinement of the machines' loads and stores on the bytes of the devices to independent channels and plain memory, for every history; sample89 is a legal history of three machines with different mappings. A whole send or receive is one step here; interleavings of their steps are C17 to C19. c89_early_send_lost shows why a client must not send before the controller has set up its end."
  },
  {
   "property": "C90",
   "status": "partial",
   "theorems": [
    "NRK.Console.c90_complete",
    "NRK.Console.c90_lines_partial",
    "NRK.Console.c90_print_returns",
    "NRK.Console.c90_remote_partial",
    "NRK.Console.c90_handler",
    "NRK.Console.c90_init",
    "NRK.Console.c90_println",
    "NRK.Console.c90_putchar_partial",
    "NRK.Console.twoCores_runs",
    "NRK.Console.twoCores_lineWise",
    "NRK.Console.twoCores_fits",
    "NRK.Console.remote_sample",
    "NRK.Console.c90_exit_loses",
    "NRK.Console.c90_second_line_held",
    "NRK.Console.c90_long_line_mixed",
    "NRK.Console.c90_not_utf8_dropped",
    "NRK.Console.c90_remote_loses",
    "NRK.Console.c90_putchar_changes"
   ],
   "note": "Completeness and order are proved for every history and interleaving, lines for texts with line feeds at their end only and lines that fit the buffer (twoCores meets the hypotheses). False otherwise, with witnesses: exit does not write the buffer out, the second line of one text stays in the buffer, longer lines are mixed, the controller misses the first line of a text whose rest does not fit, text that is not UTF-8 is dropped without an error, putchar changes bytes from 128 on. What the kernel prints for itself is not modelled."
  },
  {
   "property": "C91",
   "status": "partial",
   "theorems": [
    "NRK.Start.c91_info",
    "NRK.Start.c91_info_partial",
    "NRK.Start.c91_long_cmdline",
    "NRK.Start.c91_threads_partial",
    "NRK.Start.c91_told",
    "NRK.Start.c91_many_threads",
    "NRK.Start.c91_rack_partial",
    "NRK.Start.c91_rack_many",
    "NRK.Start.c91_number",
    "NRK.Start.c91_plus",
    "NRK.Start.c91_name",
    "NRK.Start.c91_cores",
    "NRK.Start.c91_all_cores",
    "NRK.Start.c91_refused",
    "NRK.Start.c91_args",
    "NRK.Start.c91_args_partial",
    "NRK.Start.c91_args_iff",
    "NRK.Start.info1_ok",
    "NRK.Start.info1_told",
    "NRK.Start.info_long",
    "NRK.Start.hw2_told",
    "NRK.Start.rack2_told",
    "NRK.Start.twelve",
    "NRK.Start.cores2",
    "NRK.Start.cores2_hyp",
    "NRK.Start.cores9",
    "NRK.Start.c91_args_reversed",
    "NRK.Start.c91_no_args"
   ],
   "note": "Process information: exact for all messages up to 256 bytes (command lines up to 127 bytes in any case), longer ones end the program (c91_long_cmdline, general). Threads: exact up to 511 on a machine and 203 on a rack; beyond that an error, and a panic of the controller (general theorems). Cores: exact. Arguments: reversed (c91_args, general), so right only for words that read the same backwards. serde_cbor and abomonation are modelled from their formats."
  },
  {
   "property": "C92",
   "status": "partial",
   "theorems": [
    "NRK.Coreboot.c92_own_partial",
    "NRK.Coreboot.c92_separate",
    "NRK.Coreboot.c92_one_at_a_time",
    "NRK.Coreboot.c92_started",
    "NRK.Coreboot.c92_once",
    "NRK.Coreboot.c92_once_prefix",
    "NRK.Coreboot.c92_registered",
    "NRK.Coreboot.c92_bsp",
    "NRK.Coreboot.c92_bounded",
    "NRK.Coreboot.c92_no_halt_partial",
    "NRK.Coreboot.c92_live",
    "NRK.Coreboot.c92_root_cut",
    "NRK.Coreboot.c92_delay",
    "NRK.Coreboot.c92_node_gap",
    "NRK.Coreboot.machine_sample",
    "NRK.Coreboot.enough_sample",
    "NRK.Coreboot.c92_run",
    "NRK.Coreboot.c92_run_calm",
    "NRK.Coreboot.c92_run_cores",
    "NRK.Coreboot.c92_run_args",
    "NRK.Coreboot.c92_run_toks",
    "NRK.Coreboot.c92_pmem_affinity_kept",
    "NRK.Coreboot.c92_root_cut_run",
    "NRK.Coreboot.c92_node_gap_run",
    "NRK.Coreboot.c92_delay_run",
    "NRK.Coreboot.c92_slow_core"
   ],
   "note": "Proved for every machine, code length and interleaving, for a page table root below 4 GiB (otherwise every core gets a wrong address space: c92_root_cut, general). Booting ends (c92_bounded, c92_live, c92_no_halt_partial) when the clock reads at most 10 ms after INIT: the delay before STARTUP is the wrong way round (c92_delay), nothing is waited for and more than 10 ms hang the first core. Gaps in the numbers of the nodes panic (c92_node_gap); the affinity for persistent memory is not put back (c92_pmem_affinity_kept). The machine sample meets the hypotheses and is booted by a run. Mode switches and what start_app_core sets up per core are not modelled."
  },
  {
   "property": "C93",
   "status": "partial",
   "theorems": [
    "NRK.Rack.Arena.c93_kind_partial",
    "NRK.Rack.Arena.c93_window",
    "NRK.Rack.Arena.c93_exclusive",
    "NRK.Rack.Arena.c93_accounted",
    "NRK.Rack.Arena.c93_shared_alloc",
    "NRK.Rack.Arena.c93_freed",
    "NRK.Rack.Arena.c93_shared_freed",
    "NRK.Rack.Arena.c93_realloc",
    "NRK.Rack.Arena.start2",
    "NRK.Rack.Arena.c93_ordinary",
    "NRK.Rack.Arena.c93_ordinary_objects",
    "NRK.Rack.Arena.c93_failed",
    "NRK.Rack.Arena.c93_failed_refill",
    "NRK.Rack.Arena.c93_numa_mixed",
    "NRK.Rack.Arena.c93_end_lost",
    "NRK.Rack.Arena.c93_end_realloc",
    "NRK.Rack.Arena.c93_big_realloc",
    "NRK.Rack.Arena.c93_before_init",
    "NRK.Rack.Arena.c93_cross_lost"
   ],
   "note": "Proved for every history on any cores in which affinities of shared memory are used only after its devices were looked up (before, nothing is checked: c93_before_init). Not true, and left out of c93_kind_partial: local memory is of the node asked for (c93_numa_mixed). c93_freed and c93_realloc say exactly when memory is lost and when resizing panics; that includes local memory that starts where shared memory ends (c93_end_lost) and objects above 2 MiB with a shared affinity (c93_big_realloc). start2 and c93_ordinary meet the hypotheses. One arena by its contract (details: C24, C63); the emergency allocator and full page caches are not part of it."
  },
  {
   "property": "C94",
   "status": "partial",
   "theorems": [
    "NRK.Pci.c94_config_partial",
    "NRK.Pci.c94_made",
    "NRK.Pci.c94_goes_on",
    "NRK.Pci.c94_acpi_partial",
    "NRK.Pci.c94_translate_partial",
    "NRK.Pci.c94_dma",
    "NRK.Pci.c94_dma_align_partial",
    "NRK.Pci.c94_dma_stays_partial",
    "NRK.Pci.c94_irq_partial",
    "NRK.Pci.c94_claim",
    "NRK.Pci.c94_two_threads",
    "NRK.Pci.c94_foreign",
    "NRK.Pci.c94_alias",
    "NRK.Pci.c94_negative",
    "NRK.Pci.c94_rack_core",
    "NRK.Pci.c94_acpi_byte",
    "NRK.Pci.c94_ordinary_dma",
    "NRK.Pci.c94_stale",
    "NRK.Pci.c94_alignment_ignored",
    "NRK.Pci.c94_two_devices",
    "NRK.Pci.c94_one_device",
    "NRK.Pci.c94_three_claims"
   ],
   "note": "Configuration accesses are linearizable for all devices, threads and schedules, if nobody outside the program uses the ports (the lock is per program: c94_foreign) and the arguments exist (c94_alias, c94_negative); on cores numbered above 96 they are ignored (c94_made). Translations are right as long as the page was never unmapped (c94_stale: the cache is never invalidated). Alignments above the size allocated are ignored (c94_alignment_ignored). One handler for all devices (c94_two_devices). ACPI reads of bytes and words at offsets that are not multiples of four give the wrong field (c94_acpi_byte). Claims of kernel drivers: full. The system call that maps memory is used by its contract (C58)."
  },
  {
   "property": "C95",
   "status": "partial",
   "theorems": [
    "NRK.Nic.c95_field",
    "NRK.Nic.c95_layout",
    "NRK.Nic.c95_record",
    "NRK.Nic.c95_new",
    "NRK.Nic.c95_setup_partial",
    "NRK.Nic.c95_exchanged",
    "NRK.Nic.c95_supported",
    "NRK.Nic.c95_refused",
    "NRK.Nic.c95_mac",
    "NRK.Nic.c95_link",
    "NRK.Nic.c95_machines",
    "NRK.Nic.c95_machine_numbers",
    "NRK.Nic.c95_descriptor",
    "NRK.Nic.c95_too_long",
    "NRK.Nic.c95_completion",
    "NRK.Nic.c95_separate",
    "NRK.Nic.c95_kernel",
    "NRK.Nic.c95_wrong_numbers",
    "NRK.Nic.c95_other_address",
    "NRK.Nic.c95_second_version",
    "NRK.Nic.c95_not_started",
    "NRK.Nic.c95_router"
   ],
   "note": "Fields, records, versions, addresses and link are proved in full, for all cards. c95_setup_partial: the card finds exactly the driver's queues if there are as many that send as that receive (as the kernel has it); otherwise the two numbers are exchanged (c95_exchanged, c95_wrong_numbers). Not true: a card that cannot start is an error (c95_not_started); no machine has the router's address (c95_router)."
  },
  {
   "property": "C96",
   "status": "partial",
   "theorems": [
    "NRK.Hist.c96_counts",
    "NRK.Hist.c96_answers",
    "NRK.Hist.c96_low",
    "NRK.Hist.c96_high_partial",
    "NRK.Hist.c96_nearest_rank",
    "NRK.Hist.c96_extremes",
    "NRK.Hist.c96_no_data",
    "NRK.Hist.c96_merge",
    "NRK.Hist.c96_default",
    "NRK.Hist.c96_small",
    "NRK.Hist.c96_legal",
    "NRK.Hist.c96_median",
    "NRK.Hist.c96_low_case",
    "NRK.Hist.c96_rounded",
    "NRK.Hist.c96_large",
    "NRK.Hist.c96_merge_moves",
    "NRK.Hist.c96_no_bucket",
    "NRK.Hist.c96_four_digits",
    "NRK.Hist.c96_memory",
    "NRK.Hist.c96_refused",
    "NRK.Hist.c96_bounded",
    "NRK.Hist.c96_eight_digits"
   ],
   "note": "Three digits, every greatest value that has a bucket (otherwise recording it panics: c96_no_bucket), every history. Percentiles below 50 are those of the property (c96_nearest_rank); from 50 on the sample after the right one is reported (c96_high_partial; the median of 1, 2, 3 is 3: c96_median). Merging moves samples to the next bucket (c96_merge, c96_merge_moves). With four digits buckets are out of order (c96_four_digits). Arithmetic on floating-point numbers is exact in the model; the model says where this is so in the code."
  },
  {
   "property": "C97",
   "status": "partial",
   "theorems": [
    "NRK.Rump.c97_malloc",
    "NRK.Rump.c97_free",
    "NRK.Rump.c97_no_memory",
    "NRK.Rump.c97_small",
    "NRK.Rump.c97_random_partial",
    "NRK.Rump.c97_random_short",
    "NRK.Rump.c97_clock",
    "NRK.Rump.c97_monotonic",
    "NRK.Rump.c97_sleep",
    "NRK.Rump.c97_sleep_until_partial",
    "NRK.Rump.c97_sleep_early",
    "NRK.Rump.c97_sleep_past",
    "NRK.Rump.c97_sleep_future_panics",
    "NRK.Rump.c97_param_partial",
    "NRK.Rump.c97_param_panic"
   ],
   "note": "Memory, clocks and parameters for all arguments. Not true of the code: no memory is an error (c97_no_memory: success and a null pointer); a buffer that is too small is an error (c97_param_panic); the number of random bytes reported when the source fails is one too small (c97_random_short). A sleep until a time is right only if the machine's counter was 0 at boot (c97_sleep_until_partial, c97_sleep_early); a time that has passed is a panic (c97_sleep_past), and so may be one that has not (c97_sleep_future_panics)."
  },
  {
   "property": "C98",
   "status": "partial",
   "theorems": [
    "NRK.Rump.c98_call_partial",
    "NRK.Rump.c98_calls_partial",
    "NRK.Rump.c98_codes",
    "NRK.Rump.c98_negative",
    "NRK.Rump.c98_write_only",
    "NRK.Rump.c98_write_only_read",
    "NRK.Rump.c98_excl",
    "NRK.Rump.c98_excl_opened",
    "NRK.Rump.c98_read_here",
    "NRK.Rump.c98_vectors",
    "NRK.Rump.c98_nothing",
    "NRK.Rump.c98_root_panics",
    "NRK.Rump.fsample_answers"
   ],
   "note": "Every call is a step of the specification, in every state of the file system, for calls with one buffer that is not empty, reads at a given offset, files not opened only to write or exclusively, and not the root directory. The calls left out violate the property: c98_write_only (a file opened only to write can be read), c98_excl (the flag is ignored), c98_read_here (a read at the position always fails), c98_vectors (other numbers of buffers panic), c98_nothing (empty buffers are an error), c98_root_panics."
  },
  {
   "property": "C99",
   "status": "partial",
   "theorems": [
    "NRK.Rump.Lwp.c99_ids",
    "NRK.Rump.Lwp.c99_stays",
    "NRK.Rump.Lwp.c99_one_core",
    "NRK.Rump.Lwp.c99_running_partial",
    "NRK.Rump.Lwp.c99_one_per_core",
    "NRK.Rump.Lwp.c99_counter",
    "NRK.Rump.Lwp.c99_stopped_partial",
    "NRK.Rump.Lwp.c99_idle_stale",
    "NRK.Rump.Lwp.c99_new_shows_zero",
    "NRK.Rump.Lwp.c99_main_shows_zero",
    "NRK.Rump.Lwp.c99_made",
    "NRK.Rump.Lwp.c99_make_fails",
    "NRK.Rump.Lwp.c99_create",
    "NRK.Rump.Lwp.c99_create_range",
    "NRK.Rump.Lwp.c99_curlwp",
    "NRK.Rump.Lwp.c99_curlwp_new",
    "NRK.Rump.Lwp.c99_clear_other",
    "NRK.Rump.Lwp.c99_full",
    "NRK.Rump.Lwp.c99_too_many_cores"
   ],
   "note": "Ids, cores, counters and contexts for all histories. The word shows the core only after the first switch to the thread (c99_running_partial; before it shows 0: c99_main_shows_zero, c99_new_shows_zero), and shows none only if the core has not been idle in between (c99_stopped_partial; c99_idle_stale). More than 2048 threads, or a number of cores larger than the process has, end the program (c99_full, c99_too_many_cores)."
  }
 ]
}