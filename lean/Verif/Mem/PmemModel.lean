import Verif.Mem.BootModel
import Verif.Mem.PmemSpec

/-!
# Model of how persistent memory is set up

`kernel/src/arch/x86_64/memory.rs` lines 159-238 and `kernel/src/arch/x86_64/mod.rs` lines 393-414.  A region with
`usable` set is one of type PERSISTENT_MEMORY.
-/

namespace NRK.Mem.Pmem

open NRK.Mem.Pmem.Spec (Mapping)

/-- `KERNEL_BASE` (`lib/kpi/src/lib.rs`). -/
def KERNEL_BASE : Nat := 0x400000000000

/-- `map_identity` and `map_identity_with_offset` (`page_table.rs` lines 193-226) on mappings that were not there:
the assertion on the base is a panic.  Simplification: out of memory and existing mappings (panics, too) are left out. -/
def mapOne (ms : List Mapping) (off base size : Nat) : Outcome (List Mapping) :=
  if base % BASE = 0 then .ok (⟨off + base, base, size⟩ :: ms) else .panic

/-- `map_physical_persistent_memory` (`arch/x86_64/memory.rs` lines 165-209). -/
def mapPmem : List Mapping → List Region → Outcome (List Mapping)
  | ms, [] => .ok ms
  | ms, r :: rs =>
    if r.start = 0 then mapPmem ms rs
    else if r.start ≤ 0xfee00000 ∧ r.start + r.pages * BASE ≥ 0xfee00000 then mapPmem ms rs
    else if r.usable then
      ((mapOne ms 0 r.start (r.pages * BASE)).bind
        (fun ms => mapOne ms KERNEL_BASE r.start (r.pages * BASE))).bind (fun ms => mapPmem ms rs)
    else mapPmem ms rs

/-- The loop over the regions (`arch/x86_64/memory.rs` lines 220-233).  The capacity of the vector (an assertion) is
not modelled. -/
def pmemFrames : List Region → Outcome (List Frame)
  | [] => .ok []
  | r :: rs =>
    if r.usable then
      (Frame.new r.start (r.pages * BASE) 0).bind (fun f => (pmemFrames rs).map (f :: ·))
    else pmemFrames rs

/-- `init_persistent_memory` (`arch/x86_64/memory.rs` lines 217-238): the mappings and the frames.  `sort` is
`sort_unstable_by` on the node, which may order frames of the same node in any way. -/
def initPmem (sort : List Frame → List Frame) (ns : List NumaRange) (rs : List Region) :
    Outcome (List Mapping × List Frame) :=
  (mapPmem [] rs).bind (fun ms =>
    (pmemFrames rs).bind (fun fs =>
      (identifyNuma ns fs).map (fun gs => (ms, sort gs))))

/-- The memory manager for persistent memory (`arch/x86_64/mod.rs` lines 393-414); `none` is the empty one. -/
def bootPmem (debug : Bool) (sort : List Frame → List Frame) (ns : List NumaRange) (rs : List Region) :
    Outcome (List Mapping × Option GlobalMem) :=
  (initPmem sort ns rs).bind (fun r =>
    if r.2.length > 0 then (GlobalMem.new debug r.2).map (fun g => (r.1, some g)) else .ok (r.1, none))

end NRK.Mem.Pmem
