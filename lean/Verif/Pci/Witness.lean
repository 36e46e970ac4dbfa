import Verif.Pci.Props

/-!
# Witnesses for C94
-/

namespace NRK.Pci

open Spec (Reg Bus Call Event IrqCall Dev Atomic translate wanted)

/-- Devices that keep what is written, and count the reads of word 1 of each function. -/
def bus : Bus (List (Reg × Nat)) where
  rd d r := ((d.lookup r).getD 0, if r.word = 1 then (r, (d.lookup r).getD 0 + 1) :: d else d)
  wr d r v := (r, v) :: d

/-- Two threads whose steps alternate: one writes a register of device 3, one reads a register of device 4. -/
def two : List Act :=
  [.call 0 (.write 0 3 0 0x10 7), .call 1 (.read 0 4 1 4), .step 0, .step 1, .step 0, .step 1, .step 0, .step 1, .step 0,
    .step 1, .step 1, .step 1, .step 1, .call 0 (.read 0 3 0 0x11), .step 0, .step 0, .step 0, .step 0]

/-- Both have their effect, on their own registers, and the second read gives what was written. -/
theorem c94_two_threads :
    (run bus id (St.init [] 0) two).hist =
      [.start 0 (.write 0 3 0 0x10 7), .start 1 (.read 0 4 1 4), .effect 0 (.write 0 3 0 0x10 7) 0, .ret 0 0,
        .effect 1 (.read 0 4 1 4) 0, .ret 1 0, .start 0 (.read 0 3 0 0x11), .effect 0 (.read 0 3 0 0x11) 7, .ret 0 7] ∧
    (∀ t c, Act.call t c ∈ two → c.Valid) ∧ (∀ a, Act.foreign a ∉ two) := by
  refine ⟨by decide +kernel, ?_, ?_⟩
  · intro t c h
    simp only [two, List.mem_cons, List.not_mem_nil, or_false, Act.call.injEq, reduceCtorEq, false_or] at h
    rcases h with ⟨_, rfl⟩ | ⟨_, rfl⟩ | ⟨_, rfl⟩ <;> decide
  · intro a h
    simp [two] at h

/-- A process next to the program (or the kernel) that uses the ports at the same time: the program's write goes to
another device. -/
theorem c94_foreign :
    (run bus id (St.init [] 0)
      [.call 0 (.write 0 3 0 0x10 7), .step 0, .step 0, .foreign 0x80002004, .step 0, .step 0]).dev =
        [(⟨0, 4, 0, 1⟩, 7)] ∧
    ¬ ∃ d es, Atomic bus [] d es ∧
      es = (run bus id (St.init [] 0)
        [.call 0 (.write 0 3 0 0x10 7), .step 0, .step 0, .foreign 0x80002004, .step 0, .step 0]).hist ∧
      d = [(⟨0, 4, 0, 1⟩, 7)] := by
  refine ⟨by decide +kernel, ?_⟩
  rintro ⟨d, es, ⟨h, _⟩, rfl, rfl⟩
  revert h
  decide +kernel

/-- A device number above 31 reaches a device of another bus. -/
theorem c94_alias : callAddress (.read 0 32 0 0) = callAddress (.read 1 0 0 0) := by decide +kernel

/-- A negative offset passes the assertion and reaches a register at the end. -/
theorem c94_negative : callAddress (.read 0 3 0 (-4)) = callAddress (.read 0 3 0 0xfc) ∧
    callAddress (.read 0 3 0 0xfd) = none := by decide +kernel

/-- On a core of another machine of a rack a write is ignored. -/
theorem c94_rack_core : (run bus (fun _ => 4097) (St.init [] 0)
    [.call 0 (.write 0 3 0 0x10 7), .step 0, .step 0, .step 0, .step 0]).dev = [] := by decide +kernel

/-- The kernel asks for the byte at offset 0x0e (the header type, 0x80 here) and gets the byte at 0x0c. -/
theorem c94_acpi_byte :
    (acpiRead bus [(⟨0, 3, 0, 3⟩, 0x00800010)] 0 3 0 0x0e 8).map (·.1) = some (some 0x10) ∧
      Spec.field 0x00800010 0x0e 8 = 0x80 ∧
      (acpiRead bus [(⟨0, 3, 0, 3⟩, 0x00800010)] 0 3 0 0x0c 8).map (·.1) = some (some 0x10) := by decide +kernel

/-- A program with one mapped page. -/
def mem0 : Mem := ⟨fun x => if x = 5 then some 0x7000 else none, none, fun _ => 0x200000, fun _ => 0x4000000⟩

/-- Translations of ordinary memory and of memory for devices; memory that is mapped after the first try. -/
theorem c94_ordinary_dma :
    (dmalloc (memRun mem0 [.init, .translate 0x5123]) 0 100 64 (some 0xa000)).1 = .ok 0x200000 0xa000 ∧
    (dmalloc (memRun mem0 [.init, .dmalloc 0 100 64 (some 0xa000)]) 0 5000 64 (some 0x600000)).1 =
      .ok 0x400000 0x600000 ∧
    (virtToMach (memRun mem0 [.init, .translate 0x5123, .dmalloc 0 100 64 (some 0xa000),
      .dmalloc 0 5000 64 (some 0x600000)]) 0x401234).map (·.1) = some 0x601234 ∧
    (virtToMach (memRun mem0 [.init, .translate 0x5123]) 0x5fff).map (·.1) = some 0x7fff ∧
    (virtToMach (memRun mem0 [.init]) 0x6000).map (·.1) = none ∧
    (∀ x f, mem0.pt x = some f → f % 4096 = 0) ∧
    (MemAct.unmap (0x401234 / 4096) ∉ ([.init, .translate 0x5123, .dmalloc 0 100 64 (some 0xa000),
      .dmalloc 0 5000 64 (some 0x600000)] : List MemAct)) := by
  refine ⟨by decide +kernel, by decide +kernel, by decide +kernel, by decide +kernel, by decide +kernel, ?_,
    by decide +kernel⟩
  intro x f h
  simp only [mem0] at h
  split at h
  · cases h; rfl
  · cases h

/-- A page that was translated, unmapped and mapped again elsewhere: the driver gets the old address, which may be
memory of anyone by then. -/
theorem c94_stale :
    (virtToMach (memRun mem0 [.init, .translate 0x5123, .unmap 5, .map 5 0x9000]) 0x5123).map (·.1) = some 0x7123 ∧
      translate (memRun mem0 [.init, .translate 0x5123, .unmap 5, .map 5 0x9000]).pt 0x5123 = some 0x9123 := by
  decide +kernel

/-- Memory asked for with an alignment of 64 KiB is not aligned to it. -/
theorem c94_alignment_ignored :
    (dmalloc mem0 0 4096 65536 (some 0xa000)).1 = .ok 0x200000 0xa000 ∧ ¬ 65536 ∣ 0xa000 := by decide +kernel

/-- Two devices with handlers: the interrupt of the first runs the handler of the second. -/
theorem c94_two_devices :
    irqRun (irqCalls [.map 10 1, .establish 1 100 7, .map 11 2, .establish 2 200 8]) 10 = some (some (200, 8)) ∧
      wanted 10 [.map 10 1, .establish 1 100 7, .map 11 2, .establish 2 200 8] = some (100, 7) := by decide +kernel

/-- One device; an interrupt between the two calls of the driver panics. -/
theorem c94_one_device :
    irqRun (irqCalls [.map 10 1, .establish 1 100 7]) 10 = some (some (100, 7)) ∧
      irqRun (irqCalls [.map 10 1]) 10 = some none ∧ irqRun (irqCalls [.map 10 1]) 11 = none := by decide +kernel

/-- Three calls at the same time for two devices of a kind: each device goes to one of them, the third gets none. -/
theorem c94_three_claims :
    (claimRun (Claims.init [⟨1, 1⟩, ⟨0x1af4, 0x1110⟩, ⟨0x1af4, 0x1110⟩])
      [.call 0 false ⟨0x1af4, 0x1110⟩, .call 1 false ⟨0x1af4, 0x1110⟩, .call 2 true ⟨0x1af4, 0x1110⟩,
        .step 0, .step 1, .step 2, .step 1, .step 0, .step 2, .step 2, .step 0, .step 0, .step 2]).returned.map
        (fun r => (r.1.all, r.2)) = [(true, [2]), (false, []), (false, [1])] := by decide +kernel

end NRK.Pci
