import Verif.Common

/-!
# Model of how the kernel routes interrupts of devices

The MSI-X table and the doorbell of the shared-memory device (`kernel/src/transport/shmem.rs`), by which the machines of a
rack interrupt each other, and the routes of the I/O interrupt controllers (`kernel/src/arch/x86_64/irq.rs`) that a program
sets up with `irqalloc`.
-/

namespace NRK.Irq

/-- An entry of the MSI-X table of a device: the message that the device sends (an address and the value written there)
and the control word, whose bit 0 masks the vector. Crate `driverkit`, `MsixTableEntry`; a reference to it is used in
`shmem.rs` lines 247-322. -/
structure Entry where
  addr : BitVec 64
  data : BitVec 32
  control : BitVec 32
deriving DecidableEq

/-- `address_register` (`shmem.rs` lines 259-281). The values of the crate `x86`: `DestinationMode::Physical` and
`DestinationShorthand::NoShorthand` are 0. -/
def addressRegister (dest : BitVec 8) : BitVec 64 :=
  (0xFEE : BitVec 64) <<< 20 ||| dest.setWidth 64 <<< 12 ||| (0 : BitVec 64) <<< 2 ||| 0

/-- `data_register` (lines 290-306): `TriggerMode::Edge` 0, `Level::Assert` 1, `DeliveryMode::Fixed` 0. -/
def dataRegister (vector : BitVec 8) : BitVec 32 :=
  (0 : BitVec 32) <<< 15 ||| (1 : BitVec 32) <<< 14 ||| (0 : BitVec 32) <<< 8 ||| vector.setWidth 32

/-- What `enable_msix_vector` makes of an entry (lines 283-287, 308-315). -/
def Entry.enable (e : Entry) (dest vector : BitVec 8) : Entry :=
  { addr := (e.addr &&& 0x000007F0) ||| addressRegister dest ||| (0xFFFFFFFF : BitVec 64) <<< 32
    data := (e.data &&& 0xFFFF3800) ||| dataRegister vector
    control := e.control ^^^ 1 }

/-- `ShmemDevice::enable_msix_vector` (lines 236-322). The log lines are left out. -/
def enableMsixVector (table : List Entry) (tableVector : Nat) (dest vector : BitVec 8) :
    Outcome (List Entry) :=
  if ¬ 0x10 ≤ vector.toNat then .panic
  else if ¬ vector.toNat < 0xFE then .panic
  else
    match table[tableVector]? with
    | none => .panic
    | some e => .ok (table.set tableVector (e.enable dest vector))

/-- `ShmemDevice::set_doorbell` (lines 220-234): the value written to the register. -/
def doorbell (vector id : BitVec 16) : BitVec 32 := (id.setWidth 32 <<< 16) ||| vector.setWidth 32

/-- `REMOTE_TLB_WORK_PENDING_SHMEM_VECTOR` (`irq.rs` line 65). -/
def shmemVector : BitVec 16 := 1

/-- `REMOTE_TLB_WORK_PENDING_VECTOR` (`irq.rs` line 64). -/
def workVector : BitVec 8 := 249

/-- What a client of a rack does at boot (`kernel/src/arch/x86_64/mod.rs` lines 435-440). -/
def clientInit (table : List Entry) : Outcome (List Entry) :=
  enableMsixVector table shmemVector.toNat 0 workVector

/-- `remote_shootdown` interrupts machine `i` (`tlb.rs` lines 472-473, `try_into` of a machine id to 16 bits). -/
def interruptMachine (i : Nat) : Outcome (BitVec 32) :=
  if i < 65536 then .ok (doorbell shmemVector (BitVec.ofNat 16 i)) else .panic

/-! ## I/O interrupt controllers -/

/-- A controller: the number of its first interrupt in the machine, and how many it has. -/
structure IoApic where
  base : Nat
  supported : Nat

/-- An interrupt line that was enabled: the index of the controller, the line, the core it goes to. -/
structure Route where
  apic : Nat
  line : Nat
  core : Nat
deriving DecidableEq, Repr

/-- The lines of one controller (`irq.rs` lines 870-882). The sum of the base and the line is not near `2^32`. -/
def IoApic.routes (a : IoApic) (idx : Nat) : List Route :=
  (List.range a.supported).filterMap fun i =>
    if a.base + i < 16 then
      if i ≠ 2 ∧ i ≠ 1 then some ⟨idx, i, 0⟩ else none
    else none

/-- `ioapic_establish_route` (`irq.rs` lines 858-885): both arguments are unused. -/
def establishRoute (apics : List IoApic) (_gsi _core : Nat) : List Route :=
  (apics.zipIdx.map fun p => p.1.routes p.2).flatten

/-- `allocate_vector` (`kernel/src/arch/x86_64/syscall.rs` lines 145-149): the routes and the two results. -/
def allocateVector (apics : List IoApic) (vector core : Nat) : List Route × Nat × Nat :=
  (establishRoute apics vector core, vector, core)

end NRK.Irq
