import Verif.Common

/-!
# Specification: message-signalled interrupts

From the manual of the processor (Intel SDM, volume 3, "Message Signalled Interrupts") and of the shared-memory device
(`ivshmem`), by the position of bits. Nothing of the model is used.
-/

namespace NRK.Irq.Spec

/-- The interrupt that a message stands for. -/
structure Interrupt where
  /-- the id of the interrupt controller of a core -/
  dest : Nat
  vector : Nat
deriving DecidableEq, Repr

/-- The message is an interrupt for one core, with fixed delivery, on an edge: the address has `FEE` in bits 31-20, the
destination in bits 19-12, and clear bits 3 (redirection) and 2 (logical destination); the data has the vector in bits 7-0,
delivery mode 0 in bits 10-8 and trigger mode 0 in bit 15. -/
structure Means (addr data : Nat) (i : Interrupt) : Prop where
  fee : addr / 2 ^ 20 % 2 ^ 12 = 0xFEE
  dest : addr / 2 ^ 12 % 2 ^ 8 = i.dest
  redirection : addr.testBit 3 = false
  logical : addr.testBit 2 = false
  vector : data % 2 ^ 8 = i.vector
  delivery : data / 2 ^ 8 % 2 ^ 3 = 0
  trigger : data.testBit 15 = false

/-- The machine a value written to the doorbell register of the shared-memory device is for, and the entry of the
table of that machine's device: bits 31-16 and bits 15-0. -/
def rings (value : Nat) : Nat × Nat := (value / 2 ^ 16, value % 2 ^ 16)

end NRK.Irq.Spec
