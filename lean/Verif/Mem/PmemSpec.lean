import Verif.Mem.Spec

/-!
# Specification: persistent memory

Nothing of the model is used.
-/

namespace NRK.Mem.Pmem.Spec

open NRK.Mem.Spec (Block)

/-- A mapping: the addresses from `va` on, `len` of them, are the physical addresses from `pa` on. -/
structure Mapping where
  va : Nat
  pa : Nat
  len : Nat
deriving DecidableEq, Repr

/-- Address `v` is physical address `p`. -/
def Maps (ms : List Mapping) (v p : Nat) : Prop := ∃ m ∈ ms, m.va ≤ v ∧ v < m.va + m.len ∧ p = m.pa + (v - m.va)

/-- Where the kernel reaches physical address `p`. -/
def window (p : Nat) : Nat := 0x400000000000 + p

/-- The page of the interrupt controller is at 0xfee00000; a piece of memory reaches it if the address is inside or
just behind. -/
def ReachesApic (b : Block) : Prop := b.start ≤ 0xfee00000 ∧ 0xfee00000 ≤ b.start + b.len

end NRK.Mem.Pmem.Spec
