import Verif.Cpu.StackModel

/-!
# C106: stacks in memory that was there before

`StaticStack` (the stack of early interrupts, `kernel/src/arch/x86_64/gdt.rs` line 28) and `SliceStack`.
-/

namespace NRK.Cpu

/-- `(ptr + STACK_ALIGNMENT - 1) & !(STACK_ALIGNMENT - 1)` (`kernel/src/stack.rs` lines 55 and 68). -/
def alignUp (p : Nat) : Nat := (p + stackAlign - 1) / stackAlign * stackAlign

/-- `limit` and `base` of `StaticStack` (`kernel/src/stack.rs` lines 51-71), and the same for a slice
(`SliceStack::new` with `base` and `limit`, lines 85-114): lowest address and end for the array at `ptr` with `len`
bytes. -/
def fixedStack (ptr len : Nat) : Outcome Stack :=
  let off := alignUp ptr - ptr
  if off > len then .panic else .ok ⟨alignUp ptr, (len - off) / stackAlign * stackAlign⟩

/-- **C106, early stacks.**  A stack in an array is in the array, both of its ends are aligned as the processor's
conventions want it, and less than 31 bytes are not used.  It fails only for arrays of less than 15 bytes. -/
theorem c106_fixed_stack (ptr len : Nat) : (15 ≤ len → ∃ s, fixedStack ptr len = .ok s) ∧
    ∀ s, fixedStack ptr len = .ok s →
      ptr ≤ s.limit ∧ s.limit ≤ s.base ∧ s.base ≤ ptr + len ∧ s.limit % 16 = 0 ∧ s.base % 16 = 0 ∧
      len < s.base - s.limit + 31 := by
  have h1 : ptr ≤ alignUp ptr ∧ alignUp ptr < ptr + 16 ∧ alignUp ptr % 16 = 0 := by
    unfold alignUp stackAlign
    omega
  constructor
  · intro h
    unfold fixedStack
    simp only
    rw [if_neg (by omega)]
    exact ⟨_, rfl⟩
  · intro s h
    unfold fixedStack at h
    simp only at h
    split at h
    · cases h
    · cases h
      simp only [Stack.base, stackAlign]
      omega

/-- The stack of early interrupts, if its array is at an odd address. -/
theorem c106_fixed_case : fixedStack 0x1001 (32 * 4096) = .ok ⟨0x1010, 131056⟩ := by decide +kernel

end NRK.Cpu
