import Verif.Gdb.MemModel

/-!
# C86: what a debugger expects of memory
-/

namespace NRK.Gdb

open NRK.VSpace

/-- The byte at a virtual address can be looked at: it is mapped. -/
def Mapped (t : PML4) (x : Nat) : Prop := leafAt t x ≠ none

/-- The byte at a virtual address can be changed: it is mapped, writable, and not code. -/
def Changeable (t : PML4) (x : Nat) : Prop := ∃ lv l, leafAt t x = some (lv, l) ∧ l.fl.rw = true ∧ l.fl.xd = true

/-- The physical address of a byte. -/
def place (t : PML4) (x : Nat) : Nat :=
  match leafAt t x with
  | some (lv, l) => l.pa + x % lv.size
  | none => 0

/-- Nothing is mapped in the upper half of the 48-bit addresses (which are not canonical: no access there can succeed; the
kernel's own mappings end below `2 ^ 47`). -/
def LowerHalf (t : PML4) : Prop := ∀ x, 2 ^ 47 ≤ x → x < 2 ^ 48 → leafAt t x = none

/-- No byte of the range is on a page of user space. -/
def NoUser (t : PML4) (start len : Nat) : Prop := ∀ i < len, ∀ lv l, leafAt t (start + i) = some (lv, l) → l.fl.us = false

/-- Memory after `data` was written to the bytes from `start` on, one after the other. -/
def written (t : PML4) (mem : Nat → UInt8) (start : Nat) : List UInt8 → (Nat → UInt8)
  | [] => mem
  | b :: data => written t (upd mem (place t start) b) (start + 1) data

end NRK.Gdb
