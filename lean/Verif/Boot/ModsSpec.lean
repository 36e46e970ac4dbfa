import Verif.Common

/-!
# Specification: the programs on the boot medium

Nothing of the model is used.
-/

namespace NRK.Boot.Mods.Spec

/-- What is in the root directory of a file system: a name, whether it is a directory, the content. -/
abbrev Item := String × Bool × List UInt8

/-- The programs the kernel is to get, by name and with their content: the files, without the boot loader itself and
without those whose name takes 32 bytes or more. -/
def programs : List Item → List (String × List UInt8)
  | [] => []
  | (name, isDir, content) :: l =>
    if isDir = false ∧ name ≠ "BootX64.efi" ∧ name.utf8ByteSize < 32 then (name, content) :: programs l else programs l

/-- A directory that UEFI can give: different names, of characters with 16 bits. -/
def Dir (l : List Item) : Prop := (l.map (·.1)).Nodup ∧ ∀ x ∈ l, ∀ c ∈ x.1.toList, c.toNat < 0x10000

/-- An allocator for pages never gives a page twice. -/
def Fresh (pick : List (Nat × Nat) → Nat → Nat) : Prop :=
  ∀ as n b k, (b, k) ∈ as → pick as n + n * 4096 ≤ b ∨ b + k * 4096 ≤ pick as n

end NRK.Boot.Mods.Spec
