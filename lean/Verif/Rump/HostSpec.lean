import Verif.Common

/-!
# What a rump kernel expects of its host: parameters and random numbers (C97)

Nothing here refers to the model.
-/

namespace NRK.Rump.Spec

/-- The number that a sequence of decimal digits (in ASCII) stands for. -/
def value (ds : List UInt8) : Nat := ds.foldl (fun a b => 10 * a + (b.toNat - 48)) 0

/-- A decimal digit. -/
def Digit (b : UInt8) : Prop := 48 ≤ b.toNat ∧ b.toNat ≤ 57

/-- `t` is the number `n` in decimal, without zeros in front. -/
structure Decimal (t : List UInt8) (n : Nat) : Prop where
  digits : ∀ b ∈ t, Digit b
  some_ : t ≠ []
  val : value t = n
  short : ∀ u, t = 48 :: u → u = []

/-- A text that is a number of 64 bits: digits, with or without a plus sign. -/
def Number (s : List UInt8) (n : Nat) : Prop :=
  ∃ ds, (s = ds ∨ s = 43 :: ds) ∧ ds ≠ [] ∧ (∀ b ∈ ds, Digit b) ∧ value ds = n ∧ n < 2 ^ 64

/-- The number of processors for a program that was started with this command line. -/
def Cpus (cmdline : List UInt8) (n : Nat) : Prop := Number cmdline n ∨ ((∀ m, ¬ Number cmdline m) ∧ n = 1)

/-- The parameters of a host, and their values. -/
inductive Param (cmdline : List UInt8) : String → List UInt8 → Prop
  | cpus {t n} : Cpus cmdline n → Decimal t n → Param cmdline "_RUMPUSER_NCPU" t
  | verbose : Param cmdline "RUMP_VERBOSE" [49]
  | threads : Param cmdline "RUMP_THREADS" [49]
  | hostname : Param cmdline "_RUMPUSER_HOSTNAME" [98, 116, 101, 115, 116]
  | memory {t} : Decimal t (512 * 2 ^ 30) → Param cmdline "RUMP_MEMLIMIT" t

end NRK.Rump.Spec
