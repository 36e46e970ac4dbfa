import Verif.Common

/-!
# What a program expects to be told when it starts (C91)
-/

namespace NRK.Start

/-- What a program is told about itself (`lib/kpi/src/process.rs` lines 63-80). Strings are bytes. -/
structure Info where
  pid : Nat
  hasTls : Bool
  tlsData : Nat
  tlsDataLen : Nat
  tlsLenTotal : Nat
  alignment : Nat
  cmdline : List UInt8
  appCmdline : List UInt8
  deriving DecidableEq

/-- The numbers are numbers of the machine, the strings are in its memory. -/
structure Info.Ok (i : Info) : Prop where
  pid : i.pid < 2 ^ 64
  data : i.tlsData < 2 ^ 64
  len : i.tlsDataLen < 2 ^ 64
  total : i.tlsLenTotal < 2 ^ 64
  align : i.alignment < 2 ^ 64
  cmd : i.cmdline.length < 2 ^ 64
  app : i.appCmdline.length < 2 ^ 64

/-- A hardware thread as programs see it (`CpuThread`, `lib/kpi/src/system.rs` lines 36-53). -/
structure Thread where
  id : Nat
  node : Nat
  package : Nat
  core : Nat
  thread : Nat
  deriving DecidableEq

structure Thread.Ok (t : Thread) : Prop where
  id : t.id < 2 ^ 64
  node : t.node < 2 ^ 64
  package : t.package < 2 ^ 64
  core : t.core < 2 ^ 64
  thread : t.thread < 2 ^ 64

/-- What a call at user level gives: a value, the error code, or the end of the program. -/
inductive Got (α : Type) where
  | ok (a : α)
  | error
  | panic
  deriving DecidableEq

/-- The words of a command line, cut at every blank, in their order. -/
def words : List UInt8 → List (List UInt8)
  | [] => [[]]
  | b :: t =>
    if b = 32 then [] :: words t
    else
      match words t with
      | [] => [[b]]
      | w :: ws => (b :: w) :: ws

/-- A decimal number as text, most significant digit first. -/
def IsDecimal (n : Nat) (s : List UInt8) : Prop :=
  s ≠ [] ∧ (∀ b ∈ s, 48 ≤ b ∧ b ≤ 57) ∧ s.foldl (fun a b => a * 10 + (b.toNat - 48)) 0 = n

end NRK.Start
