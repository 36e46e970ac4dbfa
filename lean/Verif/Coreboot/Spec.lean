import Verif.Common

/-!
# What it means that the cores of a machine are started (C92)

The machine has hardware threads ("cores" for short); one of them runs the kernel first.  It starts
all others with the two interrupts the hardware defines for that.  What follows says what those
cores must find when they enter the kernel, and what may not happen on the way.  Nothing here refers
to the code that starts them.
-/

namespace NRK.Coreboot.Spec

/-- A hardware thread as the topology of the machine describes it: its number, the number of its
interrupt controller, its NUMA node (if the firmware tells). -/
structure Thread where
  id : Nat
  apic : Nat
  node : Option Nat
  deriving DecidableEq, Repr

/-- The NUMA node whose memory a core works with. -/
def Thread.home (t : Thread) : Nat := t.node.getD 0

/-- The replicated objects of the kernel, one replica per NUMA node: the kernel's own state, each
process, the file system. -/
inductive Replica where
  | kernel (node : Nat)
  | proc (node pid : Nat)
  | fs (node : Nat)
  deriving DecidableEq, Repr

/-- The interrupts that start a core. -/
inductive Ipi where
  | init
  | startup (page : Nat)
  deriving DecidableEq, Repr

/-- The interrupts a core must be sent, in this order, to be started at the page `page`. -/
def wake (page : Nat) (t : Thread) : List (Nat × Ipi) := [(t.apic, .init), (t.apic, .startup page)]

/-- The state a core enters the kernel with: the function it calls, its address space (`cr3`), its
stack pointer and its two arguments. -/
structure Entry where
  entry : Nat
  cr3 : Nat
  rsp : Nat
  rdi : Nat
  rsi : Nat
  deriving DecidableEq, Repr

/-- What the first argument of a core points to. -/
structure Args where
  thread : Nat
  node : Nat
  mem : Nat
  pmem : Option Nat
  replica : Replica
  fsReplica : Option Replica
  deriving DecidableEq, Repr

/-- The replicas a core of the node `n` works with: the kernel's, those of the processes `0 ..
maxProc - 1` (if the kernel runs processes) and the file system's (if the kernel has one). -/
def replicasOf (maxProc : Nat) (procs fs : Bool) (n : Nat) : List Replica :=
  [.kernel n] ++ (if procs then (List.range maxProc).map (.proc n) else []) ++ (if fs then [.fs n] else [])

/-- `d ms` is long enough between the two interrupts, as the hardware manual asks. -/
def longEnough (d : Nat) : Prop := 10 ≤ d

end NRK.Coreboot.Spec
