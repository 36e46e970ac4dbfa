import Verif.Common

/-!
# Model of the interrupts that announce work to a core

`kernel/src/arch/x86_64/tlb.rs` lines 176-199, 216-227 and 388-394, `kernel/src/arch/x86_64/irq.rs` lines
739-751 and 772-805.  One queue and the interrupt that goes with it: of a core and the interrupts other
cores send it, or of a machine of a rack and the doorbell of the shared-memory device.  The processor
keeps one bit for an interrupt that waits: it is set however often the interrupt was sent, and the
handler runs once.  The capacity of the queues is left out (C43, C68).
-/

namespace NRK.Tlb.Ipi

/-- The work in the queue, the interrupt that waits, whether the core is in the kernel, which takes no
interrupts, and the work that was done. -/
structure Core where
  queue : List Nat
  waiting : Bool
  kernel : Bool
  done : List Nat
deriving DecidableEq, Repr

inductive Ev where
  /-- another core adds work and sends the interrupt (`tlb.rs` lines 380 and 392, 464 and 472) -/
  | post (id : Nat)
  /-- a system call or another interrupt -/
  | enter
  /-- back to the user program -/
  | leave
  /-- the handler runs, if the core can take the interrupt -/
  | interrupt
deriving DecidableEq, Repr

def Core.init : Core := ⟨[], false, false, []⟩

/-- `dequeue` and `remote_dequeue` (`tlb.rs` lines 188-199, 216-227): at most one item. -/
def dequeue (c : Core) : Core :=
  match c.queue with
  | [] => c
  | id :: q => { c with queue := q, done := c.done ++ [id] }

def step (c : Core) : Ev → Core
  | .post id => { c with queue := c.queue ++ [id], waiting := true }
  | .enter => { c with kernel := true }
  | .leave => { c with kernel := false }
  | .interrupt => if c.kernel = false ∧ c.waiting = true then dequeue { c with waiting := false } else c

def run (c : Core) (evs : List Ev) : Core := evs.foldl step c

end NRK.Tlb.Ipi
