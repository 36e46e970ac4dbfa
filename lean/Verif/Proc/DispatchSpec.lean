import Verif.Proc.DispatchModel

/-!
# Specification for what cores run (C100)

Who may start a process on a core, and with what a core enters user mode.
-/

namespace NRK.Proc.Spec

open NRK NRK.Proc

/-- The event gives the core `c` to the process `pid`, to start at `entry`: a core that ran this process
asked for it and was told that it succeeded, or the kernel started the process there, at `0xdeadffff`. -/
def Grants (x : Sys × Act × Outcome Unit) (c pid entry : Nat) : Prop :=
  x.2.2 = .ok () ∧
  ((∃ d t oom e, x.2.1 = .request d t entry oom ∧ t.toNat = c ∧ (x.1.cores d).at_ = .user ∧
      (x.1.cores d).cur = some (pid, e)) ∨
   (∃ oom oom', x.2.1 = .spawn c oom oom' ∧ entry = 0xdeadffff ∧ x.1.node.procs pid = false))

/-- Some event so far did. -/
def Granted (h : DHist) (c pid entry : Nat) : Prop := ∃ x ∈ h, Grants x c pid entry

/-- What a core that is added to a process starts with: the program's entry point if it is the first one,
and else the requested address, with its control area, the mark of a new core and its number; at the top of
the executor's own stack. -/
def StartsAt (l : Launch) (elf entry c : Nat) (e : Executor) : Prop :=
  l.stack + 8 = e.stackBase + 98304 ∧
  (entry = 0xdeadffff → l.entry = elf ∧ l.args = (0, 0, 0)) ∧
  (entry ≠ 0xdeadffff → l.entry = entry ∧ l.args = (e.vcpuCtl, 0x99, c))

/-- The cores of a node. -/
def nodeCores (g : DCfg) (n : Nat) : List Nat := (List.range g.ncores).filter fun c => g.nodeOf c = n

end NRK.Proc.Spec
