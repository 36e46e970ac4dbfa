import Verif.Cpu.AsmModel
import Verif.Cpu.AsmSpec

/-!
# Model of upcalls

Device interrupts of a program and its virtual CPU: `kernel/src/arch/x86_64/irq.rs` lines 463-504 and 692-729,
`kernel/src/arch/x86_64/process.rs` lines 959-981, `lib/kpi/src/x86_64.rs` lines 40-66 and
`lib/vibrio/src/upcalls.rs`.  Contexts are those of `AsmModel`; that the assembly code saves and loads them as
said here is `c70_sysret`, `c71_handler` and `c71_resume`.
-/

namespace NRK.Cpu

/-- What is fixed for an executor: the entry point of the handler, the address of the virtual CPU, the stack
of the handler, and the base of `fs` in the kernel, which the handler finds in its own `fs`. -/
structure Exec where
  entry : Nat
  ctl : Nat
  top : Nat
  tls : Nat

/-- A program with its `VirtualCpu` (`lib/kpi/src/x86_64.rs` lines 40-51): the context saved by the kernel,
the code in which upcalls are off, and whether they are off.  `got` is not in the code: the interrupts the
program's handler was called for. -/
structure Prog where
  ctx : Context
  saved : Context
  window : Nat × Nat
  disabled : Bool
  got : List Nat

/-- `upcalls_disabled` (`lib/kpi/src/x86_64.rs` lines 55-57). -/
def Prog.off (u : Prog) : Prop :=
  u.disabled = true ∨ u.window.1 ≤ u.ctx.rip ∧ u.ctx.rip ≤ u.window.2

instance (u : Prog) : Decidable u.off := by unfold Prog.off; infer_instance

/-- The context after `Ring3Resumer::restore` (`c70_sysret`). -/
def Context.sysret (c : Context) : Context :=
  { c with reg := upd (upd c.reg .rcx c.rip) .r11 userFlags, flags := userFlags }

/-- The context in which the handler starts (`c71_handler`); `sse` is what the kernel leaves in the vector
registers. -/
def Exec.handler (e : Exec) (vec err sse : Nat) (c : Context) : Context :=
  { reg := fun
      | .rax => e.top | .rbp => e.top | .rsp => e.top | .rcx => e.entry | .rdi => e.ctl | .rsi => vec
      | .rdx => err | .r11 => userFlags | _ => 0
    rip := e.entry, flags := userFlags, fs := e.tls, gs := c.gs, fx := ⟨0, sse⟩ }

inductive Ev where
  /-- a device interrupt -/
  | irq (vec err sse : Nat)
  /-- the program runs until it is in context `c` -/
  | user (c : Context)
  /-- the first statement of `resume` (`upcalls.rs` line 110) -/
  | enable
  /-- the rest of `resume`, which ends in the saved context (`c71_resume`) -/
  | restore

/-- Upcalls are turned off in any case; if they were off before, the kernel goes back to the program,
otherwise it saves the context and starts the handler. -/
def Exec.step (e : Exec) (u : Prog) : Ev → Prog
  | .irq vec err sse =>
    if u.off then { u with disabled := true, ctx := u.ctx.sysret }
    else
      { u with disabled := true, saved := u.ctx, ctx := e.handler vec err sse u.ctx,
               got := u.got ++ [vec] }
  | .user c => { u with ctx := c }
  | .enable => { u with disabled := false }
  | .restore => { u with ctx := { u.saved with gs := u.ctx.gs } }

def Exec.run (e : Exec) (u : Prog) (evs : List Ev) : Prog := evs.foldl e.step u

end NRK.Cpu
