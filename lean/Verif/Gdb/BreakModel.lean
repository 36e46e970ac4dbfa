import Verif.Common

/-!
# Model of the kernel debugger's breakpoints

`kernel/src/arch/x86_64/gdb/breakpoints.rs`, `determine_stop_reason` and the way back of `gdb/mod.rs`, the debug
registers of the processor, and the two places that turn them off and on.  One core: the debugger runs where
it was started.  Addresses are natural numbers (64-bit in the code).
-/

namespace NRK.Gdb

/-- `WatchKind` of the crate `gdbstub`. -/
inductive WatchKind where
  | write | read | readWrite
deriving DecidableEq, Repr

/-- `BreakRequest` (`gdb/breakpoints.rs` lines 22-28). -/
inductive BreakRequest where
  | hardware | software
deriving DecidableEq, Repr

/-- `BreakType` (`gdb/breakpoints.rs` lines 33-39). -/
inductive BreakType where
  | breakpoint
  | watchpoint (kind : WatchKind)
deriving DecidableEq, Repr

/-- `BreakState` (`gdb/breakpoints.rs` lines 41-43). -/
structure BreakState where
  addr : Nat
  type : BreakType
  req : BreakRequest
deriving DecidableEq, Repr

/-- `BreakCondition` of the crate `x86`. -/
inductive Cond where
  | instructions | dataWrites | dataReadsWrites
deriving DecidableEq, Repr

/-- One debug register with its bits in `dr7`: address, condition, size in bytes, and whether it is enabled. -/
structure Dr where
  addr : Nat
  cond : Cond
  size : Nat
  on : Bool
deriving DecidableEq, Repr

/-- The debugger with the core it runs on: `hw_break_points` (`gdb/mod.rs` lines 223-231), `enabled_bps` of the save area
(`lib/kpi/src/x86_64.rs` lines 270-272), and the registers `dr0` to `dr3`. -/
structure Dbg where
  table : Fin 4 → Option BreakState
  marks : Fin 4 → Bool
  hw : Fin 4 → Dr

/-- `KernelDebugger::new` (`gdb/mod.rs` lines 233-240), a new save area, and the registers after a reset. -/
def Dbg.init : Dbg := ⟨fun _ => none, fun _ => false, fun _ => ⟨0, .instructions, 1, false⟩⟩

/-- The first register, in the order of `BREAKPOINT_REGS`, that meets a condition. -/
def firstReg (p : Fin 4 → Bool) : Option (Fin 4) := (List.finRange 4).find? p

/-- `Breakpoint::configure` of the crate `x86`: address, condition and size; the register stays on or off. -/
def Dr.configure (r : Dr) (addr : Nat) (c : Cond) (size : Nat) : Dr := { r with addr := addr, cond := c, size := size }

/-- `add_breakpoint` (`gdb/breakpoints.rs` lines 46-97); the save area exists. -/
def Dbg.addBreakpoint (d : Dbg) (req : BreakRequest) (addr : Nat) : Bool × Dbg :=
  match firstReg (fun i => (d.table i).isNone) with
  | some i =>
    (true, ⟨upd d.table i (some ⟨addr, .breakpoint, req⟩), upd d.marks i true,
      upd d.hw i ((d.hw i).configure addr .instructions 1)⟩)
  | none => (false, d)

/-- The test in the loop of `remove_breakpoint` (`gdb/breakpoints.rs` lines 122-123). -/
def isBreak (req : BreakRequest) (addr : Nat) : Option BreakState → Bool
  | some ⟨a, .breakpoint, r⟩ => decide (a = addr) && decide (r = req)
  | _ => false

/-- Turning a register off (`disable_global` of the crate `x86`): the configuration stays. -/
def Dbg.drop (d : Dbg) (i : Fin 4) : Dbg :=
  ⟨upd d.table i none, upd d.marks i false, upd d.hw i { d.hw i with on := false }⟩

/-- `remove_breakpoint` (`gdb/breakpoints.rs` lines 99-137). -/
def Dbg.removeBreakpoint (d : Dbg) (req : BreakRequest) (addr : Nat) : Bool × Dbg :=
  match firstReg (fun i => isBreak req addr (d.table i)) with
  | some i => (true, d.drop i)
  | none => (false, d)

/-- `watchkind_to_breakcondition` (`gdb/breakpoints.rs` lines 156-163). -/
def watchCond : WatchKind → Cond
  | .read => .dataReadsWrites
  | .write => .dataWrites
  | .readWrite => .dataReadsWrites

/-- The size of a watchpoint (`gdb/breakpoints.rs` lines 209-218). -/
def watchSize (len : Nat) : Nat :=
  if len = 1 then 1 else if len = 2 then 2 else if len = 4 then 4 else 8

/-- `add_hw_watchpoint` (`gdb/breakpoints.rs` lines 191-244). -/
def Dbg.addWatchpoint (d : Dbg) (addr len : Nat) (kind : WatchKind) : Bool × Dbg :=
  match firstReg (fun i => (d.table i).isNone) with
  | some i =>
    (true, ⟨upd d.table i (some ⟨addr, .watchpoint kind, .hardware⟩), upd d.marks i true,
      upd d.hw i ((d.hw i).configure addr (watchCond kind) (watchSize len))⟩)
  | none => (false, d)

/-- The test in the loop of `remove_hw_watchpoint` (`gdb/breakpoints.rs` lines 263-264): the kind and the length are not
looked at. -/
def isWatch (addr : Nat) : Option BreakState → Bool
  | some ⟨a, .watchpoint _, r⟩ => decide (a = addr) && decide (r = .hardware)
  | _ => false

/-- `remove_hw_watchpoint` (`gdb/breakpoints.rs` lines 246-278). -/
def Dbg.removeWatchpoint (d : Dbg) (addr _len : Nat) (_kind : WatchKind) : Bool × Dbg :=
  match firstReg (fun i => isWatch addr (d.table i)) with
  | some i => (true, d.drop i)
  | none => (false, d)

/-- The requests of the debugger (`gdb/breakpoints.rs` lines 165-278). -/
inductive Cmd where
  | addBreak (req : BreakRequest) (addr : Nat)
  | removeBreak (req : BreakRequest) (addr : Nat)
  | addWatch (addr len : Nat) (kind : WatchKind)
  | removeWatch (addr len : Nat) (kind : WatchKind)
deriving DecidableEq, Repr

/-- A request with its answer (`gdb/breakpoints.rs` lines 165-278). -/
def Dbg.step (d : Dbg) : Cmd → Bool × Dbg
  | .addBreak req addr => d.addBreakpoint req addr
  | .removeBreak req addr => d.removeBreakpoint req addr
  | .addWatch addr len kind => d.addWatchpoint addr len kind
  | .removeWatch addr len kind => d.removeWatchpoint addr len kind

/-- `disable_all_breakpoints` when the debugger is entered (`arch/x86_64/debug.rs` lines 118-128, `irq.rs` lines 434, 449). -/
def Dbg.enter (d : Dbg) : Dbg := { d with hw := fun i => { d.hw i with on := false } }

/-- What `Ring0Resumer::resume` does with the registers (`arch/x86_64/process.rs` lines 322-342). -/
def Dbg.leave (d : Dbg) : Dbg := { d with hw := fun i => if d.marks i then { d.hw i with on := true } else d.hw i }

/-- The requests of one stop. -/
def Dbg.cmds (d : Dbg) : List Cmd → List Bool × Dbg
  | [] => ([], d)
  | c :: cs => ((d.step c).1 :: ((d.step c).2.cmds cs).1, ((d.step c).2.cmds cs).2)

/-- A debugging session: the kernel stops, the debugger makes requests, the kernel goes on, again and again. -/
def Dbg.session (d : Dbg) : List (List Cmd) → List (List Bool) × Dbg
  | [] => ([], d)
  | cs :: l =>
    ((d.enter.cmds cs).1 :: ((d.enter.cmds cs).2.leave.session l).1, ((d.enter.cmds cs).2.leave.session l).2)

/-! ## Why the kernel stopped -/

/-- Register `dr6`: which registers matched, whether a single step is done, and whether any other condition is there
(debug register access, task switch). -/
structure Dr6 where
  b : Fin 4 → Bool
  bs : Bool
  other : Bool

/-- What the debugger is told (`ThreadStopReason` of the crate `gdbstub`). -/
inductive Stop where
  | hwBreak
  | swBreak
  | watch (kind : WatchKind) (addr : Nat)
  | doneStep
deriving DecidableEq, Repr

/-- The reason of a table entry (`gdb/mod.rs` lines 276-306); a software watchpoint is `unimplemented!`, here `none`, and
never set. -/
def BreakState.stop : BreakState → Option Stop
  | ⟨_, .breakpoint, .hardware⟩ => some .hwBreak
  | ⟨_, .breakpoint, .software⟩ => some .swBreak
  | ⟨a, .watchpoint k, .hardware⟩ => some (.watch k a)
  | ⟨_, .watchpoint _, .software⟩ => none

/-- `determine_stop_reason` for a debug interrupt (`gdb/mod.rs` lines 252-333): the lowest register that matched, else the
single step.  With it the value written back to `dr6`, in which all is clear but what was not looked at. -/
def stopReason (table : Fin 4 → Option BreakState) (r : Dr6) : Option Stop × Dr6 :=
  let hit := firstReg r.b
  let r1 : Dr6 := match hit with
    | some i => { r with b := upd r.b i false }
    | none => r
  let bp := hit.bind table
  let (stop, r2) : Option Stop × Dr6 := match bp with
    | some s => (s.stop, r1)
    | none => if r1.bs then (some .doneStep, { r1 with bs := false }) else (none, r1)
  (stop, if (firstReg r2.b).isSome || r2.bs || r2.other then ⟨fun _ => false, false, false⟩ else r2)

/-- The event loop when the kernel was running and nothing was sent by GDB (`gdb/mod.rs` lines 133-209): the reason is
reported; without one, `resume_with` is `None` since the last resume, and this is `unreachable!`. -/
def report (table : Fin 4 → Option BreakState) (r : Dr6) : Outcome Stop :=
  match (stopReason table r).1 with
  | some s => .ok s
  | none => .panic

/-! ## Stepping -/

/-- The bits of `RFlags` of the crate `x86`: all that the processor defines. -/
def flagBits : BitVec 64 := 0x3F7FD7

/-- `FLAGS_TF`. -/
def trapFlag : BitVec 64 := 0x100

/-- The saved flags when the kernel goes on (`gdb/mod.rs` lines 176-195). -/
def resumeFlags (step : Bool) (flags : BitVec 64) : BitVec 64 :=
  if step then flags ||| trapFlag else (flags &&& flagBits) &&& ~~~ trapFlag

end NRK.Gdb
