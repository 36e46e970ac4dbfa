import Verif.Common

/-!
# Model of the kernel's process table and core assignment, `kernel/src/nr.rs`

An operation returns the state it leaves behind together with its result.  `oom` says that the
`try_reserve` of a hash map fails.
-/

namespace NRK.Proc

/-- `MAX_PROCESSES` (`kernel/src/process.rs` line 52). -/
def MAX_PROCESSES : Nat := 12

/-- `MAX_CORES` of the x86-64 kernel (`kernel/src/arch/x86_64/mod.rs`). -/
def MAX_CORES : Nat := 192

/-- `CoreInfo` (`kernel/src/nr.rs` lines 96-100). -/
structure CoreInfo where
  pid : Nat
  entry : Nat
deriving DecidableEq, Repr

/-- `KernelNode` (`kernel/src/nr.rs` lines 102-105); the set of pids, and what each core runs. -/
structure Node where
  procs : Nat → Bool
  sched : Nat → Option CoreInfo

/-- `Default for KernelNode` (`kernel/src/nr.rs` lines 107-114). -/
def Node.new : Node := ⟨fun _ => false, fun _ => none⟩

/-- `Op` (`kernel/src/nr.rs` lines 71-87).  The affinity arguments are never used. -/
inductive NodeOp where
  | allocatePid
  | freePid (pid : Nat)
  | allocCore (pid : Nat) (gtid : Option Nat) (entry : Nat)
  | releaseCore (pid gtid : Nat)

/-- `NodeResult` (`kernel/src/nr.rs` lines 89-94 and on). -/
inductive NodeResult where
  | pidAllocated (pid : Nat)
  | pidReturned
  | coreInfo (c : CoreInfo)
  | coreAllocated (gtid : Nat)
  | coreReleased
deriving DecidableEq, Repr

/-- The loop of `Op::AllocatePid` (`kernel/src/nr.rs` lines 185-197) from `i`, with `n` ids to go. -/
def allocPidFrom (oom : Bool) (s : Node) : Nat → Nat → Node × Outcome NodeResult
  | _, 0 => (s, .err .outOfPids)
  | i, n + 1 =>
    if s.procs i = false then
      if oom then (s, .err .outOfMemory)
      else ({ s with procs := upd s.procs i true }, .ok (.pidAllocated i))
    else allocPidFrom oom s (i + 1) n

/-- `dispatch_mut` (`kernel/src/nr.rs` lines 183-246); `rack` is the feature `rackscale`, without
which the core number is asserted to be small. -/
def Node.step (rack oom : Bool) (s : Node) : NodeOp → Node × Outcome NodeResult
  | .allocatePid => allocPidFrom oom s 0 MAX_PROCESSES
  | .freePid pid =>
    if s.procs pid then ({ s with procs := upd s.procs pid false }, .ok .pidReturned)
    else (s, .err .noProcessFoundForPid)
  | .allocCore pid (some gtid) entry =>
    if rack = false ∧ ¬ gtid < MAX_CORES then (s, .panic)
    else
      match s.sched gtid with
      | some _ => (s, .err .coreAlreadyAllocated)
      | none =>
        if oom then (s, .err .outOfMemory)
        else ({ s with sched := upd s.sched gtid (some ⟨pid, entry⟩) }, .ok (.coreAllocated gtid))
  | .allocCore _ none _ => (s, .panic)
  | .releaseCore pid gtid =>
    if rack = false ∧ ¬ gtid < MAX_CORES then (s, .panic)
    else
      match s.sched gtid with
      | some c =>
        if c.pid = pid then ({ s with sched := upd s.sched gtid none }, .ok .coreReleased)
        else (s, .err .coreAllocatedToDifferentProcess)
      | none => (s, .err .coreNotAllocated)

/-- `dispatch` (`kernel/src/nr.rs` lines 171-181), the query for what a core runs. -/
def Node.current (s : Node) (gtid : Nat) : Outcome NodeResult :=
  match s.sched gtid with
  | some c => .ok (.coreInfo c)
  | none => .err .noExecutorForCore

/-- States after a history of operations that did not panic, with the history (latest first) of
operations and results. -/
inductive Node.Run (rack : Bool) : List (NodeOp × Outcome NodeResult) → Node → Prop where
  | new : Run rack [] Node.new
  | step {h s s' o} (oom : Bool) (op : NodeOp) : Run rack h s → s.step rack oom op = (s', o) →
      o ≠ .panic → Run rack ((op, o) :: h) s'

end NRK.Proc
