import Verif.Proc.NodeModel
import Verif.Proc.ProcModel

/-!
# Model of the kernel's scheduler, `kernel/src/scheduler/mod.rs`

What each core runs: from the table of cores (`NodeModel`) and the executors of the processes
(`ProcModel`) to the registers a core enters user mode with.  The build without rack-scale support.

Each query or operation on a replicated structure is one step, and the cores' steps interleave freely.
The process table of a process is one state, not one per node; what the replicas do differ in, the root of
the page table, is given by `DCfg.root`.  A panic of one core stops the kernel.
-/

namespace NRK.Proc

open NRK.VSpace NRK.Mem

/-- The machine and the programs.  `main` says which cores are the first of their node; `root` is the
root of the page table that the replica of a node keeps for a process, `elf` the entry point of its
program (`arch/x86_64/process.rs` line 862). -/
structure DCfg where
  env : Env
  ncores : Nat
  nodeOf : Nat → Nat
  main : Nat → Bool
  root : Nat → Nat → Nat
  elf : Nat → Nat

/-- The parameters of the processes' model. -/
def DCfg.proc (g : DCfg) : Cfg := ⟨g.env, false, 1, 0⟩

/-- `INVALID_EXECUTOR_START` (`arch/x86_64/process.rs` line 44). -/
def INVALID_START : Nat := 0xdeadffff

/-- `NEW_CORE` (`lib/kpi/src/upcall.rs` line 6). -/
def NEW_CORE : Nat := 0x99

/-- `LARGE_PAGE_SIZE`, the size of the memory for executors (`kernel/src/process.rs` line 594). -/
def EXEC_PAGE : Nat := 2097152

/-- Where a core is.  `sched`: at the query of `schedule` (`kernel/src/scheduler/mod.rs` lines 40-44);
`found`: it was told what to run and is about to get an executor (line 49); `alloc`: making executors, so
many so far (`kernel/src/process.rs` line 588); `retry`: asking again (`kernel/src/nrproc.rs` line 339);
`idle`: halted (line 82 of the scheduler); `user`: in user mode; `gc`: in the endless loop of
`arch/x86_64/irq.rs` lines 760-768. -/
inductive Where where
  | sched
  | found (ci : CoreInfo)
  | alloc (ci : CoreInfo) (created : Nat)
  | retry (ci : CoreInfo)
  | idle
  | user
  | gc
deriving DecidableEq, Repr

/-- What a core enters user mode with: instruction and stack pointer and the three arguments
(`Ring3Resumer`, `arch/x86_64/process.rs` lines 484-512). -/
structure Launch where
  entry : Nat
  stack : Nat
  args : Nat × Nat × Nat
deriving DecidableEq, Repr

/-- A core: `CURRENT_EXECUTOR` (`arch/x86_64/process.rs` line 51) with its process, the register `cr3`,
and what it entered user mode with. -/
structure Core where
  at_ : Where
  cur : Option (Nat × Executor)
  cr3 : Nat
  launch : Option Launch
deriving DecidableEq, Repr

/-- The kernel. -/
structure Sys where
  node : Node
  procs : Nat → Proc
  cores : Nat → Core

/-- The state at boot: no process has executors, all cores call `schedule`. -/
def Sys.boot (pt : Nat → PML4) (off : Nat → Nat) (cr3 : Nat → Nat) : Sys :=
  ⟨Node.new, fun p => Proc.new (pt p) (off p), fun c => ⟨.sched, none, cr3 c, none⟩⟩

def Sys.setCore (s : Sys) (c : Nat) (k : Core) : Sys := { s with cores := upd s.cores c k }

/-- The core goes on elsewhere in the kernel. -/
def Sys.goto (s : Sys) (c : Nat) (w : Where) : Sys := s.setCore c { s.cores c with at_ := w }

/-- `to_create` (`kernel/src/process.rs` lines 574-584): the number of cores of the node. -/
def DCfg.threads (g : DCfg) (node : Nat) : Nat :=
  ((List.range g.ncores).filter fun c => g.nodeOf c == node).length

/-- `stack_top` (`arch/x86_64/process.rs` lines 870-877). -/
def Executor.stackTop (e : Executor) : Nat := e.stackBase + STACK - 8

/-- `start` (`arch/x86_64/process.rs` lines 918-952), what it enters user mode with; `start` is
`resume_with_upcall`. -/
def Executor.launch (elf start core : Nat) (e : Executor) : Launch :=
  if start = INVALID_START then ⟨elf, e.stackTop, (0, 0, 0)⟩
  else ⟨start, e.stackTop, (e.vcpuCtl, NEW_CORE, core)⟩

/-- `schedule` from `swap_current_executor` on (`kernel/src/scheduler/mod.rs` lines 50-115): there must
have been no executor, `start` asserts the node and `maybe_switch_vspace` (`arch/x86_64/process.rs` lines
983-991) writes `cr3`.  Other cores of the process can write `resume_with_upcall` between the kernel's
write and its read; left out. -/
def Sys.run (g : DCfg) (s : Sys) (c : Nat) (ci : CoreInfo) (e : Executor) : Sys × Outcome Unit :=
  if (s.cores c).cur.isSome then (s, .panic)
  else if g.nodeOf c ≠ e.affinity then (s, .panic)
  else
    (s.setCore c ⟨.user, some (ci.pid, e), g.root ci.pid (g.nodeOf c),
      some (e.launch (g.elf ci.pid) ci.entry c)⟩, .ok ())

/-- `try_assign_executor` (`kernel/src/nrproc.rs` lines 308-325), in `allocate_executor` (lines 327-343)
for the first time or not; what else it returns is an `expect` of the scheduler (line 50). -/
def Sys.assign (g : DCfg) (s : Sys) (c : Nat) (ci : CoreInfo) (oom first : Bool) : Sys × Outcome Unit :=
  match (s.procs ci.pid).step g.proc (.assign (BitVec.ofNat 64 c) (g.nodeOf c) oom) with
  | (p, .ok (.executor e)) => { s with procs := upd s.procs ci.pid p }.run g c ci e
  | (p, .err .noExecutorAllocated) =>
    if first then ({ s with procs := upd s.procs ci.pid p }.goto c (.alloc ci 0), .ok ()) else (s, .panic)
  | _ => (s, .panic)

/-- A round of `allocate_dispatchers` (`kernel/src/process.rs` lines 588-607).  `mem` is the page from the
node's cache; `none` says that memory runs out anywhere in the round, which the `expect` of the scheduler
and the `unreachable` (line 605) turn into a panic. -/
def Sys.makeMore (g : DCfg) (s : Sys) (c : Nat) (ci : CoreInfo) (created : Nat) (mem : Option Nat) :
    Sys × Outcome Unit :=
  if created < g.threads (g.nodeOf c) then
    match mem with
    | none => (s, .panic)
    | some base =>
      match (s.procs ci.pid).step g.proc
          (.dispatchers ⟨base, EXEC_PAGE, g.nodeOf c⟩ 0 false (fun _ => false)) with
      | (p, .ok (.executorsCreated n)) =>
        ({ s with procs := upd s.procs ci.pid p }.goto c (.alloc ci (created + n)), .ok ())
      | _ => (s, .panic)
  else (s.goto c (.retry ci), .ok ())

/-- A step of a core in `schedule` (`kernel/src/scheduler/mod.rs` lines 17-116).  The first core of a node
does not sleep (lines 67-81). -/
def Sys.coreStep (g : DCfg) (s : Sys) (c : Nat) (mem : Option Nat) (oom : Bool) : Sys × Outcome Unit :=
  match (s.cores c).at_ with
  | .sched =>
    match s.node.current c with
    | .ok (.coreInfo ci) => (s.goto c (.found ci), .ok ())
    | .err .noExecutorForCore => if g.main c then (s, .ok ()) else (s.goto c .idle, .ok ())
    | _ => (s, .panic)
  | .found ci => s.assign g c ci oom true
  | .alloc ci created => s.makeMore g c ci created mem
  | .retry ci => s.assign g c ci oom false
  | _ => (s, .ok ())

/-- What happens.  `tick`: the timer or a request to flush the TLB (`arch/x86_64/irq.rs` lines 507-555 and
739-751); `gcInit`: the interrupt that asks for progress of the file system's replicas (lines 752-769);
`request`, `release`: the system calls (`arch/x86_64/syscall.rs` lines 178-217); `spawn`: the kernel starts
a program (`arch/x86_64/process.rs` lines 1607-1631); `other`: any other operation on a process. -/
inductive Act where
  | step (c : Nat) (mem : Option Nat) (oom : Bool)
  | tick (c : Nat)
  | gcInit (c : Nat)
  | request (c : Nat) (t : BitVec 64) (entry : Nat) (oom : Bool)
  | release (c : Nat) (t : BitVec 64)
  | spawn (c : Nat) (oom oom' : Bool)
  | other (pid : Nat) (op : ProcOp)

/-- `timer_handler` (`arch/x86_64/irq.rs` lines 507-555) and the flush of the TLB (lines 739-751). -/
def Sys.tick (s : Sys) (c : Nat) : Sys × Outcome Unit :=
  match (s.cores c).at_ with
  | .idle => if (s.cores c).cur.isSome then (s, .ok ()) else (s.goto c .sched, .ok ())
  | _ => (s, .ok ())

/-- The interrupt `MLNR_GC_INIT` (`arch/x86_64/irq.rs` lines 752-769). -/
def Sys.gcInit (s : Sys) (c : Nat) : Sys × Outcome Unit :=
  match (s.cores c).at_ with
  | .idle => if (s.cores c).cur.isSome then (s, .ok ()) else (s.goto c .gc, .ok ())
  | _ => (s, .ok ())

/-- A system call that changes the table of cores (`arch/x86_64/syscall.rs` lines 178-217): the thread has
to be in the topology, by its number within the machine; then the process is that of the executor.  The
error `InvalidGlobalThreadId` is written `noExecutorForCore`. -/
def Sys.sysCore (g : DCfg) (s : Sys) (c : Nat) (t : BitVec 64) (oom : Bool) (op : Nat → NodeOp) :
    Sys × Outcome Unit :=
  match (s.cores c).at_ with
  | .user =>
    if (mtidFromGtid t).toNat < g.ncores then
      match (s.cores c).cur with
      | none => (s, .err .processNotSet)
      | some (pid, _) =>
        let r := s.node.step false oom (op pid)
        ({ s with node := r.1 }, r.2.map fun _ => ())
    else (s, .err .noExecutorForCore)
  | _ => (s, .ok ())

/-- `spawn` (`arch/x86_64/process.rs` lines 1607-1631) by the kernel on a core that runs no process yet;
the loading of the program (`make_process`) is C43-C45's. -/
def Sys.spawn (s : Sys) (c : Nat) (oom oom' : Bool) : Sys × Outcome Unit :=
  match (s.cores c).at_ with
  | .sched =>
    match s.node.step false oom .allocatePid with
    | (n, .ok (.pidAllocated pid)) =>
      let r := n.step false oom' (.allocCore pid (some c) INVALID_START)
      ({ s with node := r.1 }, r.2.map fun _ => ())
    | (n, o) => ({ s with node := n }, o.map fun _ => ())
  | _ => (s, .ok ())

/-- Operations on a process other than those of the scheduler. -/
def ProcOp.IsOther : ProcOp → Bool
  | .dispatchers .. => false
  | .assign .. => false
  | _ => true

/-- What an action does; nothing if the core does not exist. -/
def Sys.act (g : DCfg) (s : Sys) : Act → Sys × Outcome Unit
  | .step c mem oom => if c < g.ncores then s.coreStep g c mem oom else (s, .ok ())
  | .tick c => s.tick c
  | .gcInit c => s.gcInit c
  | .request c t entry oom => s.sysCore g c t oom fun pid => .allocCore pid (some t.toNat) entry
  | .release c t => s.sysCore g c t false fun pid => .releaseCore pid t.toNat
  | .spawn c oom oom' => if c < g.ncores then s.spawn c oom oom' else (s, .ok ())
  | .other pid op =>
    if op.IsOther then
      let r := (s.procs pid).step g.proc op
      ({ s with procs := upd s.procs pid r.1 }, r.2.map fun _ => ())
    else (s, .ok ())

/-- What happened so far, latest first: the state before, the action and its result. -/
abbrev DHist := List (Sys × Act × Outcome Unit)

/-- The executions. -/
inductive DRun (g : DCfg) : DHist → Sys → Prop where
  | boot (pt : Nat → PML4) (off : Nat → Nat) (cr3 : Nat → Nat) : DRun g [] (Sys.boot pt off cr3)
  | act {h : DHist} {s s' : Sys} {o : Outcome Unit} (a : Act) (r : DRun g h s)
      (hs : s.act g a = (s', o)) (ho : o ≠ .panic) : DRun g ((s, a, o) :: h) s'

end NRK.Proc
