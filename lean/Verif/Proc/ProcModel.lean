import Verif.VSpace.VSpaceModel
import Verif.Proc.CoreSetModel

/-!
# Model of a process: address space, registered frames, executors

`kernel/src/nrproc.rs` lines 546-635, `kernel/src/process.rs` lines 124-203 and
`kernel/src/arch/x86_64/process.rs` lines 820-868, 995-1074, 1407-1541.

An operation returns the state it leaves behind together with its outcome, because several operations
fail after having changed something.
-/

namespace NRK.Proc

open NRK.VSpace NRK.Mem

/-- `MAX_FRAMES_PER_PROCESS` (`kernel/src/process.rs` line 55), the number of cores. -/
def MAX_FRAMES : Nat := 192

/-- `MAX_NUMA_NODES` of the x86-64 kernel (`kernel/src/arch/x86_64/mod.rs`). -/
def MAX_NUMA_NODES : Nat := 12

/-- `MAX_MACHINES` of the x86-64 kernel (`kernel/src/arch/x86_64/mod.rs`). -/
def MAX_MACHINES : Nat := 16

/-! ## Registered frames -/

/-- `ProcessFrames` (`kernel/src/process.rs` lines 124-127): frame and reference count per id. -/
abbrev Frames := List (Option Frame × Nat)

/-- `Default for ProcessFrames` (`kernel/src/process.rs` lines 129-135). -/
def Frames.new : Frames := List.replicate MAX_FRAMES (none, 0)

/-- `add_frame` (`kernel/src/process.rs` lines 138-145). -/
def Frames.add (fs : Frames) (f : Frame) : Frames × Outcome Nat :=
  match fs.findIdx? (fun e => e.1.isNone) with
  | some fid => (fs.set fid (some f, 0), .ok fid)
  | none => (fs, .err .tooManyRegisteredFrames)

/-- `get_frame` (`kernel/src/process.rs` lines 147-159). -/
def Frames.get (fs : Frames) (fid : Nat) : Outcome (Frame × Nat) :=
  match fs[fid]? with
  | some (some f, n) => .ok (f, n)
  | _ => .err .invalidFrameId

/-- `add_frame_mapping` (`kernel/src/process.rs` lines 161-173). -/
def Frames.addMapping (fs : Frames) (fid : Nat) : Frames × Outcome Unit :=
  match fs[fid]? with
  | some (some f, n) => (fs.set fid (some f, n + 1), .ok ())
  | _ => (fs, .err .invalidFrameId)

/-- `remove_frame_mapping` (`kernel/src/process.rs` lines 175-193), the loop over all frames. -/
def Frames.removeMapping : Frames → Nat → Frames × Outcome Unit
  | [], _ => ([], .err .invalidFrameId)
  | (none, n) :: rest, pa =>
    let r := Frames.removeMapping rest pa
    ((none, n) :: r.1, r.2)
  | (some f, n) :: rest, pa =>
    if f.base = pa ∧ n > 0 then ((some f, n - 1) :: rest, .ok ())
    else if f.base = pa then ((some f, n) :: rest, .panic)
    else
      let r := Frames.removeMapping rest pa
      ((some f, n) :: r.1, r.2)

/-- `deallocate_frame` (`kernel/src/process.rs` lines 195-202). -/
def Frames.dealloc (fs : Frames) (fid : Nat) : Frames × Outcome Frame :=
  match fs[fid]? with
  | none => (fs, .err .invalidFrameId)
  | some (of, n) =>
    if n = 0 then
      match of with
      | some f => (fs.set fid (none, n), .ok f)
      | none => (fs, .err .invalidFrameId)
    else (fs, .err .frameStillMapped)

/-! ## Executors -/

/-- `Ring3Executor` (`arch/x86_64/process.rs` lines 775-810): id, start of the region with the two stacks
and the control area, physical address of the control area, affinity.  The other fields do not matter
here. -/
structure Executor where
  eid : Nat
  stackBase : Nat
  upcallStackBase : Nat
  vcpuCtl : Nat
  vcpuCtlPaddr : Nat
  affinity : Nat
deriving DecidableEq, Repr

/-- `INIT_STACK_SIZE`, `UPCALL_STACK_SIZE` (`arch/x86_64/process.rs` lines 822-824). -/
def STACK : Nat := 98304

/-- `EXECUTOR_SPACE_REQUIREMENT` (`arch/x86_64/process.rs` lines 827-828). -/
def EXEC_SPACE : Nat := 200704

/-- `Ring3Executor::new` (`arch/x86_64/process.rs` lines 830-868); the region has the required size. -/
def Executor.new (eid pa va aff : Nat) : Executor :=
  ⟨eid, va, va + STACK, va + STACK + STACK, pa + STACK + STACK, aff⟩

/-- The state of a process: `NrProcess` (`kernel/src/nrproc.rs` lines 136-141) with the fields of
`Ring3Process` (`arch/x86_64/process.rs` lines 995-1027) that the operations here use. -/
structure Proc where
  vs : VSpace
  frames : Frames
  active : List (BitVec 64 × Nat)
  curEid : Nat
  execOff : Nat
  cache : Nat → Option (List Executor)

/-- Parameters of a kernel build and machine: the feature `pages-4k` etc. (`env`), the feature
`rackscale`, the number of machines and the machine this replica is on. -/
structure Cfg where
  env : Env
  rack : Bool
  numMachines : Nat
  machine : Nat

/-- Where the executors of a node (and machine) are kept: `get_executor_index` (`arch/x86_64/process.rs`
lines 1065-1073) or the node; a panic if that is outside the table (lines 1031-1040). -/
def execIndex (c : Cfg) (aff mid : Nat) : Option Nat :=
  if c.rack then
    if mid * MAX_NUMA_NODES + aff < MAX_NUMA_NODES * MAX_MACHINES then some (mid * MAX_NUMA_NODES + aff)
    else none
  else if aff < MAX_NUMA_NODES then some aff else none

/-- `Vec::push`/`try_vec!` on the list of an index (`arch/x86_64/process.rs` lines 1523-1526). -/
def pushExec (cache : Nat → Option (List Executor)) (i : Nat) (e : Executor) :
    Nat → Option (List Executor) :=
  upd cache i (some (e :: (cache i).getD []))

/-- The loop of `allocate_executors` (`arch/x86_64/process.rs` lines 1484-1529): `n` executors to go,
`ooms` says for which of them memory runs out. -/
def makeExecs (c : Cfg) (aff mid : Nat) : Nat → (Nat → Bool) → Proc → Nat → Nat → Proc × Outcome Unit
  | 0, _, s, _, _ => (s, .ok ())
  | n + 1, ooms, s, pa, va =>
    if ooms n then (s, .err .outOfMemory)
    else
      match execIndex c aff mid with
      | none => (s, .panic)
      | some i =>
        makeExecs c aff mid n ooms
          { s with cache := pushExec s.cache i (Executor.new s.curEid pa va aff), curEid := s.curEid + 1 }
          (pa + EXEC_SPACE) (va + EXEC_SPACE)

/-- The rights the executor memory is mapped with. -/
def execRights : MapAction := MapAction.user.or MapAction.writable

/-- `allocate_executors` (`arch/x86_64/process.rs` lines 1430-1541).  `mapOom` says that `try_insert` of
`map_frame` fails; any failure to map is an `expect`. -/
def Proc.allocateExecutors (c : Cfg) (mapOom : Bool) (ooms : Nat → Bool) (s : Proc) (memory : Frame)
    (mid : Nat) : Proc × Outcome Nat :=
  let n := memory.size / EXEC_SPACE
  let mapped : VSpace × Outcome Unit :=
    if c.rack = true ∧ mid ≠ c.machine then (s.vs, .ok ())
    else mapFrame c.env mapOom s.vs s.execOff memory execRights
  match mapped with
  | (vs', .ok _) =>
    match makeExecs c memory.aff mid n ooms { s with vs := vs' } memory.base s.execOff with
    | (s', .ok _) => ({ s' with execOff := s'.execOff + memory.size }, .ok n)
    | (s', .err e) => (s', .err e)
    | (s', .panic) => (s', .panic)
  | (vs', _) => ({ s with vs := vs' }, .panic)

/-- `get_executor` (`arch/x86_64/process.rs` lines 1407-1427). -/
def Proc.getExecutor (c : Cfg) (s : Proc) (region mid : Nat) : Proc × Outcome Executor :=
  match execIndex c region mid with
  | none => (s, .panic)
  | some i =>
    match s.cache i with
    | some (e :: rest) => ({ s with cache := upd s.cache i (some rest) }, .ok e)
    | some [] => (s, .err .executorCacheExhausted)
    | none => (s, .err .noExecutorAllocated)

/-! ## Operations -/

/-- `ProcessOpMut` (`kernel/src/nrproc.rs` lines 70-98), without `Load`.  The extra arguments say which
allocations fail: `refill` the `try_refill_tcache`, `oom` the insertion into a map or vector. -/
inductive ProcOp where
  | dispatchers (memory : Frame) (mid : Nat) (mapOom : Bool) (ooms : Nat → Bool)
  | map (base : Nat) (f : Frame) (a : MapAction) (refill oom : Bool)
  | mapDevice (f : Frame) (a : MapAction) (oom : Bool)
  | mapFrameId (base fid : Nat) (a : MapAction) (refill oom : Bool)
  | unmap (base : Nat)
  | assign (gtid : BitVec 64) (region : Nat) (oom : Bool)
  | allocFrame (f : Frame)
  | releaseFrame (fid : Nat)

/-- `TlbFlushHandle` (`memory/vspace.rs` lines 17-31) with its core set. -/
structure Handle where
  range : FlushHandle
  cores : CoreBitMap
deriving DecidableEq, Repr

/-- `ProcessResult` (`kernel/src/nrproc.rs` lines 100-115). -/
inductive ProcResult where
  | ok
  | executorsCreated (n : Nat)
  | mappedFrameId (base size : Nat)
  | unmapped (hs : List Handle)
  | executor (e : Executor)
  | frameId (fid : Nat)
  | frame (f : Frame)
deriving DecidableEq, Repr

/-- The loop of `MemUnmap` over the active cores (`kernel/src/nrproc.rs` lines 601-606); an index out of
bounds is a panic. -/
def addActive : List Handle → List (BitVec 64 × Nat) → Outcome (List Handle)
  | hs, [] => .ok hs
  | hs, (g, _) :: rest =>
    match hs[(midFromGtid g).toNat]? with
    | none => .panic
    | some h =>
      (h.cores.setBit (mtidFromGtid g).toNat true).bind fun cm =>
        addActive (hs.set (midFromGtid g).toNat { h with cores := cm }) rest

/-- `dispatch_mut` (`kernel/src/nrproc.rs` lines 546-635). -/
def Proc.step (c : Cfg) (s : Proc) : ProcOp → Proc × Outcome ProcResult
  | .dispatchers memory mid mapOom ooms =>
    let r := s.allocateExecutors c mapOom ooms memory mid
    (r.1, r.2.map .executorsCreated)
  | .map base f a refill oom =>
    if refill then (s, .err .outOfMemory)
    else
      let r := mapFrame c.env oom s.vs base f a
      ({ s with vs := r.1 }, r.2.map fun _ => .ok)
  | .mapDevice f a oom =>
    let r := mapFrame c.env oom s.vs f.base f a
    ({ s with vs := r.1 }, r.2.map fun _ => .ok)
  | .mapFrameId base fid a refill oom =>
    match s.frames.get fid with
    | .ok (f, _) =>
      match s.frames.addMapping fid with
      | (fs', .ok _) =>
        if refill then ({ s with frames := fs' }, .err .outOfMemory)
        else
          let r := mapFrame c.env oom s.vs base f a
          ({ s with frames := fs', vs := r.1 }, r.2.map fun _ => .mappedFrameId f.base f.size)
      | (fs', .err e) => ({ s with frames := fs' }, .err e)
      | (fs', .panic) => ({ s with frames := fs' }, .panic)
    | .err e => (s, .err e)
    | .panic => (s, .panic)
  | .unmap base =>
    match NRK.VSpace.unmap s.vs base with
    | (vs', .ok h) =>
      let fr : Frames × Outcome Unit :=
        if h.flags.aliased then s.frames.removeMapping h.paddr else (s.frames, .ok ())
      match fr with
      | (fs', .ok _) =>
        ({ s with vs := vs', frames := fs' },
          (addActive (List.replicate c.numMachines ⟨h, CoreBitMap.empty⟩) s.active).map .unmapped)
      | (fs', _) => ({ s with vs := vs', frames := fs' }, .panic)
    | (vs', .err e) => ({ s with vs := vs' }, .err e)
    | (vs', .panic) => ({ s with vs := vs' }, .panic)
  | .assign gtid region oom =>
    match s.getExecutor c region (midFromGtid gtid).toNat with
    | (s', .ok e) =>
      if oom then (s', .err .outOfMemory)
      else ({ s' with active := s'.active ++ [(gtid, e.eid)] }, .ok (.executor e))
    | (s', .err er) => (s', .err er)
    | (s', .panic) => (s', .panic)
  | .allocFrame f =>
    let r := s.frames.add f
    ({ s with frames := r.1 }, r.2.map .frameId)
  | .releaseFrame fid =>
    let r := s.frames.dealloc fid
    ({ s with frames := r.1 }, r.2.map .frame)

/-- `Ring3Process::new` (`arch/x86_64/process.rs` lines 1030-1062); `EXECUTOR_OFFSET` is
`lib/kpi/src/process.rs`'s.  The page table may have kernel mappings. -/
def Proc.new (pt : PML4) (execOff : Nat) : Proc :=
  ⟨⟨[], pt⟩, Frames.new, [], 0, execOff, fun _ => none⟩

end NRK.Proc
