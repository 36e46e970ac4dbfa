import Verif.Rack.RemoteFsModel
import Verif.Rack.ThreadsModel
import Verif.Proc.NodeModel
import Verif.Proc.ProcModel
import Verif.Mem.McacheModel

/-!
# Model of cores and physical pages of a rack

A client machine of a rack asks the controller for cores and for physical memory
(`kernel/src/arch/x86_64/rackscale/processops/`, the `ProcessDispatch` of `rackscale/syscalls.rs`
lines 285-327).  Requests go through the transport and the table of handlers of
`Verif/Rack/RemoteFsModel.lean`.

The resource manager (DCM) is another program; what it answers is part of the input of a step.
Simplifications: one call at a time, as in `RemoteFsModel`; the calling process exists.
-/

namespace NRK.Rack.Remote

open Rpc (Header)
open Mem (Frame MCache LARGE)
open Fs.Spec (overwrite)

/-- What cores and pages are kept in: the kernel's table of processes and cores (`KernelNode`, replicated
over one log that all machines share, `kernel/src/nr.rs`), the controller's table of hardware threads
(`CONTROLLER_STATE`), the free pages of the machines' shared memory by machine number less one
(`SHMEM_MEMSLICE_ALLOCATORS`, `controller_state.rs` lines 42-51), and the table of physical frames of each
process (`NrProcess`, replicated in the same way). -/
structure Resources where
  node : Proc.Node
  ctl : Controller
  mgr : Nat → MCache
  frames : Nat → Proc.Frames

/-- What the environment decides in a step: the machine the resource manager chooses
(`dcm_resource_alloc`), or the machines if several pages are asked for, whether it accepts a release
(`dcm_resource_release` returns 0) or a request for pages of one machine (`can_satisfy`), whether a hash map
cannot grow, and the environment of the file system. -/
structure Oracle where
  mid : Nat
  mids : Nat → Nat
  accepts : Bool
  oom : Bool
  nlogs : Nat
  env : Fs.Env

/-- `handle_request_core` from line 74 on (`processops/request_core.rs` lines 74-109): claim a thread of the
machine, record it as running the process, add a new process to the file system.  A thread that cannot be
recorded stays claimed. -/
def grantCore (o : Oracle) (pid entry : Nat) (new : Bool) (w : World Resources) :
    Outcome (UInt64 × UInt64) × World Resources :=
  match w.ext.ctl.claim o.mid with
  | .ok (ctl, some (g, _)) =>
    let s := w.ext.node.step true o.oom (.allocCore pid (some g.toNat) entry)
    let w1 := { w with ext := { w.ext with ctl := ctl, node := s.1 } }
    match s.2 with
    | .ok _ =>
      if new then
        let r := w.node.call o.nlogs (.addProcess pid) o.env
        match r.1 with
        | .ok _ => (.ok (UInt64.ofNat g.toNat, 0), { w1 with node := r.2 })
        | _ => (.panic, { w1 with node := r.2 })
      else (.ok (UInt64.ofNat g.toNat, 0), w1)
    | .err e => (.err e, w1)
    | .panic => (.panic, w1)
  | .ok (ctl, none) => (.panic, { w with ext := { w.ext with ctl := ctl } })
  | _ => (.panic, w)

/-- `handle_request_core` (`processops/request_core.rs` lines 61-109).  `RequestCoreReq` (lines 20-25) is a
process number, a flag and an address; the compiler places the fields by decreasing alignment, so the flag
is the lowest byte of the third word (a byte other than 0 and 1 is undefined behaviour; counted as true). -/
def handleRequestCore (o : Oracle) (hdr : Header) (payload : List UInt8) (w : World Resources) :
    Option (Header × List UInt8) × World Resources :=
  match decWords 3 payload with
  | some ([pid, entry, flag], _) =>
    let r := grantCore o pid entry (decide (flag % 256 ≠ 0)) w
    (constructRet hdr payload r.1, r.2)
  | _ => (constructRet hdr payload (.err .rpcMalformedRequest), w)

/-- `handle_release_core` (`processops/release_core.rs` lines 68-103): it only tells the resource manager.
No request reaches it (`registrations`). -/
def handleReleaseCore (o : Oracle) (hdr : Header) (payload : List UInt8) (w : World Resources) :
    Option (Header × List UInt8) × World Resources :=
  match decWords 2 payload with
  | some ([_, _], _) => (constructRet hdr payload (if o.accepts then .ok (0, 0) else .err .dcmError), w)
  | _ => (constructRet hdr payload (.err .rpcMalformedRequest), w)

/-- `handle_allocate_physical` after the decoding (`processops/allocate_physical.rs` lines 101-123): a large
page of the machine the resource manager chooses, whatever was asked for.  No page is an `expect`. -/
def grantPage (o : Oracle) (w : World Resources) : Outcome (UInt64 × UInt64) × World Resources :=
  if o.mid = 0 ∨ maxMachines < o.mid then (.panic, w)
  else
    match (w.ext.mgr (o.mid - 1)).allocLarge with
    | (.ok f, m) => (.ok (UInt64.ofNat f.aff, UInt64.ofNat f.base),
        { w with ext := { w.ext with mgr := upd w.ext.mgr (o.mid - 1) m } })
    | (_, m) => (.panic, { w with ext := { w.ext with mgr := upd w.ext.mgr (o.mid - 1) m } })

/-- `handle_allocate_physical` (`processops/allocate_physical.rs` lines 75-123). -/
def handleAllocatePhysical (o : Oracle) (hdr : Header) (payload : List UInt8) (w : World Resources) :
    Option (Header × List UInt8) × World Resources :=
  match decWords 3 payload with
  | some ([_, _, _], _) =>
    let r := grantPage o w
    (constructRet hdr payload r.1, r.2)
  | _ => (constructRet hdr payload (.err .rpcMalformedRequest), w)

/-- `handle_release_physical` after the decoding (`processops/release_physical.rs` lines 90-136): the page
of the size of a large page goes back to the machine of its affinity, and the resource manager is told. -/
def takePage (o : Oracle) (base aff : Nat) (w : World Resources) :
    Outcome (UInt64 × UInt64) × World Resources :=
  match Mem.shmemAffinityToMid aff with
  | .ok mid =>
    if mid = 0 ∨ maxMachines < mid then (.panic, w)
    else
      match Frame.new base LARGE aff with
      | .ok f =>
        let r := (w.ext.mgr (mid - 1)).releaseLarge f
        let w1 := { w with ext := { w.ext with mgr := upd w.ext.mgr (mid - 1) r.2 } }
        match r.1 with
        | .ok _ => (if o.accepts then .ok (0, 0) else .err .dcmError, w1)
        | .err e => (.err e, w1)
        | .panic => (.panic, w1)
      | _ => (.panic, w)
  | _ => (.panic, w)

/-- `handle_release_physical` (`processops/release_physical.rs` lines 75-136). -/
def handleReleasePhysical (o : Oracle) (hdr : Header) (payload : List UInt8) (w : World Resources) :
    Option (Header × List UInt8) × World Resources :=
  match decWords 4 payload with
  | some ([_, base, _, aff], _) =>
    let r := takePage o base aff w
    (constructRet hdr payload r.1, r.2)
  | _ => (constructRet hdr payload (.err .rpcMalformedRequest), w)

/-- A large page of each of these machines in turn (`get_shmem_frames.rs` lines 144-158,
`dcm/affinity_alloc.rs` lines 93-105).  No page is an `expect`, a page of another affinity an `assert`. -/
def takePages : List Nat → World Resources → Outcome (List Frame) × World Resources
  | [], w => (.ok [], w)
  | mid :: mids, w =>
    if mid = 0 ∨ maxMachines < mid then (.panic, w)
    else
      match (w.ext.mgr (mid - 1)).allocLarge with
      | (.ok f, m) =>
        let w1 := { w with ext := { w.ext with mgr := upd w.ext.mgr (mid - 1) m } }
        if f.aff = Mem.midToShmemAffinity mid then
          match takePages mids w1 with
          | (.ok fs, w2) => (.ok (f :: fs), w2)
          | r => r
        else (.panic, w1)
      | (_, m) => (.panic, { w with ext := { w.ext with mgr := upd w.ext.mgr (mid - 1) m } })

/-- `dcm_affinity_alloc` (`dcm/affinity_alloc.rs` lines 53-107). -/
def affinityAlloc (o : Oracle) (mid n : Nat) (w : World Resources) : Outcome (List Frame) × World Resources :=
  if mid = 0 then (.panic, w)
  else if o.accepts = false then (.err .dcmNotEnoughMemory, w)
  else takePages (List.replicate n mid) w

/-- `encode` of a `Vec<ShmemRegion>` (`get_shmem_frames.rs` lines 34-38, 170): the three words of the vector,
of which decoding uses the length only (simplification: the other two are 0 here), then the elements. -/
def encRegions (fs : List Frame) : List UInt8 :=
  encWords ([0, 0, fs.length] ++ fs.flatMap fun f => [f.base, f.aff])

/-- The end of `handle_get_shmem_frames` (`get_shmem_frames.rs` lines 165-180) with
`construct_ret_extra_data` (`kernelrpc.rs` lines 109-122).  `payload` is the whole buffer of the server; a
range beyond its end is a panic. -/
def replyRegions (hdr : Header) (payload : List UInt8) (n : Nat) (fs : List Frame) :
    Option (Header × List UInt8) :=
  if payload.length < RES_SIZE + (n * 16 + 24) then none
  else some ({ hdr with msgLen := UInt16.ofNat (RES_SIZE + (n * 16 + 24)) },
    overwrite (overwrite payload RES_SIZE (encRegions fs)) 0 (encRes (.ok (0, 0))))

/-- `handle_get_shmem_frames` (`get_shmem_frames.rs` lines 114-181).  `ShmemFrameReq` (lines 27-32) has two
`Option`s of a number, each a tag and the number. -/
def handleGetShmemFrames (o : Oracle) (hdr : Header) (payload : List UInt8) (w : World Resources) :
    Option (Header × List UInt8) × World Resources :=
  match decWords 5 payload with
  | some ([midTag, mid, pidTag, _, n], _) =>
    if midTag ≠ 0 ∨ pidTag ≠ 0 then
      let r := if midTag ≠ 0 then affinityAlloc o mid n w else takePages ((List.range n).map o.mids) w
      match r.1 with
      | .ok fs => (replyRegions hdr payload n fs, r.2)
      | .err e => (constructRet hdr payload (.err e), r.2)
      | .panic => (none, r.2)
    else (constructRet hdr payload (.err .rpcMalformedRequest), w)
  | _ => (constructRet hdr payload (.err .rpcMalformedRequest), w)

/-- The handlers for cores and pages (`rackscale/mod.rs` lines 35-60); the remaining ones are not
modelled. -/
def Oracle.params (o : Oracle) : Params Resources where
  nlogs := o.nlogs
  env := o.env
  other := fun name hdr payload w =>
    match name with
    | .requestCore => handleRequestCore o hdr payload w
    | .releaseCore => handleReleaseCore o hdr payload w
    | .allocatePhysical => handleAllocatePhysical o hdr payload w
    | .releasePhysical => handleReleasePhysical o hdr payload w
    | .getShmemFrames => handleGetShmemFrames o hdr payload w
    | _ => (none, w)

/-! ## The client -/

/-- `rpc_request_core` (`processops/request_core.rs` lines 27-58). -/
def requestCore (c : Ctrl Resources) (o : Oracle) (l : Link) (pid : Nat) (new : Bool) (entry : Nat) :
    Outcome (UInt64 × UInt64) × Ctrl Resources :=
  c.rpc o.params l .requestCore [encWords [pid, entry, if new then 1 else 0]]

/-- The controller's world with another table of processes and cores. -/
def Ctrl.withNode (c : Ctrl Resources) (n : Proc.Node) : Ctrl Resources :=
  { c with world := { c.world with ext := { c.world.ext with node := n } } }

/-- `rpc_release_core` (`processops/release_core.rs` lines 26-63): first the table of processes and cores,
then the message. -/
def releaseCore (c : Ctrl Resources) (o : Oracle) (l : Link) (pid gtid : Nat) :
    Outcome (UInt64 × UInt64) × Ctrl Resources :=
  match c.world.ext.node.step true false (.releaseCore pid gtid) with
  | (n, .ok _) => (c.withNode n).rpc o.params l .releaseCore [encWords [pid, gtid]]
  | (_, .err e) => (.err e, c)
  | (_, .panic) => (.panic, c)

/-- The controller's world with another table of frames of a process. -/
def Ctrl.withFrames (c : Ctrl Resources) (pid : Nat) (fs : Proc.Frames) : Ctrl Resources :=
  { c with world := { c.world with ext := { c.world.ext with frames := upd c.world.ext.frames pid fs } } }

/-- `rpc_allocate_physical` (`processops/allocate_physical.rs` lines 32-72): the frame the process gets has
the address and affinity of the reply and the size of the call. -/
def allocatePhysical (c : Ctrl Resources) (o : Oracle) (l : Link) (pid size affinity : Nat) :
    Outcome (UInt64 × UInt64) × Ctrl Resources :=
  match c.rpc o.params l .allocatePhysical [encWords [pid, size, affinity]] with
  | (.ok (aff, base), c') =>
    match Frame.new base.toNat size aff.toNat with
    | .ok f =>
      match (c'.world.ext.frames pid).add f with
      | (fs, .ok fid) => (.ok (UInt64.ofNat fid, base), c'.withFrames pid fs)
      | (_, .err e) => (.err e, c')
      | (_, .panic) => (.panic, c')
    | _ => (.panic, c')
  | (r, c') => (r, c')

/-- `rpc_release_physical` (`processops/release_physical.rs` lines 34-72). -/
def releasePhysical (c : Ctrl Resources) (o : Oracle) (l : Link) (pid fid : Nat) :
    Outcome (UInt64 × UInt64) × Ctrl Resources :=
  match (c.world.ext.frames pid).dealloc fid with
  | (fs, .ok f) =>
    (c.withFrames pid fs).rpc o.params l .releasePhysical [encWords [pid, f.base, f.size, f.aff]]
  | (_, .err e) => (.err e, c)
  | (_, .panic) => (.panic, c)

end NRK.Rack.Remote
