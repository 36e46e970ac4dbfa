import Verif.Rack.ResourceModel
import Verif.Mem.AllocModel
import Verif.VSpace.VSpaceModel
import Verif.Machine.MachineModel

/-!
# Model of memory mapping on a rack client

The `MapMem` system call of a client machine (`rackscale/syscalls.rs` lines 42-183) takes memory from a cache
of base pages that the client keeps for each process (`client_state.rs` lines 37-38, 67-71) and from the
controller (`rackscale/get_shmem_frames.rs`).

Simplification: allocations of the kernel's own vectors do not fail.
-/

namespace NRK.Rack.Remote

open Rpc (Header)
open Mem (Frame MCache LARGE BASE sizeToPages takeBase)

/-- `rpc_client.lock().call(…).unwrap()` (`client.rs` lines 28-50) with a result buffer of `size` zero bytes:
the buffer after the call.  If the controller panics or sends no reply, the client never returns; counted as
a panic, as in `Ctrl.rpc`. -/
def Ctrl.rpcBuf {σ : Type} (c : Ctrl σ) (p : Params σ) (l : Link) (id : KernelRpc)
    (dataIn : List (List UInt8)) (size : Nat) : Outcome (List UInt8) × Ctrl σ :=
  match Rpc.clientSend l.slot1 l.hdr id.num dataIn with
  | .ok (h, some e) =>
    match c.handle p e l.slot2 with
    | (some [reply], c') =>
      match Rpc.recvMsg reply.1 reply.2 h [List.replicate size 0] with
      | .ok (_, [out]) => (.ok out, c')
      | _ => (.panic, c')
    | (_, c') => (.panic, c')
  | _ => (.panic, c)

/-- Words two by two. -/
def pairs : List Nat → List (Nat × Nat)
  | a :: b :: rest => (a, b) :: pairs rest
  | _ => []

/-- `decode` of a `Vec<ShmemRegion>`: `None` if there are not enough bytes for the elements. -/
def decRegions (b : List UInt8) : Option (List (Nat × Nat) × List UInt8) :=
  match decWords 3 b with
  | some ([_, _, len], rest) => (decWords (2 * len) rest).map fun (ws, rest') => (pairs ws, rest')
  | _ => none

/-- The frames of the regions (`get_shmem_frames.rs` lines 92-98): `Frame::new` of each. -/
def regionFrames : List (Nat × Nat) → Outcome (List Frame)
  | [] => .ok []
  | (base, aff) :: rest =>
    match Frame.new base LARGE aff, regionFrames rest with
    | .ok f, .ok fs => .ok (f :: fs)
    | _, _ => .panic

/-- The words of a `ShmemFrameReq` (`get_shmem_frames.rs` lines 27-32, 45-55): a request of machine `me`'s
kernel, or for a process. -/
def frameReq (me : Nat) (pid : Option Nat) (n : Nat) : List Nat :=
  match pid with
  | some p => [0, 0, 1, p, n]
  | none => [1, me, 0, 0, n]

/-- `rpc_get_shmem_frames` (`get_shmem_frames.rs` lines 41-111) on machine `me`. -/
def getShmemFrames (c : Ctrl Resources) (o : Oracle) (l : Link) (me : Nat) (pid : Option Nat) (n : Nat) :
    Outcome (List Frame) × Ctrl Resources :=
  if n = 0 then (.panic, c)
  else
    match c.rpcBuf o.params l .getShmemFrames [encWords (frameReq me pid n)] (RES_SIZE + n * 16 + 24) with
    | (.ok out, c') =>
      match decRes out with
      | some (.ok _, rest) =>
        match decRegions rest with
        | some (regions, rest') =>
          if rest'.length > 0 then (.err .rpcMalformedResponse, c')
          else if regions.length < n then (.panic, c')
          else (regionFrames (regions.take n), c')
        | none => (.err .rpcMalformedRequest, c')
      | some (.err e, _) => (.err e, c')
      | _ => (.err .rpcMalformedResponse, c')
    | (_, c') => (.panic, c')

/-- The memory for a mapping (`rackscale/syscalls.rs` lines 48-164): large pages, new base pages and base
pages of the client's cache for the process.  What is left of the page that was split goes to the cache; what
does not fit there is lost, and so are the pages taken from the cache if the request fails. -/
def mapPagesOf (c : Ctrl Resources) (o : Oracle) (l : Link) (me : Nat) (cache : MCache) (pid size : Nat) :
    Outcome (List Frame × List Frame × List Frame) × Ctrl Resources × MCache :=
  let bp := (sizeToPages size).1
  let lp := (sizeToPages size).2
  let cached := min cache.bp.length bp
  match takeBase cache cached with
  | (.ok old, cache1) =>
    let need := bp - cached
    let large := if 0 < need then lp + 1 else lp
    if large = 0 then (.ok ([], [], old), c, cache1)
    else
      match getShmemFrames c o l me (some pid) large with
      | (.ok fs, c') =>
        if need = 0 then (.ok (fs.take lp, [], old), c', cache1)
        else
          match fs[lp]? with
          | some f =>
            match f.pages with
            | .ok ps =>
              if ps.length < need then (.panic, c', cache1)
              else
                let rest := ps.drop need
                match cache1.growBase true (rest.take (min rest.length cache1.spareBase)) with
                | (.ok _, cache2) => (.ok (fs.take lp, ps.take need, old), c', cache2)
                | (_, cache2) => (.panic, c', cache2)
            | _ => (.panic, c', cache1)
          | none => (.panic, c', cache1)
      | (.err e, c') => (.err e, c', cache1)
      | (.panic, c') => (.panic, c', cache1)
  | (_, cache1) => (.panic, c, cache1)

/-- What a call of `map_mem` leaves behind: the controller, the client's cache for the process, the address
space of the process and the contents of physical memory. -/
structure MapState where
  ctrl : Ctrl Resources
  cache : MCache
  vs : VSpace.VSpace
  mem : Nat → UInt8

/-- `map_mem` of a client (`rackscale/syscalls.rs` lines 42-183): the pages from the controller are zeroed
(lines 91, 107), those from the cache are not; large pages come first, then new base pages, then those from
the cache; a frame that cannot be mapped is an `expect`, no frame an `unwrap` of `None`. -/
def mapMemRack (env : VSpace.Env) (oom : Nat → Bool) (o : Oracle) (l : Link) (me pid base size : Nat)
    (s : MapState) : Outcome (Nat × Nat) × MapState :=
  match mapPagesOf s.ctrl o l me s.cache pid size with
  | (.ok (large, fresh, old), c, cache) =>
    let r := VSpace.mapPages env (large ++ fresh ++ old) oom s.vs base
    (r.2, ⟨c, cache, r.1, (large ++ fresh).foldl Machine.zero s.mem⟩)
  | (.err e, c, cache) => (.err e, { s with ctrl := c, cache := cache })
  | (.panic, c, cache) => (.panic, { s with ctrl := c, cache := cache })

end NRK.Rack.Remote
