import Verif.Rpc.Model
import Verif.Fs.FsModel

/-!
# Model of remote file operations

A client machine of a rack sends the file system calls of its programs to the controller
(`kernel/src/arch/x86_64/rackscale/fileops/`, `kernelrpc.rs`, the `FsDispatch` of
`rackscale/syscalls.rs`, `register_rpcs` and the handling of one request of `controller.rs`).  The
transport is the one of `Verif/Rpc/Model.lean`, the file system the one of `Verif/Fs/FsModel.lean`.

Simplifications: one call at a time (each client holds the lock of its only connection for the whole
call and the controller's file system executes calls one after the other, C12 and C13); user memory is
accessible (C41, C42), so a buffer of the program is a list of bytes.
-/

namespace NRK.Rack.Remote

open Rpc (Header Res)
open Fs (Node Env Fd Flags Modes NodeResult)
open Fs.Spec (overwrite)

/-! ## Numbers of the requests and registered handlers -/

/-- `KernelRpc` (`kernelrpc.rs` lines 14-62). -/
inductive KernelRpc where
  | create | open | read | readAt | write | writeAt | close | getInfo | delete | writeDirect
  | fileRename | mkDir | log | allocatePhysical | releasePhysical | requestCore | releaseCore
  | getHardwareThreads | getShmemStructure | getShmemFrames
deriving DecidableEq, Repr

/-- The numbers of `KernelRpc` (`kernelrpc.rs` lines 14-62). -/
def KernelRpc.num : KernelRpc → UInt8
  | create => 0 | .open => 1 | read => 2 | readAt => 3 | write => 4 | writeAt => 5 | close => 6
  | getInfo => 7 | delete => 8 | writeDirect => 9 | fileRename => 10 | mkDir => 11 | log => 12
  | allocatePhysical => 13 | releasePhysical => 14 | requestCore => 15 | releaseCore => 16
  | getHardwareThreads => 17 | getShmemStructure => 18 | getShmemFrames => 19

/-- The handler constants (`rackscale/mod.rs` lines 35-60). -/
inductive HandlerName where
  | close | delete | getInfo | mkDir | open | rename | write | read | log | allocatePhysical
  | releasePhysical | requestCore | releaseCore | getHardwareThreads | getShmemStructure
  | getShmemFrames
deriving DecidableEq, Repr

/-- `register_rpcs` (`controller.rs` lines 163-234), in order.  Note the handler of `ReleaseCore`. -/
def registrations : List (KernelRpc × HandlerName) :=
  [(.close, .close), (.delete, .delete), (.getInfo, .getInfo), (.mkDir, .mkDir), (.open, .open),
   (.fileRename, .rename), (.write, .write), (.writeAt, .write), (.read, .read), (.readAt, .read),
   (.log, .log), (.allocatePhysical, .allocatePhysical), (.releasePhysical, .releasePhysical),
   (.requestCore, .requestCore), (.releaseCore, .requestCore),
   (.getHardwareThreads, .getHardwareThreads), (.getShmemStructure, .getShmemStructure),
   (.getShmemFrames, .getShmemFrames)]

/-- The handler a server finds for a message type after these registrations (`server.rs` lines 39-48,
76, 91): the first one registered (C45). -/
def lookup (id : UInt8) : Option HandlerName :=
  (registrations.find? fun r => r.1.num == id).map (·.2)

/-! ## Encoding

`abomonation`'s `encode` of a structure without pointers copies its bytes, `decode` reinterprets them.
All fields of the request structures are 8 bytes long.  Simplification: fields in the order of their
declaration; the compiler may choose another order, but both sides run the same program. -/

/-- A 64-bit field, little endian. -/
def le8 (n : Nat) : List UInt8 :=
  [UInt8.ofNat n, UInt8.ofNat (n / 256), UInt8.ofNat (n / 256 ^ 2), UInt8.ofNat (n / 256 ^ 3),
   UInt8.ofNat (n / 256 ^ 4), UInt8.ofNat (n / 256 ^ 5), UInt8.ofNat (n / 256 ^ 6),
   UInt8.ofNat (n / 256 ^ 7)]

/-- Reading a field. -/
def leVal (b : List UInt8) : Nat := b.foldr (fun x acc => x.toNat + 256 * acc) 0

/-- `encode` of a structure with these fields. -/
def encWords (ws : List Nat) : List UInt8 := ws.flatMap le8

/-- `decode` of a structure with `k` fields: `None` if the buffer is too short, otherwise the fields
and the rest of the buffer. -/
def decWords : Nat → List UInt8 → Option (List Nat × List UInt8)
  | 0, b => some ([], b)
  | k + 1, b =>
    if b.length < 8 then none
    else (decWords k (b.drop 8)).map fun (ws, rest) => (leVal (b.take 8) :: ws, rest)

/-- `FileFlags::bits` (`lib/kpi/src/io.rs` lines 36-44). -/
def flagBits (f : Flags) : Nat :=
  (if f.read then 1 else 0) + (if f.write then 2 else 0) + (if f.create then 512 else 0) +
  (if f.truncate then 1024 else 0) + (if f.append then 8192 else 0)

/-- `FileModes::bits` (`lib/kpi/src/io.rs` lines 94-101). -/
def modeBits (m : Modes) : Nat :=
  (if m.executable then 1 else 0) + (if m.writable then 2 else 0) + (if m.readable then 4 else 0)

/-- An `i64` offset as its 64 bits; -1 ("use the descriptor's offset") is `none`. -/
def offsetBits : Option Nat → Nat
  | none => 2 ^ 64 - 1
  | some o => o

/-- Reading the offset back; what is not -1 is used as a `usize` (`fs/cnrfs.rs` lines 424, 555). -/
def offsetOf (w : Nat) : Option Nat := if w = 2 ^ 64 - 1 then none else some w

/-- A `FileDescriptor` read from a message is not checked; one that is too large is an index panic in the
file system. -/
def fdOf (w : Nat) : Option Fd := if h : w < Fs.MAX_FILES then some ⟨w, h⟩ else none

/-- The variants of `KError` without fields, in some order; the position is the number in a message. -/
def plainErrors : List KError :=
  [.outOfMemory, .permissionError, .invalidFile, .invalidFileDescriptor, .fileDescriptorTooLarge,
   .alreadyPresent, .invalidOffset, .notSupported, .noProcessFoundForPid, .fileDescForPidAlreadyAdded,
   .outOfPids, .noExecutorForCore, .coreAlreadyAllocated, .coreNotAllocated,
   .coreAllocatedToDifferentProcess, .tooManyRegisteredFrames, .invalidFrameId, .frameStillMapped,
   .executorCacheExhausted, .noExecutorAllocated, .cacheExhausted, .cacheFull, .invalidAffinityId,
   .notMapped, .invalidBase, .invalidFrame, .invalidUserBufferArgs, .userBufferTooLarge,
   .pidMismatchInProcessArgument, .notInRightAddressSpaceForReading, .sliceLengthMismatchForWriting,
   .notAUserVAddr, .processNotSet, .userPtMissingReadAccess, .userPtMissingWriteAccess,
   .invalidCmdLineOptions, .malformedCmdLine, .badAddress, .tryFromIntError, .unableToLoad,
   .notAValidUtf8String, .rpcMalformedRequest, .rpcMalformedResponse, .rpcExtraData, .dcmError,
   .dcmNotEnoughMemory]

/-- The discriminant and field of an error in a message (simplification: the errors with fields that
cannot come from a handler share a number). -/
def errWords (e : KError) : Nat × Nat :=
  match e with
  | .alreadyMapped b => (100, b)
  | .invalidSyscallArgument1 a => (101, a)
  | e => (plainErrors.idxOf e, 0)

/-- Reading an error from a message. -/
def errOf (code field : Nat) : Option KError :=
  if code = 100 then some (.alreadyMapped field)
  else if code = 101 then some (.invalidSyscallArgument1 field)
  else plainErrors[code]?

/-- `size_of::<KResult<(u64, u64)>>()` (`kernelrpc.rs` line 96): a discriminant and two words. -/
def RES_SIZE : Nat := 24

/-- `encode` of a `KResult<(u64, u64)>`. -/
def encRes : Outcome (UInt64 × UInt64) → List UInt8
  | .ok (a, b) => encWords [0, a.toNat, b.toNat]
  | .err e => encWords [(errWords e).1 + 1, (errWords e).2, 0]
  | .panic => encWords [0, 0, 0]

/-- `decode` of a `KResult<(u64, u64)>`. -/
def decRes (b : List UInt8) : Option (Outcome (UInt64 × UInt64) × List UInt8) :=
  match decWords 3 b with
  | some ([0, x, y], rest) => some (.ok (UInt64.ofNat x, UInt64.ofNat y), rest)
  | some ([tag + 1, x, _], rest) => (errOf tag x).map fun e => (.err e, rest)
  | _ => none

/-- The bytes of a string. -/
def strBytes (s : String) : List UInt8 := s.toByteArray.data.toList

/-- `get_str_from_payload` (`fileops/mod.rs` lines 73-82). -/
def strFrom (payload : List UInt8) (start stop : Nat) : Outcome String :=
  if stop < start ∨ payload.length < stop then .panic
  else
    match String.fromUTF8? ⟨((payload.take stop).drop start).toArray⟩ with
    | some s => .ok s
    | none => .err .notAValidUtf8String

/-! ## The file system interface as called by a program on the same machine -/

/-- File system calls of a program.  `buf` is the contents of the program's buffer. -/
inductive Op where
  | open (name : String) (flags : Flags) (modes : Modes)
  | read (fd : Fd) (buf : List UInt8) (offset : Option Nat)
  | write (fd : Fd) (data : List UInt8) (offset : Option Nat)
  | close (fd : Fd)
  | info (name : String)
  | delete (name : String)
  | rename (old new : String)
  | mkdir (name : String) (modes : Modes)
deriving DecidableEq, Repr

/-- `CnrFsDispatch` (`syscalls.rs` lines 357-421): which file system call is made. -/
def Op.call (pid : Nat) : Op → Fs.Call
  | .open name flags modes => .open pid name flags modes
  | .read fd buf offset => .read pid fd buf offset
  | .write fd data offset => .write pid fd data offset
  | .close fd => .close pid fd
  | .info name => .info pid name
  | .delete name => .delete pid name
  | .rename old new => .rename pid old new
  | .mkdir name modes => .mkdir pid name modes

/-- The two values the functions of `MlnrKernelNode` return (`fs/cnrfs.rs` lines 201-353). -/
def values : NodeResult → UInt64 × UInt64
  | .fileOpened fd => (UInt64.ofNat fd.val, 0)
  | .fileAccessed len => (UInt64.ofNat len, 0)
  | .fileRead len _ => (UInt64.ofNat len, 0)
  | .fileInfo i => (UInt64.ofNat i.1, UInt64.ofNat i.2)
  | _ => (0, 0)

/-- The program's buffer after the call. -/
def Op.bufAfter (op : Op) (r : Outcome NodeResult) : List UInt8 :=
  match op, r with
  | .read _ _ _, .ok (.fileRead _ b) => b
  | .read _ b _, _ => b
  | _, _ => []

/-- A file system call on one machine (`syscalls.rs` lines 357-421, `fs/cnrfs.rs` lines 201-353): result,
the program's buffer afterwards, and the file system afterwards. -/
def localCall (n : Node) (nlogs : Nat) (env : Env) (pid : Nat) (op : Op) :
    Outcome (UInt64 × UInt64) × List UInt8 × Node :=
  let r := n.call nlogs (op.call pid) env
  (r.1.map values, op.bufAfter r.1, r.2)

/-! ## The controller -/

/-- What the handlers of the controller work on: the file system, the shared buffers of the clients' cores
by address (`RW_SHMEM_BUF`, `rw.rs` lines 24-27), and the state of the other handlers. -/
structure World (σ : Type) where
  node : Node
  shm : Nat → List UInt8
  ext : σ

/-- Parameters of a step: the number of logs, what the environment of the file system does, and the
other handlers. -/
structure Params (σ : Type) where
  nlogs : Nat
  env : Env
  other : HandlerName → Header → List UInt8 → World σ → Option (Header × List UInt8) × World σ

/-- `construct_ret` (`kernelrpc.rs` lines 98-122); `none` is a panic. -/
def constructRet (hdr : Header) (payload : List UInt8) (res : Outcome (UInt64 × UInt64)) :
    Option (Header × List UInt8) :=
  match res with
  | .panic => none
  | res =>
    if payload.length < RES_SIZE then none
    else some ({ hdr with msgLen := UInt16.ofNat RES_SIZE }, overwrite payload 0 (encRes res))

/-- Reply with the result of a file system call. -/
def World.fsReply {σ : Type} (w : World σ) (p : Params σ) (hdr : Header) (payload : List UInt8)
    (c : Fs.Call) : Option (Header × List UInt8) × World σ :=
  let r := w.node.call p.nlogs c p.env
  (constructRet hdr payload (r.1.map values), { w with node := r.2 })

/-- Reply with the result of a call that takes the string between two positions of the message. -/
def World.strReply {σ : Type} (w : World σ) (p : Params σ) (hdr : Header) (payload : List UInt8)
    (start : Nat) (c : String → Fs.Call) : Option (Header × List UInt8) × World σ :=
  match strFrom payload start hdr.msgLen.toNat with
  | .ok s => w.fsReply p hdr payload (c s)
  | .err e => (constructRet hdr payload (.err e), w)
  | .panic => (none, w)

/-- `handle_open` (`fileops/open.rs` lines 76-104). -/
def World.handleOpen {σ : Type} (w : World σ) (p : Params σ) (hdr : Header) (payload : List UInt8) :
    Option (Header × List UInt8) × World σ :=
  match decWords 3 payload with
  | some ([pid, flags, modes], _) =>
    w.strReply p hdr payload 24 fun s => .open pid s (Flags.ofBits flags) (Modes.ofBits modes)
  | _ => (constructRet hdr payload (.err .rpcMalformedRequest), w)

/-- `handle_close` (`fileops/close.rs` lines 60-71). -/
def World.handleClose {σ : Type} (w : World σ) (p : Params σ) (hdr : Header) (payload : List UInt8) :
    Option (Header × List UInt8) × World σ :=
  match decWords 2 payload with
  | some ([pid, fd], _) =>
    match fdOf fd with
    | some fd => w.fsReply p hdr payload (.close pid fd)
    | none => (none, w)
  | _ => (constructRet hdr payload (.err .rpcMalformedRequest), w)

/-- `handle_delete` (`fileops/delete.rs` lines 58-78). -/
def World.handleDelete {σ : Type} (w : World σ) (p : Params σ) (hdr : Header) (payload : List UInt8) :
    Option (Header × List UInt8) × World σ :=
  match decWords 1 payload with
  | some ([pid], _) => w.strReply p hdr payload 8 fun s => .delete pid s
  | _ => (constructRet hdr payload (.err .rpcMalformedRequest), w)

/-- `handle_getinfo` (`fileops/getinfo.rs` lines 57-78). -/
def World.handleGetInfo {σ : Type} (w : World σ) (p : Params σ) (hdr : Header) (payload : List UInt8) :
    Option (Header × List UInt8) × World σ :=
  match decWords 1 payload with
  | some ([pid], _) => w.strReply p hdr payload 8 fun s => .info pid s
  | _ => (constructRet hdr payload (.err .rpcMalformedRequest), w)

/-- `handle_mkdir` (`fileops/mkdir.rs` lines 65-86). -/
def World.handleMkDir {σ : Type} (w : World σ) (p : Params σ) (hdr : Header) (payload : List UInt8) :
    Option (Header × List UInt8) × World σ :=
  match decWords 2 payload with
  | some ([pid, modes], _) =>
    w.strReply p hdr payload 16 fun s => .mkdir pid s (Modes.ofBits modes)
  | _ => (constructRet hdr payload (.err .rpcMalformedRequest), w)

/-- `handle_rename` (`fileops/rename.rs` lines 67-99). -/
def World.handleRename {σ : Type} (w : World σ) (p : Params σ) (hdr : Header) (payload : List UInt8) :
    Option (Header × List UInt8) × World σ :=
  match decWords 2 payload with
  | some ([pid, len], _) =>
    match strFrom payload 16 (16 + len), strFrom payload (16 + len) hdr.msgLen.toNat with
    | .ok old, .ok new => w.fsReply p hdr payload (.rename pid old new)
    | .panic, _ => (none, w)
    | _, .panic => (none, w)
    | .err e, _ => (constructRet hdr payload (.err e), w)
    | _, .err e => (constructRet hdr payload (.err e), w)
  | _ => (constructRet hdr payload (.err .rpcMalformedRequest), w)

/-- `handle_write` (`fileops/rw.rs` lines 215-244). -/
def World.handleWrite {σ : Type} (w : World σ) (p : Params σ) (hdr : Header) (payload : List UInt8) :
    Option (Header × List UInt8) × World σ :=
  match decWords 5 payload with
  | some ([pid, fd, _, len, offset], rest) =>
    match fdOf fd with
    | some fd =>
      if rest.length < len then (none, w)
      else w.fsReply p hdr payload (.write pid fd (rest.take len)
        (if hdr.msgType = KernelRpc.write.num then none else offsetOf offset))
    | none => (none, w)
  | _ => (constructRet hdr payload (.err .rpcMalformedRequest), w)

/-- The shared buffer after a read of `len` bytes into its beginning. -/
def shmAfter (old : List UInt8) (len : Nat) : Outcome NodeResult → List UInt8
  | .ok (.fileRead _ b) => b ++ old.drop len
  | _ => old

/-- `handle_read` (`fileops/rw.rs` lines 171-212).  The destination is the beginning of the client's shared
buffer; simplification: going beyond its end, which would overwrite other memory, is a panic. -/
def World.handleRead {σ : Type} (w : World σ) (p : Params σ) (hdr : Header) (payload : List UInt8) :
    Option (Header × List UInt8) × World σ :=
  match decWords 5 payload with
  | some ([pid, fd, ptr, len, offset], _) =>
    match fdOf fd with
    | some fd =>
      if (w.shm ptr).length < len then (none, w)
      else
        let r := w.node.call p.nlogs (.read pid fd ((w.shm ptr).take len)
          (if hdr.msgType = KernelRpc.readAt.num then offsetOf offset else none)) p.env
        (constructRet hdr payload (r.1.map values),
          { w with node := r.2, shm := upd w.shm ptr (shmAfter (w.shm ptr) len r.1) })
    | none => (none, w)
  | _ => (constructRet hdr payload (.err .rpcMalformedRequest), w)

/-- The handler behind a name (`rackscale/mod.rs` lines 35-60). -/
def World.run {σ : Type} (w : World σ) (p : Params σ) (name : HandlerName) (hdr : Header)
    (payload : List UInt8) : Option (Header × List UInt8) × World σ :=
  match name with
  | .open => w.handleOpen p hdr payload
  | .close => w.handleClose p hdr payload
  | .delete => w.handleDelete p hdr payload
  | .getInfo => w.handleGetInfo p hdr payload
  | .mkDir => w.handleMkDir p hdr payload
  | .rename => w.handleRename p hdr payload
  | .write => w.handleWrite p hdr payload
  | .read => w.handleRead p hdr payload
  | name => p.other name hdr payload w

/-- The controller's server for a client.  `Rpc.Server` provides header and buffer; its table of handlers
is `lookup`. -/
structure Ctrl (σ : Type) where
  srv : Rpc.Server
  world : World σ

/-- One request at the controller (`try_handle`, `server.rs` lines 87-102, in the loop of
`controller.rs`): the replies sent, or `none` if the controller panics.  A message without a handler is
dropped. -/
def Ctrl.handle {σ : Type} (c : Ctrl σ) (p : Params σ) (entry : Nat × List UInt8) (slot : List UInt8) :
    Option (List (Nat × List UInt8)) × Ctrl σ :=
  match c.srv.receive entry with
  | (.ok id, srv) =>
    match lookup id with
    | some name =>
      match c.world.run p name srv.hdr srv.data with
      | (some (h, d), w) =>
        match Rpc.Server.reply { srv with hdr := h, data := d } slot with
        | .ok none => (some [], ⟨{ srv with hdr := h, data := d }, w⟩)
        | .ok (some m) => (some [m], ⟨{ srv with hdr := h, data := d }, w⟩)
        | _ => (none, ⟨{ srv with hdr := h, data := d }, w⟩)
      | (none, w) => (none, ⟨srv, w⟩)
    | none => (some [], ⟨srv, c.world⟩)
  | (_, srv) => (none, ⟨srv, c.world⟩)

/-! ## The client -/

/-- What a client has besides the program: its request header (`client.rs` line 17), the memory of the
queue slots used for request and reply, and the address of its core's shared buffer. -/
structure Link where
  hdr : Header
  slot1 : List UInt8
  slot2 : List UInt8
  ptr : Nat

/-- `rpc_client.lock().call(…)` (`client.rs` lines 28-50) with a result buffer of `RES_SIZE` bytes, and the
decoding of the result that all callers share (`open.rs` lines 62-72).  If the controller panics or sends
no reply, the client never returns; counted as a panic. -/
def Ctrl.rpc {σ : Type} (c : Ctrl σ) (p : Params σ) (l : Link) (id : KernelRpc)
    (dataIn : List (List UInt8)) : Outcome (UInt64 × UInt64) × Ctrl σ :=
  match Rpc.clientSend l.slot1 l.hdr id.num dataIn with
  | .ok (h, some e) =>
    match c.handle p e l.slot2 with
    | (some [reply], c') =>
      match Rpc.recvMsg reply.1 reply.2 h [List.replicate RES_SIZE 0] with
      | .ok (_, [out]) =>
        match decRes out with
        | some (res, rest) => (if rest.length > 0 then .err .rpcExtraData else res, c')
        | none => (.err .rpcMalformedResponse, c')
      | _ => (.panic, c')
    | (_, c') => (.panic, c')
  | _ => (.panic, c)

/-- `rpc_open`, `rpc_open_create` (`fileops/open.rs` lines 30-73). -/
def Ctrl.rpcOpen {σ : Type} (c : Ctrl σ) (p : Params σ) (l : Link) (pid : Nat) (name : String)
    (flags : Flags) (modes : Modes) : Outcome (UInt64 × UInt64) × Ctrl σ :=
  c.rpc p l .open [encWords [pid, flagBits flags, modeBits modes], strBytes name]

/-- `rpc_close` (`fileops/close.rs` lines 25-57). -/
def Ctrl.rpcClose {σ : Type} (c : Ctrl σ) (p : Params σ) (l : Link) (pid : Nat) (fd : Fd) :
    Outcome (UInt64 × UInt64) × Ctrl σ :=
  c.rpc p l .close [encWords [pid, fd.val]]

/-- `rpc_delete` (`fileops/delete.rs` lines 26-55). -/
def Ctrl.rpcDelete {σ : Type} (c : Ctrl σ) (p : Params σ) (l : Link) (pid : Nat) (name : String) :
    Outcome (UInt64 × UInt64) × Ctrl σ :=
  c.rpc p l .delete [encWords [pid], strBytes name]

/-- `rpc_getinfo` (`fileops/getinfo.rs` lines 26-54). -/
def Ctrl.rpcGetInfo {σ : Type} (c : Ctrl σ) (p : Params σ) (l : Link) (pid : Nat) (name : String) :
    Outcome (UInt64 × UInt64) × Ctrl σ :=
  c.rpc p l .getInfo [encWords [pid], strBytes name]

/-- `rpc_mkdir` (`fileops/mkdir.rs` lines 29-62). -/
def Ctrl.rpcMkDir {σ : Type} (c : Ctrl σ) (p : Params σ) (l : Link) (pid : Nat) (name : String)
    (modes : Modes) : Outcome (UInt64 × UInt64) × Ctrl σ :=
  c.rpc p l .mkDir [encWords [pid, modeBits modes], strBytes name]

/-- `rpc_rename` (`fileops/rename.rs` lines 28-64). -/
def Ctrl.rpcRename {σ : Type} (c : Ctrl σ) (p : Params σ) (l : Link) (pid : Nat) (old new : String) :
    Outcome (UInt64 × UInt64) × Ctrl σ :=
  c.rpc p l .fileRename [encWords [pid, (strBytes old).length], strBytes old, strBytes new]

/-- `rpc_write`, `rpc_writeat` (`fileops/rw.rs` lines 40-87). -/
def Ctrl.rpcWrite {σ : Type} (c : Ctrl σ) (p : Params σ) (l : Link) (pid : Nat) (fd : Fd)
    (data : List UInt8) (offset : Option Nat) : Outcome (UInt64 × UInt64) × Ctrl σ :=
  c.rpc p l (if offset = none then .write else .writeAt)
    [encWords [pid, fd.val, 0, data.length, offsetBits offset], data]

/-- `RW_SHMEM_BUF_LEN` (`fileops/rw.rs` line 24). -/
def SHM_LEN : Nat := 8192

/-- `rpc_read`, `rpc_readat` (`fileops/rw.rs` lines 90-168): the second component is the program's buffer
afterwards.  The message type is always `ReadAt` (line 133; `rpc_type` of lines 126-130 is not used). -/
def Ctrl.rpcRead {σ : Type} (c : Ctrl σ) (p : Params σ) (l : Link) (pid : Nat) (fd : Fd)
    (buf : List UInt8) (offset : Option Nat) : Outcome (UInt64 × UInt64) × List UInt8 × Ctrl σ :=
  if SHM_LEN < buf.length then (.panic, buf, c)
  else
    match c.rpc p l .readAt [encWords [pid, fd.val, l.ptr, buf.length, offsetBits offset]] with
    | (.ok (len, n), c') =>
      if buf.length < len.toNat ∨ (c'.world.shm l.ptr).length < len.toNat then (.panic, buf, c')
      else (.ok (len, n), overwrite buf 0 ((c'.world.shm l.ptr).take len.toNat), c')
    | (r, c') => (r, buf, c')

/-- A file system call of a program on a client machine (`FsDispatch for Arch86LwkSystemCall`,
`rackscale/syscalls.rs` lines 225-283). -/
def remoteCall {σ : Type} (c : Ctrl σ) (p : Params σ) (l : Link) (pid : Nat) (op : Op) :
    Outcome (UInt64 × UInt64) × List UInt8 × Ctrl σ :=
  let noBuf (r : Outcome (UInt64 × UInt64) × Ctrl σ) := (r.1, [], r.2)
  match op with
  | .open name flags modes => noBuf (c.rpcOpen p l pid name flags modes)
  | .read fd buf offset => c.rpcRead p l pid fd buf offset
  | .write fd data offset => noBuf (c.rpcWrite p l pid fd data offset)
  | .close fd => noBuf (c.rpcClose p l pid fd)
  | .info name => noBuf (c.rpcGetInfo p l pid name)
  | .delete name => noBuf (c.rpcDelete p l pid name)
  | .rename old new => noBuf (c.rpcRename p l pid old new)
  | .mkdir name modes => noBuf (c.rpcMkDir p l pid name modes)

end NRK.Rack.Remote
