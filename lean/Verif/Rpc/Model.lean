import Verif.Fs.Spec
import Verif.Common

/-!
# Model of `lib/rpc`: shared-memory transport, server and client

The queue protocol (who gets which slot when) is `Verif/Sync/MpmcModel.lean`; here is what is
put into a slot and taken out of it, and the code on top.
-/

namespace NRK.Rpc

open Fs.Spec (overwrite)

/-- The errors of `RPCError` (`lib/rpc/src/rpc.rs` lines 8-23) that the modelled code produces or
that a handler may return. -/
inductive RErr where
  | duplicateRpcType
  | noHandlerForRpcType
  | other (code : Nat)
deriving DecidableEq, Repr

/-- `Result<T, RPCError>` or a panic. -/
inductive Res (α : Type) where
  | ok (a : α)
  | err (e : RErr)
  | panic
deriving DecidableEq, Repr

/-- `QUEUE_ENTRY_SIZE` (`queue_mpmc.rs` line 18), also the size of the server's buffer
(`server.rs` line 21). -/
@[irreducible] def ENTRY : Nat := 8192

/-- The value of `ENTRY`. -/
theorem ENTRY_eq : ENTRY = 8192 := by unfold ENTRY; rfl

/-! ## Queue entries -/

/-- The copy loop of `push` (`queue_mpmc.rs` lines 178-183): write the slices one after the other
into the slot's byte array, whatever it contained before.  The slice index panics if it does not
fit. -/
def gather (slot : List UInt8) (offset : Nat) : List (List UInt8) → Option (List UInt8)
  | [] => some slot
  | d :: ds =>
    if offset + d.length ≤ slot.length then
      gather (overwrite slot offset d) (offset + d.length) ds
    else none

/-- Total length (`fold(0, |acc, x| acc + x.len())`, `queue_mpmc.rs` lines 155, 200). -/
def totalLen (vs : List (List UInt8)) : Nat := vs.foldl (fun acc x => acc + x.length) 0

/-- What `push` (`queue_mpmc.rs` lines 153-196) does with a slot: `panic` if the data is too long
(line 156), `ok none` if there is no data, in which case nothing is enqueued (lines 159-161),
otherwise the entry: `(data_len, value)`, the length cut to 16 bits (line 176). -/
def fill (slot : List UInt8) (values : List (List UInt8)) : Res (Option (Nat × List UInt8)) :=
  let len := totalLen values
  if len > ENTRY then .panic
  else if len = 0 then .ok none
  else
    match gather slot 0 values with
    | some v => .ok (some (len % 65536, v))
    | none => .panic

/-- The copy loop of `pop` (`queue_mpmc.rs` lines 225-246).  `fuel` bounds the iterations; running
out is a panic and the theorems show that it does not happen. -/
def scatter (data : List UInt8) (bufs : List (List UInt8)) (fuel idx offset total : Nat) :
    Option (List (List UInt8)) :=
  if total < data.length then
    match fuel with
    | 0 => none
    | fuel + 1 =>
      match bufs[idx]? with
      | none => none
      | some b =>
        let n := min b.length (data.length - total)
        if offset + n ≤ b.length then
          let bufs' := bufs.set idx (overwrite b offset ((data.drop total).take n))
          if offset + n = b.length then scatter data bufs' fuel (idx + 1) 0 (total + n)
          else scatter data bufs' fuel idx (offset + n) (total + n)
        else none
  else some bufs

/-- What `pop` (`queue_mpmc.rs` lines 198-258) does with an entry `(dataLen, value)`: with no room
at all it returns `Ok(0)` without looking at the queue (lines 201-203, the second component tells
whether an entry was consumed); an entry longer than the room panics (line 223). -/
def drain (dataLen : Nat) (value : List UInt8) (bufs : List (List UInt8)) :
    Res ((Nat × Bool) × List (List UInt8)) :=
  let room := totalLen bufs
  if room = 0 then .ok ((0, false), bufs)
  else if dataLen > room then .panic
  else
    match scatter (value.take dataLen) bufs (bufs.length + 1) 0 0 0 with
    | some bufs' => .ok ((dataLen, true), bufs')
    | none => .panic

/-! ## Messages -/

/-- `RPCHeader` (`rpc.rs` lines 31-37). -/
structure Header where
  msgId : UInt8
  msgType : UInt8
  msgLen : UInt16
deriving DecidableEq, Repr

/-- `as_bytes` (`rpc.rs` lines 50-57): packed, little endian. -/
def Header.bytes (h : Header) : List UInt8 :=
  [h.msgId, h.msgType, UInt8.ofNat (h.msgLen.toNat % 256), UInt8.ofNat (h.msgLen.toNat / 256)]

/-- Reading the header back through `as_mut_bytes` (`rpc.rs` lines 41-48). -/
def Header.ofBytes (b : List UInt8) : Header where
  msgId := b.getD 0 0
  msgType := b.getD 1 0
  msgLen := UInt16.ofNat ((b.getD 2 0).toNat + 256 * (b.getD 3 0).toNat)

/-- `send_msg` (`transport.rs` lines 61-71; `try_send_msg` lines 73-82 is the same without
retrying): at most 6 payload slices fit into the pointer array, one more is an index panic. -/
def sendMsg (slot : List UInt8) (hdr : Header) (payload : List (List UInt8)) :
    Res (Option (Nat × List UInt8)) :=
  if payload.length > 6 then .panic else fill slot (hdr.bytes :: payload)

/-- `recv_msg` (`transport.rs` lines 84-107) and `try_recv_msg` (109-135) on an entry. -/
def recvMsg (dataLen : Nat) (value : List UInt8) (hdr : Header) (payload : List (List UInt8)) :
    Res (Header × List (List UInt8)) :=
  if payload.length > 6 then .panic else
  match drain dataLen value (hdr.bytes :: payload) with
  | .ok (_, h :: bufs) => .ok (Header.ofBytes h, bufs)
  | .ok (_, []) => .panic
  | .err e => .err e
  | .panic => .panic

/-! ## Server -/

/-- `RPCHandler` (`server.rs` line 12): reads and changes header and buffer, may fail. -/
def Handler := Header → List UInt8 → Option RErr × Header × List UInt8

/-- `Server` (`server.rs` lines 17-22). -/
structure Server where
  handlers : UInt8 → Option Handler
  hdr : Header
  data : List UInt8

/-- `Server::new` (`server.rs` lines 25-36). -/
def Server.new : Server where
  handlers := fun _ => none
  hdr := ⟨0, 0, 0⟩
  data := List.replicate ENTRY 0

/-- `Server::register` (`server.rs` lines 39-48). -/
def Server.register (s : Server) (id : UInt8) (h : Handler) : Res Unit × Server :=
  match s.handlers id with
  | some _ => (.err .duplicateRpcType, s)
  | none => (.ok (), { s with handlers := upd s.handlers id (some h) })

/-- `Server::receive` (`server.rs` lines 112-117) of one queue entry. -/
def Server.receive (s : Server) (entry : Nat × List UInt8) : Res UInt8 × Server :=
  match recvMsg entry.1 entry.2 s.hdr [s.data] with
  | .ok (h, [d]) => (.ok h.msgType, { s with hdr := h, data := d })
  | .ok _ => (.panic, s)
  | .err e => (.err e, s)
  | .panic => (.panic, s)

/-- `Server::reply` (`server.rs` lines 133-136).  The slice panics if the handler set a length
beyond the buffer.  `slot` is the memory of the queue slot used. -/
def Server.reply (s : Server) (slot : List UInt8) : Res (Option (Nat × List UInt8)) :=
  if s.hdr.msgLen.toNat > s.data.length then .panic
  else sendMsg slot s.hdr [s.data.take s.hdr.msgLen.toNat]

/-- Run a handler and reply (`server.rs` lines 76-77, 91-92, and 60-67 for registration). -/
def Server.runHandler (s : Server) (f : Handler) (slot : List UInt8) :
    Res Unit × Server × List (Nat × List UInt8) :=
  let r := f s.hdr s.data
  let s' := { s with hdr := r.2.1, data := r.2.2 }
  match r.1 with
  | some e => (.err e, s', [])
  | none =>
    match s'.reply slot with
    | .ok none => (.ok (), s', [])
    | .ok (some m) => (.ok (), s', [m])
    | .err e => (.err e, s', [])
    | .panic => (.panic, s', [])

/-- `Server::handle` (`server.rs` lines 72-84) on the next entry of the request queue.  The last
component lists the entries put into the reply queue. -/
def Server.handle (s : Server) (entry : Nat × List UInt8) (slot : List UInt8) :
    Res Unit × Server × List (Nat × List UInt8) :=
  match s.receive entry with
  | (.ok id, s') =>
    match s'.handlers id with
    | some f => s'.runHandler f slot
    | none => (.err .noHandlerForRpcType, s', [])
  | (.err e, s') => (.err e, s', [])
  | (.panic, s') => (.panic, s', [])

/-- `Server::try_handle` (`server.rs` lines 87-102); `entry = none` if the queue was empty. -/
def Server.tryHandle (s : Server) (entry : Option (Nat × List UInt8)) (slot : List UInt8) :
    Res Bool × Server × List (Nat × List UInt8) :=
  match entry with
  | none => (.ok false, s, [])
  | some entry =>
    match s.receive entry with
    | (.ok id, s') =>
      match s'.handlers id with
      | some f =>
        match s'.runHandler f slot with
        | (.ok (), s'', out) => (.ok true, s'', out)
        | (.err e, s'', out) => (.err e, s'', out)
        | (.panic, s'', out) => (.panic, s'', out)
      | none => (.ok false, s', [])
    | (.err e, s') => (.err e, s', [])
    | (.panic, s') => (.panic, s', [])

/-! ## Client -/

/-- First half of `Client::call` (`client.rs` lines 35-45): the header and the request entry. -/
def clientSend (slot : List UInt8) (hdr : Header) (rpcId : UInt8) (dataIn : List (List UInt8)) :
    Res (Header × Option (Nat × List UInt8)) :=
  let len := totalLen dataIn
  if ¬ len < 65535 then .panic else
  let h : Header := { hdr with msgType := rpcId, msgLen := UInt16.ofNat len }
  match sendMsg slot h dataIn with
  | .ok e => .ok (h, e)
  | .err e => .err e
  | .panic => .panic

end NRK.Rpc
