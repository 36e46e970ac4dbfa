import Verif.Rpc.Model

/-!
# C73: model of the TCP transport, `lib/rpc/src/transport/smoltcp.rs`

One direction of a connection: the bytes a sender has handed to its socket, the bytes the receiver's socket
holds, the call of `send_msg` that is running and the call of `recv_msg` that is running.  TCP itself (crate
`smoltcp`) is assumed to deliver the bytes in order; how many bytes a socket accepts, how many are carried
over by one poll and how many are returned at once is arbitrary.  The connection is not closed.
-/

namespace NRK.Rpc.Tcp

/-- `RX_BUF_LEN` and `TX_BUF_LEN` (`transport/smoltcp.rs` lines 19-20). -/
def SOCK : Nat := 8192

/-- `RPCHeader` (`rpc.rs` lines 31-37). -/
structure Hdr where
  id : UInt8
  ty : UInt8
  len : UInt16
deriving DecidableEq, Repr

/-- `HDR_LEN` (`rpc.rs` line 38). -/
def HDR : Nat := 4

/-- `RPCHeader::as_bytes` (`rpc.rs` lines 52-56): the packed structure in memory, little endian. -/
def Hdr.bytes (h : Hdr) : List UInt8 :=
  [h.id, h.ty, UInt8.ofNat (h.len.toNat % 256), UInt8.ofNat (h.len.toNat / 256)]

/-- `RPCHeader::as_mut_bytes` (`rpc.rs` lines 43-47) seen the other way: the header that four bytes are. -/
def Hdr.ofBytes (b : List UInt8) : Hdr :=
  ⟨b.getD 0 0, b.getD 1 0, UInt16.ofNat ((b.getD 2 0).toNat + 256 * (b.getD 3 0).toNat)⟩

/-- The arguments of `send_msg`. -/
structure Msg where
  hdr : Hdr
  payload : List (List UInt8)
deriving DecidableEq, Repr

/-- What a call of `recv_msg` returned: a message in the buffers of the caller, or the error for a message
that does not fit.  `orig` are the buffers before. -/
inductive Got where
  | msg (h : Hdr) (orig bufs : List (List UInt8))
  | tooLong (h : Hdr) (orig : List (List UInt8))
deriving DecidableEq, Repr

/-- Where a call of `recv_msg` is: receiving the header, of which `got` is here; or receiving `want` bytes
into the buffer `cur`, of which `off` are here, with `done` finished and `todo` to come.  `last` is set for
the buffer after which the loop returns, `count` is `recv_count`. -/
inductive Rcv where
  | idle
  | hdr (got : List UInt8) (bufs : List (List UInt8))
  | body (h : Hdr) (orig done : List (List UInt8)) (cur : List UInt8) (off want : Nat) (last : Bool)
      (todo : List (List UInt8)) (count : Nat)
deriving DecidableEq, Repr

/-- One direction of a connection.  `snd` is what the running `send_msg` has not handed over: the rest of the
buffer it is sending, then the other buffers.  `sent` and `got` are the history. -/
structure Dir where
  snd : List (List UInt8)
  tx : List UInt8
  rx : List UInt8
  rcv : Rcv
  sent : List Msg
  got : List Got
deriving DecidableEq, Repr

/-- A connection on which nothing has happened. -/
def Dir.init : Dir := ⟨[], [], [], .idle, [], []⟩

/-- What happens on the connection. -/
inductive Act where
  | send (m : Msg)
  | trySend (m : Msg)
  | push (n : Nat)
  | next
  | poll (n : Nat)
  | recv (bufs : List (List UInt8))
  | tryRecv (bufs : List (List UInt8))
  | pull (n : Nat)
  | full
deriving DecidableEq, Repr

/-- The next buffer of the loop over the payload (`transport/smoltcp.rs` lines 222-236). -/
def nextBuf (h : Hdr) (orig done : List (List UInt8)) (count : Nat) :
    List (List UInt8) → Rcv ⊕ List (List UInt8)
  | [] => .inr done
  | p :: todo =>
    if count + p.length > h.len.toNat then
      .inl (.body h orig done p 0 (h.len.toNat - count) true todo count)
    else .inl (.body h orig done p 0 p.length false todo (count + p.length))

/-- `recv_msg` returns `Ok` or goes on. -/
def Dir.continue (d : Dir) (h : Hdr) (orig : List (List UInt8)) : Rcv ⊕ List (List UInt8) → Dir
  | .inl r => { d with rcv := r }
  | .inr bufs => { d with rcv := .idle, got := d.got ++ [.msg h orig bufs] }

/-- `recv_msg` after the header is complete (`transport/smoltcp.rs` lines 205-219). -/
def Dir.header (d : Dir) (h : Hdr) (bufs : List (List UInt8)) : Dir :=
  if h.len.toNat > totalLen bufs then { d with rcv := .idle, got := d.got ++ [.tooLong h bufs] }
  else if h.len.toNat = 0 then d.continue h bufs (.inr bufs)
  else d.continue h bufs (nextBuf h bufs [] 0 bufs)

/-- One step.
* `send`: `send_msg` is called (lines 256-264): header first, then the slices of the payload.
* `trySend`: `try_send_msg` is called (lines 266-278).  The socket takes no byte of the header if its buffer
  is full, then the call returns false and has changed nothing (lines 91-92); otherwise it goes on like
  `send_msg`.
* `push n`: `send_slice` takes `n` bytes (lines 79-86, 107-118); it takes at least one if there is room
  (`can_send`).
* `next`: `send` returns since all of its buffer was taken (lines 72-74, 94-97, 115-117).
* `poll n`: the interfaces carry `n` bytes to the receiver.
* `recv`, `tryRecv`: `recv_msg` or `try_recv_msg` is called; the latter returns false if there is no byte
  (lines 187-201) and otherwise goes on like `recv_msg`.
* `pull n`: `recv_slice` returns `n` bytes (lines 150-163, 188-195); at least one if there is one
  (`can_recv`).
* `full`: `recv` returns since its buffer, or the part of it that was asked for, is full (lines 139-141,
  158-160). -/
def Dir.step (d : Dir) : Act → Option Dir
  | .send m =>
    if d.snd = [] then some { d with snd := m.hdr.bytes :: m.payload, sent := d.sent ++ [m] } else none
  | .trySend m =>
    if d.snd = [] then
      if d.tx.length < SOCK then some { d with snd := m.hdr.bytes :: m.payload, sent := d.sent ++ [m] }
      else some d
    else none
  | .push n =>
    match d.snd with
    | cur :: rest =>
      if 0 < n ∧ n ≤ cur.length ∧ d.tx.length + n ≤ SOCK then
        some { d with snd := cur.drop n :: rest, tx := d.tx ++ cur.take n }
      else none
    | [] => none
  | .next =>
    match d.snd with
    | [] :: rest => some { d with snd := rest }
    | _ => none
  | .poll n =>
    if 0 < n ∧ n ≤ d.tx.length ∧ d.rx.length + n ≤ SOCK then
      some { d with tx := d.tx.drop n, rx := d.rx ++ d.tx.take n }
    else none
  | .recv bufs => if d.rcv = .idle then some { d with rcv := .hdr [] bufs } else none
  | .tryRecv bufs =>
    if d.rcv = .idle then if d.rx = [] then some d else some { d with rcv := .hdr [] bufs } else none
  | .pull n =>
    if 0 < n ∧ n ≤ d.rx.length then
      match d.rcv with
      | .idle => none
      | .hdr got bufs =>
        if got.length + n ≤ HDR then
          let d' := { d with rx := d.rx.drop n, rcv := .hdr (got ++ d.rx.take n) bufs }
          if got.length + n = HDR then some (d'.header (Hdr.ofBytes (got ++ d.rx.take n)) bufs) else some d'
        else none
      | .body h orig done cur off want last todo count =>
        if off + n ≤ want then
          some { d with
            rx := d.rx.drop n
            rcv := .body h orig done (Fs.Spec.overwrite cur off (d.rx.take n)) (off + n) want last todo count }
        else none
    else none
  | .full =>
    match d.rcv with
    | .body h orig done cur off want last todo count =>
      if off = want then
        if last then some (d.continue h orig (.inr (done ++ [cur] ++ todo)))
        else some (d.continue h orig (nextBuf h orig (done ++ [cur]) count todo))
      else none
    | _ => none

/-- A history of the connection. -/
inductive Dir.Run : Dir → Prop
  | init : Run Dir.init
  | step {d d' : Dir} (a : Act) (h : Run d) (hs : d.step a = some d') : Run d'

end NRK.Rpc.Tcp
