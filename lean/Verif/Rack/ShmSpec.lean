/-!
# Specification of the channels between the controller and the client machines

Two bounded first-in first-out channels per client machine, and ordinary shared memory beside
them.  Nothing here mentions addresses or how the channels are stored.
-/

namespace NRK.Rack.Shm.Spec

/-- A message is a non-empty string of at most 8192 bytes. -/
abbrev Msg := List UInt8

/-- What the machines of a rack do. -/
inductive Ev where
  /-- the controller sets up its end of the channels of client `mid` -/
  | serve (mid : Nat)
  /-- client `mid` sets up its end -/
  | connect (mid : Nat)
  /-- the controller sends the concatenation of `vs` to client `mid` -/
  | ctlSend (mid : Nat) (vs : List (List UInt8))
  /-- the controller receives from client `mid` into the buffers `bufs` -/
  | ctlRecv (mid : Nat) (bufs : List (List UInt8))
  /-- client `mid` sends to the controller -/
  | cliSend (mid : Nat) (vs : List (List UInt8))
  /-- client `mid` receives from the controller -/
  | cliRecv (mid : Nat) (bufs : List (List UInt8))
  /-- machine `m` writes to the shared memory of machine `mid` that is there to be allocated, at
  offset `off` of it -/
  | write (m mid off : Nat) (bytes : List UInt8)
  /-- machine `m` reads `len` bytes of it -/
  | read (m mid off len : Nat)

/-- What they see. -/
inductive Obs where
  | done
  /-- this end is not set up -/
  | absent
  | sent
  /-- the channel is full -/
  | full
  /-- number of bytes received and the buffers -/
  | received (n : Nat) (bufs : List (List UInt8))
  /-- the channel is empty -/
  | noData
  | bytes (b : List UInt8)
  /-- an assertion of the program failed -/
  | panic
  /-- access outside of mapped memory, or a loop that never ends -/
  | stuck
deriving DecidableEq, Repr

/-- State of the rack. -/
structure St where
  /-- messages under way to client `mid`, oldest first -/
  toClient : Nat → List Msg
  /-- messages under way from client `mid` -/
  toCtl : Nat → List Msg
  /-- the controller's end is set up -/
  served : Nat → Bool
  /-- the client's end is set up -/
  connected : Nat → Bool
  /-- the shared memory of machine `mid` that is there to be allocated, by offset -/
  heap : Nat → Nat → UInt8

/-- Change one entry of a table. -/
def set {α : Type} (f : Nat → α) (i : Nat) (a : α) : Nat → α := fun j => if j = i then a else f j

/-- The buffers after receiving `d`: filled from the left, what is beyond stays. -/
def deliver (d : List UInt8) : List (List UInt8) → List (List UInt8)
  | [] => []
  | b :: bs => (d.take b.length ++ b.drop d.length) :: deliver (d.drop b.length) bs

/-- Send on a channel of 32 places: what is seen and the channel afterwards (`none` after a
panic). -/
def send (q : List Msg) (vs : List (List UInt8)) : Obs × Option (List Msg) :=
  if vs.flatten.length > 8192 then (.panic, none)
  else if vs.flatten = [] then (.sent, some q)
  else if q.length = 32 then (.full, some q)
  else (.sent, some (q ++ [vs.flatten]))

/-- Receive from a channel: the oldest message goes; it must fit into the buffers. -/
def recv (q : List Msg) (bufs : List (List UInt8)) : Obs × Option (List Msg) :=
  if bufs.flatten = [] then (.received 0 bufs, some q)
  else
    match q with
    | [] => (.noData, some [])
    | d :: q =>
      if d.length > bufs.flatten.length then (.panic, none)
      else (.received d.length (deliver d bufs), some q)

/-- One event: what is seen and the state afterwards (`none` after a panic). -/
def step (s : St) : Ev → Obs × Option St
  | .serve mid => (.done, some { s with
      toClient := set s.toClient mid [], toCtl := set s.toCtl mid []
      served := set s.served mid true })
  | .connect mid => (.done, some { s with connected := set s.connected mid true })
  | .ctlSend mid vs =>
    if s.served mid then
      let r := send (s.toClient mid) vs
      (r.1, r.2.map fun q => { s with toClient := set s.toClient mid q })
    else (.absent, some s)
  | .ctlRecv mid bufs =>
    if s.served mid then
      let r := recv (s.toCtl mid) bufs
      (r.1, r.2.map fun q => { s with toCtl := set s.toCtl mid q })
    else (.absent, some s)
  | .cliSend mid vs =>
    if s.connected mid then
      let r := send (s.toCtl mid) vs
      (r.1, r.2.map fun q => { s with toCtl := set s.toCtl mid q })
    else (.absent, some s)
  | .cliRecv mid bufs =>
    if s.connected mid then
      let r := recv (s.toClient mid) bufs
      (r.1, r.2.map fun q => { s with toClient := set s.toClient mid q })
    else (.absent, some s)
  | .write _ mid off bytes => (.done, some { s with
      heap := set s.heap mid fun o =>
        if off ≤ o ∧ o < off + bytes.length then bytes.getD (o - off) 0 else s.heap mid o })
  | .read _ mid off len => (.bytes ((List.range len).map fun i => s.heap mid (off + i)), some s)

/-- What is seen in a whole history; it ends with a panic. -/
def run (s : St) : List Ev → List Obs
  | [] => []
  | e :: es =>
    match step s e with
    | (o, some s') => o :: run s' es
    | (o, none) => [o]

/-- The beginning: nothing is set up, the memory has the contents `heap`. -/
def start (heap : Nat → Nat → UInt8) : St where
  toClient _ := []
  toCtl _ := []
  served _ := false
  connected _ := false
  heap := heap

end NRK.Rack.Shm.Spec
