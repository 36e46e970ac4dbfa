/-!
# The transmit queue of the network driver

`lib/vmxnet3/src/var.rs`: `TxQueue` (lines 288-361) and its `DevQueue` implementation (lines 376-530), used by
`DevQueuePhy` (`lib/vmxnet3/src/smoltcp.rs`) to send the frames of the network stack.

The driver and the device share two rings in memory.  They run at the same time: a run of the model is a
sequence of single steps of either, and an `enqueue` is cut into the single writes to a descriptor, so that the
device may look at the ring between any two of them.  The device is not part of the repository; its steps are
those the driver's own comments and the tests (`var.rs`, lines 1080-1125) assume: it takes descriptors in ring
order as long as their generation bit is the one of its own lap, and for a packet it has sent it writes a
completion with the index of the packet's last descriptor.
-/

namespace NRK.Net

/-- One segment of an `IOBufChain`: the physical address and the length of a buffer.
Simplification: the bytes are not modelled, neither driver nor device (when sending) writes to them. -/
structure Seg where
  addr : Nat
  len : Nat
  deriving DecidableEq, Repr

/-- `IOBufChain` of the crate driverkit, as far as `TxQueue` uses it. -/
structure Chain where
  segs : List Seg
  flags : Nat
  deriving DecidableEq, Repr

/-- `vmxnet3_txdesc` (`reg.rs`, lines 222-400).  `len` is a field of 14 bits; the one-bit fields are `Bool`s.
Simplification: without the fields that are always set to 0. -/
structure TxDesc where
  addr : Nat
  len : Nat
  gen : Bool
  eop : Bool
  compreq : Bool
  deriving DecidableEq, Repr

/-- `vmxnet3_txcompdesc` (`reg.rs`, lines 446-530).  `eop_idx` has 12 bits. -/
structure TxComp where
  eopIdx : Nat
  gen : Bool
  deriving DecidableEq, Repr

/-- A function changed at one place: a write to a ring. -/
def put {α : Type} (f : Nat → α) (i : Nat) (a : α) : Nat → α := fun j => if j = i then a else f j

/-- `TxQueue` (`var.rs`, lines 288-311) with its two rings (lines 114-121 and 194-203).
`lastFlush` is `vxtxq_last_flush`, -1 is `none`. -/
structure TxQ where
  n : Nat
  ring : Nat → TxDesc
  gen : Bool
  comp : Nat → TxComp
  cnext : Nat
  cgen : Bool
  lastFlush : Option Nat
  tail : Nat
  head : Nat
  inflight : List (Nat × Chain)
  processed : List Chain

/-- `TxQueue::new` (`var.rs`, lines 314-341) with `BoundedUSize::new` (`lib.rs`, lines 54-56) for 32 and 4096,
and `VMXNET3_INIT_GEN` = 1 (`reg.rs`, line 117).  Simplification: allocation does not fail. -/
def TxQ.new (ndesc : Nat) : TxQ where
  n := max (min ndesc 4096) 32
  ring := fun _ => ⟨0, 0, false, false, false⟩
  gen := true
  comp := fun _ => ⟨0, false⟩
  cnext := 0
  cgen := true
  lastFlush := none
  tail := 0
  head := 0
  inflight := []
  processed := []

/-- `usize::wrapping_sub`. -/
def wsub (a b : Nat) : Nat := (a + 2 ^ 64 - b) % 2 ^ 64

/-- `count` (`var.rs`, lines 369-372), also the body of `TxQueue::len` (lines 343-348; the debug assertion there
is not compiled into a release build). -/
def count (tail head size : Nat) : Nat := wsub head tail &&& (size - 1)

/-- `TxQueue::len` (`var.rs`, lines 343-348). -/
def TxQ.len (q : TxQ) : Nat := count q.tail q.head q.n

/-- `TxQueue::can_enqueue` (`var.rs`, lines 462-464). -/
def TxQ.canEnqueue (q : TxQ) (k : Nat) : Bool := decide (q.n - q.len > k)

/-- The three writes in which the body of the loop of `enqueue` fills a descriptor (`var.rs`, lines 403-433). -/
inductive Phase where
  | addr | gen | adv
  deriving DecidableEq, Repr

/-- Where an `enqueue` that was let in stands: the chain, `old_head`, `gen`, the segments that are left and
which of the three writes of the first of these is next. -/
inductive Writer where
  | idle
  | busy (c : Chain) (old : Nat) (g : Bool) (rest : List Seg) (ph : Phase)
  deriving DecidableEq, Repr

/-- The device: the next descriptor it looks at with the generation it expects, the segments of the packet it
has begun, the packets sent but not yet reported (index of the last descriptor, `compreq`), the next
completion it writes, and its register `TXPROD` (the doorbell). -/
structure TxDev where
  next : Nat
  gen : Bool
  cur : List Seg
  pend : List (Nat × Bool)
  cnext : Nat
  cgen : Bool
  db : Nat

/-- The device after `reinit`. -/
def TxDev.new : TxDev where
  next := 0
  gen := true
  cur := []
  pend := []
  cnext := 0
  cgen := true
  db := 0

/-- Queue, running call and device; and the history: chains for which `enqueue` returned `Ok`, packets the
device put on the wire, chains `dequeue` gave back. -/
structure TxSt where
  q : TxQ
  w : Writer
  dev : TxDev
  accepted : List Chain
  wire : List (List Seg)
  returned : List Chain

def TxSt.new (ndesc : Nat) : TxSt where
  q := TxQ.new ndesc
  w := .idle
  dev := TxDev.new
  accepted := []
  wire := []
  returned := []

/-- What a step gives: a new state, a panic of the kernel, or the step is not possible now. -/
inductive Res (α : Type) where
  | ok (a : α)
  | panic
  | off

/-- Index and generation after the next entry of a ring of `n` (`var.rs`, lines 418-422, 507-511). -/
def adv (n i : Nat) (g : Bool) : Nat × Bool := if i + 1 = n then (0, !g) else (i + 1, g)

/-- The beginning of `enqueue` (`var.rs`, lines 377-394): `none` is the result `Err(chain)`. -/
def TxQ.admit (q : TxQ) (c : Chain) : Res (Option Writer) :=
  if c.segs.length > 32 then .panic
  else if q.n - 1 - q.len < c.segs.length then .ok none
  else .ok (some (.busy c q.head (!q.gen) c.segs .addr))

/-- One write of the loop of `enqueue` (`var.rs`, lines 396-434). -/
def TxQ.write (q : TxQ) (c : Chain) (old : Nat) (g : Bool) (s : Seg) (rest : List Seg) : Phase → Res (TxQ × Writer)
  | .addr =>
    if q.n - count q.tail q.head q.n = 1 then .panic
    else if 2 ^ 32 ≤ s.len then .panic
    else
      let d := q.ring q.head
      .ok ({ q with
        ring := put q.ring q.head { d with
          addr := s.addr
          len := s.len % 2 ^ 14 } }, .busy c old g (s :: rest) .gen)
  | .gen =>
    let d := q.ring q.head
    .ok ({ q with
      ring := put q.ring q.head { d with
        gen := g
        eop := false
        compreq := false } }, .busy c old g (s :: rest) .adv)
  | .adv =>
    let d := q.ring q.head
    let p := adv q.n q.head q.gen
    .ok ({ q with
      ring := if rest = [] then put q.ring q.head { d with
        eop := true
        compreq := decide (c.flags % 2 = 1) } else q.ring
      head := p.1
      gen := p.2 }, .busy c old p.2 rest .addr)

/-- The end of `enqueue` (`var.rs`, lines 436-448): the first descriptor is handed to the device. -/
def TxQ.publish (q : TxQ) (c : Chain) (old : Nat) : TxQ :=
  let d := q.ring old
  { q with
    ring := put q.ring old { d with gen := !d.gen }
    inflight := q.inflight ++ [(wsub q.head 1 % q.n, c)] }

/-- One turn of the loop of `can_dequeue` (`var.rs`, lines 497-528); `none`: there is no completion. -/
def TxQ.reap (q : TxQ) : Res (Option TxQ) :=
  if (q.comp q.cnext).gen ≠ q.cgen then .ok none
  else
    match q.inflight with
    | [] => .panic
    | (i, c) :: fl =>
      if i ≠ (q.comp q.cnext).eopIdx then .panic
      else
        .ok (some { q with
          cnext := (adv q.n q.cnext q.cgen).1
          cgen := (adv q.n q.cnext q.cgen).2
          inflight := fl
          processed := q.processed ++ [c]
          tail := ((q.comp q.cnext).eopIdx + 1) % q.n })

/-- `dequeue` (`var.rs`, lines 466-476), with `can_dequeue(false)` one turn of the loop; `none`:
`Err(QueueEmpty)`. -/
def TxQ.dequeue (q : TxQ) : Res (Option (TxQ × Chain)) :=
  match q.processed with
  | c :: cs => .ok (some ({ q with processed := cs }, c))
  | [] =>
    match q.reap with
    | .ok (some q') =>
      match q'.processed with
      | c :: cs => .ok (some ({ q' with processed := cs }, c))
      | [] => .ok none
    | .ok none => .ok none
    | .panic => .panic
    | .off => .off

/-- `flush` (`var.rs`, lines 447-460): the new `vxtxq_last_flush` and what is written to `TXPROD`. -/
def TxQ.flush (q : TxQ) : TxQ × Option Nat :=
  if q.lastFlush = some q.head then (q, none)
  else ({ q with lastFlush := some q.head }, some q.head)

/-- Steps: calls of the driver, the next write of a running `enqueue`, and the device. -/
inductive TxAct where
  | enqueue (c : Chain)
  | write
  | reap
  | dequeue
  | flush
  | devRead
  | devComp
  | devSkip
  deriving DecidableEq, Repr

/-- One step.  `TxQueue` is borrowed mutably, so the calls do not run at the same time as each other. -/
def TxSt.step (s : TxSt) : TxAct → Res TxSt
  | .enqueue c =>
    match s.w with
    | .idle =>
      match s.q.admit c with
      | .ok (some w) => .ok { s with w := w }
      | .ok none => .ok s
      | .panic => .panic
      | .off => .off
    | .busy _ _ _ _ _ => .off
  | .write =>
    match s.w with
    | .idle => .off
    | .busy c old g (sg :: rest) ph =>
      match s.q.write c old g sg rest ph with
      | .ok (q, w) => .ok { s with
          q := q
          w := w }
      | .panic => .panic
      | .off => .off
    | .busy c old _ [] _ => .ok { s with
        q := s.q.publish c old
        w := .idle
        accepted := s.accepted ++ [c] }
  | .reap =>
    match s.w with
    | .idle =>
      match s.q.reap with
      | .ok (some q) => .ok { s with q := q }
      | .ok none => .ok s
      | .panic => .panic
      | .off => .off
    | .busy _ _ _ _ _ => .off
  | .dequeue =>
    match s.w with
    | .idle =>
      match s.q.dequeue with
      | .ok (some (q, c)) => .ok { s with
          q := q
          returned := s.returned ++ [c] }
      | .ok none => .ok s
      | .panic => .panic
      | .off => .off
    | .busy _ _ _ _ _ => .off
  | .flush =>
    match s.w with
    | .idle => .ok { s with
        q := s.q.flush.1
        dev := { s.dev with db := s.q.flush.2.getD s.dev.db } }
    | .busy _ _ _ _ _ => .off
  | .devRead =>
    let d := s.q.ring s.dev.next
    let p := adv s.q.n s.dev.next s.dev.gen
    if d.gen ≠ s.dev.gen then .off
    else if d.eop then .ok { s with
      dev := { s.dev with
        next := p.1
        gen := p.2
        cur := []
        pend := s.dev.pend ++ [(s.dev.next, d.compreq)] }
      wire := s.wire ++ [s.dev.cur ++ [⟨d.addr, d.len⟩]] }
    else .ok { s with
      dev := { s.dev with
        next := p.1
        gen := p.2
        cur := s.dev.cur ++ [⟨d.addr, d.len⟩] } }
  | .devComp =>
    match s.dev.pend with
    | [] => .off
    | (i, _) :: rest =>
      let p := adv s.q.n s.dev.cnext s.dev.cgen
      .ok { s with
        q := { s.q with comp := put s.q.comp s.dev.cnext ⟨i % 2 ^ 12, s.dev.cgen⟩ }
        dev := { s.dev with
          pend := rest
          cnext := p.1
          cgen := p.2 } }
  | .devSkip =>
    match s.dev.pend with
    | (_, false) :: rest => .ok { s with dev := { s.dev with pend := rest } }
    | _ => .off

/-- Runs from a new queue, by steps that satisfy `A`. -/
inductive TxRun (ndesc : Nat) (A : TxAct → Prop) : TxSt → Prop
  | init : TxRun ndesc A (TxSt.new ndesc)
  | step {s s' : TxSt} (a : TxAct) (h : TxRun ndesc A s) (ha : A a) (he : s.step a = .ok s') : TxRun ndesc A s'

end NRK.Net
