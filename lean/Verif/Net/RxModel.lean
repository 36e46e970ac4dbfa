import Verif.Net.TxModel

/-!
# The receive queue of the network driver

`lib/vmxnet3/src/var.rs`: `RxQueue` (lines 532-616) and its `DevQueue` implementation (lines 620-915), used by
`DevQueuePhy::receive` (`lib/vmxnet3/src/smoltcp.rs`, lines 60-120).

As in `TxModel`, driver and device run at the same time and share the rings; the device writes to memory and to
the completion ring.  The device is the one the code expects: it takes descriptors in ring order as long as their
generation is that of its lap, begins a frame at a descriptor of type HEAD (it passes over a BODY it has no use
for) and goes on to the following BODY if the frame does not fit, and writes a completion for each piece.
-/

namespace NRK.Net

/-- The bytes of a piece of a frame. -/
abbrev Frag := List UInt8

/-- `vmxnet3_rxdesc` (`reg.rs`): `head` is `btype == VMXNET3_BTYPE_HEAD`. -/
structure RxDesc where
  addr : Nat
  len : Nat
  head : Bool
  gen : Bool
  deriving DecidableEq, Repr

/-- `vmxnet3_rxcompdesc` (`reg.rs`), the fields `dequeue` depends on.  Simplification: not the checksum flags, the
VLAN tag and the RSS type, which are only passed on. -/
structure RxComp where
  idx : Nat
  len : Nat
  sop : Bool
  eop : Bool
  err : Bool
  gen : Bool
  deriving DecidableEq, Repr

/-- `RxQueue` (`var.rs`, lines 532-557).  `head` is `pidx_head0`, always equal to `vxrxr_refill_start`; `tail` is
`pidx_tail0`, an index of the completion ring.  Simplification: without the counters. -/
structure RxQ where
  n : Nat
  ring : Nat → RxDesc
  gen : Bool
  comp : Nat → RxComp
  cgen : Bool
  tail : Nat
  head : Nat
  inflight : List (Nat × Chain)

/-- `RxQueue::new` (`var.rs`, lines 560-590): the rings have `ndesc` entries.  Simplification: allocation does not
fail. -/
def RxQ.new (ndesc : Nat) : RxQ where
  n := ndesc
  ring := fun _ => ⟨0, 0, false, false⟩
  gen := true
  comp := fun _ => ⟨0, 0, false, false, false, false⟩
  cgen := true
  tail := 0
  head := 0
  inflight := []

/-- `RxQueue::len` (`var.rs`, lines 593-599). -/
def RxQ.len (q : RxQ) : Nat := if q.head > q.tail then q.head - q.tail else q.tail - q.head

/-- A running `enqueue`: the chain, the segments that are left, the number `i` of the next one, and whether its
generation is what is to be written next. -/
inductive RxWriter where
  | idle
  | busy (c : Chain) (i : Nat) (rest : List Seg) (mark : Bool)
  deriving DecidableEq, Repr

/-- The device: next descriptor and generation, whether it is in the middle of a frame, completions it has yet to
write, next completion and generation. -/
structure RxDev where
  next : Nat
  gen : Bool
  mid : Option Frag
  pend : List RxComp
  cnext : Nat
  cgen : Bool

def RxDev.new : RxDev where
  next := 0
  gen := true
  mid := none
  pend := []
  cnext := 0
  cgen := true

/-- What `dequeue` returns: the chain with the new lengths, and the content of the first `nfrags` buffers at that
moment. -/
structure RxGot where
  chain : Chain
  data : List Frag
  deriving DecidableEq, Repr

/-- A frame: its pieces, and whether the device saw an error. -/
structure Frame where
  frags : List Frag
  err : Bool
  deriving DecidableEq, Repr

/-- Queue, running call, device and memory (`mem a`: what was last written to the buffer at `a`); and the history:
chains accepted, frames the device has put into memory, results of `dequeue`. -/
structure RxSt where
  q : RxQ
  w : RxWriter
  dev : RxDev
  mem : Nat → Frag
  accepted : List Chain
  frames : List Frame
  got : List RxGot

def RxSt.new (ndesc : Nat) : RxSt where
  q := RxQ.new ndesc
  w := .idle
  dev := RxDev.new
  mem := fun _ => []
  accepted := []
  frames := []
  got := []

/-- The beginning of `enqueue` (`var.rs`, lines 625-638): `none` is the result `Err(chain)`. -/
def RxQ.admit (q : RxQ) (c : Chain) : Res (Option RxWriter) :=
  if q.n - q.len < c.segs.length then .ok none
  else if c.segs.length ≠ 2 then .panic
  else .ok (some (.busy c 0 c.segs false))

/-- The body of the loop of `enqueue` (`var.rs`, lines 652-672): first the fields of the descriptor, then its
generation, with which it is handed to the device. -/
def RxQ.write (q : RxQ) (c : Chain) (i : Nat) (s : Seg) (rest : List Seg) : Bool → Res (RxQ × RxWriter)
  | false =>
    if 2 ^ 32 ≤ s.len then .panic
    else
      let d := q.ring q.head
      .ok ({ q with
        ring := put q.ring q.head { d with
          addr := s.addr
          len := s.len % 2 ^ 14
          head := decide (i % 2 = 0) } }, .busy c i (s :: rest) true)
  | true =>
    let d := q.ring q.head
    let p := adv q.n q.head q.gen
    .ok ({ q with
      ring := put q.ring q.head { d with gen := q.gen }
      head := p.1
      gen := p.2 }, .busy c (i + 1) rest false)

/-- The end of `enqueue` (`var.rs`, lines 674-681). -/
def RxQ.finish (q : RxQ) (c : Chain) : RxQ :=
  { q with inflight := q.inflight ++ [(wsub q.head c.segs.length % q.n, c)] }

/-- The loop of `can_dequeue(false)` (`var.rs`, lines 872-914) from index `i` on: is there a complete packet?
`fuel`: the loop ends at the latest when it comes to the entry it began with, whose generation is then not the
expected one. -/
def RxQ.scan (q : RxQ) (i : Nat) (g : Bool) : Nat → Bool
  | 0 => false
  | fuel + 1 =>
    if (q.comp i).gen ≠ g then false
    else if (q.comp i).eop ∧ (q.comp i).len ≠ 0 then true
    else q.scan (adv q.n i g).1 (adv q.n i g).2 fuel

/-- The skipping of completions with length 0 (`var.rs`, lines 711-725). -/
def RxQ.skipZero (q : RxQ) : Nat → Res RxQ
  | 0 => .panic
  | fuel + 1 =>
    let cd := q.comp q.tail
    if cd.len ≠ 0 then .ok q
    else if ¬ (cd.eop ∧ cd.sop) then .panic
    else
      RxQ.skipZero { q with
        tail := (adv q.n q.tail q.cgen).1
        cgen := (adv q.n q.tail q.cgen).2 } fuel

/-- The loop over the pieces of a packet (`var.rs`, lines 790-835): lengths of the segments so far, segments left.
`mem` gives the content of the buffers.  Result: the queue, the segments with their new lengths, the contents,
and the error flag of the last completion. -/
def RxQ.pieces (q : RxQ) (mem : Nat → Frag) (done : List Seg) (data : List Frag) :
    List Seg → Res (RxQ × List Seg × List Frag × Bool)
  | [] => .panic
  | s :: rest =>
    let cd := q.comp q.tail
    let q' := { q with
      tail := (adv q.n q.tail q.cgen).1
      cgen := (adv q.n q.tail q.cgen).2 }
    let s' : Seg := ⟨s.addr, min s.len cd.len⟩
    let data' := data ++ [(mem s.addr).take s'.len]
    if cd.gen ≠ q.cgen then .panic
    else if cd.eop then .ok (q', done ++ s' :: rest, data', cd.err)
    else RxQ.pieces q' mem (done ++ [s']) data' rest

/-- `dequeue` (`var.rs`, lines 698-870); `none` is `Err(QueueEmpty)`. -/
def RxQ.dequeue (q : RxQ) (mem : Nat → Frag) : Res (Option (RxQ × RxGot)) :=
  if q.scan q.tail q.cgen (q.n + 1) = false then .ok none
  else
    match q.skipZero (q.n + 1) with
    | .ok q1 =>
      if ¬ (q1.comp q1.tail).sop then .panic
      else
        match q1.inflight with
        | [] => .panic
        | (_, c) :: fl =>
          match RxQ.pieces { q1 with inflight := fl } mem [] [] c.segs with
          | .ok (q2, segs, data, err) =>
            .ok (some (q2, if err then ⟨{ c with segs := segs.map (fun s => { s with len := 0 }) }, []⟩
              else ⟨{ c with segs := segs }, data⟩))
          | .panic => .panic
          | .off => .off
    | .panic => .panic
    | .off => .off

/-- Steps: calls of the driver, the next write of a running `enqueue`, and the device: it passes over a BODY,
begins a frame (`last`: and ends it), ends a frame, writes a completion, or uses up a HEAD for a packet of length
0 (which the comment in `dequeue`, lines 703-709, speaks of). -/
inductive RxAct where
  | enqueue (c : Chain)
  | write
  | dequeue
  | devPass
  | devHead (f : Frag) (last err : Bool)
  | devBody (f : Frag) (err : Bool)
  | devComp
  | devZero
  deriving DecidableEq, Repr

def RxSt.step (s : RxSt) : RxAct → Res RxSt
  | .enqueue c =>
    match s.w with
    | .idle =>
      match s.q.admit c with
      | .ok (some w) => .ok { s with w := w }
      | .ok none => .ok s
      | .panic => .panic
      | .off => .off
    | .busy _ _ _ _ => .off
  | .write =>
    match s.w with
    | .idle => .off
    | .busy c i (sg :: rest) m =>
      match s.q.write c i sg rest m with
      | .ok (q, w) => .ok { s with
          q := q
          w := w }
      | .panic => .panic
      | .off => .off
    | .busy c _ [] _ => .ok { s with
        q := s.q.finish c
        w := .idle
        accepted := s.accepted ++ [c] }
  | .dequeue =>
    match s.w with
    | .idle =>
      match s.q.dequeue s.mem with
      | .ok (some (q, g)) => .ok { s with
          q := q
          got := s.got ++ [g] }
      | .ok none => .ok s
      | .panic => .panic
      | .off => .off
    | .busy _ _ _ _ => .off
  | .devPass =>
    let d := s.q.ring s.dev.next
    let p := adv s.q.n s.dev.next s.dev.gen
    if d.gen = s.dev.gen ∧ d.head = false ∧ s.dev.mid = none then
      .ok { s with dev := { s.dev with
        next := p.1
        gen := p.2 } }
    else .off
  | .devHead f last err =>
    let d := s.q.ring s.dev.next
    let p := adv s.q.n s.dev.next s.dev.gen
    if d.gen = s.dev.gen ∧ d.head = true ∧ s.dev.mid = none ∧ 0 < f.length ∧ f.length ≤ d.len then
      .ok { s with
        dev := { s.dev with
          next := p.1
          gen := p.2
          mid := if last then none else some f
          pend := s.dev.pend ++ [⟨s.dev.next, f.length, true, last, last && err, false⟩] }
        mem := put s.mem d.addr f
        frames := if last then s.frames ++ [⟨[f], err⟩] else s.frames }
    else .off
  | .devBody f err =>
    let d := s.q.ring s.dev.next
    let p := adv s.q.n s.dev.next s.dev.gen
    match s.dev.mid with
    | none => .off
    | some f0 =>
      if d.gen = s.dev.gen ∧ d.head = false ∧ 0 < f.length ∧ f.length ≤ d.len then
        .ok { s with
          dev := { s.dev with
            next := p.1
            gen := p.2
            mid := none
            pend := s.dev.pend ++ [⟨s.dev.next, f.length, false, true, err, false⟩] }
          mem := put s.mem d.addr f
          frames := s.frames ++ [⟨[f0, f], err⟩] }
      else .off
  | .devComp =>
    match s.dev.pend with
    | [] => .off
    | cd :: rest =>
      let p := adv s.q.n s.dev.cnext s.dev.cgen
      .ok { s with
        q := { s.q with comp := put s.q.comp s.dev.cnext { cd with gen := s.dev.cgen } }
        dev := { s.dev with
          pend := rest
          cnext := p.1
          cgen := p.2 } }
  | .devZero =>
    let d := s.q.ring s.dev.next
    let p := adv s.q.n s.dev.next s.dev.gen
    if d.gen = s.dev.gen ∧ d.head = true ∧ s.dev.mid = none then
      .ok { s with dev := { s.dev with
          next := p.1
          gen := p.2
          pend := s.dev.pend ++ [⟨s.dev.next, 0, true, true, false, false⟩] } }
    else .off

/-- Runs from a new queue; `A` says which steps are allowed in a state. -/
inductive RxRun (ndesc : Nat) (A : RxSt → RxAct → Prop) : RxSt → Prop
  | init : RxRun ndesc A (RxSt.new ndesc)
  | step {s s' : RxSt} (a : RxAct) (h : RxRun ndesc A s) (ha : A s a) (he : s.step a = .ok s') : RxRun ndesc A s'

end NRK.Net
