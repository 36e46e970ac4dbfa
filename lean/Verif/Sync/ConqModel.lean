import Verif.Common

/-!
# Model of the queue of the benchmark program

`usr/init/src/vmops/queue.rs`: many senders, one receiver, a stack of nodes that the receiver takes as a whole and turns
round.  A step is one atomic access to shared memory or one access to a node; steps of any number of senders and of the
receiver interleave in any order.  Memory is sequentially consistent (all accesses in the code are `SeqCst`).  The
allocator may give out any address that is not in use, so addresses of freed nodes come back.  What a read of freed
memory finds is arbitrary.

Not modelled: the reference count of the shared cell.  The last node is freed when all senders and the receiver are
gone, and there is nobody left who could look at it.
-/

namespace NRK.Sync.Conq

variable {T : Type}

/-- `QueueHead` (`usr/init/src/vmops/queue.rs` lines 15-18); a null pointer is `none`. -/
structure Node (T : Type) where
  elem : Option T
  next : Option Nat
deriving DecidableEq

/-- Where a sender is in `push` (`queue.rs` lines 31-61). -/
inductive Push where
  | idle
  | cas (new : Nat) (exp : Option Nat)
  | check (new : Nat) (act : Option Nat)
deriving DecidableEq

/-- Where the receiver is in `pop` (`queue.rs` lines 102-145) or `drop` (lines 148-190). -/
inductive Recv where
  | idle
  | cas (head : Option Nat)
  | turn (head : Option Nat)
  | take
  | close (last : Nat) (head : Option Nat)
  | free (head : Option Nat)
  | gone
deriving DecidableEq

/-- The queue, its memory, and the threads.  The lists at the end record what happened: elements in the order in which they
were put in, what `pop` returned (`none` when it found nothing), what was given up by `push` because it saw an
element-less node, and what the receiver freed unread. -/
structure St (T : Type) where
  heap : Nat → Option (Node T)
  inq : Option Nat
  out : Option Nat
  push : Nat → Push
  recv : Recv
  pushed : List T
  popped : List T
  results : List (Option T)
  refused : List T
  dropped : List T

/-- `Queue::unbounded` (`queue.rs` lines 203-217). -/
def St.init : St T := ⟨fun _ => none, none, none, fun _ => .idle, .idle, [], [], [], [], []⟩

/-- The steps: `start p x a` begins `push(x)` by sender `p` with the new node at `a`; `pcheck p g` looks at the node that
was found, where `g` says whether freed memory there looks like a node without element. -/
inductive Act (T : Type) where
  | start (p : Nat) (x : T) (a : Nat)
  | pcas (p : Nat)
  | pcheck (p : Nat) (g : Bool)
  | pop
  | rcas
  | rturn
  | rtake
  | drop (a : Nat)
  | rclose
  | rfree

/-- A step that cannot be taken now, one that is taken, and one in which the receiver follows a pointer to freed memory
or unwraps a missing element. -/
inductive Ran (T : Type) where
  | no
  | ok (s : St T)
  | fault

/-- Whether the node that was found looks as if the receiver were gone (`queue.rs` line 50). -/
def seemsClosed (heap : Nat → Option (Node T)) (g : Bool) : Option Nat → Bool
  | none => false
  | some b =>
    match heap b with
    | some n => n.elem.isNone
    | none => g

/-- One step (`queue.rs`, lines at each case). -/
def St.act (s : St T) : Act T → Ran T
  -- lines 32-36
  | .start p x a =>
    if s.push p = .idle ∧ (s.heap a).isNone then
      .ok { s with heap := upd s.heap a (some ⟨some x, none⟩), push := upd s.push p (.cas a none) }
    else .no
  -- lines 39-46
  | .pcas p =>
    match s.push p with
    | .cas a exp =>
      if s.inq = exp then
        .ok { s with
          inq := some a
          push := upd s.push p .idle
          pushed := s.pushed ++ ((s.heap a).bind Node.elem).toList }
      else .ok { s with push := upd s.push p (.check a s.inq) }
    | _ => .no
  -- lines 47-57
  | .pcheck p g =>
    match s.push p with
    | .check a act =>
      if seemsClosed s.heap g act then
        .ok { s with
          heap := upd s.heap a none
          push := upd s.push p .idle
          refused := s.refused ++ ((s.heap a).bind Node.elem).toList }
      else
        .ok { s with
          heap := upd s.heap a ((s.heap a).map fun n => { n with next := act })
          push := upd s.push p (.cas a act) }
    | _ => .no
  -- lines 103-104
  | .pop => if s.recv = .idle then .ok { s with recv := if s.out.isNone then .cas none else .take } else .no
  -- lines 107-113 and 125-132
  | .rcas =>
    match s.recv with
    | .cas head =>
      if s.inq = head then .ok { s with inq := none, recv := .turn head }
      else if s.inq.isNone then .ok { s with recv := .take }
      else .ok { s with recv := .cas s.inq }
    | _ => .no
  -- lines 114-123
  | .rturn =>
    match s.recv with
    | .turn none => .ok { s with recv := .take }
    | .turn (some h) =>
      match s.heap h with
      | some n => .ok { s with heap := upd s.heap h (some { n with next := s.out }), out := some h, recv := .turn n.next }
      | none => .fault
    | _ => .no
  -- lines 137-145
  | .rtake =>
    match s.recv with
    | .take =>
      match s.out with
      | none => .ok { s with recv := .idle, results := s.results ++ [none] }
      | some h =>
        match s.heap h with
        | some ⟨some x, nx⟩ =>
          .ok { s with
            heap := upd s.heap h none
            out := nx
            recv := .idle
            popped := s.popped ++ [x]
            results := s.results ++ [some x] }
        | _ => .fault
    | _ => .no
  -- lines 150-155
  | .drop a =>
    if s.recv = .idle ∧ (s.heap a).isNone then
      .ok { s with heap := upd s.heap a (some ⟨none, none⟩), recv := .close a none }
    else .no
  -- lines 157-162 and 172-174
  | .rclose =>
    match s.recv with
    | .close last head =>
      if s.inq = head then .ok { s with inq := some last, recv := .free head }
      else .ok { s with recv := .close last s.inq }
    | _ => .no
  -- lines 163-169
  | .rfree =>
    match s.recv with
    | .free none => .ok { s with recv := .gone }
    | .free (some h) =>
      match s.heap h with
      | some n =>
        .ok { s with heap := upd s.heap h none, recv := .free n.next, dropped := s.dropped ++ n.elem.toList }
      | none => .fault
    | _ => .no

/-- A list of steps. -/
def St.run (s : St T) : List (Act T) → Ran T
  | [] => .ok s
  | a :: l =>
    match s.act a with
    | .ok s' => s'.run l
    | r => r

/-- The states that any number of senders and the receiver can reach. -/
inductive Reach : St T → Prop
  | init : Reach .init
  | step {s s' : St T} (a : Act T) : Reach s → s.act a = .ok s' → Reach s'

end NRK.Sync.Conq
