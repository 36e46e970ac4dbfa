import Verif.Common

/-!
# Model of the bounded multi-producer multi-consumer queue, `kernel/src/mpmc.rs`

One step per access to shared memory, sequentially consistent interleavings, any number of
threads, any element type.  Simplifications: positions are unbounded numbers (the code compares
them as `isize`, so this is exact for the first 2^63 operations); the accesses are sequentially
consistent (the code uses acquire/release on `sequence` and relaxed on the positions); the
allocation in `with_capacity` succeeds.

`lib/rpc/src/transport/shmem/queue_mpmc.rs` lines 153-258 is the same algorithm with byte arrays
as elements; see `Verif/Rpc`.
-/

namespace NRK.Sync.Mpmc

/-- Smallest power of two that is at least `n` (`usize::next_power_of_two`), by doubling. -/
def nextPow2 (n : Nat) : Nat := go n 1 n
where
  /-- double `p` until it is at least `n` -/
  go (n p : Nat) : Nat → Nat
    | 0 => p
    | fuel + 1 => if p < n then go n (2 * p) fuel else p

/-- Capacity rounding of `State::with_capacity` (lines 45-55; also `queue_mpmc.rs`
lines 125-135). -/
def capacityOf (capacity : Nat) : Nat :=
  if capacity < 2 ∨ capacity &&& (capacity - 1) ≠ 0 then
    if capacity < 2 then 2 else nextPow2 capacity
  else capacity

/-- Where a thread is in `push` (lines 74-104) or `pop` (lines 106-134).  `inv` is ghost: the
number of operations that had completed when the call began. -/
inductive Pc (T : Type) where
  | idle
  /-- about to load `enqueue_pos` (lines 76, 100) -/
  | pushLd (v : T) (inv : Nat)
  /-- about to load the slot's sequence number (line 79) -/
  | pushSeq (v : T) (inv pos : Nat)
  /-- the sequence number was `pos`; about to compare-exchange `enqueue_pos` (lines 83-86) -/
  | pushCas (v : T) (inv pos : Nat)
  /-- position claimed; about to store the value (line 90) -/
  | pushWr (v : T) (inv pos : Nat)
  /-- about to store the sequence number (line 91) -/
  | pushSt (v : T) (inv pos : Nat)
  /-- about to load `dequeue_pos` (lines 108, 131) -/
  | popLd (inv : Nat)
  /-- about to load the slot's sequence number (line 111) -/
  | popSeq (inv pos : Nat)
  /-- the sequence number was `pos + 1`; about to compare-exchange `dequeue_pos` (114-117) -/
  | popCas (inv pos : Nat)
  /-- position claimed; about to take the value (line 121) -/
  | popTake (inv pos : Nat)
  /-- about to store the sequence number (line 122) -/
  | popSt (v : Option T) (inv pos : Nat)

/-- A completed call (ghost): `push` that stored `v` as the `pos`-th element, `push` that
returned `Err(v)`, `pop` that returned `v` and took the `pos`-th element, `pop` that returned
`None` because it found nothing. -/
inductive Event (T : Type) where
  | pushed (v : T) (inv pos : Nat)
  | full (v : T) (inv : Nat)
  | popped (v : Option T) (inv pos : Nat)
  | empty (inv : Nat)

/-- `State` (lines 30-35) and the threads.  `ins` is ghost: the elements in the order in which
their pushes claimed positions. -/
structure St (T : Type) where
  seq : Nat → Nat
  val : Nat → Option T
  enq : Nat
  deq : Nat
  pc : Nat → Pc T
  ins : List T
  hist : List (Event T)

variable {T : Type}

/-- `State::with_capacity` (lines 57-71): slot `i` starts with sequence number `i`. -/
def St.init : St T where
  seq := fun i => i
  val := fun _ => none
  enq := 0
  deq := 0
  pc := fun _ => .idle
  ins := []
  hist := []

/-- The steps.  `cap` is the (rounded) capacity, `mask = cap - 1`; `pos & mask` is `pos % cap`
because `cap` is a power of two (`capacityOf_pow2`, `and_mask`). -/
inductive Step (cap : Nat) : St T → St T → Prop
  | pushCall (s : St T) (t : Nat) (v : T) (h : s.pc t = .idle) :
      Step cap s { s with pc := upd s.pc t (.pushLd v s.hist.length) }
  | pushLd (s : St T) (t : Nat) (v : T) (inv : Nat) (h : s.pc t = .pushLd v inv) :
      Step cap s { s with pc := upd s.pc t (.pushSeq v inv s.enq) }
  /-- lines 79-82, `diff == 0` -/
  | pushSeqEq (s : St T) (t : Nat) (v : T) (inv pos : Nat) (h : s.pc t = .pushSeq v inv pos)
      (hd : s.seq (pos % cap) = pos) :
      Step cap s { s with pc := upd s.pc t (.pushCas v inv pos) }
  /-- lines 97-98, `diff < 0` -/
  | pushFull (s : St T) (t : Nat) (v : T) (inv pos : Nat) (h : s.pc t = .pushSeq v inv pos)
      (hd : s.seq (pos % cap) < pos) :
      Step cap s { s with pc := upd s.pc t .idle, hist := s.hist ++ [.full v inv] }
  /-- lines 99-100, `diff > 0` -/
  | pushSeqGt (s : St T) (t : Nat) (v : T) (inv pos : Nat) (h : s.pc t = .pushSeq v inv pos)
      (hd : pos < s.seq (pos % cap)) :
      Step cap s { s with pc := upd s.pc t (.pushLd v inv) }
  /-- lines 83-88, success -/
  | pushCasOk (s : St T) (t : Nat) (v : T) (inv pos : Nat) (h : s.pc t = .pushCas v inv pos)
      (he : s.enq = pos) :
      Step cap s { s with
        enq := pos + 1, pc := upd s.pc t (.pushWr v inv pos), ins := s.ins ++ [v] }
  /-- line 95, failure (possibly spurious): continue with the value found -/
  | pushCasFail (s : St T) (t : Nat) (v : T) (inv pos : Nat) (h : s.pc t = .pushCas v inv pos) :
      Step cap s { s with pc := upd s.pc t (.pushSeq v inv s.enq) }
  /-- line 90 -/
  | pushWr (s : St T) (t : Nat) (v : T) (inv pos : Nat) (h : s.pc t = .pushWr v inv pos) :
      Step cap s { s with
        val := upd s.val (pos % cap) (some v), pc := upd s.pc t (.pushSt v inv pos) }
  /-- line 91, 103 -/
  | pushSt (s : St T) (t : Nat) (v : T) (inv pos : Nat) (h : s.pc t = .pushSt v inv pos) :
      Step cap s { s with
        seq := upd s.seq (pos % cap) (pos + 1), pc := upd s.pc t .idle
        hist := s.hist ++ [.pushed v inv pos] }
  | popCall (s : St T) (t : Nat) (h : s.pc t = .idle) :
      Step cap s { s with pc := upd s.pc t (.popLd s.hist.length) }
  | popLd (s : St T) (t : Nat) (inv : Nat) (h : s.pc t = .popLd inv) :
      Step cap s { s with pc := upd s.pc t (.popSeq inv s.deq) }
  /-- lines 111-113, `diff == 0` -/
  | popSeqEq (s : St T) (t : Nat) (inv pos : Nat) (h : s.pc t = .popSeq inv pos)
      (hd : s.seq (pos % cap) = pos + 1) :
      Step cap s { s with pc := upd s.pc t (.popCas inv pos) }
  /-- lines 128-129, `diff < 0` -/
  | popEmpty (s : St T) (t : Nat) (inv pos : Nat) (h : s.pc t = .popSeq inv pos)
      (hd : s.seq (pos % cap) < pos + 1) :
      Step cap s { s with pc := upd s.pc t .idle, hist := s.hist ++ [.empty inv] }
  /-- lines 130-131, `diff > 0` -/
  | popSeqGt (s : St T) (t : Nat) (inv pos : Nat) (h : s.pc t = .popSeq inv pos)
      (hd : pos + 1 < s.seq (pos % cap)) :
      Step cap s { s with pc := upd s.pc t (.popLd inv) }
  /-- lines 114-119, success -/
  | popCasOk (s : St T) (t : Nat) (inv pos : Nat) (h : s.pc t = .popCas inv pos)
      (he : s.deq = pos) :
      Step cap s { s with deq := pos + 1, pc := upd s.pc t (.popTake inv pos) }
  /-- line 126, failure (possibly spurious) -/
  | popCasFail (s : St T) (t : Nat) (inv pos : Nat) (h : s.pc t = .popCas inv pos) :
      Step cap s { s with pc := upd s.pc t (.popSeq inv s.deq) }
  /-- line 121 -/
  | popTake (s : St T) (t : Nat) (inv pos : Nat) (h : s.pc t = .popTake inv pos) :
      Step cap s { s with
        val := upd s.val (pos % cap) none
        pc := upd s.pc t (.popSt (s.val (pos % cap)) inv pos) }
  /-- lines 122-123 -/
  | popSt (s : St T) (t : Nat) (v : Option T) (inv pos : Nat) (h : s.pc t = .popSt v inv pos) :
      Step cap s { s with
        seq := upd s.seq (pos % cap) (pos + cap), pc := upd s.pc t .idle
        hist := s.hist ++ [.popped v inv pos] }

/-- Reachable states. -/
inductive Reach (cap : Nat) : St T → Prop
  | init : Reach cap St.init
  | step {s s' : St T} : Reach cap s → Step cap s s' → Reach cap s'

end NRK.Sync.Mpmc
