import Verif.Common

/-!
# Model of the deterministic allocator, `kernel/src/memory/detmem.rs`

`n` replicas apply the same operations in the same order, so the `k`-th allocation request of every
replica has the same layout `L k`.  Each replica applies its operations one after the other; the
replicas run concurrently.  The queues are first-in first-out queues with atomic push and pop (C17,
C18: pushes happen only under the `fill` lock).
-/

namespace NRK.Mem.Det

/-- Where a replica is in `alloc` (`memory/detmem.rs` lines 79-141). -/
inductive PC where
  /-- Not in `alloc`. -/
  | idle
  /-- Found its queue empty (line 84), wants the `fill` lock (line 96). -/
  | wantLock
  /-- Holds the lock, about to look at its queue again (line 98). -/
  | locked
  /-- Has allocated on all nodes; about to handle queue `i` (lines 117-123 or 126-134). -/
  | pushing (ok : Bool) (allocs : List Nat) (i : Nat)
deriving DecidableEq, Repr

/-- The allocator and its replicas.  Layouts and addresses are numbers, address 0 is the null
pointer.  `res r` are the results replica `r` got so far, in order.  `fills`, `freed`, `misfit` and
`overflow` are history: the layout and results of every allocation round, the addresses given back
by failed rounds, and whether an assertion (lines 87, 101) or a push (lines 121, 132) failed. -/
structure St where
  q : Nat → List (Nat × Nat)
  pc : Nat → PC
  lock : Option Nat
  res : Nat → List Nat
  fills : List (Nat × List Nat)
  freed : List Nat
  misfit : Bool
  overflow : Bool

/-- `new_with_nodes` (`memory/detmem.rs` lines 54-77); the queues have `cap` places. -/
def St.init : St := ⟨fun _ => [], fun _ => .idle, none, fun _ => [], [], [], false, false⟩

/-- Replica `r` takes the front of its queue, which must be for layout `l` (lines 84-91, 98-102). -/
def St.take (s : St) (r l : Nat) (x : Nat × Nat) (rest : List (Nat × Nat)) : St :=
  { s with
    q := upd s.q r rest
    pc := upd s.pc r .idle
    lock := if s.pc r = .locked then none else s.lock
    res := upd s.res r (s.res r ++ [x.2])
    misfit := s.misfit || decide (x.1 ≠ l) }

/-- One atomic step of a replica.  `n` is the number of replicas, `cap` the capacity of the queues,
`L` the layouts requested. -/
inductive Step (n cap : Nat) (L : Nat → Nat) : St → St → Prop
  /-- The queue is not empty (lines 84-91). -/
  | fast {s : St} {r : Nat} {x rest} : r < n → s.pc r = .idle → s.q r = x :: rest →
      Step n cap L s (s.take r (L (s.res r).length) x rest)
  /-- The queue is empty (line 92). -/
  | slow {s : St} {r : Nat} : r < n → s.pc r = .idle → s.q r = [] →
      Step n cap L s { s with pc := upd s.pc r .wantLock }
  /-- Acquire `fill` (line 96). -/
  | acquire {s : St} {r : Nat} : r < n → s.pc r = .wantLock → s.lock = none →
      Step n cap L s { s with pc := upd s.pc r .locked, lock := some r }
  /-- Somebody else filled the queue in the meantime (lines 98-102). -/
  | again {s : St} {r : Nat} {x rest} : r < n → s.pc r = .locked → s.q r = x :: rest →
      Step n cap L s (s.take r (L (s.res r).length) x rest)
  /-- Allocate on every node (lines 107-114); any of the allocations may fail. -/
  | alloc {s : St} {r : Nat} (allocs : List Nat) : r < n → s.pc r = .locked → s.q r = [] →
      allocs.length = n →
      Step n cap L s { s with
        pc := upd s.pc r (.pushing (allocs.all (· ≠ 0)) allocs 0)
        fills := s.fills ++ [(L (s.res r).length, allocs)] }
  /-- All succeeded: push to the queue of another replica (lines 117-123). -/
  | push {s : St} {r i : Nat} {allocs : List Nat} : s.pc r = .pushing true allocs i → i < n →
      i ≠ r →
      Step n cap L s { s with
        pc := upd s.pc r (.pushing true allocs (i + 1))
        q := upd s.q i (s.q i ++ [(L (s.res r).length, allocs.getD i 0)])
        overflow := s.overflow || decide (cap ≤ (s.q i).length) }
  /-- The own queue is skipped (line 118). -/
  | skip {s : St} {r : Nat} {allocs : List Nat} : s.pc r = .pushing true allocs r → r < n →
      Step n cap L s { s with pc := upd s.pc r (.pushing true allocs (r + 1)) }
  /-- Some failed: free what was allocated and push a null pointer to every queue (lines 126-134). -/
  | pushNull {s : St} {r i : Nat} {allocs : List Nat} : s.pc r = .pushing false allocs i → i < n →
      Step n cap L s { s with
        pc := upd s.pc r (.pushing false allocs (i + 1))
        q := upd s.q i (s.q i ++ [(L (s.res r).length, 0)])
        freed := if allocs.getD i 0 ≠ 0 then allocs.getD i 0 :: s.freed else s.freed
        overflow := s.overflow || decide (cap ≤ (s.q i).length) }
  /-- Return the own allocation and release `fill` (line 139). -/
  | finish {s : St} {r : Nat} {ok : Bool} {allocs : List Nat} : s.pc r = .pushing ok allocs n →
      Step n cap L s { s with
        pc := upd s.pc r .idle
        lock := none
        res := upd s.res r (s.res r ++ [allocs.getD r 0]) }

inductive Reach (n cap : Nat) (L : Nat → Nat) : St → Prop
  | init : Reach n cap L St.init
  | step {s s' : St} : Reach n cap L s → Step n cap L s s' → Reach n cap L s'

end NRK.Mem.Det
