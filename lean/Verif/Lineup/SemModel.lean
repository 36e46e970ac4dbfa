import Verif.Common

/-!
# Model of the user-level semaphore, `lib/lineup/src/semaphore.rs`

`n` threads, any interleaving, one step per access to the mutex, the condition variable or the
count.  The mutex and the condition variable inside the semaphore are used without timed waits, so
by the theorems about C49 and C52 the mutex is a lock, `wait` releases it and waits in one step,
and a waiter goes on only after a signal that has chosen it.

`ups`, `fast` and `slow` are ghost counters; `hist` is a ghost history, the latest event first.

Simplification: the count is an unbounded integer (`isize` in the code).
-/

namespace NRK.Lineup.Sem

/-- What has happened to the semaphore. -/
inductive Ev where
  | up
  | down
deriving DecidableEq, Repr

/-- Where a thread is. -/
inductive Pc where
  | idle
  /-- `up`: about to enter the mutex (line 56) -/
  | upEnter
  /-- about to increment the count (line 57) -/
  | upAdd
  /-- about to look at the count and signal (lines 58-60) -/
  | upSignal
  /-- about to leave the mutex (lines 61, 70) -/
  | leave
  /-- `down`: about to enter the mutex (line 65) -/
  | downEnter
  /-- about to look at the count (line 66) -/
  | downTest
  /-- waits for a signal (line 67) -/
  | asleep
  /-- chosen by a signal, about to enter the mutex again (line 67) -/
  | woken
  /-- about to change the count (line 69); the flag says whether it has waited -/
  | downSub (waited : Bool)
deriving DecidableEq, Repr

/-- `SemaphoreInner` (lines 35-40) and the threads. -/
structure St where
  count : Int
  mutex : Option Nat
  /-- the threads waiting for the condition variable -/
  waiters : List Nat
  pc : Nat → Pc
  ups : Nat
  fast : Nat
  slow : Nat
  hist : List Ev

/-- `SemaphoreInner::new` (lines 47-53). -/
def St.init (k : Int) : St where
  count := k
  mutex := none
  waiters := []
  pc := fun _ => .idle
  ups := 0
  fast := 0
  slow := 0
  hist := []

/-- Thread `t` moves on. -/
def St.to (s : St) (t : Nat) (p : Pc) : St := { s with pc := upd s.pc t p }

/-- One step.  `D` says which threads call `down`. -/
inductive Step (D : Nat → Prop) (n : Nat) : St → St → Prop where
  /-- `up` is called. -/
  | up (s t) (ht : t < n) (h : s.pc t = .idle) : Step D n s (s.to t .upEnter)
  /-- Line 56. -/
  | upEnter (s t) (ht : t < n) (h : s.pc t = .upEnter) (hm : s.mutex = none) :
      Step D n s ({ s with mutex := some t }.to t .upAdd)
  /-- Line 57. -/
  | upAdd (s t) (ht : t < n) (h : s.pc t = .upAdd) :
      Step D n s ({ s with count := s.count + 1, ups := s.ups + 1, hist := .up :: s.hist }.to t
        .upSignal)
  /-- Lines 58-60, no permit: the debt of a negative initial value is not yet paid. -/
  | upNone (s t) (ht : t < n) (h : s.pc t = .upSignal) (hc : s.count ≤ 0) :
      Step D n s (s.to t .leave)
  /-- Lines 58-60, nobody waits. -/
  | upEmpty (s t) (ht : t < n) (h : s.pc t = .upSignal) (hc : 0 < s.count)
      (hw : s.waiters = []) : Step D n s (s.to t .leave)
  /-- Lines 58-60: the signal chooses the last of the list (`condvar.rs` lines 202-228). -/
  | upWake (s t u l) (ht : t < n) (h : s.pc t = .upSignal) (hc : 0 < s.count)
      (hw : s.waiters = l ++ [u]) :
      Step D n s (({ s with waiters := l }.to u .woken).to t .leave)
  /-- Lines 61, 70. -/
  | leave (s t) (ht : t < n) (h : s.pc t = .leave) :
      Step D n s ({ s with mutex := none }.to t .idle)
  /-- `down` is called. -/
  | down (s t) (ht : t < n) (hd : D t) (h : s.pc t = .idle) : Step D n s (s.to t .downEnter)
  /-- Line 65. -/
  | downEnter (s t) (ht : t < n) (h : s.pc t = .downEnter) (hm : s.mutex = none) :
      Step D n s ({ s with mutex := some t }.to t .downTest)
  /-- Line 66: there are permits. -/
  | downFast (s t) (ht : t < n) (h : s.pc t = .downTest) (hc : ¬ s.count ≤ 0) :
      Step D n s (s.to t (.downSub false))
  /-- Lines 66-67: there is none; leaves the mutex and waits. -/
  | downWait (s t) (ht : t < n) (h : s.pc t = .downTest) (hc : s.count ≤ 0) :
      Step D n s ({ s with mutex := none, waiters := s.waiters ++ [t] }.to t .asleep)
  /-- Line 67: enters the mutex again, and returns from `wait`. -/
  | downAgain (s t) (ht : t < n) (h : s.pc t = .woken) (hm : s.mutex = none) :
      Step D n s ({ s with mutex := some t }.to t (.downSub true))
  /-- Line 69, `self.count -= self.count`. -/
  | downSub (s t b) (ht : t < n) (h : s.pc t = .downSub b) :
      Step D n s ({ s with
        count := s.count - s.count
        fast := if b then s.fast else s.fast + 1
        slow := if b then s.slow + 1 else s.slow
        hist := .down :: s.hist }.to t .leave)

/-- The reachable states of a semaphore made with value `k`. -/
inductive Reach (D : Nat → Prop) (n : Nat) (k : Int) : St → Prop where
  | init : Reach D n k (St.init k)
  | step {s s'} : Reach D n k s → Step D n s s' → Reach D n k s'

end NRK.Lineup.Sem
