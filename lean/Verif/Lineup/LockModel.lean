import Verif.Common

/-!
# Model of the user-level mutex and condition variable, `lib/lineup/src/{mutex,condvar}.rs`

One mutex and one condition variable used with it, `n` threads, any interleaving; one step per
access to shared state.  The scheduler is represented by what the lock code uses of it
(`Verif/Lineup/SchedModel.lean` models it in full): `wakes t` is the number of times `t` stands in
its core's queue of runnable threads, `timer t` says that `t` stands in the list of sleeping
threads.  A thread that suspends itself continues when one of its entries is taken from the queue.

Simplifications: accesses are sequentially consistent (the compare-exchanges of the code are
relaxed); `lwp_ptr` is not modelled (it is written together with `owner`), nor are the `rump`
upcalls `schedule` and `deschedule`; `relinquish` in the spin loop only lets other threads run, so
it is the step that stays where it is; the deadline of a timed wait may pass at any time.  A thread
leaves the mutex, waits, signals or broadcasts only while it owns the mutex, which is what the
`debug_assert!`s in `signal` and `broadcast` ask for; it enters only while it does not own it.
`wait_nowrap` (lines 157-176) makes the same accesses as `wait`.
-/

namespace NRK.Lineup

/-- What a thread in the acquiring loop `enter_nowrap` does when it has the mutex. -/
inductive Then where
  /-- return to the caller of `enter` -/
  | ret
  /-- go on in `CondVar::wait` -/
  | cv
deriving DecidableEq, Repr

/-- Why a thread leaves the mutex. -/
inductive Why where
  /-- `Mutex::exit` -/
  | unlock
  /-- `CondVar::wait`, line 149 of `condvar.rs` -/
  | wait
  /-- `CondVar::timed_wait` -/
  | timed
deriving DecidableEq, Repr

/-- Where a thread is. -/
inductive Pc where
  | idle
  /-- `enter`: about to increment the counter (`mutex.rs` line 157) -/
  | add
  /-- `enter`: about to put itself on the wait list (line 170) -/
  | push
  /-- `enter`: about to suspend, or suspended (line 179) -/
  | block
  /-- `enter_nowrap`: about to load the counter (line 199) -/
  | load (k : Then)
  /-- `enter_nowrap`: about to compare-exchange (lines 217-223) -/
  | cas (k : Then)
  /-- `try_enter`: about to look at the owner (lines 111-115) -/
  | tryOwner
  /-- `try_enter`: about to load the counter (line 117) -/
  | tryLoad
  /-- `try_enter`: about to compare-exchange (lines 131-137) -/
  | tryCas
  /-- has the mutex, about to record itself as the owner (lines 141, 186, 228) -/
  | got (k : Then)
  /-- owns the mutex -/
  | crit
  /-- about to clear the owner (line 236) -/
  | exitOwner (w : Why)
  /-- about to decrement the counter (line 239) -/
  | exitSub (w : Why)
  /-- about to take a thread off the wait list and make it runnable (lines 249-268) -/
  | exitPop (w : Why)
  /-- `CondVar::wait`: about to suspend, or suspended (`condvar.rs` line 150) -/
  | cvBlock
  /-- `timed_wait`: about to go to sleep (line 190) -/
  | cvSleep
  /-- `timed_wait`: asleep -/
  | cvAsleep
  /-- has the mutex again, about to remove itself from the list of waiters (lines 153, 192) -/
  | cvRemove
  /-- the assertion in line 170 failed: the wait list is full -/
  | full
  /-- another assertion failed, or `exit` was called on a free mutex -/
  | panic
deriving DecidableEq, Repr

/-- `MutexInner` (`mutex.rs` lines 90-107), `CondVarInner` (`condvar.rs` lines 82-89) and the
threads. -/
structure St where
  counter : Nat
  waitlist : List Nat
  owner : Option Nat
  /-- threads in `CondVar::wait`, the last one first in line -/
  waiters : List Nat
  wakes : Nat → Nat
  timer : Nat → Bool
  pc : Nat → Pc

/-- `Mutex::new_with_flags` (`mutex.rs` lines 50-61), `CondVarInner::new`
(`condvar.rs` lines 101-106). -/
def St.init : St where
  counter := 0
  waitlist := []
  owner := none
  waiters := []
  wakes := fun _ => 0
  timer := fun _ => false
  pc := fun _ => .idle

/-- `YieldRequest::Runnable` (`scheduler.rs` lines 269-288): off the list of sleepers, to the end
of the queue. -/
def St.runnable (s : St) (t : Nat) : St :=
  { s with wakes := upd s.wakes t (s.wakes t + 1), timer := upd s.timer t false }

/-- `YieldRequest::RunnableList` (`scheduler.rs` lines 309-323). -/
def St.runnableAll (s : St) : List Nat → St
  | [] => s
  | t :: ts => (s.runnable t).runnableAll ts

/-- `CondVar::signal` (`condvar.rs` lines 202-228): the last of the list. -/
def St.signal (s : St) : St :=
  match s.waiters.getLast? with
  | none => s
  | some u => { s.runnable u with waiters := s.waiters.dropLast }

/-- `CondVar::broadcast` (`condvar.rs` lines 231-258). -/
def St.broadcast (s : St) : St := { s.runnableAll s.waiters with waiters := [] }

/-- What the thread does after it has left the mutex. -/
def Why.next : Why → Pc
  | .unlock => .idle
  | .wait => .cvBlock
  | .timed => .cvSleep

/-- What the thread does after it has recorded itself as the owner. -/
def Then.next : Then → Pc
  | .ret => .crit
  | .cv => .cvRemove

/-- How the mutex was made and how it is used: `new_spin_kmutex`, `new_kmutex`, `new_spin`, `new`
(`mutex.rs` lines 33-47); `cap` is the capacity of the wait list (`MAX_CORES`, line 57); `timed`
says whether threads call `timed_wait`. -/
structure Cfg where
  spin : Bool
  kmutex : Bool
  cap : Nat
  timed : Bool

/-- The steps of thread `t`. -/
inductive Step (c : Cfg) (n : Nat) : St → St → Prop
  /-- `enter` (lines 147-156): a spin mutex goes through `enter_nowrap`, otherwise it must be a
  `kmutex` -/
  | enterSpin (s : St) (t : Nat) (ht : t < n) (h : s.pc t = .idle) (hs : c.spin = true) :
      Step c n s { s with pc := upd s.pc t (.load .ret) }
  | enterAdd (s : St) (t : Nat) (ht : t < n) (h : s.pc t = .idle) (hs : c.spin = false)
      (hk : c.kmutex = true) : Step c n s { s with pc := upd s.pc t .add }
  | enterPlain (s : St) (t : Nat) (ht : t < n) (h : s.pc t = .idle) (hs : c.spin = false)
      (hk : c.kmutex = false) : Step c n s { s with pc := upd s.pc t .panic }
  /-- line 157, the counter was 0 -/
  | addFree (s : St) (t : Nat) (ht : t < n) (h : s.pc t = .add) (hc : s.counter = 0) :
      Step c n s { s with counter := s.counter + 1, pc := upd s.pc t (.got .ret) }
  /-- line 157, the counter was not 0 -/
  | addHeld (s : St) (t : Nat) (ht : t < n) (h : s.pc t = .add) (hc : s.counter ≠ 0) :
      Step c n s { s with counter := s.counter + 1, pc := upd s.pc t .push }
  /-- line 170 -/
  | push (s : St) (t : Nat) (ht : t < n) (h : s.pc t = .push) (hl : s.waitlist.length < c.cap) :
      Step c n s { s with waitlist := s.waitlist ++ [t], pc := upd s.pc t .block }
  /-- line 170, the list is full -/
  | pushFull (s : St) (t : Nat) (ht : t < n) (h : s.pc t = .push)
      (hl : c.cap ≤ s.waitlist.length) : Step c n s { s with pc := upd s.pc t .full }
  /-- line 179: the thread suspends itself and continues here -/
  | block (s : St) (t : Nat) (ht : t < n) (h : s.pc t = .block) (hw : 0 < s.wakes t) :
      Step c n s { s with wakes := upd s.wakes t (s.wakes t - 1), pc := upd s.pc t (.got .ret) }
  /-- `enter_nowrap` called by the user -/
  | nowrap (s : St) (t : Nat) (ht : t < n) (h : s.pc t = .idle) :
      Step c n s { s with pc := upd s.pc t (.load .ret) }
  /-- line 199, the counter is 0; otherwise the loop goes on -/
  | load (s : St) (t : Nat) (k : Then) (ht : t < n) (h : s.pc t = .load k)
      (hc : s.counter = 0) : Step c n s { s with pc := upd s.pc t (.cas k) }
  /-- lines 217-222 -/
  | casOk (s : St) (t : Nat) (k : Then) (ht : t < n) (h : s.pc t = .cas k)
      (hc : s.counter = 0) : Step c n s { s with counter := 1, pc := upd s.pc t (.got k) }
  | casFail (s : St) (t : Nat) (k : Then) (ht : t < n) (h : s.pc t = .cas k)
      (hc : s.counter ≠ 0) : Step c n s { s with pc := upd s.pc t (.load k) }
  /-- `try_enter` called -/
  | tryEnter (s : St) (t : Nat) (ht : t < n) (h : s.pc t = .idle) :
      Step c n s { s with pc := upd s.pc t .tryOwner }
  /-- lines 112-115 -/
  | tryOwner (s : St) (t : Nat) (ht : t < n) (h : s.pc t = .tryOwner) (ho : s.owner ≠ some t) :
      Step c n s { s with pc := upd s.pc t .tryLoad }
  | tryOwn (s : St) (t : Nat) (ht : t < n) (h : s.pc t = .tryOwner) (ho : s.owner = some t) :
      Step c n s { s with pc := upd s.pc t .panic }
  /-- lines 117-128: `false` is returned -/
  | tryHeld (s : St) (t : Nat) (ht : t < n) (h : s.pc t = .tryLoad) (hc : s.counter ≠ 0) :
      Step c n s { s with pc := upd s.pc t .idle }
  | tryFree (s : St) (t : Nat) (ht : t < n) (h : s.pc t = .tryLoad) (hc : s.counter = 0) :
      Step c n s { s with pc := upd s.pc t .tryCas }
  /-- lines 131-136; if the exchange fails (line 137) the loop goes on with the value loaded
  before, so it stays here -/
  | tryCas (s : St) (t : Nat) (ht : t < n) (h : s.pc t = .tryCas) (hc : s.counter = 0) :
      Step c n s { s with counter := 1, pc := upd s.pc t (.got .ret) }
  /-- lines 141, 186, 228 -/
  | own (s : St) (t : Nat) (k : Then) (ht : t < n) (h : s.pc t = .got k) :
      Step c n s { s with owner := some t, pc := upd s.pc t k.next }
  /-- `exit` called -/
  | exit (s : St) (t : Nat) (ht : t < n) (h : s.pc t = .crit) :
      Step c n s { s with pc := upd s.pc t (.exitOwner .unlock) }
  /-- line 236 -/
  | exitOwner (s : St) (t : Nat) (w : Why) (ht : t < n) (h : s.pc t = .exitOwner w) :
      Step c n s { s with owner := none, pc := upd s.pc t (.exitSub w) }
  /-- line 239, the counter was 1 -/
  | exitLast (s : St) (t : Nat) (w : Why) (ht : t < n) (h : s.pc t = .exitSub w)
      (hc : s.counter = 1) : Step c n s { s with counter := 0, pc := upd s.pc t w.next }
  /-- lines 239, 245: the counter was greater than 1 -/
  | exitMore (s : St) (t : Nat) (w : Why) (ht : t < n) (h : s.pc t = .exitSub w)
      (hc : 1 < s.counter) :
      Step c n s { s with counter := s.counter - 1, pc := upd s.pc t (.exitPop w) }
  /-- lines 240-242: the counter was 0 -/
  | exitFree (s : St) (t : Nat) (w : Why) (ht : t < n) (h : s.pc t = .exitSub w)
      (hc : s.counter = 0) : Step c n s { s with pc := upd s.pc t .panic }
  /-- lines 249-268: waits until the list is not empty -/
  | exitPop (s : St) (t u : Nat) (ts : List Nat) (w : Why) (ht : t < n)
      (h : s.pc t = .exitPop w) (hl : s.waitlist = u :: ts) :
      Step c n s { s.runnable u with waitlist := ts, pc := upd s.pc t w.next }
  /-- `wait` (`condvar.rs` lines 137-149) -/
  | wait (s : St) (t : Nat) (ht : t < n) (h : s.pc t = .crit) :
      Step c n s { s with waiters := s.waiters ++ [t], pc := upd s.pc t (.exitOwner .wait) }
  /-- lines 150-151: suspended, then `enter_nowrap` (lines 115-135) -/
  | cvBlock (s : St) (t : Nat) (ht : t < n) (h : s.pc t = .cvBlock) (hw : 0 < s.wakes t) :
      Step c n s { s with wakes := upd s.wakes t (s.wakes t - 1), pc := upd s.pc t (.load .cv) }
  /-- lines 153, 192: `remove_item`, return to the caller -/
  | cvRemove (s : St) (t : Nat) (ht : t < n) (h : s.pc t = .cvRemove) :
      Step c n s { s with waiters := s.waiters.erase t, pc := upd s.pc t .crit }
  /-- `timed_wait` (lines 180-187) -/
  | timedWait (s : St) (t : Nat) (ht : t < n) (h : s.pc t = .crit) (hc : c.timed = true) :
      Step c n s { s with waiters := s.waiters ++ [t], pc := upd s.pc t (.exitOwner .timed) }
  /-- line 190: `YieldRequest::Timeout` -/
  | cvSleep (s : St) (t : Nat) (ht : t < n) (h : s.pc t = .cvSleep) :
      Step c n s { s with timer := upd s.timer t true, pc := upd s.pc t .cvAsleep }
  /-- `check_wakeups` (`scheduler.rs` lines 400-407) -/
  | expire (s : St) (t : Nat) (ht : t < n) (h : s.timer t = true) :
      Step c n s { s with
        timer := upd s.timer t false, wakes := upd s.wakes t (s.wakes t + 1) }
  /-- lines 190-191: runs again, `enter_nowrap` -/
  | cvAwake (s : St) (t : Nat) (ht : t < n) (h : s.pc t = .cvAsleep) (hw : 0 < s.wakes t) :
      Step c n s { s with wakes := upd s.wakes t (s.wakes t - 1), pc := upd s.pc t (.load .cv) }
  /-- `signal` called -/
  | signal (s : St) (t : Nat) (ht : t < n) (h : s.pc t = .crit) : Step c n s s.signal
  /-- `broadcast` called -/
  | broadcast (s : St) (t : Nat) (ht : t < n) (h : s.pc t = .crit) : Step c n s s.broadcast

/-- The states that `n` threads reach. -/
inductive Reach (c : Cfg) (n : Nat) : St → Prop
  | init : Reach c n St.init
  | step {s s' : St} (r : Reach c n s) (st : Step c n s s') : Reach c n s'

end NRK.Lineup
