import Verif.Common

/-!
# Model of the virtual CPU around hypercalls that wait

A rump kernel runs a thread only while the thread has one of its virtual CPUs; in addition the thread may hold the
big lock of the rump kernel a number of times.  The host takes both away around a wait with the two upcalls
`hyp_backend_unschedule` and `hyp_backend_schedule` (`lib/vibrio/src/rumprt/mod.rs` lines 118-143).

A hypercall is the list of what it does to the virtual CPU, to mutexes and to the scheduler, in the order of the code.
The choices that depend on other threads (is the mutex taken?) are parameters.  The upcalls are C code of NetBSD that is
not in the repository; what they do is taken from its documentation: `hyp_backend_unschedule(n, &count, interlock)`
releases the big lock `n` times, all of it if `n` is 0, writes to `count` how often it was held, and gives up the virtual
CPU; `hyp_backend_schedule(count, interlock)` waits for a virtual CPU and takes the big lock `count` times.  Who gets a
mutex next, and that it is exclusive, is C49, the queues of the scheduler are C54; here a thread that leaves a mutex
gives it up, and one that takes it has it.
-/

namespace NRK.Rump.Vcpu

/-- One thing that a hypercall does. -/
inductive Act where
  /-- `let mut rid = k` (`mutex.rs` line 159, `condvar.rs` lines 142 and 180, `threads.rs` line 134, `dev.rs` line 160) -/
  | setRid (k : Nat)
  /-- `rumpkern_unsched` (`rumprt/mod.rs` lines 118-133); `n` is the first argument of the upcall -/
  | unsched (n : Nat) (interlock : Option Nat)
  /-- `rumpkern_sched` (lines 135-143) with the count in `rid` -/
  | sched (interlock : Option Nat)
  /-- `make_unrunnable`, `block` (`lineup/src/tls2/mod.rs` lines 212-215, 227-230): until another thread makes it runnable -/
  | block
  /-- `sleep`, `YieldRequest::Timeout` (lines 207-210, `condvar.rs` line 190): until the time has come -/
  | sleep
  /-- the loop in `enter_nowrap` (`lineup/src/mutex.rs` lines 194-224): gives the core to other threads until the mutex is free -/
  | spin (m : Nat)
  /-- the mutex was free, or was passed on by the thread that left it (`mutex.rs` lines 131-146, 157, 179) -/
  | take (m : Nat)
  /-- `exit` (`mutex.rs` lines 233-270) -/
  | leave (m : Nat)
  /-- the handler of an interrupt in the rump kernel (`dev.rs` line 164) -/
  | handler
deriving DecidableEq, Repr

/-- A thread: its virtual CPU with the number of times it holds the big lock, the variable `rid` of the hypercall it is in,
the mutexes it has. -/
structure Th where
  cpu : Option Nat
  rid : Nat
  has : List Nat
deriving DecidableEq, Repr

/-- What the action does. `panic`: an assertion in the rump kernel (a thread without virtual CPU gives one up, a thread
takes a second one or gives one up with the big lock, the handler runs without one), or a mutex that is not held is left. -/
def Th.act (s : Th) : Act → Outcome Th
  | .setRid k => .ok { s with rid := k }
  | .unsched n _ =>
    match s.cpu with
    | some d =>
      -- the big lock may not stay behind
      if n = 0 ∨ n = d then .ok { s with cpu := none, rid := d } else .panic
    | none => .panic
  | .sched _ =>
    match s.cpu with
    | some _ => .panic
    | none => .ok { s with cpu := some s.rid }
  | .block => .ok s
  | .sleep => .ok s
  | .spin _ => .ok s
  | .take m => .ok { s with has := m :: s.has }
  | .leave m => if m ∈ s.has then .ok { s with has := s.has.erase m } else .panic
  | .handler => if s.cpu = none then .panic else .ok s

/-- All of them in turn. -/
def Th.acts (s : Th) : List Act → Outcome Th
  | [] => .ok s
  | a :: l =>
    match s.act a with
    | .ok s => s.acts l
    | .err e => .err e
    | .panic => .panic

/-- Each action with the thread's state when it begins. -/
def Th.trace (s : Th) : List Act → List (Act × Th)
  | [] => []
  | a :: l =>
    (a, s) :: match s.act a with
      | .ok s => s.trace l
      | _ => []

/-- A mutex and how it was made (`rumpuser_mutex_init`, `rumprt/locking.rs` lines 19-27). -/
structure Mutex where
  id : Nat
  spin : Bool
  kmutex : Bool

/-- `rumpuser_mutex_init`: the flags (`RUMPUSER_MTX_SPIN` 1, `RUMPUSER_MTX_KMUTEX` 2, lines 16-22). -/
def Mutex.init (id flags : Nat) : Mutex := ⟨id, flags.testBit 0, flags.testBit 1⟩

/-- `MutexInner::enter_nowrap` (`mutex.rs` lines 191-231); `n` rounds until it is free. -/
def Mutex.nowrap (m : Mutex) (n : Nat) : List Act := List.replicate n (.spin m.id) ++ [.take m.id]

/-- `MutexInner::enter` (`mutex.rs` lines 147-189), `rumpuser_mutex_enter`. `held`: another thread has the mutex (line 157). -/
def Mutex.enter (m : Mutex) (held : Bool) (n : Nat) : Outcome (List Act) :=
  if m.spin then .ok (m.nowrap n)
  else if m.kmutex then
    .ok (if held then [.setRid 0, .unsched 0 none, .block, .take m.id, .sched none] else [.take m.id])
  else .panic

/-- `CondVarInner::cv_unschedule` (`condvar.rs` lines 108-113). -/
def Mutex.cvUnschedule (m : Mutex) : List Act := [.unsched 0 (some m.id), .leave m.id]

/-- `CondVarInner::cv_mutex_enter` (lines 115-123). -/
def Mutex.cvMutexEnter (m : Mutex) (n : Nat) : Outcome (List Act) :=
  if m.spin then .ok (m.nowrap n) else if m.kmutex then .ok (m.nowrap n) else .panic

/-- `CondVarInner::cv_schedule_enter` (lines 125-135). -/
def Mutex.cvScheduleEnter (m : Mutex) (n : Nat) : Outcome (List Act) :=
  if m.spin && m.kmutex then .ok (.sched (some m.id) :: m.nowrap n)
  else
    match m.cvMutexEnter n with
    | .ok l => .ok (l ++ [.sched (some m.id)])
    | .err e => .err e
    | .panic => .panic

/-- `CondVarInner::wait` (lines 137-155) and `timed_wait` (lines 179-198), the list of waiters (C52) left out. -/
def Mutex.cvWait (m : Mutex) (timed : Bool) (n : Nat) : Outcome (List Act) :=
  match m.cvScheduleEnter n with
  | .ok l => .ok ([.setRid 0] ++ m.cvUnschedule ++ [if timed then .sleep else .block] ++ l)
  | .err e => .err e
  | .panic => .panic

/-- `CondVarInner::wait_nowrap` (lines 157-176). -/
def Mutex.cvWaitNowrap (m : Mutex) (n : Nat) : List Act := [.leave m.id, .block] ++ m.nowrap n

/-- The two mutexes of a reader-writer lock (`RwLockInner::new`, `rwlock.rs` lines 92-99: `new_kmutex`). -/
def rwMutex (id : Nat) : Mutex := ⟨id, false, true⟩

/-- `RwLockInner::enter` (`rwlock.rs` lines 114-143). `wait`, `access`: the mutexes; `heldW`, `heldA`: others have them; `first`: a
writer, or the first of the readers. -/
def rwEnter (wait access : Nat) (first heldW heldA : Bool) : Outcome (List Act) :=
  match (rwMutex wait).enter heldW 0, (rwMutex access).enter heldA 0 with
  | .ok a, .ok b => .ok (a ++ (if first then b else []) ++ [.leave wait])
  | _, _ => .panic

/-- `rumpuser_clock_sleep` (`rumprt/threads.rs` lines 124-158). `past`: the absolute time that was asked for is over, the
subtraction in line 142 panics. -/
def clockSleep (absolute past : Bool) : Outcome (List Act) :=
  if absolute && past then .panic else .ok [.setRid 0, .unsched 0 none, .sleep, .sched none]

/-- A round of `irq_handler` (`rumprt/dev.rs` lines 161-169). -/
def irqRound : List Act := [.sched none, .handler, .unsched 0 none, .block]

/-- `irq_handler` (lines 147-170) for `k` interrupts; `hyp_schedule` and `hyp_unschedule` (lines 152-154) take and give up a
virtual CPU without the big lock. -/
def irqThread (k : Nat) : List Act :=
  [.setRid 0, .sched none, .unsched 0 none, .block, .setRid 1] ++ (List.replicate k irqRound).flatten

/-! ## Calls -/

/-- The hypercalls that a thread makes while it has a virtual CPU. -/
inductive Call where
  | mutexEnter (m : Mutex) (held : Bool) (n : Nat)
  | mutexEnterNowrap (m : Mutex) (n : Nat)
  | mutexTryEnter (m : Mutex) (held : Bool)
  | mutexExit (m : Mutex)
  | cvWait (m : Mutex) (timed : Bool) (n : Nat)
  | rwEnter (wait access : Nat) (first heldW heldA : Bool)
  | rwExit (access : Nat) (last : Bool)
  | clockSleep (absolute past : Bool)

/-- What the call does; `locking.rs` lines 34-68, 105-145, 166-224. -/
def Call.acts : Call → Outcome (List Act)
  | .mutexEnter m held n => m.enter held n
  | .mutexEnterNowrap m n => .ok (m.nowrap n)
  | .mutexTryEnter m held => .ok (if held then [] else [.take m.id])
  | .mutexExit m => .ok [.leave m.id]
  | .cvWait m timed n => m.cvWait timed n
  | .rwEnter w a first hw ha => Vcpu.rwEnter w a first hw ha
  | .rwExit a last => .ok (if last then [.leave a] else [])
  | .clockSleep a p => Vcpu.clockSleep a p

/-! ## All threads -/

/-- The virtual CPUs that are free, and what each thread still does in its hypercall. -/
structure Sys where
  free : Nat
  th : Nat → Th
  todo : Nat → List Act

/-- `k` virtual CPUs, no thread has one. -/
def Sys.init (k : Nat) : Sys := ⟨k, fun _ => ⟨none, 0, []⟩, fun _ => []⟩

/-- The virtual CPUs after an action. -/
def cpus (free : Nat) : Act → Nat
  | .sched _ => free - 1
  | .unsched _ _ => free + 1
  | _ => free

/-- The threads `0` to `n-1`, in any order. -/
inductive Step (n : Nat) : Sys → Sys → Prop
  /-- `rump_schedule`: a thread enters the rump kernel -/
  | enter (s : Sys) (t : Nat) (ht : t < n) (h : s.todo t = []) (hc : (s.th t).cpu = none) :
      Step n s { s with todo := upd s.todo t [.setRid 0, .sched none] }
  /-- `rump_unschedule`: it leaves -/
  | exit (s : Sys) (t : Nat) (ht : t < n) (h : s.todo t = []) (hc : (s.th t).cpu ≠ none) :
      Step n s { s with todo := upd s.todo t [.unsched 0 none] }
  /-- the big lock is taken or released by the rump kernel itself -/
  | big (s : Sys) (t d : Nat) (ht : t < n) (h : s.todo t = []) (hc : (s.th t).cpu ≠ none) :
      Step n s { s with th := upd s.th t { s.th t with cpu := some d } }
  /-- a hypercall, by a thread with a virtual CPU -/
  | call (s : Sys) (t : Nat) (c : Call) (l : List Act) (ht : t < n) (h : s.todo t = [])
      (hc : (s.th t).cpu ≠ none) (hl : c.acts = .ok l) :
      Step n s { s with todo := upd s.todo t l }
  /-- `rumpuser_cv_wait_nowrap` and `rumpuser_mutex_enter_nowrap`, by a thread without (the rump kernel calls them when
  it waits for a virtual CPU) -/
  | nowrap (s : Sys) (t : Nat) (m : Mutex) (k : Nat) (wait : Bool) (ht : t < n) (h : s.todo t = [])
      (hc : (s.th t).cpu = none) :
      Step n s { s with todo := upd s.todo t (if wait then m.cvWaitNowrap k else m.nowrap k) }
  /-- an interrupt thread starts -/
  | irq (s : Sys) (t k : Nat) (ht : t < n) (h : s.todo t = []) (hc : (s.th t).cpu = none) :
      Step n s { s with todo := upd s.todo t (irqThread k) }
  /-- the next action of a hypercall; a virtual CPU must be free if it takes one -/
  | act (s : Sys) (t : Nat) (a : Act) (l : List Act) (x : Th) (ht : t < n) (h : s.todo t = a :: l)
      (ha : (s.th t).act a = .ok x) (hf : ∀ i, a = .sched i → 0 < s.free) :
      Step n s ⟨cpus s.free a, upd s.th t x, upd s.todo t l⟩

/-- The states that `n` threads with `k` virtual CPUs reach. -/
inductive Reach (n k : Nat) : Sys → Prop
  | init : Reach n k (Sys.init k)
  | step {s s' : Sys} (r : Reach n k s) (st : Step n s s') : Reach n k s'

end NRK.Rump.Vcpu
