import Verif.Common

/-!
# Model of parking C threads, `lib/vibrio/src/rumprt/prt/mod.rs`

`___lwp_park60`, `_lwp_unpark`, `_lwp_unpark_all`, `_lwp_exit`, `rumprun_makelwp` and
`rumprun_lwp_init`.  A step is one access to the shared status word, or one request to the scheduler;
steps of all threads interleave.

Simplifications:
* Of the scheduler (`lib/lineup/src/scheduler.rs`, C54) only what it does to one thread: how many
  entries the thread has in the queue of its core, whether it is suspended, and that a suspended
  thread goes on when one of its entries is taken from the queue.  What else puts it in the queue
  (mutexes, timers, interrupts, its own start) is the action `otherWake`, at any time.
* A thread that gives up its core outside `___lwp_park60` is `away`.
* The signed 32-bit id counter is a natural number.  `clock_id`, `flags` and the hints are not used
  by the code.
* The first argument of `___lwp_park60`, `unpark` (lines 329-331), is an `unpark` before the `park`.
* The TLS, stack and rump-kernel part of `rumprun_makelwp` is not modelled.
* `hist` is ghost state: the calls and returns so far, the latest first.
-/

namespace NRK.Lineup.Park

/-- `RL_MASK_PARKED`, `RL_MASK_UNPARK`, `RL_MASK_PARK` (lines 26-28). -/
def maskParked : Nat := 1
def maskUnpark : Nat := 1
def maskPark : Nat := 2

/-- Where a thread is: outside (running, or `away` when it does not have the core), in
`___lwp_park60` (between lines 334 and 338, before the call of `block` in line 377, blocked there,
before line 382), or blocked in `_lwp_exit` (line 250). -/
inductive Pc where
  | run | away | early | swapped | blocked | woken | exited
deriving DecidableEq, Repr

/-- `rumprun_lwp` (lines 69-82), with the part of the scheduler's state that belongs to it. -/
structure Lwp where
  /-- `rl_pstatus` -/
  status : Nat
  pc : Pc
  /-- entries in the queue of runnable threads -/
  queued : Nat
  /-- calls of `_lwp_unpark` for this thread between lines 424 and 427 -/
  inflight : Nat
  /-- whether `rl_thread` has been assigned (line 210); before, it is thread 0 -/
  named : Bool
deriving DecidableEq, Repr

/-- What the threads can observe. -/
inductive Ev where
  /-- `_lwp_unpark(i)` was called (it takes effect at line 424) -/
  | unpark (i : Nat)
  /-- `___lwp_park60` of thread `i` returned: 0, or −1 with `EALREADY` -/
  | parkRet (i : Nat) (already : Bool)
  /-- something else put thread `i` in the queue -/
  | otherWake (i : Nat)
deriving DecidableEq, Repr

/-- `LWP_HT` and `CURLWPID` (lines 32, 40-42). -/
structure St where
  lwps : Nat → Option Lwp
  next : Nat
  hist : List Ev

/-- After `rumprun_lwp_init` (lines 477-506): the main thread, which is running. -/
def St.init : St where
  lwps := upd (fun _ => none) 1 (some ⟨maskPark, .run, 0, 0, true⟩)
  next := 2
  hist := []

inductive Act where
  /-- `rumprun_makelwp` up to `spawn_with_args` (lines 132-202) -/
  | make
  /-- lines 210-211 -/
  | assign (i : Nat)
  /-- `___lwp_park60`, lines 333-344; `timed`: `ts` is not null -/
  | park (i : Nat) (timed : Bool)
  /-- lines 338-340 -/
  | early (i : Nat)
  /-- line 377 -/
  | block (i : Nat)
  /-- the scheduler takes an entry of the thread from the queue -/
  | dispatch (i : Nat)
  /-- lines 382-384 -/
  | done (i : Nat)
  /-- `_lwp_unpark`, lines 416-424 -/
  | unpark (i : Nat)
  /-- line 427 -/
  | wake (i : Nat)
  /-- a mutex, a timer, an interrupt, ... puts the thread in the queue -/
  | otherWake (i : Nat)
  /-- the thread gives up its core elsewhere -/
  | leave (i : Nat)
  /-- `_lwp_exit` (lines 242-252) -/
  | exit (i : Nat)
deriving DecidableEq, Repr

/-- Replace the state of thread `i`. -/
def St.put (s : St) (i : Nat) (l : Lwp) : St := { s with lwps := upd s.lwps i (some l) }

/-- Record an event. -/
def St.ev (s : St) (e : Ev) : St := { s with hist := e :: s.hist }

/-- `___lwp_park60`, lines 334-344: `swap(RL_MASK_PARKED)`, and the decision. -/
def parkSwap (l : Lwp) (timed : Bool) : Outcome Lwp :=
  let old := l.status
  let l := { l with status := maskParked }
  if old = maskUnpark then .ok { l with pc := .early }
  else if timed then .panic
  else .ok { l with pc := .swapped }

/-- `_lwp_unpark`, line 424: `swap(RL_MASK_UNPARK)`, and the decision. -/
def unparkSwap (l : Lwp) : Lwp :=
  let old := l.status
  let l := { l with status := maskUnpark }
  if old = maskParked then { l with inflight := l.inflight + 1 } else l

/-- What a thread does when the scheduler resumes it: it goes on where it gave up the core; behind
the `block` of `_lwp_exit` is `unreachable!` (line 251). -/
def resume (l : Lwp) : Outcome Lwp :=
  match l.pc with
  | .blocked => .ok { l with pc := .woken }
  | .away => .ok { l with pc := .run }
  | .exited => .panic
  | _ => .ok l

/-- One step.  `none`: the step is not possible in this state. -/
def St.step (s : St) : Act → Option (Outcome St)
  | .make => some (.ok { s with
      lwps := upd s.lwps s.next (some ⟨maskPark, .away, 1, 0, false⟩)
      next := s.next + 1
      hist := .otherWake s.next :: s.hist })
  | .assign i =>
    match s.lwps i with
    | none => none
    | some l => if l.named then none else some (.ok (s.put i { l with named := true }))
  | .park i timed =>
    match s.lwps i with
    | none => none
    | some l =>
      if l.pc = .run then
        match parkSwap l timed with
        | .ok l => some (.ok (s.put i l))
        | .err e => some (.err e)
        | .panic => some .panic
      else none
  | .early i =>
    match s.lwps i with
    | none => none
    | some l =>
      if l.pc = .early then
        some (.ok ((s.put i { l with status := maskPark, pc := .run }).ev (.parkRet i true)))
      else none
  | .block i =>
    match s.lwps i with
    | none => none
    | some l => if l.pc = .swapped then some (.ok (s.put i { l with pc := .blocked })) else none
  | .dispatch i =>
    match s.lwps i with
    | none => none
    | some l =>
      if l.queued = 0 then none
      else if l.pc = .blocked ∨ l.pc = .away ∨ l.pc = .exited then
        match resume { l with queued := l.queued - 1 } with
        | .ok l => some (.ok (s.put i l))
        | .err e => some (.err e)
        | .panic => some .panic
      else none
  | .done i =>
    match s.lwps i with
    | none => none
    | some l =>
      if l.pc = .woken then
        some (.ok ((s.put i { l with status := maskPark, pc := .run }).ev (.parkRet i false)))
      else none
  | .unpark i =>
    match s.lwps i with
    | none => some .panic
    | some l => some (.ok ((s.put i (unparkSwap l)).ev (.unpark i)))
  | .wake i =>
    match s.lwps i with
    | none => none
    | some l =>
      if l.inflight = 0 then none
      else if l.named then
        some (.ok (s.put i { l with inflight := l.inflight - 1, queued := l.queued + 1 }))
      else some (.ok (s.put i { l with inflight := l.inflight - 1 }))
  | .otherWake i =>
    match s.lwps i with
    | none => none
    | some l => some (.ok ((s.put i { l with queued := l.queued + 1 }).ev (.otherWake i)))
  | .leave i =>
    match s.lwps i with
    | none => none
    | some l => if l.pc = .run then some (.ok (s.put i { l with pc := .away })) else none
  | .exit i =>
    match s.lwps i with
    | none => none
    | some l => if l.pc = .run then some (.ok (s.put i { l with pc := .exited })) else none

/-- A run of given steps, if it is possible. -/
def St.run (s : St) : List Act → Option (Outcome St)
  | [] => some (.ok s)
  | a :: l =>
    match s.step a with
    | some (.ok s) => s.run l
    | r => r

/-- The reachable states. -/
inductive Reach : St → Prop where
  | init : Reach .init
  | step {s s'} (a : Act) : Reach s → s.step a = some (.ok s') → Reach s'

/-- `_lwp_unpark_all` (lines 441-468) for a thread alone with its steps: the number of threads it
claims to have resumed.  `none` stands for a null array. -/
def St.unparkAll (s : St) : Option (List Nat) → Outcome (St × Nat)
  | none => .ok (s, 1024)
  | some [] => .ok (s, 0)
  | some (i :: l) =>
    match s.step (.unpark i) with
    | some (.ok s') =>
      match s'.unparkAll (some l) with
      | .ok (s'', n) => .ok (s'', n + 1)
      | r => r
    | _ => .panic

end NRK.Lineup.Park
