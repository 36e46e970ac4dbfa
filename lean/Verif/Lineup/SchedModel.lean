import Verif.Common

/-!
# Model of the user-level scheduler, `lib/lineup/src/scheduler.rs`

Any number of cores and threads.  An action is what one core does between two places where it gives
up its locks: the timer check, the handling of one interrupt, taking the next thread from its queue,
or one request of the running thread.  A history is a list of actions, in any order.

Simplifications:
* `handle_yield_request` takes several locks one after the other; here each request is one action.
  (The race described in lines 278-282 appears as the two orders of the two actions.)
* A core is its index in `per_core` (`core_id_to_index` is modelled at the end of the file).
* The hash map `threads` is a function and its size, `count`.  `generators` is modelled by whether
  it has an entry.
* Thread-local state, stacks and the `context_switch` upcall are not modelled; `return_with` is
  never set in the code.
* `binary_search_by` is modelled by its contract for sorted lists (`waiting_sorted` proves that the
  list always is).
* `entered` and `left` are ghost state: all threads that ever entered and left the queue of a core
  at its front, in order.
-/

namespace NRK.Lineup.Sched

/-- `Thread` (`threads.rs` lines 30-56): its core and the threads that wait for its end, with their
cores. -/
structure Thread where
  affinity : Nat
  joinlist : List (Nat × Nat)
deriving DecidableEq, Repr

/-- `SmpScheduler` (lines 58-76), and which thread each core runs. -/
structure St where
  threads : Nat → Option Thread
  count : Nat
  gens : Nat → Bool
  /-- `per_core[c].runnable` -/
  queue : Nat → List Nat
  /-- `per_core[c].waiting` -/
  waiting : Nat → List (Nat × Nat)
  nextTid : Nat
  irqs : Nat → Option Nat
  running : Nat → Option Nat
  entered : Nat → List Nat
  left : Nat → List Nat

/-- `SmpScheduler::with_upcalls` (lines 90-101). -/
def St.init : St where
  threads := fun _ => none
  count := 0
  gens := fun _ => false
  queue := fun _ => []
  waiting := fun _ => []
  nextTid := 0
  irqs := fun _ => none
  running := fun _ => none
  entered := fun _ => []
  left := fun _ => []

/-- `MAX_THREADS` (line 88). -/
def maxThreads : Nat := 2048

/-- `mark_runnable` (lines 193-195). -/
def St.markRunnable (s : St) (t c : Nat) : St :=
  { s with
    queue := upd s.queue c (s.queue c ++ [t])
    entered := upd s.entered c (s.entered c ++ [t]) }

/-- `mark_unrunnable` (lines 202-205). -/
def St.markUnrunnable (s : St) (t c : Nat) : St :=
  { s with queue := upd s.queue c ((s.queue c).filter (· ≠ t)) }

/-- `waitlist_remove` (lines 216-219). -/
def St.waitRemove (s : St) (t c : Nat) : St :=
  { s with waiting := upd s.waiting c ((s.waiting c).filter (fun e => e.2 ≠ t)) }

/-- The order of pairs `(Instant, ThreadId)`. -/
def later (x y : Nat × Nat) : Prop := y.1 < x.1 ∨ (y.1 = x.1 ∧ y.2 < x.2)

instance (x y : Nat × Nat) : Decidable (later x y) := by unfold later; infer_instance

/-- Lines 225-228: where the entry belongs in a list in descending order; `none` if it is there
already. -/
def insertDesc (x : Nat × Nat) : List (Nat × Nat) → Option (List (Nat × Nat))
  | [] => some [x]
  | y :: l =>
    if x = y then none
    else if later x y then some (x :: y :: l)
    else match insertDesc x l with
      | none => none
      | some l' => some (y :: l')

/-- `waitlist_insert` (lines 222-230). -/
def St.waitInsert (s : St) (t c d : Nat) : Outcome St :=
  match insertDesc (d, t) (s.waiting c) with
  | some l => .ok { s with waiting := upd s.waiting c l }
  | none => .panic

/-- `spawn_with_args` with `add_thread` (lines 115-151, 169-189). -/
def St.spawn (s : St) (c : Nat) (irq : Option Nat) : Outcome (St × Option Nat) :=
  let t := s.nextTid
  let s := { s with nextTid := t + 1 }
  match s.threads t with
  | some _ => .panic
  | none =>
    if s.count ≤ maxThreads then
      let s := { s with
        gens := upd s.gens t true
        threads := upd s.threads t (some ⟨c, []⟩)
        count := s.count + 1 }
      let s := s.markRunnable t c
      match irq with
      | none => .ok (s, some t)
      | some v => .ok ({ s with irqs := upd s.irqs v (some t) }, some t)
    else .ok (s, none)

/-- `YieldRequest` (`threads.rs` lines 129-158); `Spawn` and `SpawnWithArgs` do the same here. -/
inductive Req where
  | none
  | timeout (d : Nat)
  | runnable (t : Nat)
  | unrunnable (t : Nat)
  | runnableList (l : List Nat)
  | joinOn (t : Nat)
  | spawn (c : Nat) (irq : Option Nat)
deriving DecidableEq, Repr

/-- `YieldResume` (`threads.rs` lines 162-173). -/
inductive Resume where
  | completed | interrupted | spawned (t : Nat) | doNotResume
deriving DecidableEq, Repr

/-- Lines 268-285: wake one thread. -/
def St.wake (s : St) (r : Nat) : Outcome St :=
  match s.threads r with
  | none => .panic
  | some th => .ok ((s.waitRemove r th.affinity).markRunnable r th.affinity)

/-- Lines 304-318: wake several threads. -/
def St.wakeAll (s : St) : List Nat → Outcome St
  | [] => .ok s
  | r :: l => match s.wake r with
    | .ok s => s.wakeAll l
    | .err e => .err e
    | .panic => .panic

/-- Lines 249-256: wake the threads of a join list. -/
def St.wakeJoiners (s : St) : List (Nat × Nat) → St
  | [] => s
  | (t, c) :: l => (s.markRunnable t c).wakeJoiners l

/-- `handle_yield_request` (lines 235-393); `none` means that the thread has terminated. -/
def St.handle (s : St) (t : Nat) (r : Option Req) : Outcome (St × Resume) :=
  match s.threads t with
  | none => .panic
  | some th =>
    match r with
    | none =>
      let s := s.markUnrunnable t th.affinity
      let s := { s with threads := upd s.threads t none, count := s.count - 1 }
      .ok (s.wakeJoiners th.joinlist, .doNotResume)
    | some .none => .ok (s.markRunnable t th.affinity, .interrupted)
    | some (.runnable r) =>
      match s.wake r with
      | .ok s => .ok (s, .completed)
      | .err e => .err e
      | .panic => .panic
    | some (.unrunnable r) =>
      match s.threads r with
      | none => .panic
      | some rth =>
        if r = t then .ok (s, .interrupted)
        else .ok (s.markUnrunnable r rth.affinity, .completed)
    | some (.runnableList l) =>
      match s.wakeAll l with
      | .ok s => .ok (s, .completed)
      | .err e => .err e
      | .panic => .panic
    | some (.timeout d) =>
      match s.waitInsert t th.affinity d with
      | .ok s => .ok (s, .interrupted)
      | .err e => .err e
      | .panic => .panic
    | some (.joinOn u) =>
      match s.threads u with
      | some uth =>
        let uth := { uth with joinlist := uth.joinlist ++ [(t, th.affinity)] }
        .ok ({ s with threads := upd s.threads u (some uth) }, .interrupted)
      | none => .ok (s, .completed)
    | some (.spawn c irq) =>
      match s.spawn c irq with
      | .ok (s, some u) => .ok (s, .spawned u)
      | .ok (_, none) => .panic
      | .err e => .err e
      | .panic => .panic

/-- The loop of `check_wakeups` (lines 402-406); `clock i` is what the clock shows the `i`-th time
it is read, `f` bounds the iterations. -/
def St.checkLoop (c : Nat) (clock : Nat → Nat) : Nat → Nat → St → St
  | _, 0, s => s
  | i, f + 1, s =>
    match (s.waiting c).getLast? with
    | none => s
    | some (d, t) =>
      if d ≤ clock i then
        checkLoop c clock (i + 1) f
          ({ s with waiting := upd s.waiting c (s.waiting c).dropLast }.markRunnable t c)
      else s

/-- `check_wakeups` (lines 400-407). -/
def St.check (s : St) (c : Nat) (clock : Nat → Nat) : St :=
  s.checkLoop c clock 0 (s.waiting c).length

/-- One round of `check_interrupt` (lines 411-419): vector `v` was pending on core `c`. -/
def St.interrupt (s : St) (c v : Nat) : St :=
  match s.irqs v with
  | some t => s.markRunnable t c
  | none => s

/-- Lines 451-476: take the next thread. -/
def St.dispatch (s : St) (c : Nat) : Outcome St :=
  match s.running c, s.queue c with
  | some _, _ => .ok s
  | none, [] => .ok s
  | none, t :: q =>
    match s.gens t, s.threads t with
    | true, some _ => .ok { s with
        queue := upd s.queue c q
        left := upd s.left c (s.left c ++ [t])
        gens := upd s.gens t false
        running := upd s.running c (some t) }
    | _, _ => .panic

/-- Lines 482-508: the running thread makes a request, or terminates. -/
def St.yield (s : St) (c : Nat) (r : Option Req) : Outcome St :=
  match s.running c with
  | none => .ok s
  | some t =>
    match s.handle t r with
    | .ok (s, .interrupted) =>
      match s.threads t with
      | none => .panic
      | some _ => .ok { s with gens := upd s.gens t true, running := upd s.running c none }
    | .ok (s, .doNotResume) => .ok { s with running := upd s.running c none }
    | .ok (s, _) => .ok s
    | .err e => .err e
    | .panic => .panic

/-- What can happen. -/
inductive Act where
  /-- `spawn` called from outside the threads -/
  | start (c : Nat) (irq : Option Nat)
  | interrupt (c v : Nat)
  | check (c : Nat) (clock : Nat → Nat)
  | dispatch (c : Nat)
  | yield (c : Nat) (r : Option Req)

/-- One action. -/
def St.act (s : St) : Act → Outcome St
  | .start c irq =>
    match s.spawn c irq with
    | .ok (s, _) => .ok s
    | .err e => .err e
    | .panic => .panic
  | .interrupt c v => .ok (s.interrupt c v)
  | .check c clock => .ok (s.check c clock)
  | .dispatch c => s.dispatch c
  | .yield c r => s.yield c r

/-- A history. -/
def St.acts (s : St) : List Act → Outcome St
  | [] => .ok s
  | a :: l => match s.act a with
    | .ok s => s.acts l
    | .err e => .err e
    | .panic => .panic

/-- The reachable states. -/
inductive Reach : St → Prop where
  | init : Reach .init
  | step {s s'} (a : Act) : Reach s → s.act a = .ok s' → Reach s'

/-- `core_id_to_index` (`lib/lineup/src/lib.rs` lines 32-43), for the machine and the thread number
that make up the core id; `MAX_CORES_PER_MACHINE` is 24. -/
def coreIndex (mid mtid : Nat) : Nat := if mid = 0 then mtid else 24 * (mid - 1) + mtid

end NRK.Lineup.Sched
