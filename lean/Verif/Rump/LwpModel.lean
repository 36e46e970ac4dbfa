import Verif.Lineup.SchedModel

/-!
# Model of the identity of C threads, `lib/vibrio/src/rumprt/prt/mod.rs` and `rumprt/threads.rs`

`rumprun_lwp_init`, `rumprun_makelwp`, `_lwp_self`, `_lwp_ctl`, `context_switch`,
`rumpuser_thread_create`, `rumpuser_curlwpop`, `rumpuser_curlwp`, on the scheduler of
`Verif/Lineup/SchedModel.lean` (C54).

Simplifications:
* A core is its index (`core_id_to_index`), as in the model of the scheduler; `gtids` holds indices.
* The signed 32-bit counters of ids and switches are natural numbers (the scheduler has at most 2049
  threads, and C threads never leave it).
* What `rumprun_makelwp` asks the rump kernel for (lines 150-155) is an argument: the error, or 0.
  Its stack and TLS area are new.  Between `begin` and `spawn` any other thread can act.
* `rl_thread` and `rl_pstatus` are part of the model of parking (`Verif/Lineup/ParkModel.lean`).
* A pointer to a `rumprun_lwp` is its id: the box is leaked, and the table has it under this id.
-/

namespace NRK.Rump.Lwp

open NRK.Lineup

/-- `lwpctl` (lines 57-62): what `_lwp_ctl` gives the thread library to look at. -/
structure Ctl where
  /-- `lc_curcpu` -/
  curcpu : Int
  /-- `lc_pctr` -/
  pctr : Nat
deriving DecidableEq, Repr

/-- `LWPCTL_CPU_NONE` (line 21). -/
def cpuNone : Int := -1

/-- `LWPCTL_CPU_EXITED` (line 22). -/
def cpuExited : Int := -2

/-- Of `ThreadControlBlock` (`lib/lineup/src/tls2/mod.rs` lines 66-94): `rumprun_lwp`, `rump_lwp`
(0 is null), `current_core`; whether the thread serves an interrupt; and the id that the thread has
taken while it is in `rumprun_makelwp`. -/
structure Tcb where
  lwp : Option Nat
  cookie : Nat
  core : Nat
  irq : Bool
  making : Option Nat
deriving DecidableEq, Repr

/-- `new_tls_area` (`tls2/mod.rs` lines 105-117). -/
def Tcb.new (c : Nat) (irq : Bool) : Tcb := ⟨none, 0, c, irq, none⟩

structure St where
  sched : Sched.St
  /-- `CURLWPID` (line 32) -/
  next : Nat
  /-- `LWP_HT` (line 41) -/
  lwps : Nat → Option Ctl
  tcb : Nat → Tcb
  /-- `prev_rumprun_lwp` of each core's `run` (`scheduler.rs` line 444) -/
  prev : Nat → Option Nat
  /-- `CPUIDX_TO_GTID` (`rumprt/mod.rs` line 52) -/
  gtids : List Nat
  /-- `AVAILABLE_CORES` (line 34) -/
  avail : Nat

/-- Before anything has started; the cores in `gtids` belong to the process
(`crt/mod.rs` lines 227, 278). -/
def St.init (gtids : List Nat) : St where
  sched := .init
  next := 1
  lwps := fun _ => none
  tcb := fun _ => .new 0 false
  prev := fun _ => none
  gtids := gtids
  avail := 1

/-- `context_switch` (lines 86-103), called by `scheduler.rs` lines 466-470. -/
def St.switch (s : St) (c : Nat) (next : Option Nat) : St :=
  let lwps := match s.prev c with
    | none => s.lwps
    | some i => match s.lwps i with
      | none => s.lwps
      | some l => if l.curcpu = cpuExited then s.lwps
                  else upd s.lwps i (some { l with curcpu := cpuNone })
  let lwps := match next with
    | none => lwps
    | some i => match lwps i with
      | none => lwps
      | some l => upd lwps i (some ⟨(c : Int), l.pctr + 1⟩)
  { s with lwps := lwps, prev := upd s.prev c next }

/-- The TLS area of the thread that an action starts, if it does. -/
def St.started (s : St) : Sched.Act → Nat → Tcb
  | .start c irq => upd s.tcb s.sched.nextTid (.new c irq.isSome)
  | .yield c (some (.spawn d irq)) =>
    match s.sched.running c with
    | none => s.tcb
    | some _ => upd s.tcb s.sched.nextTid (.new d irq.isSome)
  | _ => s.tcb

/-- An action of the scheduler; when it takes a thread from the queue, it calls `context_switch`
(`scheduler.rs` lines 451-476). -/
def St.sch (s : St) (a : Sched.Act) : Outcome St :=
  match s.sched.act a with
  | .panic => .panic
  | .err e => .err e
  | .ok σ =>
    let s' := { s with sched := σ, tcb := s.started a }
    match a with
    | .dispatch c =>
      match s.sched.running c, σ.running c with
      | none, some t => .ok (s'.switch c (s.tcb t).lwp)
      | _, _ => .ok s'
    | _ => .ok s'

/-- `run` returns when there is nothing to dispatch (`scheduler.rs` lines 515-519), and is called
again (`crt/mod.rs` lines 411-413, `vibrio/src/upcalls.rs`): `prev_rumprun_lwp` is null again. -/
def St.idle (s : St) (c : Nat) : St :=
  match s.sched.running c, s.sched.queue c with
  | none, [] => { s with prev := upd s.prev c none }
  | _, _ => s

/-- `rumprun_lwp_init` (lines 477-506), called once by the main thread, running on core `c`. -/
def St.lwpInit (s : St) (c ncores : Nat) : St :=
  match s.sched.running c with
  | none => s
  | some t =>
    let b := s.tcb t
    if b.irq = true ∨ b.lwp.isSome = true then s
    else { s with
      avail := ncores
      next := s.next + 1
      lwps := upd s.lwps s.next (some ⟨0, 0⟩)
      tcb := upd s.tcb t { b with lwp := some s.next } }

/-- `rumprun_makelwp` (lines 132-179), called by the thread on core `c`: up to the entry in the
table.  `err` is what the rump kernel answers.  The result is what has been returned, if it has. -/
def St.makeBegin (s : St) (c : Nat) (err : Int) : St × Option Int :=
  match s.sched.running c with
  | none => (s, none)
  | some t =>
    if (s.tcb t).making.isSome = true then (s, none)
    else if err ≠ 0 then (s, some err)
    else ({ s with
      next := s.next + 1
      lwps := upd s.lwps s.next (some ⟨0, 0⟩)
      tcb := upd s.tcb t { s.tcb t with making := some s.next } }, none)

/-- The rest of `rumprun_makelwp` (lines 181-216): `*lid`, if it returns 0. -/
def St.makeSpawn (s : St) (c : Nat) : Outcome (St × Option Nat) :=
  match s.sched.running c with
  | none => .ok (s, none)
  | some t => match (s.tcb t).making with
    | none => .ok (s, none)
    | some i =>
      if s.avail = 0 then .panic
      else match s.gtids[i % s.avail]? with
        | none => .panic
        | some g =>
          match s.sch (.yield c (some (.spawn g none))) with
          | .panic => .panic
          | .err e => .err e
          | .ok s' =>
            let tcb := upd s'.tcb s.sched.nextTid { s'.tcb s.sched.nextTid with lwp := some i }
            .ok ({ s' with tcb := upd tcb t { tcb t with making := none } }, some i)

/-- `rumpuser_thread_create` (`threads.rs` lines 36-68). -/
def St.create (s : St) (c : Nat) (cpuidx : Int) : Outcome (St × Int) :=
  let core : Int := if cpuidx = -1 then 0 else cpuidx
  if core < 0 then .panic
  else match s.gtids[core.toNat]? with
    | none => .panic
    | some g =>
      match s.sch (.yield c (some (.spawn g none))) with
      | .panic => .panic
      | .err e => .err e
      | .ok s' => .ok (s', 0)

/-- `rumpuser_curlwpop` (`threads.rs` lines 91-109). -/
def St.curlwpop (s : St) (c op lwp : Nat) : Outcome (St × Int) :=
  match s.sched.running c with
  | none => .ok (s, 0)
  | some t =>
    let b := s.tcb t
    let b := if op = 2 then { b with cookie := lwp } else b
    if op = 3 then
      if b.cookie = lwp then .ok ({ s with tcb := upd s.tcb t { b with cookie := 0 } }, 0)
      else .panic
    else .ok ({ s with tcb := upd s.tcb t b }, 0)

/-- `rumpuser_curlwp` (`threads.rs` lines 112-115), called by thread `t`. -/
def St.curlwp (s : St) (t : Nat) : Nat := (s.tcb t).cookie

/-- `_lwp_self` (lines 388-395), called by thread `t`. -/
def St.self (s : St) (t : Nat) : Outcome Nat :=
  match (s.tcb t).lwp with
  | none => .panic
  | some i => .ok i

/-- What is found where `_lwp_ctl` (lines 224-239), called by the thread with this id, points to. -/
def St.ctl (s : St) (i : Nat) : Option Ctl := s.lwps i

/-- What can happen. -/
inductive Act where
  | sched (a : Sched.Act)
  | idle (c : Nat)
  | lwpInit (c ncores : Nat)
  | makeBegin (c : Nat) (err : Int)
  | makeSpawn (c : Nat)
  | create (c : Nat) (cpuidx : Int)
  | curlwpop (c op lwp : Nat)

/-- One action. -/
def St.act (s : St) : Act → Outcome St
  | .sched a => s.sch a
  | .idle c => .ok (s.idle c)
  | .lwpInit c n => .ok (s.lwpInit c n)
  | .makeBegin c e => .ok (s.makeBegin c e).1
  | .makeSpawn c => match s.makeSpawn c with
    | .ok r => .ok r.1
    | .err e => .err e
    | .panic => .panic
  | .create c i => match s.create c i with
    | .ok r => .ok r.1
    | .err e => .err e
    | .panic => .panic
  | .curlwpop c op l => match s.curlwpop c op l with
    | .ok r => .ok r.1
    | .err e => .err e
    | .panic => .panic

/-- A history. -/
def St.acts (s : St) : List Act → Outcome St
  | [] => .ok s
  | a :: l => match s.act a with
    | .ok s => s.acts l
    | .err e => .err e
    | .panic => .panic

/-- The reachable states of a process with the cores `gtids`. -/
inductive Reach (gtids : List Nat) : St → Prop where
  | init : Reach gtids (.init gtids)
  | step {s s'} (a : Act) : Reach gtids s → s.act a = .ok s' → Reach gtids s'

end NRK.Rump.Lwp
