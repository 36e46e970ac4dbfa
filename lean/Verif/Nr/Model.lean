import Verif.Common

/-!
# Node replication: one log, many replicas

The kernel keeps `KernelNode` (`kernel/src/nr.rs` lines 102-246), every process
(`kernel/src/nrproc.rs` lines 490-635) and, with one log per partition, the file system
(`kernel/src/fs/cnrfs.rs`) behind `Replica::execute` / `Replica::execute_mut` of the
node-replication library.  The library itself is not part of /repo; what is modelled here is the
protocol these calls run (as documented by the library and as the kernel uses it):

* a write is appended to the shared log by the combiner of the caller's replica; the combiner
  then locks the replica, applies all log entries up to the tail it observed, publishes the new
  completed tail and unlocks; then the responses are handed to the callers;
* a read remembers the completed tail, waits until its replica has applied that many entries,
  and runs on the unlocked replica.

Simplification: reserving a slot in the log and filling it is one step; the log is not
recycled.  The object is arbitrary.
-/

namespace NRK.Nr

/-- A sequential object: `Dispatch` implementation (`dispatch_mut` and `dispatch`; for the kernel
`nr.rs` lines 153-246, `nrproc.rs` lines 485-635). -/
structure Obj (S Op R Q A : Type) where
  init : S
  apply : S → Op → S × R
  query : S → Q → A

/-- What a thread is doing.  `inv` is a ghost: the number of operations that had completed when
this one was invoked. -/
inductive Thr (Op R Q : Type) where
  | idle
  /-- `execute_mut` called, not yet in the log -/
  | wantWrite (op : Op) (inv : Nat)
  /-- in the log at index `idx` -/
  | inLog (op : Op) (inv idx : Nat)
  /-- the local replica has computed the response -/
  | responded (op : Op) (inv idx : Nat) (resp : R)
  /-- `execute` called; completed tail `c` was read -/
  | wantRead (q : Q) (inv c : Nat)

/-- A replica: how much of the log it has applied, its copy of the object, and, while the
combiner holds the lock, the tail up to which it applies. -/
structure Rep (S : Type) where
  applied : Nat
  st : S
  lock : Option Nat

/-- A completed operation (ghost history).  `inv` as in `Thr`. -/
inductive Event (Op R Q A : Type) where
  | write (op : Op) (inv idx : Nat) (resp : R)
  | read (q : Q) (inv k : Nat) (ans : A)

/-- Global state.  Thread `t` runs on replica `node t`. -/
structure Sys (S Op R Q A : Type) where
  log : List (Op × Nat)
  ctail : Nat
  reps : Nat → Rep S
  thr : Nat → Thr Op R Q
  hist : List (Event Op R Q A)

variable {S Op R Q A : Type}

/-- Start: empty log, all replicas at the initial object. -/
def Sys.init (o : Obj S Op R Q A) : Sys S Op R Q A where
  log := []
  ctail := 0
  reps := fun _ => ⟨0, o.init, none⟩
  thr := fun _ => .idle
  hist := []

/-- The steps of the protocol.  `node` maps threads to replicas. -/
inductive Step (o : Obj S Op R Q A) (node : Nat → Nat) :
    Sys S Op R Q A → Sys S Op R Q A → Prop
  /-- a thread calls `execute_mut` -/
  | invokeWrite (s : Sys S Op R Q A) (t : Nat) (op : Op) (h : s.thr t = .idle) :
      Step o node s { s with thr := upd s.thr t (.wantWrite op s.hist.length) }
  /-- the combiner puts the operation into the log -/
  | append (s : Sys S Op R Q A) (t : Nat) (op : Op) (inv : Nat)
      (h : s.thr t = .wantWrite op inv) :
      Step o node s { s with
        log := s.log ++ [(op, t)]
        thr := upd s.thr t (.inLog op inv s.log.length) }
  /-- a combiner locks replica `r` and observes the tail -/
  | lock (s : Sys S Op R Q A) (r : Nat) (h : (s.reps r).lock = none) :
      Step o node s { s with
        reps := upd s.reps r { s.reps r with lock := some s.log.length } }
  /-- apply the next entry, issued by thread `t` of another replica -/
  | applyOther (s : Sys S Op R Q A) (r g : Nat) (op : Op) (t : Nat)
      (h : (s.reps r).lock = some g) (hlt : (s.reps r).applied < g)
      (he : s.log[(s.reps r).applied]? = some (op, t)) (hn : node t ≠ r) :
      Step o node s { s with
        reps := upd s.reps r
          ⟨(s.reps r).applied + 1, (o.apply (s.reps r).st op).1, some g⟩ }
  /-- apply the next entry, issued by thread `t` of this replica: note its response -/
  | applyOwn (s : Sys S Op R Q A) (r g : Nat) (op op' : Op) (t inv idx : Nat)
      (h : (s.reps r).lock = some g) (hlt : (s.reps r).applied < g)
      (he : s.log[(s.reps r).applied]? = some (op, t)) (hn : node t = r)
      (ht : s.thr t = .inLog op' inv idx) :
      Step o node s { s with
        reps := upd s.reps r
          ⟨(s.reps r).applied + 1, (o.apply (s.reps r).st op).1, some g⟩
        thr := upd s.thr t (.responded op' inv idx (o.apply (s.reps r).st op).2) }
  /-- publish the completed tail and unlock -/
  | unlock (s : Sys S Op R Q A) (r g : Nat) (h : (s.reps r).lock = some g)
      (hge : ¬ (s.reps r).applied < g) :
      Step o node s { s with
        ctail := max s.ctail (s.reps r).applied
        reps := upd s.reps r { s.reps r with lock := none } }
  /-- the write returns to its caller -/
  | returnWrite (s : Sys S Op R Q A) (t : Nat) (op : Op) (inv idx : Nat) (resp : R)
      (h : s.thr t = .responded op inv idx resp) (hu : (s.reps (node t)).lock = none) :
      Step o node s { s with
        thr := upd s.thr t .idle
        hist := s.hist ++ [.write op inv idx resp] }
  /-- a thread calls `execute` and reads the completed tail -/
  | invokeRead (s : Sys S Op R Q A) (t : Nat) (q : Q) (h : s.thr t = .idle) :
      Step o node s { s with thr := upd s.thr t (.wantRead q s.hist.length s.ctail) }
  /-- the replica is far enough and not locked: run the query and return -/
  | read (s : Sys S Op R Q A) (t : Nat) (q : Q) (inv c : Nat)
      (h : s.thr t = .wantRead q inv c) (hu : (s.reps (node t)).lock = none)
      (hc : c ≤ (s.reps (node t)).applied) :
      Step o node s { s with
        thr := upd s.thr t .idle
        hist := s.hist ++ [.read q inv (s.reps (node t)).applied
          (o.query (s.reps (node t)).st q)] }

/-- Reachable states. -/
inductive Reach (o : Obj S Op R Q A) (node : Nat → Nat) : Sys S Op R Q A → Prop
  | init : Reach o node (Sys.init o)
  | step {s s' : Sys S Op R Q A} : Reach o node s → Step o node s s' → Reach o node s'

/-! ## Specification -/

/-- The object after a sequence of operations. -/
def Obj.run (o : Obj S Op R Q A) (ops : List Op) : S :=
  ops.foldl (fun s op => (o.apply s op).1) o.init

end NRK.Nr
