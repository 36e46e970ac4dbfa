import Verif.Common

/-!
# Model of the TLB shootdown, `kernel/src/arch/x86_64/tlb.rs`

Any number of cores run the functions below, one memory access at a time, in any order.  Each core
belongs to a NUMA node; the nodes have replicas of the page table of the process, which follow a common
log (`kernel/src/nrproc.rs` lines 223-237).  There is one process.  Interrupts may be delivered at any
time while a core is not in the kernel, so nothing is assumed about the messages that cause them.
-/

namespace NRK.Tlb

/-- A range of pages (`Shootdown::vregion`, `tlb.rs` lines 130-134), counted in base pages. -/
structure Rng where
  start : Nat
  len : Nat
deriving DecidableEq, Repr

def Rng.Has (r : Rng) (p : Nat) : Prop := r.start ≤ p ∧ p < r.start + r.len

instance (r : Rng) (p : Nat) : Decidable (r.Has p) := inferInstanceAs (Decidable (_ ∧ _))

/-- Changes of the page table in the log: a mapping is known by a number of its own. -/
inductive POp where
  | map (r : Rng) (w : Nat)
  | unmap (r : Rng)
deriving DecidableEq, Repr

/-- The mapping of a page after the operations of a log, latest last. -/
def ptStep (pt : Nat → Option Nat) : POp → Nat → Option Nat
  | .map r w => fun p => if r.Has p then some w else pt p
  | .unmap r => fun p => if r.Has p then none else pt p

def ptAt (log : List POp) : Nat → Option Nat := log.foldl ptStep (fun _ => none)

/-- What is left to flush: single pages, or everything. -/
inductive Flush where
  | pages (l : List Nat)
  | all
deriving DecidableEq, Repr

def Flush.Has : Flush → Nat → Prop
  | .pages l, p => p ∈ l
  | .all, _ => True

/-- `Shootdown::process` (`tlb.rs` lines 157-173): more than 20 pages flush everything. -/
def flushOf (r : Rng) : Flush :=
  if r.len > 20 then .all else .pages (List.range' r.start r.len)

/-- `Shootdown` (`tlb.rs` lines 130-134) and the core it was made for. -/
structure Obj where
  range : Rng
  target : Nat
  acked : Bool
deriving DecidableEq, Repr

/-- `WorkItem` (`tlb.rs` lines 124-128); shootdowns are known by a number. -/
inductive Item where
  | shoot (id : Nat)
  | advance
deriving DecidableEq, Repr

/-- Where a core that handles a work item goes on: the interrupted user program, or the wait loop. -/
inductive Ret where
  | user
  | wait (r : Rng) (w : Nat) (pend : List Nat)
deriving DecidableEq, Repr

/-- Program counters.  `enq`: the loop over the target cores (`tlb.rs` lines 366-385); `self`: flush of
the own TLB (lines 396-398); `wait`: the last loop (lines 401-407); `popped`: between taking an item from
the queue and `process` or `advance_log` (lines 188-199); `flushing`: `process` after the acknowledgement;
`requeue`: `eager_advance_fs_replica` with an item in hand (lines 254-264). -/
inductive Pc where
  | user
  | enq (r : Rng) (w : Nat) (todo pend : List Nat)
  | self (r : Rng) (w : Nat) (fl : Flush) (pend : List Nat)
  | wait (r : Rng) (w : Nat) (pend : List Nat)
  | popped (it : Item) (ret : Ret)
  | flushing (fl : Flush) (ret : Ret)
  | requeue (it : Item)
deriving DecidableEq, Repr

def Ret.pc : Ret → Pc
  | .user => .user
  | .wait r w pend => .wait r w pend

/-- The page-table log with the position of each node, the TLBs, the cores that have an executor of the
process, the program counters, the shootdowns made so far and the queue of each core. -/
structure St where
  log : List POp
  applied : Nat → Nat
  tlb : Nat → Nat → Option Nat
  act : Nat → Bool
  pc : Nat → Pc
  objs : List Obj
  queue : Nat → List Item

/-- The page table of a node. -/
def St.pt (s : St) (node : Nat) : Nat → Option Nat := ptAt (s.log.take (s.applied node))

def St.init : St := ⟨[], fun _ => 0, fun _ _ => none, fun _ => false, fun _ => .user, [], fun _ => []⟩

/-- `enqueue` without `rackscale` (`tlb.rs` lines 176-186): if the queue is full the item is dropped. -/
def push (cap : Nat) (q : List Item) (it : Item) : List Item := if q.length < cap then q ++ [it] else q

/-- One step of a core.  `cap` is the capacity of the queues, `node` the node of each core. -/
inductive Step (cap : Nat) (node : Nat → Nat) : St → St → Prop where
  /-- the process gets an executor on another core; loading the page table empties the TLB -/
  | activate (s : St) (c : Nat) (h : s.act c = false) :
      Step cap node s { s with act := upd s.act c true, tlb := upd s.tlb c (fun _ => none) }
  /-- the processor reads a translation from the page table of the node -/
  | fill (s : St) (c p w : Nat) (ha : s.act c = true) (h : s.pt (node c) p = some w) :
      Step cap node s { s with tlb := upd s.tlb c (upd (s.tlb c) p (some w)) }
  /-- a replica applies more of the log -/
  | sync (s : St) (n k : Nat) (h1 : s.applied n ≤ k) (h2 : k ≤ s.log.length) :
      Step cap node s { s with applied := upd s.applied n k }
  /-- a mapping is added, through the replica of the core -/
  | map (s : St) (i : Nat) (r : Rng) (hp : s.pc i = .user) (ha : s.act i = true)
      (h : ∀ p, r.Has p → ptAt s.log p = none) :
      Step cap node s { s with log := s.log ++ [.map r s.log.length],
                               applied := upd s.applied (node i) (s.log.length + 1) }
  /-- a mapping is removed; the targets are the other cores that have an executor -/
  | unmap (s : St) (i : Nat) (r : Rng) (w : Nat) (todo : List Nat) (hp : s.pc i = .user)
      (ha : s.act i = true) (h : ∀ p, r.Has p → ptAt s.log p = some w)
      (ht : ∀ c, c ∈ todo ↔ s.act c = true ∧ c ≠ i) :
      Step cap node s { s with log := s.log ++ [.unmap r],
                               applied := upd s.applied (node i) (s.log.length + 1),
                               pc := upd s.pc i (.enq r w todo []) }
  | enqueue (s : St) (i : Nat) (r : Rng) (w c : Nat) (todo pend : List Nat)
      (hp : s.pc i = .enq r w (c :: todo) pend) :
      Step cap node s { s with objs := s.objs ++ [⟨r, c, false⟩],
                               queue := upd s.queue c (push cap (s.queue c) (.shoot s.objs.length)),
                               pc := upd s.pc i (.enq r w todo (pend ++ [s.objs.length])) }
  | enqDone (s : St) (i : Nat) (r : Rng) (w : Nat) (pend : List Nat) (hp : s.pc i = .enq r w [] pend) :
      Step cap node s { s with pc := upd s.pc i (.self r w (flushOf r) pend) }
  | selfPage (s : St) (i : Nat) (r : Rng) (w p : Nat) (l pend : List Nat)
      (hp : s.pc i = .self r w (.pages (p :: l)) pend) :
      Step cap node s { s with tlb := upd s.tlb i (upd (s.tlb i) p none),
                               pc := upd s.pc i (.self r w (.pages l) pend) }
  | selfAll (s : St) (i : Nat) (r : Rng) (w : Nat) (pend : List Nat) (hp : s.pc i = .self r w .all pend) :
      Step cap node s { s with tlb := upd s.tlb i (fun _ => none),
                               pc := upd s.pc i (.self r w (.pages []) pend) }
  | selfDone (s : St) (i : Nat) (r : Rng) (w : Nat) (pend : List Nat)
      (hp : s.pc i = .self r w (.pages []) pend) :
      Step cap node s { s with pc := upd s.pc i (.wait r w pend) }
  /-- `dequeue` in the wait loop -/
  | waitPop (s : St) (i : Nat) (r : Rng) (w : Nat) (pend : List Nat) (it : Item) (q : List Item)
      (hp : s.pc i = .wait r w pend) (hq : s.queue i = it :: q) :
      Step cap node s { s with queue := upd s.queue i q, pc := upd s.pc i (.popped it (.wait r w pend)) }
  /-- `drain_filter` finds a shootdown acknowledged -/
  | drain (s : St) (i : Nat) (r : Rng) (w : Nat) (as bs : List Nat) (id : Nat) (o : Obj)
      (hp : s.pc i = .wait r w (as ++ id :: bs)) (ho : s.objs[id]? = some o) (ha : o.acked = true) :
      Step cap node s { s with pc := upd s.pc i (.wait r w (as ++ bs)) }
  /-- all are acknowledged: the system call returns -/
  | finish (s : St) (i : Nat) (r : Rng) (w : Nat) (hp : s.pc i = .wait r w []) :
      Step cap node s { s with pc := upd s.pc i .user }
  /-- the interrupt handler (`arch/x86_64/irq.rs` lines 739-751) -/
  | irq (s : St) (c : Nat) (it : Item) (q : List Item) (hp : s.pc c = .user) (hq : s.queue c = it :: q) :
      Step cap node s { s with queue := upd s.queue c q, pc := upd s.pc c (.popped it .user) }
  /-- `process`: acknowledge first -/
  | ack (s : St) (c id : Nat) (ret : Ret) (o : Obj) (hp : s.pc c = .popped (.shoot id) ret)
      (ho : s.objs[id]? = some o) :
      Step cap node s { s with objs := s.objs.set id { o with acked := true },
                               pc := upd s.pc c (.flushing (flushOf o.range) ret) }
  | advance (s : St) (c : Nat) (ret : Ret) (hp : s.pc c = .popped .advance ret) :
      Step cap node s { s with pc := upd s.pc c ret.pc }
  | flushPage (s : St) (c p : Nat) (l : List Nat) (ret : Ret)
      (hp : s.pc c = .flushing (.pages (p :: l)) ret) :
      Step cap node s { s with tlb := upd s.tlb c (upd (s.tlb c) p none),
                               pc := upd s.pc c (.flushing (.pages l) ret) }
  | flushAll (s : St) (c : Nat) (ret : Ret) (hp : s.pc c = .flushing .all ret) :
      Step cap node s { s with tlb := upd s.tlb c (fun _ => none),
                               pc := upd s.pc c (.flushing (.pages []) ret) }
  | flushDone (s : St) (c : Nat) (ret : Ret) (hp : s.pc c = .flushing (.pages []) ret) :
      Step cap node s { s with pc := upd s.pc c ret.pc }
  /-- `eager_advance_fs_replica` on an idle core takes an item ... -/
  | eagerPop (s : St) (c : Nat) (it : Item) (q : List Item) (hp : s.pc c = .user)
      (hq : s.queue c = it :: q) :
      Step cap node s { s with queue := upd s.queue c q, pc := upd s.pc c (.requeue it) }
  /-- ... and puts a shootdown back -/
  | eagerPush (s : St) (c id : Nat) (hp : s.pc c = .requeue (.shoot id)) :
      Step cap node s { s with queue := upd s.queue c (push cap (s.queue c) (.shoot id)),
                               pc := upd s.pc c .user }
  | eagerAdvance (s : St) (c : Nat) (hp : s.pc c = .requeue .advance) :
      Step cap node s { s with pc := upd s.pc c .user }
  /-- `advance_replica` (`tlb.rs` lines 494-499) from anywhere -/
  | advanceReplica (s : St) (c : Nat) :
      Step cap node s { s with queue := upd s.queue c (push cap (s.queue c) .advance) }

inductive Reach (cap : Nat) (node : Nat → Nat) : St → Prop where
  | init : Reach cap node St.init
  | step {s s' : St} : Reach cap node s → Step cap node s s' → Reach cap node s'

/-! ## The interrupts that are sent (`tlb.rs` lines 333-393) -/

/-- `x2apic_logical_cluster_id` and `x2apic_logical_cluster_address` (crate `x86`): bits 19 to 4 and 3 to
0 of the id of a core's interrupt controller. -/
def cluster (apic : Nat) : Nat := apic / 16 % 65536
def address (apic : Nat) : Nat := apic % 16

/-- The loop over the targets: the mask of the addresses for each cluster.  A cluster above 15 is an index
out of bounds. -/
def destinations (apic : Nat → Nat) (me : Nat) : List Nat → (Nat → BitVec 16) → Outcome (Nat → BitVec 16)
  | [], d => .ok d
  | c :: cs, d =>
    if c = me then destinations apic me cs d
    else if cluster (apic c) < 16 then
      destinations apic me cs
        (upd d (cluster (apic c)) (d (cluster (apic c)) ||| (1#16 <<< address (apic c))))
    else .panic

/-- The loop that sends to the clusters (`tlb.rs` lines 388-394): those for which one of the lowest four
bits is set.  The pairs of cluster and mask. -/
def sendIpis (d : Nat → BitVec 16) : List (Nat × BitVec 16) :=
  ((List.range 16).filter (fun k => (d k).extractLsb' 0 4 != 0#4)).map (fun k => (k, d k))

/-- The hardware delivers a logical message to the cores of the cluster whose bit is set. -/
def Delivered (msgs : List (Nat × BitVec 16)) (apic : Nat → Nat) (c : Nat) : Prop :=
  ∃ m ∈ msgs, m.1 = cluster (apic c) ∧ m.2.getLsbD (address (apic c)) = true

/-- All of it: the messages a shootdown for the given cores sends. -/
def shootdownIpis (apic : Nat → Nat) (me : Nat) (cores : List Nat) : Outcome (List (Nat × BitVec 16)) :=
  (destinations apic me cores (fun _ => 0)).map sendIpis

end NRK.Tlb
