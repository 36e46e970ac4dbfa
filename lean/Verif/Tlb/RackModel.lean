import Verif.Tlb.TlbModel

/-!
# Model of the TLB shootdown between the machines of a rack, `kernel/src/arch/x86_64/tlb.rs`

The cores of all machines run the functions below, one memory access at a time, in any order.  Each core
belongs to a machine and uses one replica of the page table of the process; the replicas follow a common
log in shared memory (`kernel/src/arch/x86_64/process.rs` lines 201-262, `kernel/src/nrproc.rs` lines
223-237).  There is one process.  Clients have no log of a file system (`tlb.rs` lines 230-238), so the
work items of a client are all shootdowns.  Interrupts may arrive at any time while a core is not in the
kernel.
-/

namespace NRK.Tlb.Rack

/-- A translation in a TLB.  `w` is the mapping.  `len` and `app` are not in the hardware: the length of
the log and the position of the core's replica when the processor read the page table. -/
structure Entry where
  w : Nat
  len : Nat
  app : Nat
deriving DecidableEq, Repr

/-- `Shootdown` (`tlb.rs` lines 130-134) with the handle that goes with it to another machine
(`memory/vspace.rs` lines 18-33): the cores of that machine.  `pos` is not in the code: the place of the
unmap in the log. -/
structure RObj where
  range : Rng
  pos : Nat
  cores : List Nat
  acked : Bool
deriving DecidableEq, Repr

/-- A run of `shootdown` (`tlb.rs` lines 333-410).  `enq`: the loop over the target cores (lines 366-385);
`self`: flush of the own TLB (lines 396-398); `wait`: the last loop (lines 401-407). -/
inductive Loc where
  | enq (r : Rng) (todo pend : List Nat)
  | self (r : Rng) (fl : Flush) (pend : List Nat)
  | wait (r : Rng) (pend : List Nat)
deriving DecidableEq, Repr

/-- What a core does for itself.  `rem`: the loop over the machines (`tlb.rs` lines 436-476), with the
handles of all machines; `wait`: `remote_shootdown` from line 479 on. -/
inductive Base where
  | user
  | rem (r : Rng) (k : Nat) (hs : Nat → List Nat) (todo pend : List Nat)
  | wait (r : Rng) (k : Nat) (pend : List Nat)

/-- A work item in hand: between taking it from the queue and `process` (`tlb.rs` lines 188-194); in
`process` after the acknowledgement (lines 157-173); in `eager_advance_fs_replica` (lines 254-264).  A
core that has panicked does nothing any more. -/
inductive Work where
  | popped (id : Nat)
  | flushing (fl : Flush)
  | requeue (id : Nat)
  | dead
deriving DecidableEq, Repr

/-- The calls a core is in, outermost first: its own system call, the request of another machine it
serves (`remote_dequeue`, `tlb.rs` lines 216-227), the `shootdown` either of these has called, the work
item `shootdown` or an interrupt has taken. -/
structure Cpu where
  base : Base
  serve : Option Nat
  loc : Option Loc
  work : Option Work

/-- A core that is not in the kernel. -/
def Cpu.user : Cpu := ⟨.user, none, none, none⟩

/-- The number of machines with the controller, the capacities of the queues of a core
(`IPI_WORKQUEUE_CAPACITY`, `tlb.rs` line 106) and of a machine (`REMOTE_WORKQUEUE_CAPACITY`, line 44),
the machine and the replica of each core. -/
structure Cfg where
  machines : Nat
  cap : Nat
  rcap : Nat
  mach : Nat → Nat
  node : Nat → Nat

/-- The page-table log with the position of each replica, the TLBs, the cores that have an executor of the
process, what the cores do, the shootdowns made so far inside a machine and between machines, and the
queues of the cores and of the machines. -/
structure St where
  log : List POp
  applied : Nat → Nat
  tlb : Nat → Nat → Option Entry
  act : Nat → Bool
  cpu : Nat → Cpu
  objs : List Obj
  robjs : List RObj
  queue : Nat → List Nat
  rqueue : Nat → List Nat

/-- The page table of a replica. -/
def St.pt (s : St) (node : Nat) : Nat → Option Nat := ptAt (s.log.take (s.applied node))

def St.init : St :=
  { log := [], applied := fun _ => 0, tlb := fun _ _ => none, act := fun _ => false,
    cpu := fun _ => Cpu.user, objs := [], robjs := [], queue := fun _ => [], rqueue := fun _ => [] }

/-- One step of a core. -/
inductive Step (g : Cfg) : St → St → Prop where
  /-- the process gets an executor on another core; the controller runs no processes.  Loading the page
  table empties the TLB -/
  | activate (s : St) (c : Nat) (h : s.act c = false) (h1 : 1 ≤ g.mach c) (h2 : g.mach c < g.machines) :
      Step g s { s with act := upd s.act c true, tlb := upd s.tlb c (fun _ => none) }
  /-- the processor reads a translation from the page table of the replica -/
  | fill (s : St) (c p w : Nat) (ha : s.act c = true) (h : s.pt (g.node c) p = some w) :
      Step g s
        { s with tlb := upd s.tlb c (upd (s.tlb c) p (some ⟨w, s.log.length, s.applied (g.node c)⟩)) }
  /-- a replica applies more of the log -/
  | sync (s : St) (n k : Nat) (h1 : s.applied n ≤ k) (h2 : k ≤ s.log.length) :
      Step g s { s with applied := upd s.applied n k }
  /-- a mapping is added, through the replica of the core -/
  | map (s : St) (i : Nat) (r : Rng) (hp : s.cpu i = Cpu.user) (ha : s.act i = true)
      (h : ∀ p, r.Has p → ptAt s.log p = none) :
      Step g s
        { s with log := s.log ++ [.map r s.log.length],
                 applied := upd s.applied (g.node i) (s.log.length + 1) }
  /-- a mapping is removed.  The handles name the cores of each machine that have an executor
  (`nrproc.rs` lines 587-609); the loop leaves the controller out (`tlb.rs` line 436) -/
  | unmap (s : St) (i : Nat) (r : Rng) (w : Nat) (hs : Nat → List Nat) (hp : s.cpu i = Cpu.user)
      (ha : s.act i = true) (h : ∀ p, r.Has p → ptAt s.log p = some w)
      (ht : ∀ m c, c ∈ hs m ↔ s.act c = true ∧ g.mach c = m) :
      Step g s
        { s with log := s.log ++ [.unmap r],
                 applied := upd s.applied (g.node i) (s.log.length + 1),
                 cpu := upd s.cpu i
                   { Cpu.user with base := .rem r s.log.length hs (List.range' 1 (g.machines - 1)) [] } }
  /-- the own machine, and machines on which the process does not run, get no request -/
  | remSkip (s : St) (i : Nat) (r : Rng) (k : Nat) (hs : Nat → List Nat) (m : Nat) (todo pend : List Nat)
      (hp : s.cpu i = ⟨.rem r k hs (m :: todo) pend, none, none, none⟩) (h : m = g.mach i ∨ hs m = []) :
      Step g s { s with cpu := upd s.cpu i ⟨.rem r k hs todo pend, none, none, none⟩ }
  /-- `remote_enqueue` (`tlb.rs` lines 202-213) -/
  | remEnqueue (s : St) (i : Nat) (r : Rng) (k : Nat) (hs : Nat → List Nat) (m : Nat)
      (todo pend : List Nat) (hp : s.cpu i = ⟨.rem r k hs (m :: todo) pend, none, none, none⟩)
      (h : ¬ (m = g.mach i ∨ hs m = [])) (hq : (s.rqueue m).length < g.rcap) :
      Step g s
        { s with robjs := s.robjs ++ [⟨r, k, hs m, false⟩],
                 rqueue := upd s.rqueue m (s.rqueue m ++ [s.robjs.length]),
                 cpu := upd s.cpu i ⟨.rem r k hs todo (pend ++ [s.robjs.length]), none, none, none⟩ }
  /-- "No room in the queue for remote shootdown" -/
  | remFull (s : St) (i : Nat) (r : Rng) (k : Nat) (hs : Nat → List Nat) (m : Nat)
      (todo pend : List Nat) (hp : s.cpu i = ⟨.rem r k hs (m :: todo) pend, none, none, none⟩)
      (h : ¬ (m = g.mach i ∨ hs m = [])) (hq : ¬ (s.rqueue m).length < g.rcap) :
      Step g s
        { s with cpu := upd s.cpu i ⟨.rem r k hs (m :: todo) pend, none, none, some .dead⟩ }
  /-- the shootdown on the own machine (`tlb.rs` line 479) -/
  | remDone (s : St) (i : Nat) (r : Rng) (k : Nat) (hs : Nat → List Nat) (pend : List Nat)
      (hp : s.cpu i = ⟨.rem r k hs [] pend, none, none, none⟩) :
      Step g s
        { s with cpu := upd s.cpu i ⟨.wait r k pend, none, some (.enq r (hs (g.mach i)) []), none⟩ }
  /-- the own core is left out of the loop -/
  | enqSkip (s : St) (i : Nat) (b : Base) (sv : Option Nat) (r : Rng) (todo pend : List Nat)
      (hp : s.cpu i = ⟨b, sv, some (.enq r (i :: todo) pend), none⟩) :
      Step g s { s with cpu := upd s.cpu i ⟨b, sv, some (.enq r todo pend), none⟩ }
  /-- `enqueue` (`tlb.rs` lines 176-186) -/
  | enqueue (s : St) (i : Nat) (b : Base) (sv : Option Nat) (r : Rng) (c : Nat) (todo pend : List Nat)
      (hp : s.cpu i = ⟨b, sv, some (.enq r (c :: todo) pend), none⟩) (hc : c ≠ i)
      (hq : (s.queue c).length < g.cap) :
      Step g s
        { s with objs := s.objs ++ [⟨r, c, false⟩],
                 queue := upd s.queue c (s.queue c ++ [s.objs.length]),
                 cpu := upd s.cpu i ⟨b, sv, some (.enq r todo (pend ++ [s.objs.length])), none⟩ }
  /-- "No room in the queue for shootdown" -/
  | full (s : St) (i : Nat) (b : Base) (sv : Option Nat) (r : Rng) (c : Nat) (todo pend : List Nat)
      (hp : s.cpu i = ⟨b, sv, some (.enq r (c :: todo) pend), none⟩) (hc : c ≠ i)
      (hq : ¬ (s.queue c).length < g.cap) :
      Step g s
        { s with cpu := upd s.cpu i ⟨b, sv, some (.enq r (c :: todo) pend), some .dead⟩ }
  | enqDone (s : St) (i : Nat) (b : Base) (sv : Option Nat) (r : Rng) (pend : List Nat)
      (hp : s.cpu i = ⟨b, sv, some (.enq r [] pend), none⟩) :
      Step g s { s with cpu := upd s.cpu i ⟨b, sv, some (.self r (flushOf r) pend), none⟩ }
  | selfPage (s : St) (i : Nat) (b : Base) (sv : Option Nat) (r : Rng) (p : Nat) (l pend : List Nat)
      (hp : s.cpu i = ⟨b, sv, some (.self r (.pages (p :: l)) pend), none⟩) :
      Step g s
        { s with tlb := upd s.tlb i (upd (s.tlb i) p none),
                 cpu := upd s.cpu i ⟨b, sv, some (.self r (.pages l) pend), none⟩ }
  | selfAll (s : St) (i : Nat) (b : Base) (sv : Option Nat) (r : Rng) (pend : List Nat)
      (hp : s.cpu i = ⟨b, sv, some (.self r .all pend), none⟩) :
      Step g s
        { s with tlb := upd s.tlb i (fun _ => none),
                 cpu := upd s.cpu i ⟨b, sv, some (.self r (.pages []) pend), none⟩ }
  | selfDone (s : St) (i : Nat) (b : Base) (sv : Option Nat) (r : Rng) (pend : List Nat)
      (hp : s.cpu i = ⟨b, sv, some (.self r (.pages []) pend), none⟩) :
      Step g s { s with cpu := upd s.cpu i ⟨b, sv, some (.wait r pend), none⟩ }
  /-- `dequeue` in the wait loop of `shootdown` (`tlb.rs` line 403) -/
  | waitPop (s : St) (i : Nat) (b : Base) (sv : Option Nat) (r : Rng) (pend : List Nat) (id : Nat)
      (q : List Nat) (hp : s.cpu i = ⟨b, sv, some (.wait r pend), none⟩) (hq : s.queue i = id :: q) :
      Step g s
        { s with queue := upd s.queue i q,
                 cpu := upd s.cpu i ⟨b, sv, some (.wait r pend), some (.popped id)⟩ }
  /-- `drain_filter` finds a shootdown acknowledged (`tlb.rs` line 405) -/
  | waitDrain (s : St) (i : Nat) (b : Base) (sv : Option Nat) (r : Rng) (as bs : List Nat) (id : Nat)
      (o : Obj) (hp : s.cpu i = ⟨b, sv, some (.wait r (as ++ id :: bs)), none⟩)
      (ho : s.objs[id]? = some o) (ha : o.acked = true) :
      Step g s { s with cpu := upd s.cpu i ⟨b, sv, some (.wait r (as ++ bs)), none⟩ }
  /-- `shootdown` returns -/
  | waitDone (s : St) (i : Nat) (b : Base) (sv : Option Nat) (r : Rng)
      (hp : s.cpu i = ⟨b, sv, some (.wait r []), none⟩) :
      Step g s { s with cpu := upd s.cpu i ⟨b, sv, none, none⟩ }
  /-- `remote_dequeue` acknowledges (`tlb.rs` line 223) -/
  | served (s : St) (i : Nat) (b : Base) (id : Nat) (o : RObj) (hp : s.cpu i = ⟨b, some id, none, none⟩)
      (ho : s.robjs[id]? = some o) :
      Step g s
        { s with robjs := s.robjs.set id { o with acked := true },
                 cpu := upd s.cpu i ⟨b, none, none, none⟩ }
  /-- `dequeue` in the wait loop of `remote_shootdown` (`tlb.rs` line 484) -/
  | remPop (s : St) (i : Nat) (r : Rng) (k : Nat) (pend : List Nat) (id : Nat) (q : List Nat)
      (hp : s.cpu i = ⟨.wait r k pend, none, none, none⟩) (hq : s.queue i = id :: q) :
      Step g s
        { s with queue := upd s.queue i q,
                 cpu := upd s.cpu i ⟨.wait r k pend, none, none, some (.popped id)⟩ }
  /-- `remote_dequeue` in the wait loop (line 485), or by the interrupt handler
  (`arch/x86_64/irq.rs` lines 772-805) -/
  | serve (s : St) (i : Nat) (b : Base) (id : Nat) (q : List Nat) (o : RObj)
      (hp : s.cpu i = ⟨b, none, none, none⟩) (hb : ∀ r k hs todo pend, b ≠ .rem r k hs todo pend)
      (hq : s.rqueue (g.mach i) = id :: q) (ho : s.robjs[id]? = some o) :
      Step g s
        { s with rqueue := upd s.rqueue (g.mach i) q,
                 cpu := upd s.cpu i ⟨b, some id, some (.enq o.range o.cores []), none⟩ }
  /-- `drain_filter` finds a machine done (line 487) -/
  | remDrain (s : St) (i : Nat) (r : Rng) (k : Nat) (as bs : List Nat) (id : Nat) (o : RObj)
      (hp : s.cpu i = ⟨.wait r k (as ++ id :: bs), none, none, none⟩) (ho : s.robjs[id]? = some o)
      (ha : o.acked = true) :
      Step g s { s with cpu := upd s.cpu i ⟨.wait r k (as ++ bs), none, none, none⟩ }
  /-- all machines are done: the system call returns -/
  | finish (s : St) (i : Nat) (r : Rng) (k : Nat) (hp : s.cpu i = ⟨.wait r k [], none, none, none⟩) :
      Step g s { s with cpu := upd s.cpu i Cpu.user }
  /-- the interrupt handler for other cores' requests (`irq.rs` lines 739-751) -/
  | irq (s : St) (c id : Nat) (q : List Nat) (hp : s.cpu c = Cpu.user) (hq : s.queue c = id :: q) :
      Step g s
        { s with queue := upd s.queue c q,
                 cpu := upd s.cpu c { Cpu.user with work := some (.popped id) } }
  /-- `process`: acknowledge first -/
  | ack (s : St) (c : Nat) (b : Base) (sv : Option Nat) (l : Option Loc) (id : Nat) (o : Obj)
      (hp : s.cpu c = ⟨b, sv, l, some (.popped id)⟩) (ho : s.objs[id]? = some o) :
      Step g s
        { s with objs := s.objs.set id { o with acked := true },
                 cpu := upd s.cpu c ⟨b, sv, l, some (.flushing (flushOf o.range))⟩ }
  | flushPage (s : St) (c : Nat) (b : Base) (sv : Option Nat) (l : Option Loc) (p : Nat) (ps : List Nat)
      (hp : s.cpu c = ⟨b, sv, l, some (.flushing (.pages (p :: ps)))⟩) :
      Step g s
        { s with tlb := upd s.tlb c (upd (s.tlb c) p none),
                 cpu := upd s.cpu c ⟨b, sv, l, some (.flushing (.pages ps))⟩ }
  | flushAll (s : St) (c : Nat) (b : Base) (sv : Option Nat) (l : Option Loc)
      (hp : s.cpu c = ⟨b, sv, l, some (.flushing .all)⟩) :
      Step g s
        { s with tlb := upd s.tlb c (fun _ => none),
                 cpu := upd s.cpu c ⟨b, sv, l, some (.flushing (.pages []))⟩ }
  | flushDone (s : St) (c : Nat) (b : Base) (sv : Option Nat) (l : Option Loc)
      (hp : s.cpu c = ⟨b, sv, l, some (.flushing (.pages []))⟩) :
      Step g s { s with cpu := upd s.cpu c ⟨b, sv, l, none⟩ }
  /-- `eager_advance_fs_replica` on an idle core takes an item ... -/
  | eagerPop (s : St) (c id : Nat) (q : List Nat) (hp : s.cpu c = Cpu.user) (hq : s.queue c = id :: q) :
      Step g s
        { s with queue := upd s.queue c q,
                 cpu := upd s.cpu c { Cpu.user with work := some (.requeue id) } }
  /-- ... and puts it back ... -/
  | eagerPush (s : St) (c id : Nat) (hp : s.cpu c = { Cpu.user with work := some (.requeue id) })
      (hq : (s.queue c).length < g.cap) :
      Step g s { s with queue := upd s.queue c (s.queue c ++ [id]), cpu := upd s.cpu c Cpu.user }
  /-- ... if there is still room -/
  | eagerFull (s : St) (c id : Nat) (hp : s.cpu c = { Cpu.user with work := some (.requeue id) })
      (hq : ¬ (s.queue c).length < g.cap) :
      Step g s { s with cpu := upd s.cpu c { Cpu.user with work := some .dead } }

inductive Reach (g : Cfg) : St → Prop where
  | init : Reach g St.init
  | step {s s' : St} : Reach g s → Step g s s' → Reach g s'

inductive Steps (g : Cfg) : St → St → Prop where
  | refl (s : St) : Steps g s s
  | tail {s t u : St} : Steps g s t → Step g t u → Steps g s u

end NRK.Tlb.Rack
