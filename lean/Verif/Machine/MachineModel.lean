import Verif.Proc.ProcModel
import Verif.Mem.AllocModel
import Verif.VSpace.VSpaceLemmas

/-!
# Model of a machine: page caches, processes and the system calls that move memory between them

The caches are those of `memory/mcache.rs`, the processes those of `nrproc.rs`; this file adds the system
calls of `kernel/src/arch/x86_64/syscall.rs` that take pages from the caches, give them to processes and
take them back, and the contents of memory.  Cores run at the same time: a step is what happens between
two points where another core can interfere (the lock of a node's cache, an operation of the process's
log), and what a core holds in local variables in between is kept in its program counter.
-/

namespace NRK.Machine

open NRK.Mem NRK.Mem.Spec NRK.VSpace NRK.Proc

/-- What a core is doing, with the pages it holds. -/
inductive Pc where
  /-- No memory system call. -/
  | idle
  /-- `allocate_physical` (`syscall.rs` lines 219-254) has a page, line 249. -/
  | allocated (pid : Nat) (f : Frame)
  /-- `release_physical` (`syscall.rs` lines 256-290) has taken the page from the process, line 259. -/
  | released (f : Frame)
  /-- The same, the core's cache is full, lines 269 and 281. -/
  | full (f : Frame)
  /-- The loop of `map_frames` (`nrproc.rs` lines 271-289) has these pages to map, the next one at `base`. -/
  | mapping (pid base : Nat) (fs : List Frame)
  /-- `allocate_dispatchers` (`process.rs` lines 587-606) has a page, line 599. -/
  | executors (pid : Nat) (f : Frame)
  /-- The loader (C59) has a page that it fills and maps at `base` with rights `a`. -/
  | loading (pid base : Nat) (f : Frame) (a : MapAction)

/-- The pages in local variables. -/
def Pc.hand : Pc → List Frame
  | .idle => []
  | .allocated _ f => [f]
  | .released f => [f]
  | .full f => [f]
  | .mapping _ _ fs => fs
  | .executors _ f => [f]
  | .loading _ _ f _ => [f]

/-- A machine: the node caches (`GlobalMemory::node_caches`), the caches of a core, one for each affinity
it has used (`PerCoreMemory`, C26), the affinity a core allocates from, what each core does, the pages the
kernel uses itself (page tables, heap), the processes, and the bytes of memory by physical address. -/
structure Machine where
  node : Nat → MCache
  tc : Nat × Nat → MCache
  cur : Nat → Nat
  pc : Nat → Pc
  kern : List Frame
  proc : Nat → Option Proc
  mem : Nat → UInt8

/-- The cache core `k` allocates from. -/
def Machine.cache (m : Machine) (k : Nat) : MCache := m.tc (k, m.cur k)

/-- `Frame::zero` (`kernel/src/memory/frame.rs` lines 174-177): all bytes of the frame are 0. -/
def zero (mem : Nat → UInt8) (f : Frame) : Nat → UInt8 :=
  fun a => if f.base ≤ a ∧ a < f.base + f.size then 0 else mem a

/-- A page of one of the two sizes from a cache. -/
def takeOne (c : MCache) (large : Bool) : Outcome Frame × MCache :=
  if large then c.allocLarge else c.allocBase

/-- Lines 229-245 of `allocate_physical` (`syscall.rs`): refill the core's cache with one page and take
it. -/
def refillTake (nc tc : MCache) (large : Bool) : Outcome Frame × MCache × MCache :=
  match refillTcache false nc tc (if large then 0 else 1) (if large then 1 else 0) with
  | (.ok (), nc', tc') => ((takeOne tc' large).1, nc', (takeOne tc' large).2)
  | (.err e, nc', tc') => (.err e, nc', tc')
  | (.panic, nc', tc') => (.panic, nc', tc')

/-- Lines 315-354 of `map_generic` (`syscall.rs`): refill and take the pages for `size` bytes, large pages
first; a page that is missing is an `expect`. -/
def takePages (nc tc : MCache) (size : Nat) : Outcome (List Frame) × MCache × MCache :=
  match refillTcache false nc tc (20 + (sizeToPages size).1) (sizeToPages size).2 with
  | (.ok (), nc', tc') =>
    match takeLarge tc' (sizeToPages size).2 with
    | (.ok ls, tc1) =>
      match takeBase tc1 (sizeToPages size).1 with
      | (.ok bs, tc2) => (.ok (ls ++ bs), nc', tc2)
      | (_, tc2) => (.panic, nc', tc2)
    | (_, tc1) => (.panic, nc', tc1)
  | (.err e, nc', tc') => (.err e, nc', tc')
  | (.panic, nc', tc') => (.panic, nc', tc')

/-- Lines 267-287 of `release_physical` (`syscall.rs`): the cache takes a page of either size; another size
is an assertion. -/
def giveBack (c : MCache) (f : Frame) : Outcome Unit × MCache :=
  if f.size = BASE then c.releaseBase f
  else if f.size = LARGE then c.releaseLarge f
  else (.panic, c)

/-- `allocate_physical` goes on with the page, or returns the error. -/
def afterTake (pid : Nat) : Outcome Frame → Pc
  | .ok f => .allocated pid f
  | _ => .idle

/-- `release_physical` goes on with the page, or returns the error (line 259). -/
def afterRelease : Outcome ProcResult → Pc
  | .ok (.frame f) => .released f
  | _ => .idle

/-- `release_physical` after the core's cache took the page, or did not (lines 268-275, 280-287). -/
def afterGive (f : Frame) : Outcome Unit → Pc
  | .ok _ => .idle
  | _ => .full f

/-- `map_generic` goes on with the pages, or returns the error of the refill (line 317). -/
def afterPages (pid base : Nat) : Outcome (List Frame) → Pc
  | .ok fs => .mapping pid base fs
  | _ => .idle

/-- The pages of a result. -/
def pagesOf : Outcome (List Frame) → List Frame
  | .ok fs => fs
  | _ => []

/-- `allocate_physical` (`arch/x86_64/syscall.rs` lines 219-254) without interference: `nc` is the cache of
the node the core allocates from, `tc` the core's cache.  Returns the frame's id and address. -/
def allocatePhysical (c : Cfg) (nc tc : MCache) (P : Proc) (size : Nat) :
    Outcome (Nat × Nat) × Proc × MCache × MCache :=
  if size ≠ BASE ∧ size ≠ LARGE then (.err (.invalidSyscallArgument1 size), P, nc, tc)
  else
    match refillTake nc tc (decide (size = LARGE)) with
    | (.ok f, nc', tc') =>
      match P.step c (.allocFrame f) with
      | (P', .ok (.frameId fid)) => (.ok (fid, f.base), P', nc', tc')
      | (P', .err e) => (.err e, P', nc', tc')
      | (P', _) => (.panic, P', nc', tc')
    | (.err e, nc', tc') => (.err e, P, nc', tc')
    | (.panic, nc', tc') => (.panic, P, nc', tc')

/-- `release_physical` (`arch/x86_64/syscall.rs` lines 256-290) without interference; `node` are the caches
of the nodes. -/
def releasePhysical (c : Cfg) (node : Nat → MCache) (tc : MCache) (P : Proc) (fid : Nat) :
    Outcome Unit × Proc × (Nat → MCache) × MCache :=
  match P.step c (.releaseFrame fid) with
  | (P', .ok (.frame f)) =>
    match giveBack tc f with
    | (.ok _, tc') => (.ok (), P', node, tc')
    | (.err .cacheFull, tc') =>
      match giveBack (node f.aff) f with
      | (.ok _, nc') => (.ok (), P', upd node f.aff nc', tc')
      | (_, nc') => (.panic, P', upd node f.aff nc', tc')
    | (.err e, tc') => (.err e, P', node, tc')
    | (.panic, tc') => (.panic, P', node, tc')
  | (P', .err e) => (.err e, P', node, tc)
  | (P', _) => (.panic, P', node, tc)

/-- The rights of the system call that maps a registered frame (`syscall.rs` line 417). -/
def idRights : MapAction := (MapAction.user.or MapAction.writable).or MapAction.alias

/-- The steps of a machine.  The label is the process on whose behalf the step is done, if any.  A step in
which the kernel panics does not exist: the machine stops.

Restrictions, see C58 and C61: addresses that are mapped are user addresses (the code does not check that),
and there is no `map_device` (any process can map any physical memory). -/
inductive MStep (c : Cfg) : Machine → Option Nat → Machine → Prop
  /-- A process is created (`Ring3Process::new`); its page table may have kernel mappings only. -/
  | spawn (m : Machine) (pid : Nat) (pt : PML4) (off : Nat) (h : m.proc pid = none)
      (hpt : ∀ x, x < userTop → leafAt pt x = Option.none) :
      MStep c m (some pid) { m with proc := upd m.proc pid (some (Proc.new pt off)) }
  /-- `set_mem_affinity` (`per_core.rs` lines 171-181). -/
  | affinity (m : Machine) (k a : Nat) : MStep c m none { m with cur := upd m.cur k a }
  /-- `try_refill_tcache` (`memory/mod.rs` lines 275-332) before an operation of the kernel. -/
  | refill (m : Machine) (k needB needL : Nat) (o : Outcome Unit) (nc tc : MCache)
      (h : refillTcache false (m.node (m.cur k)) (m.cache k) needB needL = (o, nc, tc)) (ho : o ≠ .panic) :
      MStep c m none { m with node := upd m.node (m.cur k) nc, tc := upd m.tc (k, m.cur k) tc }
  /-- `allocate_physical`, up to line 245. -/
  | allocate (m : Machine) (k pid : Nat) (large : Bool) (o : Outcome Frame) (nc tc : MCache)
      (hpc : m.pc k = .idle)
      (h : refillTake (m.node (m.cur k)) (m.cache k) large = (o, nc, tc)) (ho : o ≠ .panic) :
      MStep c m (some pid) { m with
        node := upd m.node (m.cur k) nc, tc := upd m.tc (k, m.cur k) tc,
        pc := upd m.pc k (afterTake pid o) }
  /-- `allocate_physical`, lines 248-251; if the process has no free identifier the page is lost. -/
  | register (m : Machine) (k pid : Nat) (f : Frame) (P P' : Proc) (o : Outcome ProcResult)
      (hpc : m.pc k = .allocated pid f) (hp : m.proc pid = some P)
      (h : P.step c (.allocFrame f) = (P', o)) (ho : o ≠ .panic) :
      MStep c m (some pid) { m with proc := upd m.proc pid (some P'), pc := upd m.pc k .idle }
  /-- `release_physical`, lines 258-259. -/
  | release (m : Machine) (k pid fid : Nat) (P P' : Proc) (o : Outcome ProcResult)
      (hpc : m.pc k = .idle) (hp : m.proc pid = some P)
      (h : P.step c (.releaseFrame fid) = (P', o)) (ho : o ≠ .panic) :
      MStep c m (some pid) { m with
        proc := upd m.proc pid (some P'), pc := upd m.pc k (afterRelease o) }
  /-- `release_physical`, lines 267-268 and 279-280. -/
  | giveCore (m : Machine) (k : Nat) (f : Frame) (o : Outcome Unit) (tc : MCache)
      (hpc : m.pc k = .released f) (h : giveBack (m.cache k) f = (o, tc)) (ho : o ≠ .panic) :
      MStep c m none { m with tc := upd m.tc (k, m.cur k) tc, pc := upd m.pc k (afterGive f o) }
  /-- `release_physical`, lines 269-274 and 281-286. -/
  | giveNode (m : Machine) (k : Nat) (f : Frame) (nc : MCache) (hpc : m.pc k = .full f)
      (h : giveBack (m.node f.aff) f = (.ok (), nc)) :
      MStep c m none { m with node := upd m.node f.aff nc, pc := upd m.pc k .idle }
  /-- `map_generic` up to line 354: take the pages and zero them. -/
  | mapStart (m : Machine) (k pid base size : Nat) (o : Outcome (List Frame)) (nc tc : MCache)
      (hpc : m.pc k = .idle)
      (h : takePages (m.node (m.cur k)) (m.cache k) size = (o, nc, tc)) (ho : o ≠ .panic) :
      MStep c m (some pid) { m with
        node := upd m.node (m.cur k) nc, tc := upd m.tc (k, m.cur k) tc,
        pc := upd m.pc k (afterPages pid base o), mem := (pagesOf o).foldl zero m.mem }
  /-- One iteration of `map_frames`; any error is `unreachable!` (line 279). -/
  | mapNext (m : Machine) (k pid base : Nat) (f : Frame) (fs : List Frame) (P P' : Proc)
      (refill oom : Bool) (r : ProcResult) (hpc : m.pc k = .mapping pid base (f :: fs))
      (hp : m.proc pid = some P)
      (h : P.step c (.map base f MapAction.writable refill oom) = (P', .ok r))
      (hu : base + f.size ≤ userTop) :
      MStep c m (some pid) { m with
        proc := upd m.proc pid (some P'), pc := upd m.pc k (.mapping pid (base + f.size) fs) }
  /-- The end of that loop. -/
  | mapDone (m : Machine) (k pid base : Nat) (hpc : m.pc k = .mapping pid base []) :
      MStep c m (some pid) { m with pc := upd m.pc k .idle }
  /-- `allocate_dispatchers` (`process.rs` lines 588-597) after its refill: a large page of the node. -/
  | execTake (m : Machine) (k pid aff : Nat) (f : Frame) (nc : MCache) (hpc : m.pc k = .idle)
      (h : (m.node aff).allocLarge = (.ok f, nc)) :
      MStep c m (some pid) { m with
        node := upd m.node aff nc, pc := upd m.pc k (.executors pid f), mem := zero m.mem f }
  /-- `allocate_dispatchers`, lines 599-604. -/
  | execGive (m : Machine) (k pid : Nat) (f : Frame) (P P' : Proc) (mid : Nat) (mapOom : Bool)
      (ooms : Nat → Bool) (o : Outcome ProcResult) (hpc : m.pc k = .executors pid f)
      (hp : m.proc pid = some P) (h : P.step c (.dispatchers f mid mapOom ooms) = (P', o))
      (ho : o ≠ .panic) (hu : P.execOff + f.size ≤ userTop) :
      MStep c m (some pid) { m with proc := upd m.proc pid (some P'), pc := upd m.pc k .idle }
  /-- The loader (`process.rs` lines 358-461, `arch/x86_64/process.rs` lines 1089-1170) takes a page … -/
  | loadTake (m : Machine) (k pid base : Nat) (large : Bool) (a : MapAction) (f : Frame) (tc : MCache)
      (hpc : m.pc k = .idle) (h : takeOne (m.cache k) large = (.ok f, tc)) (ha : a.aliased = false) :
      MStep c m (some pid) { m with
        tc := upd m.tc (k, m.cur k) tc, pc := upd m.pc k (.loading pid base f a) }
  /-- … writes to it … -/
  | loadWrite (m : Machine) (k pid base : Nat) (f : Frame) (a : MapAction) (p : Nat) (v : UInt8)
      (hpc : m.pc k = .loading pid base f a) (hin : f.block.Has p) :
      MStep c m (some pid) { m with mem := upd m.mem p v }
  /-- … and maps it. -/
  | loadMap (m : Machine) (k pid base : Nat) (f : Frame) (a : MapAction) (P P' : Proc)
      (refill oom : Bool) (o : Outcome ProcResult) (hpc : m.pc k = .loading pid base f a)
      (ha : a.aliased = false) (hp : m.proc pid = some P)
      (h : P.step c (.map base f a refill oom) = (P', o)) (ho : o ≠ .panic)
      (hu : base + f.size ≤ userTop) :
      MStep c m (some pid) { m with proc := upd m.proc pid (some P'), pc := upd m.pc k .idle }
  /-- `map_frame_id` (`syscall.rs` lines 406-420). -/
  | mapFrameId (m : Machine) (pid base fid : Nat) (P P' : Proc) (refill oom : Bool)
      (o : Outcome ProcResult) (hp : m.proc pid = some P)
      (h : P.step c (.mapFrameId base fid idRights refill oom) = (P', o)) (ho : o ≠ .panic)
      (hu : ∀ f n, P.frames.get fid = .ok (f, n) → base + f.size ≤ userTop) :
      MStep c m (some pid) { m with proc := upd m.proc pid (some P') }
  /-- `unmap_generic` (`syscall.rs` lines 366-384). -/
  | unmap (m : Machine) (pid base : Nat) (P P' : Proc) (o : Outcome ProcResult)
      (hp : m.proc pid = some P) (h : P.step c (.unmap base) = (P', o)) (ho : o ≠ .panic)
      (hu : base < userTop) :
      MStep c m (some pid) { m with proc := upd m.proc pid (some P') }
  /-- A core is assigned (C36, C40). -/
  | assign (m : Machine) (pid : Nat) (gtid : BitVec 64) (region : Nat) (oom : Bool) (P P' : Proc)
      (o : Outcome ProcResult) (hp : m.proc pid = some P)
      (h : P.step c (.assign gtid region oom) = (P', o)) (ho : o ≠ .panic) :
      MStep c m (some pid) { m with proc := upd m.proc pid (some P') }
  /-- A thread of a process writes a byte.  The rights are not looked at, so this is more than the
  hardware allows; old TLB entries are the subject of C43. -/
  | write (m : Machine) (pid x p : Nat) (r : MapAction) (v : UInt8) (P : Proc)
      (hp : m.proc pid = some P) (hx : x < userTop) (hr : P.vs.resolve x = .ok (p, r)) :
      MStep c m (some pid) { m with mem := upd m.mem p v }
  /-- The kernel takes a page for a page table or its heap, … -/
  | kernelTake (m : Machine) (k : Nat) (large : Bool) (f : Frame) (tc : MCache)
      (h : takeOne (m.cache k) large = (.ok f, tc)) :
      MStep c m none { m with tc := upd m.tc (k, m.cur k) tc, kern := f :: m.kern }
  /-- … gives one back, … -/
  | kernelGive (m : Machine) (k : Nat) (f : Frame) (tc : MCache) (hf : f ∈ m.kern)
      (h : giveBack (m.cache k) f = (.ok (), tc)) :
      MStep c m none { m with tc := upd m.tc (k, m.cur k) tc, kern := m.kern.erase f }
  /-- … and writes to them. -/
  | kernelWrite (m : Machine) (f : Frame) (p : Nat) (v : UInt8) (hf : f ∈ m.kern)
      (hin : f.block.Has p) : MStep c m none { m with mem := upd m.mem p v }

end NRK.Machine
