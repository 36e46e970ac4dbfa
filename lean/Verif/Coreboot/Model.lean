import Verif.Coreboot.Spec

/-!
# Model of `kernel/src/arch/x86_64/coreboot.rs`, `start_ap.S` and `start_app_core`

The core that boots first ("BSP") and the cores it starts ("AP") as one system, whose steps interleave
in any order: the steps of the BSP in `boot_app_cores` (`coreboot.rs` lines 335-477) and `initialize` (lines
297-321), those of an AP in `start_ap.S` and in `start_app_core` (`mod.rs` lines 162-231).

Simplifications, besides those in the comments of the definitions:

* Modelled of the memory are the bytes at low physical addresses, where the code of `start_ap.S` is
  copied, and the arguments on the heap.  Large pages are numbers.
* The large pages of a node are one list: the kernel heap (which takes an allocation of 2 MiB
  from the page cache of the BSP, filled from the node its affinity is set to) and `node_caches[node]`
  both take from it.  Replicas are named by what they replicate.
* Mode switches, control registers other than `cr3`, segment registers and the GDT are left out; so are
  the per-core objects of the kernel (`PerCoreMemory`, `Arch86Kcb`), the APIC and the serial
  line, which `start_app_core` sets up.  `rackscale` changes which replicas there are (parameters `procs`,
  `fs`), its RPC buffers are left out.
-/

namespace NRK.Coreboot

open Spec (Thread Replica Ipi Entry Args)

/-- `X86_64_REAL_MODE_SEGMENT`, `REAL_MODE_PAGE`, `REAL_MODE_LINEAR_OFFSET` = `REAL_MODE_BASE` (`coreboot.rs` lines
40-49; the same in `start_ap.S` lines 9-11). -/
def SEGMENT : Nat := 0x0600
def REAL_MODE_PAGE : Nat := SEGMENT >>> 8 % 256
def REAL_MODE_BASE : Nat := SEGMENT <<< 4 % 65536

/-- `BASE_PAGE_SIZE * 512` (`coreboot.rs` line 401), a large page. -/
@[irreducible] def STACK_SIZE : Nat := 2097152
theorem STACK_SIZE_eq : STACK_SIZE = 2097152 := by unfold STACK_SIZE; rfl

/-! ## `start_ap.S` -/

/-- `.align a` of the assembler. -/
def align (x a : Nat) : Nat := (x + (a - 1)) / a * a

/-- Offsets of the symbols of `start_ap.S` from `x86_64_start_ap`, for a code of `n` bytes (lines
22-104), by the directives in lines 106-163.  `n` is left open since it is up to the assembler. -/
def gdtOff (n : Nat) : Nat := align n 16
def gdtPtrOff (n : Nat) : Nat := gdtOff n + 7 * 8
def arg1Off (n : Nat) : Nat := align (gdtPtrOff n + 10) 8
def arg4Off (n : Nat) : Nat := arg1Off n + 3 * 8
def stackOff (n : Nat) : Nat := align (arg4Off n + 8) 64
def entryOff (n : Nat) : Nat := align (stackOff n + 8) 64
def lockOff (n : Nat) : Nat := align (entryOff n + 8) 64
def pml4Off (n : Nat) : Nat := align (lockOff n + 8) 64
/-- `get_boostrap_code_size` (`coreboot.rs` lines 91-97). -/
def codeSize (n : Nat) : Nat := pml4Off n + 8

/-- Memory by bytes. -/
abbrev Bytes := Nat → Nat

/-- A store of 64 bits, little endian. -/
def w64 (m : Bytes) (a v : Nat) : Bytes := fun x => if a ≤ x ∧ x < a + 8 then v / 256 ^ (x - a) % 256 else m x

/-- A load of `k` bytes, little endian. -/
def rd (m : Bytes) (a : Nat) : Nat → Nat
  | 0 => 0
  | k + 1 => m a + 256 * rd m (a + 1) k

/-- `copy_bootstrap_code` (`coreboot.rs` lines 108-124): `image` is the code in the kernel binary; it is not
changed by what is written to the copy. -/
def copyCode (image : Bytes) (n : Nat) (m : Bytes) : Bytes :=
  fun x => if REAL_MODE_BASE ≤ x ∧ x < REAL_MODE_BASE + codeSize n then image (x - REAL_MODE_BASE) else m x

/-- `to_bootstrap_pointer` (`coreboot.rs` lines 175-179): `off` is the address less that of the code. -/
def bootstrapPointer (off : Nat) : Nat := off + REAL_MODE_BASE

/-! ## The system -/

/-- What is fixed: the machine and the kernel. -/
structure Cfg where
  /-- `MACHINE_TOPOLOGY.threads()`, and the one that runs `boot_app_cores`. -/
  threads : List Thread
  bsp : Thread
  /-- `MACHINE_TOPOLOGY.num_nodes()`. -/
  numNodes : Nat
  /-- `global_pmem.node_caches.len()`. -/
  pmemNodes : Nat
  /-- Length and bytes of the code of `start_ap.S`. -/
  codeLen : Nat
  image : Bytes
  /-- The address of `start_app_core`, the physical address of the PML4 of `INITIAL_VSPACE`, the
  address of the variable `initialized` (on the stack of the BSP, the same in each iteration). -/
  startAppCore : Nat
  pml4 : Nat
  flagAddr : Nat
  /-- `node_replication::MAX_THREADS_PER_REPLICA` (not in the repository), `MAX_PROCESSES`, and
  which replicas the kernel has. -/
  maxThreads : Nat
  maxProc : Nat
  procs : Bool
  fs : Bool

/-- `core::cmp::max(1, num_nodes())` (`coreboot.rs` line 349). -/
def Cfg.numaNodes (c : Cfg) : Nat := max 1 c.numNodes

/-- `replicas`, `fs_replicas` (`coreboot.rs` lines 351-383): the BSP's, then one for each further node. -/
def Cfg.replicas (c : Cfg) : List Replica := .kernel 0 :: (List.range' 1 (c.numaNodes - 1)).map .kernel
def Cfg.fsReplicas (c : Cfg) : List Replica :=
  if c.fs then .fs 0 :: (List.range' 1 (c.numaNodes - 1)).map .fs else []

/-- `threads_to_boot` (`coreboot.rs` lines 391-393). -/
def Cfg.toBoot (c : Cfg) : List Thread := c.threads.filter (· != c.bsp)

/-- `environment::NODE_ID` on the core with this APIC (`environment.rs` lines 17-22). -/
def Cfg.nodeId (c : Cfg) (apic : Nat) : Nat := ((c.threads.find? (·.apic == apic)).bind (·.node)).getD 0

/-- What the BSP has prepared for one core: its thread, stack, large page, persistent page, and where its
arguments are. -/
structure Prep where
  thread : Thread
  stack : Nat
  mem : Nat
  pmem : Option Nat
  argp : Nat
  deriving DecidableEq

/-- Where the BSP is in its loop (lines 395-474): before the next core; with `k` of the five
words written (lines 184-209); before INIT; before STARTUP; waiting; behind the loop. -/
inductive BPc where
  | next
  | poke (k : Nat)
  | init
  | startup
  | wait
  | done
  deriving DecidableEq

/-- What an AP does: nothing yet; waiting for STARTUP; in `start_ap.S`, at its `k`-th load from the
words, started at page `page`; in `start_app_core`, with the registrations that remain; in the
scheduler. -/
inductive Core where
  | off
  | waitSipi
  | tramp (page k : Nat) (r : Entry)
  | kernel (r : Entry) (rest : List Replica)
  | up (r : Entry)
  deriving DecidableEq

/-- A panic stops the machine; `hang`: the BSP loops forever (`wakeup_core`). -/
inductive Halt where
  | panic
  | hang
  deriving DecidableEq

structure St where
  mem : Bytes
  todo : List Thread
  pc : BPc
  flag : Bool
  aff : Nat
  paff : Nat
  pages : Nat → List Nat
  pmem : Nat → List Nat
  objs : Nat → Option Args
  core : Nat → Core
  /-- `next` of each replica, the number of the next thread to register. -/
  next : Replica → Nat
  halt : Option Halt
  /-- History: what was prepared, the interrupts sent, the registrations (who, where, number). -/
  boots : List Prep
  sent : List (Nat × Ipi)
  toks : List (Nat × Replica × Nat)

/-- The state when `boot_app_cores` is called: the other cores are off; the BSP has its affinity at node 0 and
has registered with the replicas of its node already (`mod.rs` lines 411-455: number 1). -/
def St.init (c : Cfg) (mem : Bytes) (pages pmem : Nat → List Nat) (paff : Nat) : St where
  mem := mem
  todo := c.toBoot
  pc := .next
  flag := false
  aff := 0
  paff := paff
  pages := pages
  pmem := pmem
  objs := fun _ => none
  core := fun _ => .off
  next := fun r => if r ∈ Spec.replicasOf c.maxProc c.procs c.fs 0 then 2 else 1
  halt := none
  boots := []
  sent := []
  toks := []

def St.panic (s : St) : St := { s with halt := some .panic }

/-- The body of the loop up to `initialize`, and `copy_bootstrap_code` in it (`coreboot.rs` lines 395-444, 305):
affinity, stack, pages, arguments at the address `p`.  `OwnedStack::new` does not look at a null pointer
(`stack.rs` lines 121-130).  Simplification: the heap finds room for the arguments. -/
def prepare (c : Cfg) (s : St) (t : Thread) (p : Nat) : Option St :=
  let node := t.node.getD 0
  if (s.objs p).isSome ∨ 256 ^ 8 ≤ p then none
  else if node ≥ c.numaNodes then some s.panic
  else
    let stack := (s.pages node).headD 0
    match (s.pages node).tail with
    | [] => some s.panic
    | mem :: rest =>
      let pm : Option (Option Nat × List Nat) :=
        if c.pmemNodes = c.numaNodes then
          match s.pmem node with
          | [] => none
          | q :: rest => some (some q, rest)
        else some (none, s.pmem node)
      match pm, c.replicas[node]? with
      | some (q, prest), some r =>
        let fsr : Option (Option Replica) :=
          if c.fsReplicas.length > 0 then c.fsReplicas[node]?.map some else some none
        match fsr with
        | none => some s.panic
        | some fsr =>
          let a : Args := ⟨t.id, node, mem, q, r, fsr⟩
          some { s with
            aff := node
            paff := if c.pmemNodes = c.numaNodes then node else s.paff
            pages := upd s.pages node rest
            pmem := upd s.pmem node prest
            objs := upd s.objs p (some a)
            flag := false
            mem := copyCode c.image c.codeLen s.mem
            pc := .poke 0
            boots := s.boots ++ [⟨t, stack, mem, q, p⟩] }
      | _, _ => some s.panic

/-- `setup_bootstrap_code` (`coreboot.rs` lines 184-209): the five words, in the order they are written. -/
def pokeAt (c : Cfg) (b : Prep) : Nat → Option (Nat × Nat)
  | 0 => some (bootstrapPointer (entryOff c.codeLen), c.startAppCore)
  | 1 => some (bootstrapPointer (arg1Off c.codeLen), b.argp)
  | 2 => some (bootstrapPointer (pml4Off c.codeLen), c.pml4)
  | 3 => some (bootstrapPointer (stackOff c.codeLen), b.stack + STACK_SIZE)
  | 4 => some (bootstrapPointer (lockOff c.codeLen), c.flagAddr)
  | _ => none

/-- The interrupt INIT resets a core, whatever it does. -/
def recvInit (s : St) (apic : Nat) : St := { s with core := upd s.core apic .waitSipi, sent := s.sent ++ [(apic, .init)] }

/-- The interrupt STARTUP starts a core that waits for it, and no other. -/
def recvStartup (s : St) (apic page : Nat) : St :=
  { s with
    core := if s.core apic = .waitSipi then upd s.core apic (.tramp page 0 ⟨0, 0, 0, 0, 0⟩) else s.core
    sent := s.sent ++ [(apic, .startup page)] }

/-- One step of the BSP.  `p`: the address the allocator gives, `e`: the milliseconds since INIT that
`wakeup_core` reads (`coreboot.rs` lines 275-287; the loop waits while `e > 10`, and time does not go back).  Spinning in the wait for
`initialized` (lines 456-468) is no step. -/
def bspStep (c : Cfg) (s : St) (p e : Nat) : Option St :=
  match s.pc with
  | .next =>
    match s.todo with
    | [] => some { s with pc := .done }
    | t :: _ => prepare c s t p
  | .poke k =>
    match s.boots.getLast? with
    | none => none
    | some b =>
      match pokeAt c b k with
      | none => none
      | some (a, v) => some { s with mem := w64 s.mem a v, pc := if k + 1 < 5 then .poke (k + 1) else .init }
  | .init =>
    match s.todo with
    | [] => none
    | t :: _ => some { recvInit s t.apic with pc := .startup }
  | .startup =>
    match s.todo with
    | [] => none
    | t :: _ =>
      if e > 10 then some { s with halt := some .hang }
      else some { recvStartup s t.apic REAL_MODE_PAGE with pc := .wait }
  | .wait => if s.flag then some { s with pc := .next, todo := s.todo.tail, aff := 0 } else none
  | .done => none

/-- The wait of the BSP ends in a panic after more than a second (`coreboot.rs` lines 462-465); the model leaves
open when that is. -/
def timeout (s : St) : Option St :=
  match s.pc with
  | .wait => if s.flag then none else some s.panic
  | _ => none

/-- The replicas `start_app_core` registers with (`mod.rs` lines 194-212): the kernel's from its
arguments, those of the processes by the node of the core itself (`nrproc.rs` lines 34-49), the file
system's from its arguments. -/
def toRegister (c : Cfg) (apic : Nat) (a : Args) : List Replica :=
  [a.replica] ++ (if c.procs then (List.range c.maxProc).map (Replica.proc (c.nodeId apic)) else []) ++
    (match a.fsReplica with | some r => [r] | none => [])

/-- One step of an AP.  In `start_ap.S` (lines 51-53, 78-95): the loads of the five words, of which those of
`x86_64_init_ap_stack_ptr` and `x86_64_init_ap_absolute_entry` are relative to the page the code runs
at, and that of the PML4 is of 32 bits.  In `start_app_core`: registrations, then `initialized`. -/
def coreStep (c : Cfg) (s : St) (a : Nat) : Option St :=
  match s.core a with
  | .off => none
  | .waitSipi => none
  | .tramp page k r =>
    let abs := fun off w => rd s.mem (off + REAL_MODE_BASE) w
    let rel := fun off w => rd s.mem (off + page * 4096) w
    match k with
    | 0 => some { s with core := upd s.core a (.tramp page 1 { r with cr3 := abs (pml4Off c.codeLen) 4 }) }
    | 1 => some { s with core := upd s.core a (.tramp page 2 { r with rsp := rel (stackOff c.codeLen) 8 }) }
    | 2 => some { s with core := upd s.core a (.tramp page 3 { r with rdi := abs (arg1Off c.codeLen) 8 }) }
    | 3 => some { s with core := upd s.core a (.tramp page 4 { r with rsi := abs (lockOff c.codeLen) 8 }) }
    | _ =>
      let r := { r with entry := rel (entryOff c.codeLen) 8 }
      if r.entry = c.startAppCore then
        match s.objs r.rdi with
        | some args => some { s with core := upd s.core a (.kernel r (toRegister c a args)) }
        | none => some s.panic
      else some s.panic
  | .kernel r (x :: rest) =>
    if s.next x > c.maxThreads then some s.panic
    else some { s with
      next := upd s.next x (s.next x + 1)
      toks := s.toks ++ [(a, x, s.next x)]
      core := upd s.core a (.kernel r rest) }
  | .kernel r [] =>
    if r.rsi = c.flagAddr then some { s with flag := true, core := upd s.core a (.up r) }
    else some s.panic
  | .up _ => none

inductive Act where
  | bsp (p e : Nat)
  | timeout
  | core (a : Nat)

/-- One step of the system; nothing happens after a panic or hang. -/
def step (c : Cfg) (s : St) : Act → Option St
  | .bsp p e => if s.halt.isSome then none else bspStep c s p e
  | .timeout => if s.halt.isSome then none else timeout s
  | .core a => if s.halt.isSome then none else coreStep c s a

/-- A run: `none` if one of its steps is not possible. -/
def run (c : Cfg) : St → List Act → Option St
  | s, [] => some s
  | s, x :: xs => (step c s x).bind (run c · xs)

/-- The states a run can reach. -/
inductive Reach (c : Cfg) (s0 : St) : St → Prop
  | init : Reach c s0 s0
  | step {s s' : St} {x : Act} : Reach c s0 s → step c s x = some s' → Reach c s0 s'

end NRK.Coreboot
