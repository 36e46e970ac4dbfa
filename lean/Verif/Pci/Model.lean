import Verif.Common
import Verif.Pci.Spec

/-!
# Model of a program's access to PCI devices

`lib/vibrio/src/rumprt/dev.rs` (the NetBSD drivers of a program), `AcpiOsReadPciConfiguration`
(`kernel/src/arch/x86_64/acpi.rs` lines 379-428), `lib/vmxnet3/src/pci.rs` lines 16-53 and `kernel/src/pci.rs`.
-/

namespace NRK.Pci

open Spec (Reg Bus Call Event IrqCall Dev)

/-! ## Configuration registers -/

/-- Shift of a 32-bit value to the left. -/
def shl32 (x n : Nat) : Nat := (x <<< n) % 2 ^ 32

/-- `reg as u32` of a `c_int`. -/
def asU32 (r : Int) : Nat := (r % 2 ^ 32).toNat

/-- `pci_bus_address` (`dev.rs` lines 24-28; the same in `vmxnet3/src/pci.rs` lines 17-21 and `acpi.rs` lines
403-406); `none` is the failed assertion. -/
def busAddress (bus dev fun_ : Nat) (reg : Int) : Option Nat :=
  if reg ≤ 0xfc then
    some (1 <<< 31 ||| shl32 bus 16 ||| shl32 dev 11 ||| shl32 fun_ 8 ||| asU32 reg &&& 0xfc)
  else none

/-- The hardware: the register an address in port 0xcf8 selects (PCI local bus specification, configuration
mechanism 1); `none` if bit 31 is not set. -/
def decode (a : Nat) : Option Reg :=
  if a.testBit 31 then some ⟨a >>> 16 % 2 ^ 8, a >>> 11 % 2 ^ 5, a >>> 8 % 2 ^ 3, a >>> 2 % 2 ^ 6⟩ else none

/-- `inl(0xcfc)`; without bit 31 the access does not reach a device and gives ones. -/
def inl {D : Type} (b : Bus D) (d : D) (latch : Nat) : Nat × D :=
  match decode latch with
  | some r => b.rd d r
  | none => (2 ^ 32 - 1, d)

/-- `outl(0xcfc, v)`. -/
def outl {D : Type} (b : Bus D) (d : D) (latch v : Nat) : D :=
  match decode latch with
  | some r => b.wr d r v
  | none => d

/-- MAX_CORES of a process (`lib/kpi/src/process.rs` line 15). -/
def MAX_CORES : Nat := 96

/-- Where a thread is in `rumpcomp_pci_confread` (`dev.rs` lines 36-63) or `rumpcomp_pci_confwrite` (lines 65-91). -/
inductive Pc where
  | idle
  /-- has the address, waits for CONFSPACE_LOCK (lines 51, 87) -/
  | waiting (c : Call) (addr : Nat)
  /-- holds the lock, before the `outl` of the address (lines 52, 88) -/
  | locked (c : Call) (addr : Nat)
  /-- before the access to the data port (lines 53, 89) -/
  | addressed (c : Call)
  /-- before the return, which frees the lock -/
  | done (r : Nat)
  /-- the assertion failed (line 25) -/
  | dead
deriving DecidableEq, Repr

/-- The machine, as far as configuration accesses see it: the address port, the devices, the lock, the threads, and
(for the statements only) what happened. -/
structure St (D : Type) where
  latch : Nat
  dev : D
  lock : Option Nat
  pc : Nat → Pc
  hist : List Event

/-- What happens. -/
inductive Act where
  | call (t : Nat) (c : Call)
  /-- the thread goes on -/
  | step (t : Nat)
  /-- someone else (another process, the kernel) writes the address port -/
  | foreign (a : Nat)

/-- The address of a call. -/
def callAddress : Call → Option Nat
  | .read b d f r | .write b d f r _ => busAddress b d f r

/-- A thread enters `rumpcomp_pci_confread` or `rumpcomp_pci_confwrite`; threads on cores with numbers above
MAX_CORES return 0 at once (lines 45-47, 74-76). -/
def enter {D : Type} (core : Nat → Nat) (s : St D) (t : Nat) (c : Call) : Option (St D) :=
  if s.pc t = .idle then
    if core t > MAX_CORES then some s
    else match callAddress c with
      | some a => some { s with pc := upd s.pc t (.waiting c a), hist := s.hist ++ [.start t c] }
      | none => some { s with pc := upd s.pc t .dead }
  else none

/-- The thread's next step; `none` if it cannot go on. -/
def advance {D : Type} (b : Bus D) (s : St D) (t : Nat) : Option (St D) :=
  match s.pc t with
  | .idle | .dead => none
  | .waiting c a =>
    if s.lock = none then some { s with lock := some t, pc := upd s.pc t (.locked c a) } else none
  | .locked c a => some { s with latch := a, pc := upd s.pc t (.addressed c) }
  | .addressed c =>
    match c with
    | .read .. =>
      let r := inl b s.dev s.latch
      some { s with dev := r.2, pc := upd s.pc t (.done r.1), hist := s.hist ++ [.effect t c r.1] }
    | .write _ _ _ _ v =>
      some { s with dev := outl b s.dev s.latch v, pc := upd s.pc t (.done 0), hist := s.hist ++ [.effect t c 0] }
  | .done r => some { s with lock := none, pc := upd s.pc t .idle, hist := s.hist ++ [.ret t r] }

def act {D : Type} (b : Bus D) (core : Nat → Nat) (s : St D) : Act → Option (St D)
  | .call t c => enter core s t c
  | .step t => advance b s t
  | .foreign a => some { s with latch := a }

/-- Any schedule; an action that is not possible is not taken. -/
def run {D : Type} (b : Bus D) (core : Nat → Nat) (s : St D) : List Act → St D
  | [] => s
  | a :: as => run b core ((act b core s a).getD s) as

/-- At the start. -/
def St.init {D : Type} (d : D) (latch : Nat) : St D := ⟨latch, d, none, fun _ => .idle, []⟩

/-- `AcpiOsReadPciConfiguration` (`acpi.rs` lines 379-428) at a moment at which nobody else uses the ports; the
register is a `u32`, turned into an `i32`.  `none` is the failed assertion, `some none` is AE_BAD_PARAMETER. -/
def acpiRead {D : Type} (b : Bus D) (d : D) (bus dev fun_ reg width : Nat) : Option (Option Nat × D) :=
  match busAddress bus dev fun_ (if reg < 2 ^ 31 then reg else (reg : Int) - 2 ^ 32) with
  | none => none
  | some a =>
    if width = 8 ∨ width = 16 ∨ width = 32 then
      let r := inl b d a
      some (some (r.1 % 2 ^ width), r.2)
    else some (none, d)

/-! ## Memory for devices -/

/-- A program's memory as its drivers see it: where the kernel has mapped each page, the cache of translations
(PADDR_CACHE, `dev.rs` line 21), and break and limit of each core's pager (`mem.rs` lines 46-49). -/
structure Mem where
  pt : Nat → Option Nat
  cache : Option (List (Nat × Nat))
  sbrk : Nat → Nat
  limit : Nat → Nat

/-- Insert into the hash map. -/
def put (ht : List (Nat × Nat)) (k v : Nat) : List (Nat × Nat) := (k, v) :: ht.filter (·.1 != k)

/-- `rumpcomp_pci_iospace_init` (`dev.rs` lines 30-34). -/
def iospaceInit (m : Mem) : Mem := { m with cache := some [] }

/-- `identify` (`dev.rs` lines 206-219): the kernel is asked for the page; a page that is not mapped panics
(`unwrap`, line 208). -/
def identify (m : Mem) (va : Nat) : Option Nat :=
  match m.pt (va / 4096) with
  | some p => some (p + va % 4096)
  | none => none

/-- `rumpcomp_pci_virt_to_mach` (`dev.rs` lines 201-241).  Pages are kept by their number. -/
def virtToMach (m : Mem) (va : Nat) : Option (Nat × Mem) :=
  match m.cache with
  | none => (identify m va).map (·, m)
  | some ht =>
    match ht.lookup (va / 4096) with
    | some p => some (p + va % 4096, m)
    | none =>
      match identify m va with
      | some pa => some (pa, { m with cache := some (put ht (va / 4096) (pa / 4096 * 4096)) })
      | none => none

def roundUp (x a : Nat) : Nat := (x + (a - 1)) / a * a

/-- The kernel maps `n` pages from page `v` to the memory at `p`. -/
def mapped (pt : Nat → Option Nat) (v n p : Nat) : Nat → Option Nat :=
  fun x => if v ≤ x ∧ x < v + n then some (p + (x - v) * 4096) else pt x

/-- All of the pages are free. -/
def allFree (pt : Nat → Option Nat) (v n : Nat) : Bool := (List.range n).all fun i => (pt (v + i)).isNone

/-- `Pager::allocate` (`mem.rs` lines 72-87) of `size` bytes aligned to `size` (4096 or 2 MiB): the system call that
maps memory (C58) gives one aligned frame, `frame`, or fails. -/
def pagerAllocate (m : Mem) (core size : Nat) (frame : Option Nat) : Option (Nat × Nat) × Mem :=
  let b := roundUp (m.sbrk core) size
  let m := { m with sbrk := upd m.sbrk core b }
  if b ≥ m.limit core then (none, m)
  else
    match frame with
    | some p =>
      if p % size = 0 ∧ allFree m.pt (b / 4096) (size / 4096) then
        (some (b, p),
          { m with pt := mapped m.pt (b / 4096) (size / 4096) p, sbrk := upd m.sbrk core (b + size) })
      else (none, m)
    | none => (none, m)

/-- What `rumpcomp_pci_dmalloc` returns. -/
inductive Dma where
  | ok (va pa : Nat)
  | fail
  | panic
deriving DecidableEq, Repr

/-- The size that is really allocated (`dev.rs` line 254). -/
def span (size : Nat) : Nat := if size > 4096 then 2 * 1024 * 1024 else 4096

/-- `rumpcomp_pci_dmalloc` (`dev.rs` lines 243-286); the alignment asked for is not used. -/
def dmalloc (m : Mem) (core size _alignment : Nat) (frame : Option Nat) : Dma × Mem :=
  if size ≤ 2 * 1024 * 1024 then
    match pagerAllocate m core (span size) frame with
    | (some (v, p), m) => (.ok v p, { m with cache := m.cache.map (put · (v / 4096) p) })
    | (none, m) => (.fail, m)
  else (.panic, m)

/-- What a program does with its memory: the calls above, `rumpcomp_pci_dmafree` (which does nothing, `dev.rs` lines
288-291), and the mapping and unmapping of pages by anything else in the program. -/
inductive MemAct where
  | init
  | translate (va : Nat)
  | dmalloc (core size alignment : Nat) (frame : Option Nat)
  | dmafree (pa size : Nat)
  | map (page frame : Nat)
  | unmap (page : Nat)
deriving DecidableEq, Repr

def memStep (m : Mem) : MemAct → Mem
  | .init => iospaceInit m
  | .translate va => ((virtToMach m va).map (·.2)).getD m
  | .dmalloc core size al frame => (dmalloc m core size al frame).2
  | .dmafree _ _ => m
  | .map page frame =>
    if m.pt page = none ∧ frame % 4096 = 0 then { m with pt := upd m.pt page (some frame) } else m
  | .unmap page => { m with pt := upd m.pt page none }

def memRun (m : Mem) (as : List MemAct) : Mem := as.foldl memStep m

/-! ## Interrupts -/

/-- IRQS[0] (`dev.rs` lines 93-108), of which handler and argument are used, and the interrupts there is a thread for. -/
structure Irqs where
  slot : Option (Nat × Nat)
  threads : List Nat

/-- `rumpcomp_pci_irq_map` (lines 110-144) and `rumpcomp_pci_irq_establish` (lines 173-185). -/
def irqCall (s : Irqs) : IrqCall → Irqs
  | .map v _ => { s with threads := v :: s.threads }
  | .establish _ h a => { s with slot := some (h, a) }

/-- The thread of the interrupt runs the handler in IRQS[0] (`irq_handler`, line 164); `none` if there is no thread,
`some none` is the panic without a handler. -/
def irqRun (s : Irqs) (v : Nat) : Option (Option (Nat × Nat)) :=
  if v ∈ s.threads then some s.slot else none

def irqCalls (cs : List IrqCall) : Irqs := cs.foldl irqCall ⟨none, []⟩

/-! ## Devices of the kernel -/

/-- Where a thread is in `claim_device` (`kernel/src/pci.rs` lines 37-47) or, with `all`, `claim_devices` (lines
50-63): it looks for a device with these numbers, has come to slot `i`, and has taken `got`. -/
structure Claim where
  all : Bool
  want : Dev
  i : Nat
  got : List Nat
deriving DecidableEq, Repr

/-- PCI_DEVICES (lines 22-34): what was found at boot, which of them are still there, the threads, and what finished
calls returned. -/
structure Claims where
  devs : List Dev
  there : List Bool
  pc : Nat → Option Claim
  returned : List (Claim × List Nat)

def Claims.init (devs : List Dev) : Claims := ⟨devs, devs.map fun _ => true, fun _ => none, []⟩

inductive ClaimAct where
  | call (t : Nat) (all : Bool) (want : Dev)
  | step (t : Nat)

/-- One slot, under its lock (lines 39-44, 53-60), or the return. -/
def claimStep (s : Claims) : ClaimAct → Claims
  | .call t all want =>
    match s.pc t with
    | none => { s with pc := upd s.pc t (some ⟨all, want, 0, []⟩) }
    | some _ => s
  | .step t =>
    match s.pc t with
    | none => s
    | some c =>
      match s.devs[c.i]? with
      | none => { s with pc := upd s.pc t none, returned := (c, c.got) :: s.returned }
      | some d =>
        if s.there[c.i]? = some true ∧ d = c.want then
          let c' := { c with i := c.i + 1, got := c.got ++ [c.i] }
          let s' := { s with there := s.there.set c.i false }
          if c.all then { s' with pc := upd s.pc t (some c') }
          else { s' with pc := upd s.pc t none, returned := (c', c'.got) :: s.returned }
        else { s with pc := upd s.pc t (some { c with i := c.i + 1 }) }

def claimRun (s : Claims) (as : List ClaimAct) : Claims := as.foldl claimStep s

end NRK.Pci
