import Verif.Acpi.Spec

/-!
# Model of the functions the kernel gives to the ACPI interpreter

`kernel/src/arch/x86_64/acpi.rs` lines 38-55 and 163-355, and the part of the boot loader that finds the tables.
-/

namespace NRK.Acpi

open Spec (Op Guid Port)

/-! ## Memory -/

/-- Bytes of memory, and the blocks (address, size of the layout) the kernel's allocator has given out. -/
structure St where
  mem : Nat → UInt8
  live : List (Nat × Nat)

/-- Store `k` bytes of a number, the lowest first (`*(ptr as *mut u64) = ..`, `acpi.rs` line 183, with k = 8). -/
def store : Nat → (Nat → UInt8) → Nat → Nat → (Nat → UInt8)
  | 0, m, _, _ => m
  | k + 1, m, p, x => upd (store k m (p + 1) (x / 256)) p (UInt8.ofNat (x % 256))

/-- Load `k` bytes (`*(.. as *mut u64)`, `acpi.rs` line 198, with k = 8). -/
def load : Nat → (Nat → UInt8) → Nat → Nat
  | 0, _, _ => 0
  | k + 1, m, p => (m p).toNat + 256 * load k m (p + 1)

/-- `HEADER_SIZE` (`acpi.rs` line 163). -/
def HEADER_SIZE : Nat := 16

/-- `alloc::alloc` with alignment 8: `pick` chooses the address; 0 is null. -/
def rawAlloc (pick : List (Nat × Nat) → Nat → Option Nat) (s : St) (size : Nat) : Nat × St :=
  match pick s.live size with
  | none => (0, s)
  | some p => (p, { s with live := (p, size) :: s.live })

/-- `alloc::dealloc`: undefined (`none`) unless the block is in use and was allocated with this layout. -/
def rawFree (s : St) (p size : Nat) : Option St :=
  if (p, size) ∈ s.live then some { s with live := s.live.filter (· != (p, size)) } else none

/-- `AcpiOsAllocate` (`acpi.rs` lines 171-189).  The sum is that of a release build, which wraps. -/
def osAllocate (pick : List (Nat × Nat) → Nat → Option Nat) (s : St) (size : Nat) : Nat × St :=
  let allocation_size := (size + HEADER_SIZE) % 2 ^ 64
  let r := rawAlloc pick s allocation_size
  if r.1 ≠ 0 then (r.1 + HEADER_SIZE, { r.2 with mem := store 8 r.2.mem r.1 allocation_size }) else (0, r.2)

/-- `AcpiOsFree` (`acpi.rs` lines 193-204). -/
def osFree (s : St) (p : Nat) : Option St :=
  if p = 0 then some s
  else rawFree s (p - HEADER_SIZE) (load 8 s.mem (p - HEADER_SIZE))

/-- One operation: its result (0 if it has none) and the state; `none` is undefined behaviour.  The interpreter calls
`AcpiOsAllocate` and `AcpiOsFree` (`acpi.rs` lines 171-204), other kernel code the allocator itself. -/
def step (pick : List (Nat × Nat) → Nat → Option Nat) (s : St) : Op → Option (Nat × St)
  | .alloc n => some (osAllocate pick s n)
  | .free p => (osFree s p).map (fun s' => (0, s'))
  | .write a v => some (0, { s with mem := upd s.mem a v })
  | .kalloc n => some (rawAlloc pick s n)
  | .kfree p n => (rawFree s p n).map (fun s' => (0, s'))
  | .kwrite a v => some (0, { s with mem := upd s.mem a v })

/-! ## Physical memory -/

/-- `KERNEL_BASE` (`lib/kpi/src/lib.rs`). -/
def KERNEL_BASE : Nat := 0x400000000000

/-- `round_up!` (`kernel/src/prelude.rs` lines 15-19). -/
def roundUp (n m : Nat) : Nat := (n + m - 1) / m * m

/-- `AcpiOsMapMemory` (`acpi.rs` lines 208-227); `none` is the panic of a failed map call.  `map` is the page table's
`map_identity_with_offset` (`page_table.rs` lines 193-214), here in units of pages.  Simplification: natural numbers;
physical addresses are below 2^52, so that nothing wraps. -/
def osMapMemory (map : (Nat → Option Nat) → Nat → Nat → Nat → Option (Nat → Option Nat)) (t : Nat → Option Nat)
    (location len : Nat) : Option (Nat × (Nat → Option Nat)) :=
  let base := location / 4096 * 4096
  let adjusted_len := (location - base) + len
  match map t ((KERNEL_BASE + base) / 4096) (base / 4096) (roundUp adjusted_len 4096 / 4096) with
  | none => none
  | some t' => some (location + KERNEL_BASE, t')

/-- `AcpiOsUnmapMemory` (`acpi.rs` lines 231-233): it only logs. -/
def osUnmapMemory (t : Nat → Option Nat) (_vptr _len : Nat) : Nat → Option Nat := t

/-- Calls that map and unmap: `AcpiOsMapMemory` (`acpi.rs` lines 208-227) and `AcpiOsUnmapMemory` (231-233). -/
inductive MapOp where
  | map (location len : Nat)
  | unmap (vptr len : Nat)
  deriving DecidableEq, Repr

/-- A sequence of such calls (`acpi.rs` lines 208-233): what each map call was asked for and returned, newest first,
and the page table. -/
def runMaps (map : (Nat → Option Nat) → Nat → Nat → Nat → Option (Nat → Option Nat)) :
    List (Nat × Nat × Nat) → (Nat → Option Nat) → List MapOp → Option (List (Nat × Nat × Nat) × (Nat → Option Nat))
  | got, t, [] => some (got, t)
  | got, t, .map loc len :: l =>
    match osMapMemory map t loc len with
    | none => none
    | some (p, t') => runMaps map ((loc, len, p) :: got) t' l
  | got, t, .unmap p len :: l => runMaps map got (osUnmapMemory t p len) l

/-! ## The root of the tables -/

/-- `acpi1_rsdp` and `acpi2_rsdp` of the kernel's arguments. -/
structure Args where
  acpi1 : Nat
  acpi2 : Nat

/-- The boot loader's loop over the configuration table (`bootloader/src/main.rs` lines 497-503); the page of the
arguments has been cleared before. -/
def findTables (l : List (Guid × Nat)) : Args :=
  l.foldl (fun a e =>
    if e.1 = .acpi2 then { a with acpi2 := e.2 }
    else if e.1 = .acpi1 then { a with acpi1 := e.2 }
    else a) ⟨0, 0⟩

/-- `AcpiOsGetRootPointer` (`acpi.rs` lines 40-55); `none`: the arguments are not there yet. -/
def osGetRootPointer (args : Option Args) : Nat :=
  let r : Option Nat × Option Nat :=
    match args with
    | none => (none, none)
    | some a => (some a.acpi1, some a.acpi2)
  match r.2, r.1 with
  | some ptr, _ => ptr
  | none, some ptr => ptr
  | none, none => 0

/-! ## Ports -/

/-- Devices behind ports: state, answers of `in` and effects of `out` (8, 16 or 32 bits). -/
structure Devs (D : Type) where
  inp : D → Nat → Nat → Nat × D
  out : D → Nat → Nat → Nat → D

/-- `AcpiOsReadPort` (`acpi.rs` lines 309-330); `none` is AE_BAD_PARAMETER. -/
def osReadPort {D : Type} (h : Devs D) (d : D) (address width : Nat) : Option Nat × D :=
  let port := address % 2 ^ 16
  match width with
  | 8 => let r := h.inp d port 8; (some r.1, r.2)
  | 16 => let r := h.inp d port 16; (some r.1, r.2)
  | 32 => let r := h.inp d port 32; (some r.1, r.2)
  | _ => (none, d)

/-- `AcpiOsWritePort` (`acpi.rs` lines 334-355); `false` is AE_BAD_PARAMETER. -/
def osWritePort {D : Type} (h : Devs D) (d : D) (address val width : Nat) : Bool × D :=
  let port := address % 2 ^ 16
  match width with
  | 8 => (true, h.out d port 8 (val % 2 ^ 8))
  | 16 => (true, h.out d port 16 (val % 2 ^ 16))
  | 32 => (true, h.out d port 32 (val % 2 ^ 32))
  | _ => (false, d)

/-- Several accesses (`acpi.rs` lines 309-355): the answers (for a write: whether it was done) and the state. -/
def runPorts {D : Type} (h : Devs D) : D → List Port → List (Option Nat) × D
  | d, [] => ([], d)
  | d, .read a w :: l =>
    let r := osReadPort h d a w
    let r' := runPorts h r.2 l
    (r.1 :: r'.1, r'.2)
  | d, .write a w v :: l =>
    let r := osWritePort h d a v w
    let r' := runPorts h r.2 l
    ((if r.1 then some 0 else none) :: r'.1, r'.2)

end NRK.Acpi
