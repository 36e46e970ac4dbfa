import Verif.VSpace.PageTableModel

/-!
# Model of the kernel debugger's memory access

`read_addrs` and `write_addrs` (`kernel/src/arch/x86_64/gdb/single_thread_ops.rs` lines 158-271) over the page tables in use
(`NRK.VSpace`) and physical memory.  Page tables are kept apart from the memory they translate to: the debugger
does not write to them here.
-/

namespace NRK.Gdb

open NRK.VSpace

/-- What the debugger gets, or a fault in the kernel while it serves the request. -/
inductive MemRes (α : Type) where
  | ok (a : α)
  | nonFatal
  | fault
deriving DecidableEq, Repr

/-- The physical address of an access by the kernel, if the processor allows it: the address is canonical and mapped, the
page is not one of user space (`SMAP` is on, `bootloader/src/main.rs` line 432, and the debugger does not lift it), and
for a write it is writable (`CR0.WP` is set). -/
def hwAddr (t : PML4) (write : Bool) (x : Nat) : Option Nat :=
  if x < 2 ^ 47 ∨ 2 ^ 64 - 2 ^ 47 ≤ x then
    match leafAt t x with
    | some (lv, l) => if l.fl.us || (write && !l.fl.rw) then none else some (l.pa + x % lv.size)
    | none => none
  else none

/-- The check at the first byte and at each page of `read_addrs` (`gdb/single_thread_ops.rs` lines 181-199). -/
def mayRead (t : PML4) (x : Nat) : Bool :=
  match resolve t x with
  | .ok (_, r) => r.present
  | _ => false

/-- The check at the first byte and at each page of `write_addrs` (`gdb/single_thread_ops.rs` lines 224-262). -/
def mayWrite (t : PML4) (x : Nat) : Bool :=
  match resolve t x with
  | .ok (_, r) => !r.exec && r.write
  | _ => false

/-- The loop of `read_addrs` from byte `i` on, `n` bytes to go (`gdb/single_thread_ops.rs` lines 178-205). -/
def readLoop (t : PML4) (mem : Nat → UInt8) (start : Nat) : Nat → Nat → MemRes (List UInt8)
  | _, 0 => .ok []
  | i, n + 1 =>
    if (i = 0 ∨ (start + i) % 4096 = 0) ∧ mayRead t (start + i) = false then .nonFatal
    else
      match hwAddr t false (start + i) with
      | none => .fault
      | some pa =>
        match readLoop t mem start (i + 1) n with
        | .ok l => .ok (mem pa :: l)
        | r => r

/-- `read_addrs` (`gdb/single_thread_ops.rs` lines 158-208); `VADDR_RANGE` is `lib/kpi/src/x86_64.rs` line 20. -/
def readAddrs (t : PML4) (mem : Nat → UInt8) (start len : Nat) : MemRes (List UInt8) :=
  if 2 ^ 48 ≤ start then .nonFatal else readLoop t mem start 0 len

/-- The loop of `write_addrs` from byte `i` on (`gdb/single_thread_ops.rs` lines 220-268). -/
def writeLoop (t : PML4) (start : Nat) : Nat → List UInt8 → (Nat → UInt8) → MemRes Unit × (Nat → UInt8)
  | _, [], mem => (.ok (), mem)
  | i, b :: data, mem =>
    if (i = 0 ∨ (start + i) % 4096 = 0) ∧ (2 ^ 48 ≤ start ∨ mayWrite t (start + i) = false) then (.nonFatal, mem)
    else
      match hwAddr t true (start + i) with
      | none => (.fault, mem)
      | some pa => writeLoop t start (i + 1) data (upd mem pa b)

/-- `write_addrs` (`gdb/single_thread_ops.rs` lines 210-271). -/
def writeAddrs (t : PML4) (mem : Nat → UInt8) (start : Nat) (data : List UInt8) : MemRes Unit × (Nat → UInt8) :=
  writeLoop t start 0 data mem

end NRK.Gdb
