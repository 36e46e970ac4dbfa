import Verif.VSpace.VSpaceModel

/-!
# Model of user buffers

`kernel/src/process.rs` lines 612-991 and the read-only process operations of
`kernel/src/nrproc.rs` lines 490-544.
-/

namespace NRK.Proc

open NRK.VSpace NRK.Mem

/-- `KERNEL_BASE` (`lib/kpi/src/lib.rs` line 31). -/
def KERNEL_BASE : Nat := 0x400000000000

/-- `i32::MAX as usize`, the largest length of a user buffer (`kernel/src/process.rs` line 813). -/
def MAX_USER_LEN : Nat := 2147483647

/-- `UVAddr::try_from` for `u64` and `usize` (`kernel/src/process.rs` lines 642-665). -/
def uvaddr (va : Nat) : Outcome Nat := if va < KERNEL_BASE then .ok va else .err .notAUserVAddr

/-- `UserSlice` (`kernel/src/process.rs` lines 799-804). -/
structure UserSlice where
  pid : Nat
  base : Nat
  len : Nat
deriving DecidableEq, Repr

/-- `usize::checked_add`. -/
def checkedAdd (a b : Nat) : Option Nat := if a + b < 2 ^ 64 then some (a + b) else none

/-- `UserSlice::new` (`kernel/src/process.rs` lines 811-824).  `base` comes from `uvaddr`.  The
`debug_assert` on the process id is left out. -/
def UserSlice.new (pid base len : Nat) : Outcome UserSlice :=
  if len > MAX_USER_LEN then .err .userBufferTooLarge
  else
    match checkedAdd base len with
    | some e =>
      if base ≥ 4096 ∧ e < KERNEL_BASE then .ok ⟨pid, base, len⟩ else .err .invalidUserBufferArgs
    | none => .err .invalidUserBufferArgs

/-- `UserSlice::for_current_proc` (`kernel/src/process.rs` lines 830-837); `cur` is `current_pid()`, the
arguments are the registers of the system call. -/
def UserSlice.forCurrentProc (cur : Option Nat) (base len : BitVec 64) : Outcome UserSlice :=
  match cur with
  | none => .err .processNotSet
  | some pid => (uvaddr base.toNat).bind fun b => UserSlice.new pid b len.toNat

/-- The loop of `is_accessible` (`kernel/src/process.rs` lines 869-880) over `n` pages from `a`. -/
def checkPages (vs : VSpace) (writeable : Bool) : Nat → Nat → Outcome Unit
  | 0, _ => .ok ()
  | n + 1, a =>
    (uvaddr a).bind fun a' => (vs.resolve a').bind fun pr =>
      if writeable = true ∧ pr.2.write = false then .err .userPtMissingWriteAccess
      else if writeable = false ∧ pr.2.present = false then .err .userPtMissingReadAccess
      else checkPages vs writeable n (a + 4096)

/-- Number of values of `(start..end).step_by(4096)`. -/
def stepCount (start e : Nat) : Nat := (e - start + 4095) / 4096

/-- `UserSlice::is_accessible` (`kernel/src/process.rs` lines 846-883). -/
def UserSlice.isAccessible (u : UserSlice) (pid : Nat) (vs : VSpace) (cur : Option Nat)
    (writeable : Bool) : Outcome Unit :=
  if u.pid ≠ pid then .err .pidMismatchInProcessArgument
  else if cur.isSome ∧ cur ≠ some pid then .err .notInRightAddressSpaceForReading
  else
    let start := u.base / 4096 * 4096
    checkPages vs writeable (stepCount start (u.base + u.len)) start

/-! ## Memory accesses of the processor

The processor translates an address with the page table that is loaded, `cpu`; that is the page table of
the current process if there is one.  An access to a page that is not mapped faults, which stops the
kernel.  A write by the kernel to a read-only page faults if the flag `CR0.WP` is set (`wp`), and
succeeds if not.  `/repo` sets the flag on all cores but the first (`arch/x86_64/start_ap.S` lines 63-65);
there it is as the firmware left it (`arch/x86_64/mod.rs` lines 122-127). -/

/-- A byte read from the virtual address `x`. -/
def loadByte (vs : VSpace) (mem : Nat → UInt8) (x : Nat) : Outcome UInt8 :=
  match vs.resolve x with
  | .ok (p, _) => .ok (mem p)
  | _ => .panic

/-- A byte written to the virtual address `x`. -/
def storeByte (wp : Bool) (vs : VSpace) (mem : Nat → UInt8) (x : Nat) (b : UInt8) : Outcome (Nat → UInt8) :=
  match vs.resolve x with
  | .ok (p, r) => if wp = true ∧ r.write = false then .panic else .ok (upd mem p b)
  | _ => .panic

/-- Copy `n` bytes out of user memory. -/
def loadBytes (vs : VSpace) (mem : Nat → UInt8) : Nat → Nat → Outcome (List UInt8)
  | 0, _ => .ok []
  | n + 1, x => (loadByte vs mem x).bind fun b => (loadBytes vs mem n (x + 1)).map fun l => b :: l

/-- Copy bytes into user memory. -/
def storeBytes (wp : Bool) (vs : VSpace) : (Nat → UInt8) → Nat → List UInt8 → Outcome (Nat → UInt8)
  | mem, _, [] => .ok mem
  | mem, x, b :: rest => (storeByte wp vs mem x b).bind fun mem' => storeBytes wp vs mem' (x + 1) rest

/-- `ProcessOp::ReadSlice` (`kernel/src/nrproc.rs` lines 497-515), with `with_slice`
(`kernel/src/process.rs` lines 887-900); `ReadString` and `ExecSlice` make the same access. -/
def readSlice (pid : Nat) (vs cpu : VSpace) (cur : Option Nat) (mem : Nat → UInt8)
    (u : UserSlice) : Outcome (List UInt8) :=
  (u.isAccessible pid vs cur false).bind fun _ => loadBytes cpu mem u.len u.base

/-- `ProcessOp::WriteSlice` (`kernel/src/nrproc.rs` lines 524-534), with `with_slice_mut`
(`kernel/src/process.rs` lines 904-955), which checks for readable pages. -/
def writeSlice (wp : Bool) (pid : Nat) (vs cpu : VSpace) (cur : Option Nat) (mem : Nat → UInt8)
    (u : UserSlice) (kbuf : List UInt8) : Outcome (Nat → UInt8) :=
  if u.len ≠ kbuf.length then .err .sliceLengthMismatchForWriting
  else (u.isAccessible pid vs cur false).bind fun _ => storeBytes wp cpu mem u.base kbuf

/-- `UserSlice::subslice` (`kernel/src/process.rs` lines 961-971); a panic if out of bounds, and on
`index.end - index.start` below zero. -/
def UserSlice.subslice (u : UserSlice) (i j : Nat) : Outcome UserSlice :=
  if i > u.len ∨ j > u.len then .panic
  else
    match uvaddr (u.base + i) with
    | .ok b => if j < i then .panic else .ok ⟨u.pid, b, j - i⟩
    | _ => .panic

/-- `SliceAccess::write_subslice` of `UserSlice` (`kernel/src/process.rs` lines 984-991). -/
def writeSubslice (wp : Bool) (pid : Nat) (vs cpu : VSpace) (cur : Option Nat) (mem : Nat → UInt8)
    (u : UserSlice) (kbuf : List UInt8) (off : Nat) : Outcome (Nat → UInt8) :=
  if u.len < off + kbuf.length then .err .invalidOffset
  else (u.subslice off (off + kbuf.length)).bind fun v => writeSlice wp pid vs cpu cur mem v kbuf

end NRK.Proc
