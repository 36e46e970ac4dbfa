import Verif.Fs.RefModel
import Verif.Sys.SyscallModel

/-!
# Model of the reference for the file system calls, `ModelFIO` of `usr/init/src/fs.rs`

A user program runs random sequences of file system calls and compares every result with a log of creations and
writes and a table of descriptors.  Sizes and offsets are natural numbers (64-bit in the code).
-/

namespace NRK.Fs

open NRK.Sys (SysError)

/-- What a user program gets from a call: a value, an error number, or nothing because the kernel panicked. -/
inductive SysRes where
  | done
  | num (n : Nat)
  | data (n : Nat) (buf : List UInt8)
  | err (e : SysError)
  | panic
deriving DecidableEq, Repr

/-- The calls of the test (`usr/init/src/fs.rs` lines 566-574): a read has the buffer of the caller, a write a pattern
and a length. -/
inductive FioAction where
  | read (fd : Fd) (dst : List UInt8)
  | write (fd : Fd) (pat : UInt8) (len : Nat)
  | readAt (fd : Fd) (dst : List UInt8) (off : Nat)
  | writeAt (fd : Fd) (pat : UInt8) (len off : Nat)
  | open (name : String) (flags : Flags) (modes : Modes)
  | delete (name : String)
  | close (fd : Fd)

/-! ## The reference -/

/-- `ModelFIO` (`usr/init/src/fs.rs` lines 119-126): the log and counter of `ModelFS`, and descriptors. -/
structure ModelFIO where
  log : ModelFS
  fds : FdTable

/-- `ModelFIO::default` (`usr/init/src/fs.rs` lines 128-141, 68-75). -/
def ModelFIO.init : ModelFIO := ⟨ModelFS.init, FdTable.default⟩

/-- The loop of `file_size` over the log, latest entry first (`usr/init/src/fs.rs` lines 190-208). -/
def fileSizeGo (mn : Nat) : List RefOp → Nat → Nat
  | [], len => len
  | .write m o _ n :: l, len => fileSizeGo mn l (if mn = m then max (o + n) len else len)
  | .created _ _ m :: l, len => if mn = m then len else fileSizeGo mn l len

/-- `file_size` (`usr/init/src/fs.rs` lines 190-208). -/
def fileSize (l : List RefOp) (mn : Nat) : Nat := fileSizeGo mn l.reverse 0

/-- Whether `remove_entries` removes an entry (`usr/init/src/fs.rs` lines 213-224). -/
def RefOp.removed (mn : Nat) (created write : Bool) : RefOp → Bool
  | .write m .. => write && decide (mn = m)
  | .created _ _ m => created && decide (mn = m)

/-- The indices that `remove_entries` collects, highest first (`usr/init/src/fs.rs` lines 211-225). -/
def removedIdx (p : RefOp → Bool) : List RefOp → List Nat
  | [] => []
  | o :: l => (removedIdx p l).map (· + 1) ++ (if p o then [0] else [])

/-- `remove_entries` (`usr/init/src/fs.rs` lines 210-231). -/
def removeEntries (l : List RefOp) (mn : Nat) (created write : Bool) : List RefOp :=
  (removedIdx (RefOp.removed mn created write) l).foldl List.eraseIdx l

/-- The permissions at the index of a name (`usr/init/src/fs.rs` lines 283-288). -/
def modesOf (l : List RefOp) (name : String) (given : Modes) : Modes :=
  match lastIdx name l with
  | some i =>
    match l[i]? with
    | some (.created _ md _) => md
    | _ => given
  | none => given

/-- `ModelFIO::open` (`usr/init/src/fs.rs` lines 260-324). -/
def ModelFIO.open (m : ModelFIO) (name : String) (flags : Flags) (modes : Modes) : SysRes × ModelFIO :=
  if flags.append && flags.truncate then (.err .internalError, m)
  else
    match m.log.lookup name with
    | some mn =>
      match m.fds.allocate with
      | none => (.err .internalError, m)
      | some (fid, t) =>
        if flags.append then
          (.num fid.val, { m with fds := upd t fid (some ⟨mn, flags, fileSize m.log.oplog mn⟩) })
        else if flags.truncate then
          if (modesOf m.log.oplog name modes).writable then
            (.num fid.val,
              ⟨{ m.log with oplog := removeEntries m.log.oplog mn false true }, upd t fid (some ⟨mn, flags, 0⟩)⟩)
          else (.err .internalError, { m with fds := upd t fid none })
        else (.num fid.val, { m with fds := upd t fid (some ⟨mn, flags, 0⟩) })
    | none =>
      if !flags.create then (.err .internalError, m)
      else
        let mn := m.log.counter + 1
        let log : ModelFS := ⟨m.log.oplog ++ [.created name modes mn], mn⟩
        match m.fds.allocate with
        | none => (.err .internalError, { m with log := log })
        | some (fid, t) => (.num fid.val, ⟨log, upd t fid (some ⟨mn, flags, 0⟩)⟩)

/-- `ModelFIO::write_at`, with `none` for the offset -1 (`usr/init/src/fs.rs` lines 326-396). -/
def ModelFIO.writeAt (m : ModelFIO) (fd : Fd) (buffer : List UInt8) (offset : Option Nat) : SysRes × ModelFIO :=
  match buffer with
  | [] => (.err .badFileDescriptor, m)
  | pat :: _ =>
    match m.fds fd with
    | none => (.err .internalError, m)
    | some e =>
      if !e.flags.write then (.err .internalError, m)
      else if m.log.mnodeExists e.mnode then
        let off := offset.getD (if e.flags.append then fileSize m.log.oplog e.mnode else e.offset)
        if m.log.oplog.any (RefOp.noWrite e.mnode) then (.err .internalError, m)
        else
          (.num buffer.length,
            ⟨{ m.log with oplog := m.log.oplog ++ [.write e.mnode off pat buffer.length] },
             if offset.isNone then upd m.fds fd (some { e with offset := off + buffer.length }) else m.fds⟩)
      else (.err .internalError, m)

/-- A log entry that forbids reading the inode (`usr/init/src/fs.rs` lines 433-447). -/
def RefOp.noRead (mn : Nat) : RefOp → Bool
  | .created _ modes m => decide (m = mn) && !modes.readable
  | .write .. => false

/-- The loop that fills the buffer, latest write first (`usr/init/src/fs.rs` lines 470-504). -/
def gatherFio (mn off : Nat) : List RefOp → List (Option UInt8) → List (Option UInt8)
  | [], buf => buf
  | .write m o p n :: l, buf =>
    if m = mn ∧ o < off + buf.length ∧ off < o + n then gatherFio mn off l (fillRange off o (o + n) p buf)
    else gatherFio mn off l buf
  | .created .. :: l, buf => gatherFio mn off l buf

/-- `ModelFIO::read_at`, with `none` for the offset -1 (`usr/init/src/fs.rs` lines 398-536). -/
def ModelFIO.readAt (m : ModelFIO) (fd : Fd) (dst : List UInt8) (offset : Option Nat) : SysRes × ModelFIO :=
  if dst.length = 0 then (.err .badFileDescriptor, m)
  else
    match m.fds fd with
    | none => (.err .internalError, m)
    | some e =>
      let off := offset.getD e.offset
      if !e.flags.read then (.err .internalError, m)
      else if m.log.mnodeExists e.mnode then
        if m.log.oplog.any (RefOp.noRead e.mnode) then (.err .internalError, m)
        else if fileSize m.log.oplog e.mnode ≤ off then (.data 0 dst, m)
        else
          let n := min (fileSize m.log.oplog e.mnode - off) dst.length
          let buf := gatherFio e.mnode off m.log.oplog.reverse (List.replicate n none)
          (.data n (buf.map (fun v => v.getD 0) ++ dst.drop n),
            if offset.isNone then { m with fds := upd m.fds fd (some { e with offset := off + n }) } else m)
      else (.err .internalError, m)

/-- `ModelFIO::delete` (`usr/init/src/fs.rs` lines 543-553). -/
def ModelFIO.delete (m : ModelFIO) (name : String) : SysRes × ModelFIO :=
  match m.log.lookup name with
  | some mn => (.done, { m with log := { m.log with oplog := removeEntries m.log.oplog mn true true } })
  | none => (.err .internalError, m)

/-- `ModelFIO::close` and `deallocate_fd` (`usr/init/src/fs.rs` lines 555-558, 88-107). -/
def ModelFIO.close (m : ModelFIO) (fd : Fd) : SysRes × ModelFIO :=
  match m.fds fd with
  | some _ => (.done, { m with fds := upd m.fds fd none })
  | none => (.err .internalError, m)

/-- A call on the reference (`model_equivalence`, `usr/init/src/fs.rs` lines 663-757). -/
def fioRef (m : ModelFIO) : FioAction → SysRes × ModelFIO
  | .read fd dst => m.readAt fd dst none
  | .write fd pat len => m.writeAt fd (List.replicate len pat) none
  | .readAt fd dst off => m.readAt fd dst (some off)
  | .writeAt fd pat len off => m.writeAt fd (List.replicate len pat) (some off)
  | .open name flags modes => m.open name flags modes
  | .delete name => m.delete name
  | .close fd => m.close fd

/-! ## The system -/

/-- What comes back to the program: `SystemCallError::from` of the kernel's error, or the value
(`lib/kpi/src/syscalls/io.rs` lines 44-76, 100-113, 190-208). -/
def toUser : Outcome NodeResult → SysRes
  | .ok (.fileOpened fd) => .num fd.val
  | .ok (.fileAccessed n) => .num n
  | .ok (.fileRead n buf) => .data n buf
  | .ok _ => .done
  | .err e => .err (SysError.ofKError e)
  | .panic => .panic

/-- A call on the system, from the stubs (`lib/kpi/src/syscalls/io.rs` lines 44-173: reads and writes of length 0 are
refused there) to the file system (`kernel/src/syscalls.rs` lines 359-402); no allocation fails. -/
def fioSys (nlogs pid : Nat) (n : Node) : FioAction → SysRes × Node
  | .read fd dst =>
    if dst.length = 0 then (.err .badFileDescriptor, n)
    else (toUser (n.call nlogs (.read pid fd dst none) .good).1, (n.call nlogs (.read pid fd dst none) .good).2)
  | .write fd pat len =>
    if len = 0 then (.err .badFileDescriptor, n)
    else (toUser (n.call nlogs (.write pid fd (List.replicate len pat) none) .good).1,
      (n.call nlogs (.write pid fd (List.replicate len pat) none) .good).2)
  | .readAt fd dst off =>
    if dst.length = 0 then (.err .badFileDescriptor, n)
    else (toUser (n.call nlogs (.read pid fd dst (some off)) .good).1,
      (n.call nlogs (.read pid fd dst (some off)) .good).2)
  | .writeAt fd pat len off =>
    if len = 0 then (.err .badFileDescriptor, n)
    else (toUser (n.call nlogs (.write pid fd (List.replicate len pat) (some off)) .good).1,
      (n.call nlogs (.write pid fd (List.replicate len pat) (some off)) .good).2)
  | .open name flags modes =>
    (toUser (n.call nlogs (.open pid name flags modes) .good).1, (n.call nlogs (.open pid name flags modes) .good).2)
  | .delete name => (toUser (n.call nlogs (.delete pid name) .good).1, (n.call nlogs (.delete pid name) .good).2)
  | .close fd => (toUser (n.call nlogs (.close pid fd) .good).1, (n.call nlogs (.close pid fd) .good).2)

/-- The file system when the program starts: its process has been added. -/
def fioStart (nlogs pid : Nat) : Node := (Node.init.call nlogs (.addProcess pid) .good).2

/-- The results of a sequence of calls. -/
def fioSysRun (nlogs pid : Nat) : Node → List FioAction → List SysRes
  | _, [] => []
  | n, a :: as => (fioSys nlogs pid n a).1 :: fioSysRun nlogs pid (fioSys nlogs pid n a).2 as

def fioRefRun : ModelFIO → List FioAction → List SysRes
  | _, [] => []
  | m, a :: as => (fioRef m a).1 :: fioRefRun (fioRef m a).2 as

end NRK.Fs
