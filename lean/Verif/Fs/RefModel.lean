import Verif.Fs.FsModel

/-!
# Model of the project's reference file system, `ModelFS` of `kernel/src/fs/test.rs`

The project's randomised test compares `MlnrFS` with a log of creations and writes.
-/

namespace NRK.Fs

/-- `ModelOperation` (`fs/test.rs` lines 24-29). -/
inductive RefOp where
  | write (mnode off : Nat) (pat : UInt8) (len : Nat)
  | created (name : String) (modes : Modes) (mnode : Nat)
deriving DecidableEq, Repr

/-- `ModelFS` (`fs/test.rs` lines 32-37). -/
structure ModelFS where
  oplog : List RefOp
  counter : Nat

/-- `ModelFS::default` (`fs/test.rs` lines 39-52): the root has no permissions. -/
def ModelFS.init : ModelFS := ⟨[.created "/" ⟨false, false, false⟩ 1], 1⟩

/-- The inode a log entry gives to a name (`fs/test.rs` lines 59-63). -/
def RefOp.namedMnode (name : String) : RefOp → Option Nat
  | .created n _ m => if n = name then some m else none
  | .write .. => none

/-- `path_to_mnode` (`fs/test.rs` lines 56-69). -/
def ModelFS.pathToMnode (m : ModelFS) (name : String) : Option Nat :=
  m.oplog.reverse.findSome? (RefOp.namedMnode name)

/-- The index of the last entry for a name (`path_to_idx`, `fs/test.rs` lines 72-85). -/
def lastIdx (name : String) : List RefOp → Option Nat
  | [] => none
  | o :: l =>
    match lastIdx name l with
    | some i => some (i + 1)
    | none => if (o.namedMnode name).isSome then some 0 else none

/-- Whether a log entry creates an inode (`fs/test.rs` lines 96-100). -/
def RefOp.creates (mn : Nat) : RefOp → Bool
  | .created _ _ m => decide (m = mn)
  | .write .. => false

/-- `mnode_exists` (`fs/test.rs` lines 93-106). -/
def ModelFS.mnodeExists (m : ModelFS) (mn : Nat) : Bool := m.oplog.any (RefOp.creates mn)

/-- `ModelFS::create` (`fs/test.rs` lines 137-149). -/
def ModelFS.create (m : ModelFS) (name : String) (modes : Modes) : Outcome Nat × ModelFS :=
  if (m.pathToMnode name).isSome then (.err .alreadyPresent, m)
  else (.ok (m.counter + 1), ⟨m.oplog ++ [.created name modes (m.counter + 1)], m.counter + 1⟩)

/-- A log entry that forbids writing to the inode (`fs/test.rs` lines 160-164). -/
def RefOp.noWrite (mn : Nat) : RefOp → Bool
  | .created _ modes m => decide (m = mn) && !modes.writable
  | .write .. => false

/-- `ModelFS::write` (`fs/test.rs` lines 154-183): only the first byte and the length of the buffer are kept. -/
def ModelFS.write (m : ModelFS) (mn : Nat) (buffer : List UInt8) (off : Nat) : Outcome Nat × ModelFS :=
  if m.mnodeExists mn then
    if m.oplog.any (RefOp.noWrite mn) then (.err .permissionError, m)
    else
      match buffer with
      | [] => (.ok 0, m)
      | b :: _ => (.ok buffer.length, { m with oplog := m.oplog ++ [.write mn off b buffer.length] })
  else (.err .invalidFile, m)

/-- One round of the loop over a write's range (`fs/test.rs` lines 226-232): positions that are still empty get
the pattern.  The intersection of two ranges is written as a test on each position. -/
def fillRange (off s e : Nat) (pat : UInt8) (buf : List (Option UInt8)) : List (Option UInt8) :=
  buf.mapIdx fun i v => if v.isNone && decide (s ≤ off + i) && decide (off + i < e) then some pat else v

/-- The loop over the log, latest entry first (`fs/test.rs` lines 207-246); `none` is the permission error. -/
def gather (mn off : Nat) : List RefOp → List (Option UInt8) → Option (List (Option UInt8))
  | [], buf => some buf
  | .write m o p n :: l, buf =>
    if m = mn ∧ o < off + buf.length ∧ off < o + n then gather mn off l (fillRange off o (o + n) p buf)
    else gather mn off l buf
  | .created _ modes m :: l, buf =>
    if m = mn ∧ modes.readable = false then none else gather mn off l buf

/-- The number of bytes read (`fs/test.rs` lines 251-266): the loop runs from the end and counts from the first
position that was written; `started` is `!drop_top`. -/
def countRead : Bool → List (Option UInt8) → Nat
  | _, [] => 0
  | true, _ :: l => 1 + countRead true l
  | false, v :: l => if v.isSome then 1 + countRead true l else countRead false l

/-- `ModelFS::read` (`fs/test.rs` lines 189-272). -/
def ModelFS.read (m : ModelFS) (mn : Nat) (dst : List UInt8) (off : Nat) : Outcome (Nat × List UInt8) :=
  if m.mnodeExists mn then
    match gather mn off m.oplog.reverse (List.replicate dst.length none) with
    | none => .err .permissionError
    | some buf => .ok (countRead false buf.reverse, buf.map fun v => v.getD 0)
  else .err .invalidFile

/-- `ModelFS::lookup` (`fs/test.rs` lines 275-277). -/
def ModelFS.lookup (m : ModelFS) (name : String) : Option Nat := m.pathToMnode name

/-- `ModelFS::delete` (`fs/test.rs` lines 280-289). -/
def ModelFS.delete (m : ModelFS) (name : String) : Outcome Unit × ModelFS :=
  match lastIdx name m.oplog with
  | some i => (.ok (), { m with oplog := m.oplog.eraseIdx i })
  | none => (.err .invalidFile, m)

/-! ## The test -/

/-- `TestAction` (`fs/test.rs` lines 364-370); a read has the caller's buffer, a write a pattern and a length. -/
inductive TestAction where
  | read (mn : Nat) (dst : List UInt8) (off : Nat)
  | write (mn off : Nat) (pat : UInt8) (len : Nat)
  | create (name : String) (modes : Modes)
  | delete (name : String)
  | lookup (name : String)

/-- A result of an action. -/
inductive TestRes where
  | read (o : Outcome (Nat × List UInt8))
  | write (o : Outcome Nat)
  | create (o : Outcome Nat)
  | delete (o : Outcome Unit)
  | lookup (o : Option Nat)
deriving DecidableEq

/-- An action on the file system (`fs/test.rs` lines 458-502), with no allocation failing. -/
def fsStep (fs : MlnrFS) : TestAction → TestRes × MlnrFS
  | .read mn dst off => (.read (fs.read mn dst off), fs)
  | .write mn off pat len =>
    (.write (fs.write mn (List.replicate len pat) off .good).1, (fs.write mn (List.replicate len pat) off .good).2)
  | .create name modes => (.create (fs.create name modes .good).1, (fs.create name modes .good).2)
  | .delete name => (.delete (fs.delete name .good).1, (fs.delete name .good).2)
  | .lookup name => (.lookup (fs.lookup name), fs)

/-- The same action on the reference. -/
def refStep (m : ModelFS) : TestAction → TestRes × ModelFS
  | .read mn dst off => (.read (m.read mn dst off), m)
  | .write mn off pat len =>
    (.write (m.write mn (List.replicate len pat) off).1, (m.write mn (List.replicate len pat) off).2)
  | .create name modes => (.create (m.create name modes).1, (m.create name modes).2)
  | .delete name => (.delete (m.delete name).1, (m.delete name).2)
  | .lookup name => (.lookup (m.lookup name), m)

/-- The results of a sequence of actions. -/
def fsRun : MlnrFS → List TestAction → List TestRes
  | _, [] => []
  | fs, a :: as => (fsStep fs a).1 :: fsRun (fsStep fs a).2 as

def refRun : ModelFS → List TestAction → List TestRes
  | _, [] => []
  | m, a :: as => (refStep m a).1 :: refRun (refStep m a).2 as

end NRK.Fs
