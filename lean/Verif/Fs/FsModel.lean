import Verif.Fs.FileModel

/-!
# Model of `kernel/src/fs/fd.rs`, `kernel/src/fs/mod.rs` and `kernel/src/fs/cnrfs.rs`

Hash maps are functions into `Option`.  The lock objects around them are not part of this
sequential model (`Verif/Sync` has the lock); one operation of the log runs at a time.
-/

namespace NRK.Fs

/-- `FileFlags` (`lib/kpi/src/io.rs` lines 34-45) as the bits that survive
`from_bits_truncate`; `O_RDWR` is `read` and `write`. -/
structure Flags where
  read : Bool
  write : Bool
  create : Bool
  truncate : Bool
  append : Bool
deriving DecidableEq, Repr

/-- `From<u64> for FileFlags` (`lib/kpi/src/io.rs` lines 56-60, 71-91). -/
def Flags.ofBits (n : Nat) : Flags :=
  { read := n.testBit 0, write := n.testBit 1, create := n.testBit 9,
    truncate := n.testBit 10, append := n.testBit 13 }

/-- `From<u64> for FileModes` (`lib/kpi/src/io.rs` lines 104-108, 117-135). -/
def Modes.ofBits (n : Nat) : Modes :=
  { readable := n.testBit 2, writable := n.testBit 1, executable := n.testBit 0 }

/-- `FileFlags::default` (`lib/kpi/src/io.rs` lines 49-53). -/
def Flags.none : Flags := ⟨false, false, false, false, false⟩

/-- `MAX_FILES_PER_PROCESS` (`fs/mod.rs` line 31). -/
@[irreducible] def MAX_FILES : Nat := 4096

theorem MAX_FILES_eq : MAX_FILES = 4096 := by unfold MAX_FILES; rfl

/-- `FileDescriptor` (`fs/fd.rs` lines 15-43): both constructors reject numbers from
`MAX_FILES_PER_PROCESS` on, hence `Fin`. -/
abbrev Fd := Fin MAX_FILES

/-- `TryFrom<u64> for FileDescriptor` (`fs/fd.rs` lines 32-43). -/
def Fd.tryFrom (v : Nat) : Outcome Fd :=
  if h : v < MAX_FILES then .ok ⟨v, h⟩ else .err .fileDescriptorTooLarge

/-- `FileDescriptorEntry` (`fs/fd.rs` lines 100-106). -/
structure FdEntry where
  mnode : Nat
  flags : Flags
  offset : Nat
deriving DecidableEq, Repr

/-- `FileDescriptorTable` (`fs/fd.rs` lines 57-59): 4096 slots. -/
abbrev FdTable := Fd → Option FdEntry

/-- `FileDescriptorTable::default` (`fs/fd.rs` lines 61-68). -/
def FdTable.default : FdTable := fun _ => .none

/-- First free slot (`position(|fd| fd.is_none())`, `fs/fd.rs` line 72). -/
def FdTable.position (t : FdTable) : Option Fd :=
  (List.finRange MAX_FILES).find? (fun i => (t i).isNone)

/-- `FileDescriptorTable::allocate_fd` (`fs/fd.rs` lines 71-78); the new entry is the default
one (mnode 0, no flags, offset 0; lines 100-106). -/
def FdTable.allocate (t : FdTable) : Option (Fd × FdTable) :=
  match t.position with
  | some i => some (i, upd t i (some ⟨0, .none, 0⟩))
  | none => none

/-- `FileDescriptorTable::deallocate_fd` (`fs/fd.rs` lines 80-92). -/
def FdTable.deallocate (t : FdTable) (fd : Fd) : Outcome Nat × FdTable :=
  match t fd with
  | some _ => (.ok fd.val, upd t fd none)
  | none => (.err .invalidFileDescriptor, t)

/-- `FileDescriptorEntry::update` (`fs/fd.rs` lines 109-112). -/
def FdEntry.update (e : FdEntry) (mnode : Nat) (flags : Flags) : FdEntry :=
  { e with mnode := mnode, flags := flags }

/-- What the environment decides during one operation: whether allocations fail, and whether a
concurrent lookup holds a reference (`Arc` clone, `fs/mod.rs` lines 156-158) to the inode number
of the file being deleted. -/
structure Env where
  /-- allocation failure inside the growth of a file -/
  oom : Oom := .none
  /-- allocation failure while creating an inode or a process entry -/
  createOom : Bool := false
  /-- another thread's lookup still holds the inode's `Arc` -/
  pinned : Bool := false
deriving DecidableEq, Repr

/-- The environment in which nothing goes wrong. -/
def Env.good : Env := {}

/-- `MlnrFS` (`fs/mod.rs` lines 59-66). -/
structure MlnrFS where
  mnodes : Nat → Option MemNode
  files : String → Option Nat
  next : Nat

/-- `MlnrFS::default` (`fs/mod.rs` lines 70-104): the root directory has inode 1; new inodes
are numbered from `MNODE_OFFSET = 2` (line 55). -/
def MlnrFS.init : MlnrFS where
  mnodes := upd (fun _ => none) 1 (some .directory)
  files := upd (fun _ => none) "/" (some 1)
  next := 2

/-- Common part of `create` (`fs/mod.rs` lines 114-135) and `mkdir` (lines 226-243); on
allocation failure the inode counter has already been advanced (line 120). -/
def MlnrFS.addNode (fs : MlnrFS) (name : String) (m : MemNode) (env : Env) :
    Outcome Nat × MlnrFS :=
  match fs.files name with
  | some _ => (.err .alreadyPresent, fs)
  | none =>
    if env.createOom then (.err .outOfMemory, { fs with next := fs.next + 1 })
    else
      (.ok fs.next,
        { mnodes := upd fs.mnodes fs.next (some m)
          files := upd fs.files name (some fs.next)
          next := fs.next + 1 })

/-- `MlnrFS::create` (`fs/mod.rs` lines 114-135). -/
def MlnrFS.create (fs : MlnrFS) (name : String) (modes : Modes) (env : Env) :
    Outcome Nat × MlnrFS :=
  fs.addNode name (.file (File.new modes)) env

/-- `MlnrFS::mkdir` (`fs/mod.rs` lines 226-243). -/
def MlnrFS.mkdir (fs : MlnrFS) (name : String) (_modes : Modes) (env : Env) :
    Outcome Unit × MlnrFS :=
  let r := fs.addNode name .directory env
  (r.1.map (fun _ => ()), r.2)

/-- `MlnrFS::write` (`fs/mod.rs` lines 137-142). -/
def MlnrFS.write (fs : MlnrFS) (mnode : Nat) (data : List UInt8) (offset : Nat) (env : Env) :
    Outcome Nat × MlnrFS :=
  match fs.mnodes mnode with
  | some m =>
    let r := m.write data offset env.oom
    (r.1, { fs with mnodes := upd fs.mnodes mnode (some r.2) })
  | none => (.err .invalidFile, fs)

/-- `MlnrFS::read` (`fs/mod.rs` lines 144-154). -/
def MlnrFS.read (fs : MlnrFS) (mnode : Nat) (dst : List UInt8) (offset : Nat) :
    Outcome (Nat × List UInt8) :=
  match fs.mnodes mnode with
  | some m => m.read dst offset
  | none => .err .invalidFile

/-- `MlnrFS::lookup` (`fs/mod.rs` lines 156-158). -/
def MlnrFS.lookup (fs : MlnrFS) (name : String) : Option Nat := fs.files name

/-- `FileInfo`: `(ftype, fsize)` with directory 1, file 2 (`lib/kpi/src/io.rs` lines 12-32). -/
abbrev Info := Nat × Nat

/-- `MlnrFS::file_info` (`fs/mod.rs` lines 160-174); a missing inode is `unreachable!`. -/
def MlnrFS.fileInfo (fs : MlnrFS) (mnode : Nat) : Outcome Info :=
  match fs.mnodes mnode with
  | some .directory => .ok (1, 0)
  | some (.file f) => .ok (2, f.getSize)
  | none => .panic

/-- `MlnrFS::delete` (`fs/mod.rs` lines 176-191). -/
def MlnrFS.delete (fs : MlnrFS) (name : String) (env : Env) : Outcome Unit × MlnrFS :=
  match fs.files name with
  | some m =>
    if env.pinned then (.err .permissionError, fs)
    else (.ok (), { fs with mnodes := upd fs.mnodes m none, files := upd fs.files name none })
  | none => (.err .invalidFile, fs)

/-- `MlnrFS::truncate` (`fs/mod.rs` lines 193-201). -/
def MlnrFS.truncate (fs : MlnrFS) (name : String) : Outcome Unit × MlnrFS :=
  match fs.files name with
  | some mn =>
    match fs.mnodes mn with
    | some m =>
      let r := m.truncate
      (r.1, { fs with mnodes := upd fs.mnodes mn (some r.2) })
    | none => (.err .invalidFile, fs)
  | none => (.err .invalidFile, fs)

/-- Second half of `rename`, with the lock on the name table held (`fs/mod.rs` lines 213-221). -/
def MlnrFS.moveEntry (fs : MlnrFS) (old new : String) : Outcome Unit × MlnrFS :=
  match fs.files old with
  | some m =>
    let files := upd fs.files old none
    match files new with
    | none => (.ok (), { fs with files := upd files new (some m) })
    | some _ => (.err .permissionError, { fs with files := upd files new (some m) })
  | none => (.err .invalidFile, fs)

/-- `MlnrFS::rename` (`fs/mod.rs` lines 203-222): delete the target if it exists (`unwrap`
panics if that fails), then move the entry. -/
def MlnrFS.rename (fs : MlnrFS) (old new : String) (env : Env) : Outcome Unit × MlnrFS :=
  match fs.files old with
  | none => (.err .invalidFile, fs)
  | some _ =>
    match fs.files new with
    | none => fs.moveEntry old new
    | some _ =>
      match fs.delete new env with
      | (.ok _, fs') => fs'.moveEntry old new
      | (_, fs') => (.panic, fs')

/-- `MlnrKernelNode` (`fs/cnrfs.rs` lines 85-93). -/
structure Node where
  procs : Nat → Option FdTable
  fs : MlnrFS

/-- `MlnrKernelNode::default` (`fs/cnrfs.rs` line 85). -/
def Node.init : Node := { procs := fun _ => none, fs := MlnrFS.init }

/-- `Modify` (`fs/cnrfs.rs` lines 95-105).  `offset = none` is the value -1 ("use the
descriptor's offset"); other negative offsets are rejected by `syscalls.rs` lines 51-103. -/
inductive Modify where
  | processAdd (pid : Nat)
  | fileOpen (pid : Nat) (name : String) (flags : Flags) (modes : Modes)
  | fileWrite (pid : Nat) (fd : Fd) (mnode : Nat) (data : List UInt8) (offset : Option Nat)
  | fileClose (pid : Nat) (fd : Fd)
  | fileDelete (pid : Nat) (name : String)
  | fileRename (pid : Nat) (old new : String)
  | mkDir (pid : Nat) (name : String) (modes : Modes)
deriving DecidableEq, Repr

/-- `Access` (`fs/cnrfs.rs` lines 133-145). `dst` is the caller's buffer. -/
inductive Access where
  | fileRead (pid : Nat) (fd : Fd) (mnode : Nat) (dst : List UInt8) (offset : Option Nat)
  | fileInfo (pid : Nat) (name : String) (mnode : Nat)
  | fdToMnode (pid : Nat) (fd : Fd)
  | fileNameToMnode (pid : Nat) (name : String)
  | synchronize (logId : Nat)
deriving DecidableEq, Repr

/-- `MlnrNodeResult` (`fs/cnrfs.rs` lines 169-182).  A read also carries the caller's buffer
afterwards (in the code an out-parameter). -/
inductive NodeResult where
  | processAdded (pid : Nat)
  | fileOpened (fd : Fd)
  | fileAccessed (len : Nat)
  | fileRead (len : Nat) (buf : List UInt8)
  | fileClosed (fd : Fd)
  | fileDeleted
  | fileInfo (i : Info)
  | fileRenamed
  | dirCreated
  | mappedFileToMnode (m : Nat)
  | synchronized
deriving DecidableEq, Repr

/-- Replace the descriptor table of a process. -/
def Node.setTable (n : Node) (pid : Nat) (t : FdTable) : Node :=
  { n with procs := upd n.procs pid (some t) }

/-- `Modify::ProcessAdd` (`fs/cnrfs.rs` lines 490-497). -/
def Node.processAdd (n : Node) (pid : Nat) (env : Env) : Outcome NodeResult × Node :=
  if env.createOom then (.err .outOfMemory, n) else
  match n.procs pid with
  | some _ => (.err .fileDescForPidAlreadyAdded, n)
  | none => (.ok (.processAdded pid), n.setTable pid FdTable.default)

/-- The part of `FileOpen` that works on the tables (`fs/cnrfs.rs` lines 514-532): truncate an
existing file if asked to, or create a new one; yields the inode number. -/
def Node.openTarget (n : Node) (name : String) (flags : Flags) (modes : Modes) (env : Env) :
    Outcome Nat × MlnrFS :=
  match n.fs.lookup name with
  | some m =>
    if flags.truncate then
      let q := n.fs.truncate name
      (q.1.map (fun _ => m), q.2)
    else (.ok m, n.fs)
  | none => n.fs.create name modes env

/-- `Modify::FileOpen` (`fs/cnrfs.rs` lines 503-537). -/
def Node.fileOpen (n : Node) (pid : Nat) (name : String) (flags : Flags) (modes : Modes)
    (env : Env) : Outcome NodeResult × Node :=
  let mnode := n.fs.lookup name
  if mnode.isNone && !flags.create then (.err .permissionError, n) else
  match n.procs pid with
  | none => (.panic, n)
  | some t =>
    match t.allocate with
    | none => (.err .notSupported, n)
    | some (fid, t1) =>
      match n.openTarget name flags modes env with
      | (.ok m, fs1) =>
        let e := ((t1 fid).getD ⟨0, .none, 0⟩).update m flags
        (.ok (.fileOpened fid),
          { procs := upd n.procs pid (some (upd t1 fid (some e))), fs := fs1 })
      | (.err e, fs1) =>
        let d := t1.deallocate fid
        let n' : Node := { procs := upd n.procs pid (some d.2), fs := fs1 }
        match d.1 with
        | .ok _ => (.err e, n')
        | .err e' => (.err e', n')
        | .panic => (.panic, n')
      | (.panic, fs1) => (.panic, { procs := upd n.procs pid (some t1), fs := fs1 })

/-- The offset a write uses (`fs/cnrfs.rs` lines 554-564). -/
def Node.writeOffset (n : Node) (e : FdEntry) (offset : Option Nat) : Outcome Nat :=
  match offset with
  | some o => .ok o
  | none => if e.flags.append then (n.fs.fileInfo e.mnode).map (·.2) else .ok e.offset

/-- `Modify::FileWrite` (`fs/cnrfs.rs` lines 539-576). -/
def Node.fileWrite (n : Node) (pid : Nat) (fd : Fd) (data : List UInt8) (offset : Option Nat)
    (env : Env) : Outcome NodeResult × Node :=
  match n.procs pid with
  | none => (.panic, n)
  | some t =>
    match t fd with
    | none => (.err .permissionError, n)
    | some e =>
      if !e.flags.write then (.err .permissionError, n) else
      match n.writeOffset e offset with
      | .panic => (.panic, n)
      | .err er => (.err er, n)
      | .ok curr =>
        match n.fs.write e.mnode data curr env with
        | (.ok len, fs1) =>
          let e' := if offset.isNone then { e with offset := curr + len } else e
          (.ok (.fileAccessed len),
            { procs := upd n.procs pid (some (upd t fd (some e'))), fs := fs1 })
        | (.err er, fs1) => (.err er, { n with fs := fs1 })
        | (.panic, fs1) => (.panic, { n with fs := fs1 })

/-- `Modify::FileClose` (`fs/cnrfs.rs` lines 578-585). -/
def Node.fileClose (n : Node) (pid : Nat) (fd : Fd) : Outcome NodeResult × Node :=
  match n.procs pid with
  | none => (.panic, n)
  | some t =>
    match t.deallocate fd with
    | (.ok _, t') => (.ok (.fileClosed fd), n.setTable pid t')
    | (.err e, t') => (.err e, n.setTable pid t')
    | (.panic, t') => (.panic, n.setTable pid t')

/-- `Modify::FileDelete` (`fs/cnrfs.rs` lines 587-595). -/
def Node.fileDelete (n : Node) (pid : Nat) (name : String) (env : Env) :
    Outcome NodeResult × Node :=
  match n.procs pid with
  | none => (.err .noProcessFoundForPid, n)
  | some _ =>
    let r := n.fs.delete name env
    (r.1.map (fun _ => .fileDeleted), { n with fs := r.2 })

/-- `Modify::FileRename` (`fs/cnrfs.rs` lines 597-605). -/
def Node.fileRename (n : Node) (pid : Nat) (old new : String) (env : Env) :
    Outcome NodeResult × Node :=
  match n.procs pid with
  | none => (.err .noProcessFoundForPid, n)
  | some _ =>
    let r := n.fs.rename old new env
    (r.1.map (fun _ => .fileRenamed), { n with fs := r.2 })

/-- `Modify::MkDir` (`fs/cnrfs.rs` lines 607-615). -/
def Node.mkDir (n : Node) (pid : Nat) (name : String) (modes : Modes) (env : Env) :
    Outcome NodeResult × Node :=
  match n.procs pid with
  | none => (.err .noProcessFoundForPid, n)
  | some _ =>
    let r := n.fs.mkdir name modes env
    (r.1.map (fun _ => .dirCreated), { n with fs := r.2 })

/-- `dispatch_mut` (`fs/cnrfs.rs` lines 488-617).  Note that `FileWrite` ignores the inode
number carried by the operation (only the log mapping uses it). -/
def Node.dispatchMut (n : Node) (op : Modify) (env : Env) : Outcome NodeResult × Node :=
  match op with
  | .processAdd pid => n.processAdd pid env
  | .fileOpen pid name flags modes => n.fileOpen pid name flags modes env
  | .fileWrite pid fd _ data offset => n.fileWrite pid fd data offset env
  | .fileClose pid fd => n.fileClose pid fd
  | .fileDelete pid name => n.fileDelete pid name env
  | .fileRename pid old new => n.fileRename pid old new env
  | .mkDir pid name modes => n.mkDir pid name modes env

/-- `Access::FileRead` (`fs/cnrfs.rs` lines 409-443).  The descriptor's offset is an atomic that
is updated although the operation runs through `dispatch(&self)`, so the state changes. -/
def Node.fileRead (n : Node) (pid : Nat) (fd : Fd) (dst : List UInt8) (offset : Option Nat) :
    Outcome NodeResult × Node :=
  match n.procs pid with
  | none => (.err .noProcessFoundForPid, n)
  | some t =>
    match t fd with
    | none => (.err .permissionError, n)
    | some e =>
      if !e.flags.read then (.err .permissionError, n) else
      let curr := offset.getD e.offset
      match n.fs.read e.mnode dst curr with
      | .ok (len, buf) =>
        let e' := if offset.isNone then { e with offset := curr + len } else e
        (.ok (.fileRead len buf), n.setTable pid (upd t fd (some e')))
      | .err er => (.err er, n)
      | .panic => (.panic, n)

/-- `dispatch` (`fs/cnrfs.rs` lines 407-486). -/
def Node.dispatch (n : Node) (op : Access) : Outcome NodeResult × Node :=
  match op with
  | .fileRead pid fd _ dst offset => n.fileRead pid fd dst offset
  | .fileInfo pid name _ =>
    match n.procs pid with
    | none => (.err .noProcessFoundForPid, n)
    | some _ =>
      match n.fs.lookup name with
      | none => (.err .invalidFile, n)
      | some m => ((n.fs.fileInfo m).map .fileInfo, n)
  | .fdToMnode pid fd =>
    match n.procs pid with
    | none => (.err .noProcessFoundForPid, n)
    | some t =>
      match t fd with
      | none => (.err .permissionError, n)
      | some e => (.ok (.mappedFileToMnode e.mnode), n)
  | .fileNameToMnode pid name =>
    match n.procs pid with
    | none => (.err .noProcessFoundForPid, n)
    | some _ =>
      match n.fs.lookup name with
      | none => (.err .invalidFile, n)
      | some m => (.ok (.mappedFileToMnode m), n)
  | .synchronize _ => (.ok .synchronized, n)

/-! ## Log mapping -/

/-- `*mnode as usize - MNODE_OFFSET) % nlogs` (`fs/cnrfs.rs` lines 117, 154, 157): the
subtraction underflows for inode numbers below 2 (a panic in builds with overflow checks), the
remainder panics for `nlogs = 0`. -/
def logOf (mnode nlogs : Nat) : Outcome Nat :=
  if mnode < 2 ∨ nlogs = 0 then .panic else .ok ((mnode - 2) % nlogs)

/-- `LogMapper for Modify` (`fs/cnrfs.rs` lines 108-132): the list of logs. -/
def Modify.logs (nlogs : Nat) : Modify → Outcome (List Nat)
  | .fileWrite _ _ m _ _ => (logOf m nlogs).map ([·])
  | _ => .ok (List.range nlogs)

/-- `LogMapper for Access` (`fs/cnrfs.rs` lines 148-167). -/
def Access.logs (nlogs : Nat) : Access → Outcome (List Nat)
  | .fileRead _ _ m _ _ => (logOf m nlogs).map ([·])
  | .fileInfo _ _ m => (logOf m nlogs).map ([·])
  | .fdToMnode _ _ => .ok [0]
  | .fileNameToMnode _ _ => .ok [0]
  | .synchronize l => if l = 0 ∨ nlogs = 0 then .panic else .ok [(l - 1) % nlogs]

/-! ## The interface functions (`MlnrKernelNode::*`, `fs/cnrfs.rs` lines 186-400)

One replica, one call at a time; `nlogs` is the number of logs. -/

/-- Submit a write-class operation: compute the logs (may panic), then run it. -/
def Node.submitMut (n : Node) (nlogs : Nat) (op : Modify) (env : Env) :
    Outcome NodeResult × Node :=
  match op.logs nlogs with
  | .ok _ => n.dispatchMut op env
  | .err e => (.err e, n)
  | .panic => (.panic, n)

/-- Submit a read-class operation. -/
def Node.submit (n : Node) (nlogs : Nat) (op : Access) : Outcome NodeResult × Node :=
  match op.logs nlogs with
  | .ok _ => n.dispatch op
  | .err e => (.err e, n)
  | .panic => (.panic, n)

/-- The calls of the file interface. -/
inductive Call where
  | addProcess (pid : Nat)
  | open (pid : Nat) (name : String) (flags : Flags) (modes : Modes)
  | write (pid : Nat) (fd : Fd) (data : List UInt8) (offset : Option Nat)
  | read (pid : Nat) (fd : Fd) (dst : List UInt8) (offset : Option Nat)
  | close (pid : Nat) (fd : Fd)
  | delete (pid : Nat) (name : String)
  | info (pid : Nat) (name : String)
  | rename (pid : Nat) (old new : String)
  | mkdir (pid : Nat) (name : String) (modes : Modes)
deriving DecidableEq, Repr

/-- `add_process` (187-199), `map_fd` (201-220), `file_write` (222-246), `file_read` (248-271),
`unmap_fd` (273-286), `file_delete` (288-301), `file_info` (303-318), `file_rename` (320-338),
`mkdir` (340-353) of `fs/cnrfs.rs`. `file_write`/`file_read` first resolve the descriptor to an
inode number; any error of that becomes `InvalidFileDescriptor`. -/
def Node.call (n : Node) (nlogs : Nat) (c : Call) (env : Env) : Outcome NodeResult × Node :=
  match c with
  | .addProcess pid => n.submitMut nlogs (.processAdd pid) env
  | .open pid name flags modes => n.submitMut nlogs (.fileOpen pid name flags modes) env
  | .write pid fd data offset =>
    match n.submit nlogs (.fdToMnode pid fd) with
    | (.ok (.mappedFileToMnode m), n') => n'.submitMut nlogs (.fileWrite pid fd m data offset) env
    | (.ok _, n') => (.panic, n')
    | (.err _, n') => (.err .invalidFileDescriptor, n')
    | (.panic, n') => (.panic, n')
  | .read pid fd dst offset =>
    match n.submit nlogs (.fdToMnode pid fd) with
    | (.ok (.mappedFileToMnode m), n') => n'.submit nlogs (.fileRead pid fd m dst offset)
    | (.ok _, n') => (.panic, n')
    | (.err _, n') => (.err .invalidFileDescriptor, n')
    | (.panic, n') => (.panic, n')
  | .close pid fd => n.submitMut nlogs (.fileClose pid fd) env
  | .delete pid name => n.submitMut nlogs (.fileDelete pid name) env
  | .info pid name =>
    match n.submit nlogs (.fileNameToMnode pid name) with
    | (.ok (.mappedFileToMnode m), n') => n'.submit nlogs (.fileInfo pid name m)
    | (.ok _, n') => (.panic, n')
    | (.err e, n') => (.err e, n')
    | (.panic, n') => (.panic, n')
  | .rename pid old new => n.submitMut nlogs (.fileRename pid old new) env
  | .mkdir pid name modes => n.submitMut nlogs (.mkDir pid name modes) env

/-- Run a sequence of calls, keeping the results. -/
def Node.calls (n : Node) (nlogs : Nat) : List (Call × Env) → List (Outcome NodeResult) × Node
  | [] => ([], n)
  | (c, env) :: rest =>
    let r := n.call nlogs c env
    let q := r.2.calls nlogs rest
    (r.1 :: q.1, q.2)

/-! ## Observers used by the property statements (not part of the code) -/

/-- The entry of an open descriptor. -/
def Node.fd? (n : Node) (pid : Nat) (fd : Fd) : Option FdEntry :=
  match n.procs pid with
  | some t => t fd
  | none => none

/-- The inode a name denotes. -/
def Node.file? (n : Node) (name : String) : Option MemNode :=
  match n.fs.files name with
  | some m => n.fs.mnodes m
  | none => none

/-- The bytes stored in an inode, if it is a file. -/
def Node.contents (n : Node) (m : Nat) : Option (List UInt8) :=
  match n.fs.mnodes m with
  | some (.file f) => some f.mcache.flatten
  | _ => none

/-- The permissions of an inode, if it is a file. -/
def Node.modes? (n : Node) (m : Nat) : Option Modes :=
  match n.fs.mnodes m with
  | some (.file f) => some f.modes
  | _ => none

/-- States the file system can be in: any sequence of calls from the initial state. -/
def Reachable (nlogs : Nat) (n : Node) : Prop :=
  ∃ cs : List (Call × Env), n = (Node.init.calls nlogs cs).2

end NRK.Fs
