import Verif.Fs.FsModel
import Verif.Rump.FileSpec

/-!
# Model of the files of a rump kernel, `lib/vibrio/src/rumprt/fs.rs`

With the stubs of `lib/kpi/src/syscalls/io.rs` (lines 44-205) in between and the file system of C01-C11 below.

Simplifications:
* The flags of `rumpuser_open` are a natural number (the code casts a `c_int`; the bits are the same).
* No allocation fails in the kernel.
* The buffers are valid user memory; they come back in the answer.
* `rumpuser_bio` and `rumpuser_syncfd` are `unimplemented!`.
-/

namespace NRK.Rump

open NRK.Fs

/-- What the caller finds afterwards: the value returned, what was stored through the pointers, and the buffers. -/
structure Ans where
  code : Nat
  val : Option Nat := none
  info : Option (Nat × Nat) := none
  bufs : List (List UInt8) := []
  deriving DecidableEq, Repr

/-- The flags that `rumpuser_open` (`fs.rs` lines 37-55) gives to the kernel: `contains` is `m & x == x`. -/
def openFlags (mode : Nat) : Flags :=
  let m := mode % 16
  let f := 0
  let f := if m &&& 0 = 0 then f ||| 1 else f
  let f := if m &&& 1 = 1 then f ||| 2 else f
  let f := if m &&& 2 = 2 then f ||| 3 else f
  let f := if m &&& 4 = 4 then f ||| 0x200 else f
  Flags.ofBits f

/-- `rumpuser_open` (`fs.rs` lines 34-81); a name that is not UTF-8 is `none`. -/
def ropen (nlogs pid : Nat) (n : Node) (name : Option String) (mode : Nat) : Outcome Ans × Node :=
  match name with
  | none => (.ok { code := 22 }, n)
  | some name =>
    match n.call nlogs (.open pid name (openFlags mode) (Modes.ofBits (4 ||| 2))) .good with
    | (.ok (.fileOpened fd), n') => (.ok { code := 0, val := some fd.val }, n')
    | (.ok _, n') => (.panic, n')
    | (.err _, n') => (.ok { code := 22 }, n')
    | (.panic, n') => (.panic, n')

/-- `fd as u64` and `FileDescriptor::try_from` (`kernel/src/fs/fd.rs` lines 32-43). -/
def fdOf (fd : Int) : Option Fd :=
  if h : 0 ≤ fd ∧ fd.toNat < MAX_FILES then some ⟨fd.toNat, h.2⟩ else none

/-- `rumpuser_close` (`fs.rs` lines 83-90). -/
def rclose (nlogs pid : Nat) (n : Node) (fd : Int) : Outcome Ans × Node :=
  match fdOf fd with
  | none => (.ok { code := 9 }, n)
  | some fd =>
    match n.call nlogs (.close pid fd) .good with
    | (.ok _, n') => (.ok { code := 0 }, n')
    | (.err _, n') => (.ok { code := 9 }, n')
    | (.panic, n') => (.panic, n')

/-- `rumpuser_getfileinfo` (`fs.rs` lines 92-122): the kind and the size. -/
def rinfo (nlogs pid : Nat) (n : Node) (name : Option String) : Outcome Ans × Node :=
  match name with
  | none => (.ok { code := 22 }, n)
  | some name =>
    match n.call nlogs (.info pid name) .good with
    | (.ok (.fileInfo i), n') => (.ok { code := 0, info := some i }, n')
    | (.ok _, n') => (.panic, n')
    | (.err _, n') => (.ok { code := 2 }, n')
    | (.panic, n') => (.panic, n')

/-- `rumpuser_iovread` (`fs.rs` lines 138-158).  `Fs::read_at` refuses empty buffers and the offset -1
(`lib/kpi/src/syscalls/io.rs` lines 115-151), the kernel other negative ones. -/
def iovread (nlogs pid : Nat) (n : Node) (fd : Int) (iov : List (List UInt8)) (off : Int) : Outcome Ans × Node :=
  match iov with
  | [dst] =>
    if dst.length = 0 then (.ok { code := 22, bufs := [dst] }, n)
    else if off = -1 then (.ok { code := 22, bufs := [dst] }, n)
    else
      match fdOf fd, decide (0 ≤ off) with
      | some fd, true =>
        match n.call nlogs (.read pid fd dst (some off.toNat)) .good with
        | (.ok (.fileRead len buf), n') => (.ok { code := 0, val := some len, bufs := [buf] }, n')
        | (.ok _, n') => (.panic, n')
        | (.err _, n') => (.ok { code := 22, bufs := [dst] }, n')
        | (.panic, n') => (.panic, n')
      | _, _ => (.ok { code := 22, bufs := [dst] }, n)
  | _ => (.panic, n)

/-- `rumpuser_iovwrite` (`fs.rs` lines 160-180).  `Fs::write_at` refuses empty buffers, and is `Fs::write` for the offset
-1. -/
def iovwrite (nlogs pid : Nat) (n : Node) (fd : Int) (iov : List (List UInt8)) (off : Int) : Outcome Ans × Node :=
  match iov with
  | [src] =>
    if src.length = 0 then (.ok { code := 22, bufs := [src] }, n)
    else
      match fdOf fd, decide (-1 ≤ off) with
      | some fd, true =>
        match n.call nlogs (.write pid fd src (if off = -1 then none else some off.toNat)) .good with
        | (.ok (.fileAccessed len), n') => (.ok { code := 0, val := some len, bufs := [src] }, n')
        | (.ok _, n') => (.panic, n')
        | (.err _, n') => (.ok { code := 22, bufs := [src] }, n')
        | (.panic, n') => (.panic, n')
      | _, _ => (.ok { code := 22, bufs := [src] }, n)
  | _ => (.panic, n)

/-- The calls of a rump kernel. -/
inductive FileCall where
  | open (name : Option String) (mode : Nat)
  | close (fd : Int)
  | info (name : Option String)
  | read (fd : Int) (iov : List (List UInt8)) (off : Int)
  | write (fd : Int) (iov : List (List UInt8)) (off : Int)

def fileCall (nlogs pid : Nat) (n : Node) : FileCall → Outcome Ans × Node
  | .open name mode => ropen nlogs pid n name mode
  | .close fd => rclose nlogs pid n fd
  | .info name => rinfo nlogs pid n name
  | .read fd iov off => iovread nlogs pid n fd iov off
  | .write fd iov off => iovwrite nlogs pid n fd iov off

/-- A sequence of calls; `none`: a panic. -/
def fileCalls (nlogs pid : Nat) : Node → List FileCall → Option (List Ans × Node)
  | n, [] => some ([], n)
  | n, c :: cs =>
    match fileCall nlogs pid n c with
    | (.ok a, n') => (fileCalls nlogs pid n' cs).map fun r => (a :: r.1, r.2)
    | _ => none

end NRK.Rump
