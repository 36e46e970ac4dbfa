import Verif.Common
import Verif.Fs.Spec

/-!
# Model of `kernel/src/fs/file.rs` and `kernel/src/fs/mnode.rs`
-/

namespace NRK.Fs

open Spec (overwrite)

/-- `BASE_PAGE_SIZE` (4 KiB), the capacity of one file buffer; `file.rs` lines 11-27 use it as
the buffer size. -/
@[irreducible] def PAGE : Nat := 4096

/-- `omega` with the page size unfolded to its value. -/
macro "pomega" : tactic => `(tactic| (
  (try simp only [Nat.add_mul, Nat.sub_mul, Nat.one_mul, Nat.zero_mul] at *)
  (try simp only [Nat.mul_comm _ PAGE] at *)
  (try simp only [PAGE] at *)
  omega))

/-- `FileModes` as stored per file (`lib/kpi/src/io.rs` lines 93-135): the three bits that
`is_readable`, `is_writable`, `is_executable` test. -/
structure Modes where
  readable : Bool
  writable : Bool
  executable : Bool
deriving DecidableEq, Repr

/-- `File` (`fs/file.rs` lines 29-35): list of buffers plus modes. -/
structure File where
  mcache : List (List UInt8)
  modes : Modes
deriving DecidableEq, Repr

/-- `File::new` (`fs/file.rs` lines 39-42); the reservation of the buffer vector is assumed to
succeed. -/
def File.new (modes : Modes) : File := { mcache := [], modes := modes }

/-- The scan of `get_size` (`fs/file.rs` lines 56-65): sum the lengths up to the first empty
buffer. -/
def scanSize : List (List UInt8) → Nat
  | [] => 0
  | b :: bs => if b.length = 0 then 0 else b.length + scanSize bs

/-- `File::get_size` (`fs/file.rs` lines 47-71). -/
def File.getSize (f : File) : Nat :=
  match f.mcache with
  | [] => 0
  | [b] => b.length
  | bufs =>
    let last := (bufs.getLast?.getD []).length
    if last = 0 then scanSize bufs else (bufs.length - 1) * PAGE + last

/-- `ceil` (`fs/file.rs` lines 250-256). -/
def ceil (bytes size : Nat) : Nat :=
  let val := bytes / size
  if bytes > val * size then val + 1 else val

/-- `offset_to_buffernum` (`fs/file.rs` lines 261-263). -/
def offsetToBuffernum (offset size : Nat) : Nat := offset / size

/-- Where an allocation made by `increase_file_size` fails, if it does: at the resize of the
existing last buffer, or at any later allocation (lines 116-140). Environment choice, not
part of the code. -/
inductive Oom where
  | none
  | lastResize
  | newBuffers
deriving DecidableEq, Repr

/-- `Vec::try_resize(n, 0)` when it succeeds: cut or zero-extend to `n` elements. -/
def resize (b : List UInt8) (n : Nat) : List UInt8 :=
  b.take n ++ List.replicate (n - b.length) 0

/-- Replace the last buffer (`self.mcache.last_mut().unwrap()` in `fs/file.rs` 98-111). -/
def setLast (bufs : List (List UInt8)) (b : List UInt8) : List (List UInt8) :=
  bufs.dropLast ++ [b]

/-- `File::increase_file_size` (`fs/file.rs` lines 80-142).  A failing allocation is chosen by
`oom`; on `Err` the buffers already changed stay changed, as in the code. The subtractions
of lines 90, 94, 131 are checked (debug) subtractions, an underflow is a panic. -/
def File.increaseFileSize (f : File) (curr new : Nat) (oom : Oom) : Outcome Unit × File :=
  if new = 0 then (.ok (), f) else
  match f.mcache.getLast? with
  | some b =>
    if b.length > PAGE ∨ curr > new then (.panic, f) else
    let free := PAGE - b.length
    let addNew := new - curr
    if addNew ≤ free then
      -- lines 95-103
      if oom = .lastResize then (.err .outOfMemory, f)
      else (.ok (), { f with mcache := setLast f.mcache (resize b (b.length + addNew)) })
    else
      -- lines 104-112: fill up the last buffer
      if oom = .lastResize then (.err .outOfMemory, f)
      else addBuffers { f with mcache := setLast f.mcache (resize b PAGE) } new (addNew - free)
  | none =>
    if curr > new then (.panic, f) else
    let addNew := new - curr
    if addNew ≤ 0 then (.panic, f) -- `last().unwrap()` of an empty list, line 97
    else addBuffers f new addNew
where
  /-- lines 114-140 -/
  addBuffers (f : File) (new remaining : Nat) : Outcome Unit × File :=
    let newBuffers := ceil remaining PAGE
    let vec := List.replicate newBuffers (List.replicate PAGE (0 : UInt8))
    if oom = .newBuffers then (.err .outOfMemory, f) else
    if new % PAGE ≠ 0 then
      if newBuffers = 0 ∨ f.getSize + (newBuffers - 1) * PAGE > new then (.panic, f) else
      let sure := (newBuffers - 1) * PAGE
      let inLast := new - (f.getSize + sure)
      (.ok (), { f with
        mcache := f.mcache ++ setLast vec (resize (List.replicate PAGE (0 : UInt8)) inLast) })
    else
      (.ok (), { f with mcache := f.mcache ++ vec })

/-- The copy loop of `write_file` (`fs/file.rs` lines 216-237).  `data` is the part of the
user's slice not yet copied.  The guard `off < PAGE` always holds in the code
(`start % PAGE`, then 0); without it the subtraction of line 217 would give 0 or underflow. -/
def writeLoop (bufs : List (List UInt8)) (k off : Nat) (data : List UInt8) :
    Outcome (List (List UInt8)) :=
  if data.length = 0 then .ok bufs
  else if _h : off < PAGE then
    let useful := PAGE - off
    let n := if data.length ≥ useful then useful else data.length
    match bufs[k]? with
    | none => .panic                       -- index out of bounds
    | some b =>
      if off + n ≤ b.length then
        writeLoop (bufs.set k (overwrite b off (data.take n))) (k + 1) 0 (data.drop n)
      else .panic                          -- slice index out of bounds
  else .panic
termination_by data.length
decreasing_by
  simp only [List.length_drop]
  split <;> pomega

/-- `File::write_file` (`fs/file.rs` lines 193-240); `len = user_slice.len()` at its only
call site (`mnode.rs` line 78-80). `start_offset + len` is assumed not to exceed 2^64. -/
def File.writeFile (f : File) (data : List UInt8) (start : Nat) (oom : Oom) :
    Outcome Nat × File :=
  let curr := f.getSize
  let newLen := start + data.length
  let grown : Outcome Unit × File :=
    if newLen > 0 ∧ newLen > curr then f.increaseFileSize curr newLen oom else (.ok (), f)
  match grown with
  | (.panic, g) => (.panic, g)
  | (.err _, g) => (.err .outOfMemory, g)
  | (.ok (), g) =>
    let k := offsetToBuffernum start PAGE
    match writeLoop g.mcache k (start - k * PAGE) data with
    | .ok bufs => (.ok data.length, { g with mcache := bufs })
    | .err e => (.err e, g)
    | .panic => (.panic, g)

/-- `write_subslice` of `impl SliceAccess for &mut [u8]` (`kernel/src/process.rs` lines
733-742), the destination buffer of a read. -/
def writeSubslice (dst : List UInt8) (src : List UInt8) (offset : Nat) : Outcome (List UInt8) :=
  if dst.length < offset + src.length then .err .invalidOffset
  else .ok (overwrite dst offset src)

/-- The copy loop of `read_file` (`fs/file.rs` lines 160-184).  `fuel` bounds the number of
iterations (the loop could only run forever on an empty buffer); running out of fuel is
reported as a panic and the theorems show that it does not happen. -/
def readLoop (bufs : List (List UInt8)) (fuel k off copied len dstStart : Nat)
    (dst : List UInt8) : Outcome (Nat × List UInt8) :=
  if copied < len then
    match fuel with
    | 0 => .panic
    | fuel + 1 =>
      match bufs[k]? with
      | none => .panic
      | some b =>
        if b.length < off then .panic else
        let useful := b.length - off
        let remaining := len - copied
        let n := if remaining ≥ useful then useful else remaining
        (writeSubslice dst ((b.drop off).take n) dstStart).bind fun dst' =>
          readLoop bufs fuel (k + 1) 0 (copied + n) len (dstStart + n) dst'
  else .ok (copied, dst)

/-- `File::read_file` (`fs/file.rs` lines 147-187). Returns the byte count and the final
contents of the caller's buffer. -/
def File.readFile (f : File) (dst : List UInt8) (start endOff : Nat) :
    Outcome (Nat × List UInt8) :=
  let k := offsetToBuffernum start PAGE
  if endOff < start then .panic
  else readLoop f.mcache (f.mcache.length + 1) k (start - k * PAGE) 0 (endOff - start) 0 dst

/-- `File::file_truncate` (`fs/file.rs` lines 243-245). -/
def File.truncate (f : File) : File := { f with mcache := [] }

/-- `MemNode` (`fs/mnode.rs` lines 16-23) without its name and number, which none of its
operations use: a directory, or a file.  `file.is_none()` iff directory is how the code
constructs it (lines 55-61). -/
inductive MemNode where
  | directory
  | file (f : File)
deriving DecidableEq, Repr

/-- `MemNode::write` (`fs/mnode.rs` lines 72-81). -/
def MemNode.write (m : MemNode) (data : List UInt8) (offset : Nat) (oom : Oom) :
    Outcome Nat × MemNode :=
  match m with
  | .directory => (.err .permissionError, m)
  | .file f =>
    if !f.modes.writable then (.err .permissionError, m)
    else
      let r := f.writeFile data offset oom
      (r.1, .file r.2)

/-- `MemNode::read` (`fs/mnode.rs` lines 84-118). `dst` is the caller's buffer; the second
component of the result is the buffer afterwards. -/
def MemNode.read (m : MemNode) (dst : List UInt8) (offset : Nat) : Outcome (Nat × List UInt8) :=
  match m with
  | .directory => .err .permissionError
  | .file f =>
    if !f.modes.readable then .err .permissionError else
    let len := dst.length
    let fileSize := f.getSize
    if offset > fileSize then .ok (0, dst) else
    let bytes := min (fileSize - offset) len
    let newOffset := offset + bytes
    if bytes = 0 then .ok (0, dst) else
    if offset ≥ newOffset ∨ newOffset > f.getSize then .err .invalidOffset
    else f.readFile dst offset newOffset

/-- `MemNode::get_file_size` (`fs/mnode.rs` lines 121-123); on a directory the `unwrap`
panics. -/
def MemNode.getFileSize (m : MemNode) : Outcome Nat :=
  match m with
  | .directory => .panic
  | .file f => .ok f.getSize

/-- `MemNode::file_truncate` (`fs/mnode.rs` lines 131-140). -/
def MemNode.truncate (m : MemNode) : Outcome Unit × MemNode :=
  match m with
  | .directory => (.err .permissionError, m)
  | .file f =>
    if !f.modes.writable then (.err .permissionError, m) else (.ok (), .file f.truncate)

end NRK.Fs
