import Verif.VSpace.VSpaceModel

/-!
# Model of the program loader

`kernel/src/process.rs` (`DataSecAllocator`, `make_process`) and `kernel/src/arch/x86_64/process.rs`
(`ElfLoader for Ring3Process`, `Process::load`).  The crate `elfloader`, which takes the file apart and
calls the functions below, is not in /repo; it calls `allocate` once with the loadable headers, then `load`
for each of them in order, then `relocate` for each relocation in order.
-/

namespace NRK.Load

open NRK.Mem (Frame LARGE roundUp)
open NRK.VSpace (VSpace Env MapAction mapFrame)

/-- A loadable program header with the bytes it has in the file. -/
structure Hdr where
  vaddr : Nat
  memsz : Nat
  r : Bool
  w : Bool
  x : Bool
  data : List UInt8
deriving DecidableEq, Repr

/-- A relocation: its place, whether it is of type `R_RELATIVE`, its addend. -/
structure Reloc where
  off : Nat
  relative : Bool
  addend : Nat
deriving DecidableEq, Repr

/-- Physical memory. -/
abbrev Mem := Nat → UInt8

/-- Store bytes one after the other. -/
def Mem.write (m : Mem) (a : Nat) (bs : List UInt8) : Mem :=
  fun p => if a ≤ p then (bs[p - a]?).getD (m p) else m p

/-- The bytes of a 64-bit number, the lowest first. -/
def le64 (v : Nat) : List UInt8 := (List.range 8).map fun i => UInt8.ofNat (v / 256 ^ i)

/-- `page_base` (`process.rs` lines 263-264, `arch/x86_64/process.rs` lines 1104-1105). -/
def pageBase (h : Hdr) : Nat := h.vaddr - h.vaddr % LARGE

/-- `large_pages` (`process.rs` lines 265, 278, `arch/x86_64/process.rs` lines 1106, 1131). -/
def largePages (h : Hdr) : Nat := roundUp (h.memsz + h.vaddr % LARGE) LARGE / LARGE

/-! ## The writeable part, loaded once -/

/-- The loop of `DataSecAllocator::allocate` over the pages of a header (`process.rs` lines 328-341), with
the large pages that the allocator hands out. -/
def takePages (base : Nat) : Nat → List Frame → Outcome (List (Nat × Frame) × List Frame)
  | 0, fs => .ok ([], fs)
  | _ + 1, [] => .panic
  | n + 1, f :: fs => (takePages (base + LARGE) n fs).map fun r => ((base, f) :: r.1, r.2)

/-- `DataSecAllocator::allocate` (`process.rs` lines 252-346, without the feature `rackscale`). -/
def dataAllocate : List Hdr → List Frame → Outcome (List (Nat × Frame) × List Frame)
  | [], fs => .ok ([], fs)
  | h :: hs, fs =>
    if h.w then
      (takePages (pageBase h) (largePages h) fs).bind fun p =>
        (dataAllocate hs p.2).map fun q => (p.1 ++ q.1, q.2)
    else dataAllocate hs fs

/-- The loop of `DataSecAllocator::load` (`process.rs` lines 366-415).  A start of the region below the
frame is an underflow in line 395. -/
def dataCopy (m : Mem) (dest : Nat) (region : List UInt8) : List (Nat × Frame) → Outcome Mem
  | [] => .ok m
  | (b, f) :: rest =>
    if dest < b + f.size ∧ b < dest + region.length then
      let copyStart := max b dest - dest
      let copyEnd := min (b + f.size) (dest + region.length) - dest
      if dest < b then .panic
      else
        dataCopy (m.write (f.base + (dest - b)) ((region.take copyEnd).drop copyStart))
          (dest + (copyEnd - copyStart)) (region.drop copyEnd) rest
    else dataCopy m dest region rest

/-- The calls of `DataSecAllocator::load` (`process.rs` lines 348-419). -/
def dataLoad (frames : List (Nat × Frame)) : List Hdr → Mem → Outcome Mem
  | [], m => .ok m
  | h :: hs, m =>
    if h.w then (dataCopy m h.vaddr h.data frames).bind (dataLoad frames hs) else dataLoad frames hs m

/-- The error of the loader, as `make_process` reports it (`process.rs` line 542), is `unableToLoad` here.
The value that is stored for a relocation (`process.rs` line 453); in builds with overflow checks the
sum must fit. -/
def relocValue (offset : Nat) (r : Reloc) : Outcome (List UInt8) :=
  if offset + r.addend < 2 ^ 64 then .ok (le64 (offset + r.addend)) else .panic

/-- `DataSecAllocator::relocate` (`process.rs` lines 421-462). -/
def dataReloc (offset : Nat) (r : Reloc) : List (Nat × Frame) → Mem → Outcome Mem
  | [], m => .ok m
  | (b, f) :: rest, m =>
    let addr := offset + r.off
    let vbase := (offset + b) - (offset + b) % LARGE
    if vbase ≤ addr ∧ addr ≤ vbase + f.size then
      if r.relative then
        (relocValue offset r).bind fun bs => dataReloc offset r rest (m.write (f.base + (addr - vbase)) bs)
      else .err .unableToLoad
    else dataReloc offset r rest m

/-- All relocations, in order. -/
def dataRelocs (offset : Nat) (frames : List (Nat × Frame)) : List Reloc → Mem → Outcome Mem
  | [], m => .ok m
  | r :: rs, m => (dataReloc offset r frames m).bind (dataRelocs offset frames rs)

/-- `DataSecAllocator` run over a program, and `finish` (`process.rs` lines 243-248, 533-543): the frames
of the writeable part and memory. -/
def makeData (offset : Nat) (hs : List Hdr) (rs : List Reloc) (supply : List Frame) (m : Mem) :
    Outcome (List Frame × Mem) :=
  (dataAllocate hs supply).bind fun a =>
    (dataLoad a.1 hs m).bind fun m =>
      (dataRelocs offset a.1 rs m).map fun m => (a.1.map (·.2), m)

/-! ## The address space, loaded on each replica -/

/-- `map_action` (`arch/x86_64/process.rs` lines 1111-1120). -/
def Hdr.action (h : Hdr) : Option MapAction :=
  match h.x, h.w, h.r with
  | false, false, true => some .user
  | true, false, true => some .executable
  | false, true, true => some .writable
  | true, true, true => some (MapAction.executable.or .writable)
  | _, _, false => none

/-- The loop over the pages of a header (`arch/x86_64/process.rs` lines 1146-1183).  For a writeable header
`ws` are the writeable frames from index `wsection_idx` on; otherwise `ros` are the pages the allocator
hands out.  `MapFrame` does not run out of memory.  Returns what is left of `ros`. -/
def mapHdr (env : Env) (w : Bool) (a : MapAction) (base : Nat) :
    Nat → List Frame → List Frame → VSpace → Outcome (VSpace × List Frame)
  | 0, _, ros, s => .ok (s, ros)
  | n + 1, ws, ros, s =>
    if w then
      match ws with
      | [] => .panic
      | f :: ws =>
        if f.size = LARGE then
          match mapFrame env false s base f a with
          | (s, .ok _) => mapHdr env w a (base + LARGE) n ws ros s
          | _ => .panic
        else .panic
    else
      match ros with
      | [] => .panic
      | f :: ros =>
        match mapFrame env false s base f a with
        | (s, .ok _) => mapHdr env w a (base + LARGE) n ws ros s
        | _ => .panic

/-- `ElfLoader::allocate` for `Ring3Process` (`arch/x86_64/process.rs` lines 1092-1192).  `wsection_idx`
starts at 0 for every header (line 1146). -/
def procAllocate (env : Env) (offset : Nat) (ws : List Frame) :
    List Hdr → List Frame → VSpace → Outcome (VSpace × List Frame)
  | [], ros, s => .ok (s, ros)
  | h :: hs, ros, s =>
    match h.action with
    | none => .panic
    | some a =>
      (mapHdr env h.w a (offset + pageBase h) (largePages h) ws ros s).bind fun p =>
        procAllocate env offset ws hs p.2 p.1

/-- The byte-wise copy of `ElfLoader::load` (`arch/x86_64/process.rs` lines 1214-1236). -/
def procCopy (s : VSpace) (dest : Nat) : List UInt8 → Mem → Outcome Mem
  | [], m => .ok m
  | b :: bs, m =>
    match s.resolve dest with
    | .ok (p, _) => procCopy s (dest + 1) bs (m.write p [b])
    | .err e => .err e
    | .panic => .panic

/-- The calls of `ElfLoader::load` (`arch/x86_64/process.rs` lines 1195-1246): memory and
`read_only_offset`. -/
def procLoad (s : VSpace) (offset : Nat) : List Hdr → Nat → Mem → Outcome (Nat × Mem)
  | [], ro, m => .ok (ro, m)
  | h :: hs, ro, m =>
    if h.w then procLoad s offset hs ro m
    else
      (procCopy s (offset + h.vaddr) h.data m).bind fun m =>
        procLoad s offset hs (offset + h.vaddr + h.data.length) m

/-- `ElfLoader::relocate` (`arch/x86_64/process.rs` lines 1254-1291). -/
def procReloc (s : VSpace) (offset ro : Nat) (r : Reloc) (m : Mem) : Outcome Mem :=
  let addr := offset + r.off
  if ro ≤ addr then .ok m
  else
    match s.resolve addr with
    | .ok (p, _) =>
      if r.relative then (relocValue offset r).map fun bs => m.write p bs
      else .err .unableToLoad
    | _ => .panic

/-- All relocations, in order. -/
def procRelocs (s : VSpace) (offset ro : Nat) : List Reloc → Mem → Outcome Mem
  | [], m => .ok m
  | r :: rs, m => (procReloc s offset ro r m).bind (procRelocs s offset ro rs)

/-- `Process::load` on one replica (`arch/x86_64/process.rs` lines 1336-1388).  Left out: the search of the
module, the entry point, the thread-local data and the kernel's entries of the root table, which are above
the user's part. -/
def procMake (env : Env) (offset : Nat) (hs : List Hdr) (rs : List Reloc) (ws ros : List Frame)
    (s : VSpace) (m : Mem) : Outcome (VSpace × Mem) :=
  (procAllocate env offset ws hs ros s).bind fun a =>
    (procLoad a.1 offset hs 0 m).bind fun l =>
      (procRelocs a.1 offset l.1 rs l.2).map fun m => (a.1, m)

/-- `Process::load` on all replicas, one after the other.  `reps` are the address spaces and the pages
that the allocators of the replicas hand out. -/
def procAll (env : Env) (offset : Nat) (hs : List Hdr) (rs : List Reloc) (ws : List Frame) :
    List (VSpace × List Frame) → Mem → Outcome (List VSpace × Mem)
  | [], m => .ok ([], m)
  | (s, ros) :: reps, m =>
    (procMake env offset hs rs ws ros s m).bind fun p =>
      (procAll env offset hs rs ws reps p.2).map fun q => (p.1 :: q.1, q.2)

/-- `make_process` (`process.rs` lines 465-565, without the feature `rackscale`), from the file on.  More
than four writeable frames do not fit `writeable_sections` (`arch/x86_64/process.rs` line 1346,
`process.rs` line 58); this error, like all others of the second part, is turned into a panic by `expect`
(line 553). -/
def makeProcess (env : Env) (offset : Nat) (hs : List Hdr) (rs : List Reloc) (supply : List Frame)
    (reps : List (VSpace × List Frame)) (m : Mem) : Outcome (List VSpace × Mem) :=
  (makeData offset hs rs supply m).bind fun d =>
    if 4 < d.1.length then .panic
    else
      match procAll env offset hs rs d.1 reps d.2 with
      | .ok r => .ok r
      | _ => .panic

end NRK.Load
