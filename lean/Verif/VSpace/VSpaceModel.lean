import Verif.VSpace.PageTableModel
import Verif.Mem.McacheModel

/-!
# Model of address spaces, `kernel/src/arch/x86_64/vspace/mod.rs` and `kernel/src/memory/vspace.rs`

An operation returns the state it leaves behind together with its outcome, because some operations
fail after having changed something.
-/

namespace NRK.VSpace

open NRK.Mem (Frame)

/-- `MappingInfo` (`memory/vspace.rs` lines 111-131); the type field is the same for all. -/
structure MappingInfo where
  frame : Frame
  rights : MapAction
deriving DecidableEq, Repr

/-- `VSpace` (`arch/x86_64/vspace/mod.rs` lines 108-111).  The `BTreeMap` of mappings is a list in
descending order of the base address. -/
structure VSpace where
  maps : List (Nat × MappingInfo)
  pt : PML4

/-- `BTreeMap::insert`, the key not being there. -/
def insertMap (b : Nat) (i : MappingInfo) : List (Nat × MappingInfo) → List (Nat × MappingInfo)
  | [] => [(b, i)]
  | q :: rest => if q.1 < b then (b, i) :: q :: rest else q :: insertMap b i rest

/-- `VSpace::map_frame` (`arch/x86_64/vspace/mod.rs` lines 114-159).  The loop looks at the mapping
with the greatest base below the end of the new range and never at a second one.  `oom` says that
`try_insert` fails. -/
def mapFrame (env : Env) (oom : Bool) (s : VSpace) (base : Nat) (f : Frame) (a : MapAction) :
    VSpace × Outcome Unit :=
  if f.size = 0 then (s, .err .invalidFrame)
  else if f.base % f.size ≠ 0 then (s, .err .invalidFrame)
  else if base % f.size ≠ 0 then (s, .err .invalidBase)
  else
    let insert : VSpace × Outcome Unit :=
      if oom then (s, .err .outOfMemory)
      else
        let maps' := insertMap base ⟨f, a⟩ s.maps
        match ptMap env s.pt base f.base f.size a with
        | .ok pt' => (⟨maps', pt'⟩, .ok ())
        | .err e => (⟨maps', s.pt⟩, .err e)
        | .panic => (⟨maps', s.pt⟩, .panic)
    match s.maps.find? (fun q => decide (q.1 < base + f.size)) with
    | some (b, i) =>
      if b + i.frame.size ≤ base then insert
      else if b = base ∧ i.frame.base = f.base ∧ i.frame.size ≤ f.size ∧ i.rights = a then (s, .ok ())
      else (s, .err (.alreadyMapped b))
    | none => insert

/-- `VSpace::unmap` (`arch/x86_64/vspace/mod.rs` lines 171-187), with the debug assertion of line
185. -/
def unmap (s : VSpace) (base : Nat) : VSpace × Outcome FlushHandle :=
  let go : VSpace × Outcome FlushHandle :=
    match ptUnmap s.pt base with
    | .ok (pt', h) =>
      if s.maps.any (fun q => decide (q.1 = h.vaddr)) then
        (⟨s.maps.filter (fun q => decide (q.1 ≠ h.vaddr)), pt'⟩, .ok h)
      else (⟨s.maps, pt'⟩, .panic)
    | .err e => (s, .err e)
    | .panic => (s, .panic)
  match s.maps.find? (fun q => decide (q.1 ≤ base)) with
  | some (b, i) => if b ≤ base ∧ base < b + i.frame.size then go else (s, .err .notMapped)
  | none => go

/-- `VSpace::adjust` (`arch/x86_64/vspace/mod.rs` lines 189-194). -/
def adjust (s : VSpace) (base : Nat) (r : MapAction) : VSpace × Outcome (Nat × Nat) :=
  match ptAdjust s.pt base r with
  | .ok (pt', va, sz) =>
    if s.maps.any (fun q => decide (q.1 = va)) then
      (⟨s.maps.map (fun q => if q.1 = va then (q.1, ⟨q.2.frame, r⟩) else q), pt'⟩, .ok (va, sz))
    else (⟨s.maps, pt'⟩, .err .notMapped)
  | .err e => (s, .err e)
  | .panic => (s, .panic)

/-- `AddressSpace::map_frames` (`memory/vspace.rs` lines 146-158).  Addresses do not overflow here;
`ooms` gives the result of `try_insert` for each frame. -/
def mapFrames (env : Env) : VSpace → Nat → List (Bool × Frame × MapAction) → VSpace × Outcome Unit
  | s, _, [] => (s, .ok ())
  | s, base, (oom, f, a) :: rest =>
    match mapFrame env oom s base f a with
    | (s', .ok _) => mapFrames env s' (base + f.size) rest
    | r => r

/-- `VSpace::resolve` (`arch/x86_64/vspace/mod.rs` lines 167-169). -/
def VSpace.resolve (s : VSpace) (x : Nat) : Outcome (Nat × MapAction) := NRK.VSpace.resolve s.pt x

/-- The second half of `map_generic` (`arch/x86_64/syscall.rs` lines 358-363), see `mapMem`. -/
def mapPages (env : Env) (frames : List Frame) (oom : Nat → Bool) (s : VSpace) (base : Nat) :
    VSpace × Outcome (Nat × Nat) :=
  match mapFrames env s base (frames.mapIdx fun i f => (oom i, f, MapAction.writable)) with
  | (s', .ok _) =>
    match frames with
    | [] => (s', .panic)
    | f :: _ => (s', .ok (f.base, (frames.map (·.size)).sum))
  | (s', _) => (s', .panic)

/-- `map_generic` of the `MapMem` and `MapPMem` system calls (`arch/x86_64/syscall.rs` lines 310-364)
with the loop of `NrProcess::map_frames` (`kernel/src/nrproc.rs` lines 261-292).  `alloc lp bp` are
the frames the allocator hands out, large pages first; `oom` says for which of them `try_insert`
fails.  A frame that cannot be mapped is an `unreachable!` (line 279), no frame at all an `unwrap` of
`None` (line 363).  Simplification: each frame is one operation of the process's log, here they follow
one another. -/
def mapMem (env : Env) (alloc : Nat → Nat → List Frame) (oom : Nat → Bool) (s : VSpace)
    (base size : Nat) : VSpace × Outcome (Nat × Nat) :=
  mapPages env (alloc (NRK.Mem.sizeToPages size).2 (NRK.Mem.sizeToPages size).1) oom s base

end NRK.VSpace
