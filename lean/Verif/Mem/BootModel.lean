import Verif.Mem.McacheModel

/-!
# Model of how memory is distributed at boot

`kernel/src/arch/x86_64/memory.rs` (memory map, NUMA annotation) and `kernel/src/memory/global.rs`
(`GlobalMemory::new`).
-/

namespace NRK.Mem

/-- An entry of the firmware's memory map: start, number of pages, whether it is conventional
memory. -/
structure Region where
  start : Nat
  pages : Nat
  usable : Bool
deriving DecidableEq, Repr

/-- `ONE_MIB` and `EARLY_MEMORY_CAPACITY` (`arch/x86_64/memory.rs` lines 121-122). -/
@[irreducible] def ONE_MIB : Nat := 1048576
@[irreducible] def EARLY_CAP : Nat := 33554432

theorem ONE_MIB_eq : ONE_MIB = 1048576 := by unfold ONE_MIB; rfl
theorem EARLY_CAP_eq : EARLY_CAP = 33554432 := by unfold EARLY_CAP; rfl

/-- `process_uefi_memory_regions` (`arch/x86_64/memory.rs` lines 104-160): the frame for the early
allocator (none if no region is large enough, which the caller turns into a panic) and the other
regions.  The capacity of the region vector (an assertion) is not modelled; the early page cache is
built from the early frame by `MCache.newWithFrame 2048 12 0`. -/
def processRegions : Option Frame → List Region → Outcome (Option Frame × List Frame)
  | early, [] => .ok (early, [])
  | early, r :: rs =>
    if r.usable then
      match Frame.new r.start (r.pages * BASE) 0 with
      | .ok f =>
        if f.base ≥ ONE_MIB then
          if f.size > EARLY_CAP ∧ early = none then
            match f.splitAt EARLY_CAP with
            | .ok (lo, hi) =>
              match processRegions (some lo) rs with
              | .ok (e, fs) => .ok (e, (if hi ≠ Frame.empty then [hi] else []) ++ fs)
              | o => o
            | .err er => .err er
            | .panic => .panic
          else
            match processRegions early rs with
            | .ok (e, fs) => .ok (e, f :: fs)
            | o => o
        else processRegions early rs
      | .err er => .err er
      | .panic => .panic
    else processRegions early rs

/-- A range of physical addresses of a NUMA node, from the firmware's tables. -/
structure NumaRange where
  lo : Nat
  hi : Nat
  node : Nat
deriving DecidableEq, Repr

/-- One region against the NUMA ranges (`arch/x86_64/memory.rs` lines 57-77).  `contains` of the
atopology crate is taken to compute the intersection, (0, 0) if empty; hot-plug ranges are left out
of the list. -/
def annotate (f : Frame) : List NumaRange → Outcome (List Frame)
  | [] => .ok []
  | n :: ns =>
    let lo := if max f.base n.lo < min f.end n.hi then max f.base n.lo else 0
    let hi := if max f.base n.lo < min f.end n.hi then min f.end n.hi else 0
    if lo > 0 then
      match Frame.fromRange lo hi n.node with
      | .ok g => (annotate f ns).map (g :: ·)
      | .err er => .err er
      | .panic => .panic
    else annotate f ns

/-- All regions (`arch/x86_64/memory.rs` lines 55-78). -/
def annotateAll (ns : List NumaRange) : List Frame → Outcome (List Frame)
  | [] => .ok []
  | f :: fs =>
    match annotate f ns with
    | .ok gs => (annotateAll ns fs).map (gs ++ ·)
    | o => o

/-- `identify_numa_affinity` (`arch/x86_64/memory.rs` lines 49-95). -/
def identifyNuma (ns : List NumaRange) (fs : List Frame) : Outcome (List Frame) :=
  let r := if ns = [] then .ok fs else annotateAll ns fs
  match r with
  | .ok gs => if (gs.map (·.size)).sum = (fs.map (·.size)).sum then .ok gs else .panic
  | o => o

/-- `EMEM_SIZE` (`memory/global.rs` line 82). -/
def EMEM_SIZE : Nat := 2 * LARGE + 64 * BASE

/-- The loop that builds the emergency caches (`memory/global.rs` lines 81-107): the memory frames
afterwards, the leftovers, the caches for nodes `cur`, `cur + 1`, ... -/
def ememLoop (debug : Bool) : Nat → List Frame → Outcome (List Frame × List Frame × List MCache)
  | _, [] => .ok ([], [], [])
  | cur, f :: fs =>
    if f.aff = cur ∧ f.size > EMEM_SIZE then
      match f.splitAtLargeBoundary with
      | .ok (low, high) =>
        match high.splitAt EMEM_SIZE with
        | .ok (em, left) =>
          match MCache.newWithFrame 381 128 cur em debug with
          | .ok c =>
            match ememLoop debug (cur + 1) fs with
            | .ok (m, lo, cs) =>
              .ok (low :: m, (if left ≠ Frame.empty then [left] else []) ++ lo, c :: cs)
            | o => o
          | .err er => .err er
          | .panic => .panic
        | .err er => .err er
        | .panic => .panic
      | .err er => .err er
      | .panic => .panic
    else
      match ememLoop debug cur fs with
      | .ok (m, lo, cs) => .ok (f :: m, lo, cs)
      | o => o

/-- Each emergency cache gives a large page to hold the node's big cache (`memory/global.rs` lines
115-130): the caches afterwards and the pages taken. -/
def takeNodePages : List MCache → Outcome (List MCache × List Frame)
  | [] => .ok ([], [])
  | c :: cs =>
    match c.allocLarge with
    | (.ok p, c') =>
      if p.base = 0 then .panic
      else
        match takeNodePages cs with
        | .ok (cs', ps) => .ok (c' :: cs', p :: ps)
        | o => o
    | (.err er, _) => .err er
    | (.panic, _) => .panic

/-- Put frames into a node's cache (`memory/global.rs` lines 136-147). -/
def populateAll (c : MCache) : List Frame → Outcome MCache
  | [] => .ok c
  | f :: fs =>
    match c.populate2mFirst f with
    | .ok c' => populateAll c' fs
    | o => o

/-- The caches of the nodes `cur`, ..., `cur + n - 1` (`memory/global.rs` lines 132-148). -/
def nodeCaches (mem left : List Frame) : Nat → Nat → Outcome (List MCache)
  | _, 0 => .ok []
  | cur, n + 1 =>
    match populateAll (MCache.new 131071 131070 cur)
        (mem.filter (·.aff = cur) ++ left.filter (·.aff = cur)) with
    | .ok c => (nodeCaches mem left (cur + 1) n).map (c :: ·)
    | .err er => .err er
    | .panic => .panic

/-- What `GlobalMemory::new` builds. -/
structure GlobalMem where
  emem : List MCache
  nodePages : List Frame
  caches : List MCache
deriving DecidableEq

/-- `GlobalMemory::new` (`memory/global.rs` lines 61-150).  The check that the frames are sorted by
node (line 64) is the first test. -/
def GlobalMem.new (debug : Bool) (mem : List Frame) : Outcome GlobalMem :=
  if mem.Pairwise (fun a b => a.aff ≤ b.aff) then
    match (mem.map (·.aff)).max? with
    | none => .panic
    | some top =>
      match ememLoop debug 0 mem with
      | .ok (m, left, cs) =>
        if cs.length = top + 1 then
          match takeNodePages cs with
          | .ok (cs', ps) =>
            match nodeCaches m left 0 (top + 1) with
            | .ok ncs => .ok ⟨cs', ps, ncs⟩
            | .err er => .err er
            | .panic => .panic
          | .err er => .err er
          | .panic => .panic
        else .panic
      | .err er => .err er
      | .panic => .panic
  else .panic

/-- The boot core's memory: the early page cache and the global memory manager
(`arch/x86_64/mod.rs` lines 333-391).  Persistent memory is in
`PmemModel`. -/
structure BootMem where
  early : MCache
  glob : GlobalMem
deriving DecidableEq

/-- `arch/x86_64/mod.rs` lines 333-391: memory map, early cache, NUMA annotation, global memory. -/
def boot (debug : Bool) (ns : List NumaRange) (rs : List Region) : Outcome BootMem :=
  match processRegions none rs with
  | .ok (some ef, fs) =>
    match MCache.newWithFrame 2048 12 0 ef debug with
    | .ok ec =>
      match identifyNuma ns fs with
      | .ok gs => (GlobalMem.new debug gs).map (fun g => ⟨ec, g⟩)
      | .err er => .err er
      | .panic => .panic
    | .err er => .err er
    | .panic => .panic
  | .ok (none, _) => .panic
  | .err er => .err er
  | .panic => .panic

end NRK.Mem
