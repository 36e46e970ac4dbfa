import Verif.Mem.McacheModel

/-!
# Model of the emergency allocator, the per-core arenas and the user-level heaps

`kernel/src/memory/emem.rs`, `kernel/src/memory/per_core.rs`, `kernel/src/memory/mod.rs` (big
allocations) and `lib/vibrio/src/mem.rs`.
-/

namespace NRK.Mem

/-! ## Emergency allocator -/

/-- `EmergencyAllocator` (`memory/emem.rs` lines 30-34) without the unused `index`. -/
structure EmAlloc where
  region : Frame
deriving DecidableEq, Repr

/-- `EmergencyAllocator::empty` (`memory/emem.rs` lines 43-48). -/
def EmAlloc.empty : EmAlloc := ⟨Frame.empty⟩

/-- `allocate_layout` (`memory/emem.rs` lines 50-67).  The three `debug_assert`s of lines 59-61 are
not repeated: `c24_allocation` proves what they say. -/
def EmAlloc.allocate (e : EmAlloc) (size align : Nat) : Outcome Frame × EmAlloc :=
  if align ≤ BASE then
    let size := roundUp size BASE
    if size ≤ e.region.size then
      match e.region.splitAt size with
      | .ok (low, high) => (.ok low, ⟨high⟩)
      | .err er => (.err er, e)
      | .panic => (.panic, e)
    else (.err .cacheExhausted, e)
  else (.panic, e)

/-- `allocate_base_page` (`memory/emem.rs` lines 128-133). -/
def EmAlloc.allocateBase (e : EmAlloc) : Outcome Frame × EmAlloc := e.allocate BASE BASE

/-- `refill` (`memory/emem.rs` lines 93-106): `pa` is the physical address of the new page. -/
def EmAlloc.refill (e : EmAlloc) (pa : Nat) : Outcome Unit × EmAlloc :=
  match Frame.new pa BASE 0 with
  | .ok f => (.ok (), ⟨f⟩)
  | .err er => (.err er, e)
  | .panic => (.panic, e)

/-- `refill_large` (`memory/emem.rs` lines 108-121). -/
def EmAlloc.refillLarge (e : EmAlloc) (pa : Nat) : Outcome Unit × EmAlloc :=
  match Frame.new pa LARGE 0 with
  | .ok f => (.ok (), ⟨f⟩)
  | .err er => (.err er, e)
  | .panic => (.panic, e)

/-! ## Arenas of a core -/

/-- `PerCoreAllocatorState` (`memory/per_core.rs` lines 34-42): the affinity and the page cache.
The zone allocator (crate slabmalloc) is represented by the pages it has taken, `zone`. -/
structure Arena where
  aff : Nat
  cache : MCache
  zone : List Frame
deriving DecidableEq

/-- `PerCoreAllocatorState::new` (`memory/per_core.rs` lines 46-52); a `FrameCacheSmall` has room
for 381 base and 128 large pages (`memory/mcache.rs` lines 33-34). -/
def Arena.new (node : Nat) : Arena := ⟨node, MCache.new 381 128 node, []⟩

/-- The memory in an arena. -/
def Arena.held (a : Arena) : List Spec.Block := a.cache.held ++ a.zone.map Frame.block

/-- The current arena of a core and the ones put aside (`memory/per_core.rs` lines 80-91). -/
structure CoreMem where
  cur : Arena
  arenas : List (Option Arena)
deriving DecidableEq

/-- What the machine looks like: number of NUMA nodes, number of machines, rack-scale build. -/
structure Topo where
  nodes : Nat
  machines : Nat
  rack : Bool
deriving DecidableEq, Repr

/-- `is_valid_node` (`memory/per_core.rs` lines 143-152). -/
def validNode (t : Topo) (len node : Nat) : Bool :=
  if t.rack then
    decide (node < len) &&
      ((!isShmemAffinity node && decide (node < max 1 t.nodes)) ||
        (isShmemAffinity node && decide (node - MAX_NUMA_NODES < t.machines)))
  else
    decide (node < len) && decide (node < max 1 t.nodes)

/-- `swap_manager` (`memory/per_core.rs` lines 138-169).  A place outside `arenas` for the old arena
panics (the index of line 164). -/
def CoreMem.swap (t : Topo) (m : CoreMem) (node : Nat) : Outcome Unit × CoreMem :=
  if validNode t m.arenas.length node then
    let arena := (m.arenas.getD node none).getD (Arena.new node)
    if m.cur.aff < m.arenas.length then
      (.ok (), ⟨arena, (m.arenas.set node none).set m.cur.aff (some m.cur)⟩)
    else (.panic, m)
  else (.err .invalidAffinityId, m)

/-- `set_mem_affinity` (`memory/per_core.rs` lines 171-181), and `set_pmem_affinity` (183-193) for
the arenas of persistent memory. -/
def CoreMem.setAffinity (t : Topo) (m : CoreMem) (node : Nat) : Outcome Unit × CoreMem :=
  if node = m.cur.aff then (.ok (), m) else m.swap t node

/-- `PerCoreMemory::new` (`memory/per_core.rs` lines 100-114). -/
def CoreMem.new (len node : Nat) : CoreMem := ⟨Arena.new node, List.replicate len none⟩

/-- The memory in all arenas of the core. -/
def CoreMem.held (m : CoreMem) : List Spec.Block :=
  m.cur.held ++ (m.arenas.map (fun a => (a.map Arena.held).getD [])).flatten

/-! ## Big kernel allocations -/

/-- `maybe_refill_tcache` (`memory/mod.rs` lines 489-517) for local memory: only when the core's
cache has too few pages. -/
def maybeRefill (rack : Bool) (nc tc : MCache) (needB needL : Nat) : Outcome Unit × MCache × MCache :=
  if needB > tc.bp.length ∨ needL > tc.lp.length then refillTcache rack nc tc needB needL
  else (.ok (), nc, tc)

/-- Take `n` large pages for a big allocation (`memory/mod.rs` lines 156-174; "can't run out of
memory" is an `expect`). -/
def takeLarge (tc : MCache) : Nat → Outcome (List Frame) × MCache
  | 0 => (.ok [], tc)
  | n + 1 =>
    match tc.allocLarge with
    | (.ok f, tc') =>
      match takeLarge tc' n with
      | (.ok fs, tc'') => (.ok (f :: fs), tc'')
      | r => r
    | (_, tc') => (.panic, tc')

/-- Take `n` base pages for a big allocation (`memory/mod.rs` lines 176-192). -/
def takeBase (tc : MCache) : Nat → Outcome (List Frame) × MCache
  | 0 => (.ok [], tc)
  | n + 1 =>
    match tc.allocBase with
    | (.ok f, tc') =>
      match takeBase tc' n with
      | (.ok fs, tc'') => (.ok (f :: fs), tc'')
      | r => r
    | (_, tc') => (.panic, tc')

/-- A `MapBig` allocation (`memory/mod.rs` lines 101-195): refill, move the break, take the pages.
Returns the start address and the pages that back it in order of address.  The pages that building
the kernel page table takes from the same cache are not modelled. -/
def allocBig (rack : Bool) (nc tc : MCache) (sbrk size : Nat) :
    Outcome (Nat × List Frame) × Nat × MCache × MCache :=
  let p := mapBigPages size
  match maybeRefill rack nc tc (p.1 + 20) (p.2 + 1) with
  | (.ok (), nc', tc') =>
    match takeLarge tc' p.2 with
    | (.ok ls, tc'') =>
      match takeBase tc'' p.1 with
      | (.ok bs, tc''') => (.ok (sbrk, ls ++ bs), (mapBig sbrk size).2.2, nc', tc''')
      | (.err e, tc''') => (.err e, (mapBig sbrk size).2.2, nc', tc''')
      | (.panic, tc''') => (.panic, (mapBig sbrk size).2.2, nc', tc''')
    | (.err e, tc'') => (.err e, (mapBig sbrk size).2.2, nc', tc'')
    | (.panic, tc'') => (.panic, (mapBig sbrk size).2.2, nc', tc'')
  | (.err e, nc', tc') => (.err e, sbrk, nc', tc')
  | (.panic, nc', tc') => (.panic, sbrk, nc', tc')

/-! ## User-level heaps -/

/-- `Pager` (`lib/vibrio/src/mem.rs` lines 46-49). -/
structure Pager where
  sbrk : Nat
  limit : Nat
deriving DecidableEq, Repr

/-- The heap region of core `i` (`lib/vibrio/src/mem.rs` lines 116-124); `start` and `region` are
`HEAP_START` and `HEAP_PER_CORE_REGION`. -/
def Pager.init (start region i : Nat) : Pager := ⟨start + i * region, start + (i + 1) * region⟩

/-- `Pager::allocate` (`lib/vibrio/src/mem.rs` lines 72-87).  `mapOk base size` is the answer of the
system call that maps fresh memory.  The address is returned. -/
def Pager.allocate (p : Pager) (mapOk : Nat → Nat → Bool) (size align : Nat) : Outcome Nat × Pager :=
  let size := roundUp size 4096
  let sbrk := roundUp p.sbrk (max align 4096)
  if sbrk ≥ p.limit then (.err .outOfMemory, { p with sbrk := sbrk })
  else if mapOk sbrk size then (.ok sbrk, { p with sbrk := sbrk + size })
  else (.err .outOfMemory, { p with sbrk := sbrk })

end NRK.Mem
