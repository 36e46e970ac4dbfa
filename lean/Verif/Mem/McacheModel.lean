import Verif.Mem.FrameModel

/-!
# Model of the page caches, `kernel/src/memory/mcache.rs`, and of their refilling,
`kernel/src/memory/mod.rs`
-/

namespace NRK.Mem

/-- `MCache<BP, LP>` (`mcache.rs` lines 54-61).  The two array-vectors are lists whose head is the
element at the end of the vector (where `push` and `pop` work); the capacities are fields. -/
structure MCache where
  capB : Nat
  capL : Nat
  node : Nat
  bp : List Nat
  lp : List Nat
deriving DecidableEq, Repr

/-- `MCache::new` (`mcache.rs` lines 66-72), also `init` (lines 172-182). -/
def MCache.new (capB capL node : Nat) : MCache := ⟨capB, capL, node, [], []⟩

/-- `ArrayVec::try_push` (of the arrayvec crate) on the base-page stack. -/
def MCache.pushBase (c : MCache) (a : Nat) : Option MCache :=
  if c.bp.length < c.capB then some { c with bp := a :: c.bp } else none

/-- `ArrayVec::try_push` on the large-page stack. -/
def MCache.pushLarge (c : MCache) (a : Nat) : Option MCache :=
  if c.lp.length < c.capL then some { c with lp := a :: c.lp } else none

/-- The loops that put the pages of a frame onto the base-page stack until it is full (`mcache.rs`
lines 120-125 and 144-152). -/
def MCache.pushBases (c : MCache) : List Frame → MCache
  | [] => c
  | p :: ps =>
    match c.pushBase p.base with
    | some c' => c'.pushBases ps
    | none => c

/-- The loop that adds large pages (`mcache.rs` lines 128-141): a page that does not fit is lost.
Returns the rest of the frame too. -/
def MCache.pushLarges (c : MCache) (f : Frame) : Nat → Outcome (MCache × Frame)
  | 0 => .ok (c, f)
  | n + 1 =>
    if f.size ≥ LARGE then
      match f.splitAt LARGE with
      | .ok (page, rest) => ((c.pushLarge page.base).getD c).pushLarges rest n
      | .err e => .err e
      | .panic => .panic
    else .ok (c, f)

/-- `MCache::populate` (`mcache.rs` lines 109-169). -/
def MCache.populate (c : MCache) (f : Frame) (howMany : Nat) : Outcome MCache :=
  let n := if howMany = 0 then 1 else howMany
  match f.splitAtLargeBoundary with
  | .ok (low, high) =>
    match low.pages with
    | .ok lowPages =>
      match (c.pushBases lowPages).pushLarges high n with
      | .ok (c', rest) =>
        match rest.pages with
        | .ok restPages => .ok (c'.pushBases restPages)
        | .err e => .err e
        | .panic => .panic
      | .err e => .err e
      | .panic => .panic
    | .err e => .err e
    | .panic => .panic
  | .err e => .err e
  | .panic => .panic

/-- `MCache::populate_4k_first` (`mcache.rs` lines 86-98).  `debug` says whether debug assertions
are compiled in. -/
def MCache.populate4kFirst (c : MCache) (f : Frame) (debug : Bool) : Outcome MCache :=
  if f.basePages > c.capB then
    c.populate f ((f.basePages - c.capB) * BASE / LARGE)
  else if debug && decide (c.capB * BASE > LARGE) then .panic
  else c.populate f 1

/-- `MCache::populate_2m_first` (`mcache.rs` lines 104-107). -/
def MCache.populate2mFirst (c : MCache) (f : Frame) : Outcome MCache :=
  c.populate f ((f.size / LARGE) * 87 / 100)

/-- `MCache::new_with_frame` (`mcache.rs` lines 74-81). -/
def MCache.newWithFrame (capB capL node : Nat) (f : Frame) (debug : Bool) : Outcome MCache :=
  (MCache.new capB capL node).populate4kFirst f debug

/-- `allocate_base_page` (`mcache.rs` lines 254-260) with `paddr_to_base_page` (184-186). -/
def MCache.allocBase (c : MCache) : Outcome Frame × MCache :=
  match c.bp with
  | [] => (.err .cacheExhausted, c)
  | a :: as => (Frame.new a BASE c.node, { c with bp := as })

/-- `allocate_large_page` (`mcache.rs` lines 272-278) with `paddr_to_large_page` (188-190). -/
def MCache.allocLarge (c : MCache) : Outcome Frame × MCache :=
  match c.lp with
  | [] => (.err .cacheExhausted, c)
  | a :: as => (Frame.new a LARGE c.node, { c with lp := as })

/-- `release_base_page` (`mcache.rs` lines 262-270). -/
def MCache.releaseBase (c : MCache) (f : Frame) : Outcome Unit × MCache :=
  if f.size = BASE ∧ f.base % BASE = 0 ∧ f.aff = c.node then
    match c.pushBase f.base with
    | some c' => (.ok (), c')
    | none => (.err .cacheFull, c)
  else (.panic, c)

/-- `release_large_page` (`mcache.rs` lines 280-288). -/
def MCache.releaseLarge (c : MCache) (f : Frame) : Outcome Unit × MCache :=
  if f.size = LARGE ∧ f.base % LARGE = 0 ∧ f.aff = c.node then
    match c.pushLarge f.base with
    | some c' => (.ok (), c')
    | none => (.err .cacheFull, c)
  else (.panic, c)

/-- `spare_base_page_capacity` (`mcache.rs` lines 293-295). -/
def MCache.spareBase (c : MCache) : Nat := c.capB - c.bp.length

/-- `spare_large_page_capacity` (`mcache.rs` lines 321-323). -/
def MCache.spareLarge (c : MCache) : Nat := c.capL - c.lp.length

/-- `MAX_NUMA_NODES` (`kernel/src/arch/x86_64/mod.rs`), the first shared-memory affinity. -/
def MAX_NUMA_NODES : Nat := 12

/-- `is_shmem_affinity` (`memory/shmem_affinity.rs` lines 15-17). -/
def isShmemAffinity (a : Nat) : Bool := decide (MAX_NUMA_NODES ≤ a)

/-- `mid_to_shmem_affinity` (`memory/shmem_affinity.rs` lines 22-25). -/
def midToShmemAffinity (mid : Nat) : Nat := MAX_NUMA_NODES + mid

/-- `shmem_affinity_to_mid` (`memory/shmem_affinity.rs` lines 29-32); underflow panics. -/
def shmemAffinityToMid (a : Nat) : Outcome Nat :=
  if MAX_NUMA_NODES ≤ a then .ok (a - MAX_NUMA_NODES) else .panic

/-- The affinity check of `grow_base_pages` (`mcache.rs` lines 302-312); `rack` says whether the
kernel is built with the `rackscale` feature. -/
def affinityFits (rack : Bool) (a node : Nat) : Bool :=
  if rack then isShmemAffinity a == isShmemAffinity node else a == node

/-- `grow_base_pages` (`mcache.rs` lines 297-319): stops with an error at the first page that does
not fit; the pages before it stay in the cache. -/
def MCache.growBase (c : MCache) (rack : Bool) : List Frame → Outcome Unit × MCache
  | [] => (.ok (), c)
  | f :: fs =>
    if f.size = BASE ∧ f.base % BASE = 0 ∧ affinityFits rack f.aff c.node then
      match c.pushBase f.base with
      | some c' => c'.growBase rack fs
      | none => (.err .cacheFull, c)
    else (.panic, c)

/-- `grow_large_pages` (`mcache.rs` lines 325-336). -/
def MCache.growLarge (c : MCache) : List Frame → Outcome Unit × MCache
  | [] => (.ok (), c)
  | f :: fs =>
    if f.size = LARGE ∧ f.base % LARGE = 0 ∧ f.aff = c.node then
      match c.pushLarge f.base with
      | some c' => c'.growLarge fs
      | none => (.err .cacheFull, c)
    else (.panic, c)

/-- `reap_base_pages` (`mcache.rs` lines 340-349): fills the slots from the front.  An aligned
address is assumed in `paddr_to_base_page` (its assertion cannot fail, see `c21_pages_well_formed`). -/
def MCache.reapBase (c : MCache) : List (Option Frame) → List (Option Frame) × MCache
  | [] => ([], c)
  | x :: xs =>
    match c.bp with
    | [] => (x :: xs, c)
    | a :: as =>
      let r := MCache.reapBase { c with bp := as } xs
      (some ⟨a, BASE, c.node⟩ :: r.1, r.2)

/-- `reap_large_pages` (`mcache.rs` lines 352-361). -/
def MCache.reapLarge (c : MCache) : List (Option Frame) → List (Option Frame) × MCache
  | [] => ([], c)
  | x :: xs =>
    match c.lp with
    | [] => (x :: xs, c)
    | a :: as =>
      let r := MCache.reapLarge { c with lp := as } xs
      (some ⟨a, LARGE, c.node⟩ :: r.1, r.2)

/-- `free` (`mcache.rs` lines 199-202). -/
def MCache.free (c : MCache) : Nat := c.bp.length * BASE + c.lp.length * LARGE

/-- `capacity` (`mcache.rs` lines 193-196). -/
def MCache.capacity (c : MCache) : Nat := c.capB * BASE + c.capL * LARGE

/-- The memory blocks in the cache. -/
def MCache.held (c : MCache) : List Spec.Block :=
  c.bp.map (⟨·, BASE⟩) ++ c.lp.map (⟨·, LARGE⟩)

/-! ## Sizing and refilling -/

/-- `size_to_pages` (`memory/utils.rs` lines 15-28): (base pages, large pages). -/
def sizeToPages (size : Nat) : Nat × Nat :=
  let notInLarge := size % LARGE
  let div := notInLarge / BASE
  let rem := notInLarge % BASE
  let base := if rem > 0 then div + 1 else div
  let remaining := size - notInLarge
  let div := remaining / LARGE
  let rem := remaining % LARGE
  let large := if rem > 0 then div + 1 else div
  (base, large)

/-- `AllocatorType` (`memory/mod.rs` lines 64-71). -/
inductive AllocatorType where
  | zone | memManager | mapBig
deriving DecidableEq, Repr

/-- `allocator_for` (`memory/mod.rs` lines 205-212); `maxZone` is `ZoneAllocator::MAX_ALLOC_SIZE`
of the slabmalloc crate. -/
def allocatorFor (maxZone size : Nat) : AllocatorType :=
  if size ≤ maxZone then .zone else if size ≤ LARGE then .memManager else .mapBig

/-- `refill_amount` (`memory/mod.rs` lines 254-272); `maxBase` is
`ZoneAllocator::MAX_BASE_ALLOC_SIZE`. -/
def refillAmount (maxZone maxBase size : Nat) : Nat × Nat :=
  match allocatorFor maxZone size with
  | .zone => if size ≤ maxBase then (1, 0) else (0, 1)
  | .memManager => if size ≤ BASE then (1, 0) else (0, 1)
  | .mapBig => sizeToPages size

/-- The page counts a `MapBig` allocation maps (`memory/mod.rs` lines 124-139). -/
def mapBigPages (size : Nat) : Nat × Nat :=
  let p := sizeToPages size
  if p.1 > 254 then (0, p.2 + 1) else p

/-- A `MapBig` allocation (`memory/mod.rs` lines 145-195): the range handed out starts at the old
break, `mapped` bytes of it are backed, the break moves by `(large + 1)` large pages.  Returns
(start, mapped bytes, new break). -/
def mapBig (sbrk size : Nat) : Nat × Nat × Nat :=
  let p := mapBigPages size
  (sbrk, p.2 * LARGE + p.1 * BASE, sbrk + (p.2 + 1) * LARGE)

/-- Move `n` base pages from the node cache into the core's cache (`memory/mod.rs` lines 317-322).
Second component: node cache and core cache afterwards. -/
def moveBase (rack : Bool) (nc tc : MCache) : Nat → Outcome Unit × MCache × MCache
  | 0 => (.ok (), nc, tc)
  | n + 1 =>
    match nc.allocBase with
    | (.ok f, nc') =>
      match tc.growBase rack [f] with
      | (.ok (), tc') => moveBase rack nc' tc' n
      | (_, tc') => (.panic, nc', tc')
    | (.err e, nc') => (.err e, nc', tc)
    | (.panic, nc') => (.panic, nc', tc)

/-- The same for large pages (`memory/mod.rs` lines 324-329). -/
def moveLarge (nc tc : MCache) : Nat → Outcome Unit × MCache × MCache
  | 0 => (.ok (), nc, tc)
  | n + 1 =>
    match nc.allocLarge with
    | (.ok f, nc') =>
      match tc.growLarge [f] with
      | (.ok (), tc') => moveLarge nc' tc' n
      | (_, tc') => (.panic, nc', tc')
    | (.err e, nc') => (.err e, nc', tc)
    | (.panic, nc') => (.panic, nc', tc)

/-- `try_refill_tcache` (`memory/mod.rs` lines 275-332) for local memory: `nc` is the node cache
with the affinity of the core's cache `tc` (line 315).  The RPC path for shared memory and the
cases without global manager are not modelled. -/
def refillTcache (rack : Bool) (nc tc : MCache) (needB needL : Nat) :
    Outcome Unit × MCache × MCache :=
  match moveBase rack nc tc (min tc.spareBase needB) with
  | (.ok (), nc', tc') => moveLarge nc' tc' (min tc.spareLarge needL)
  | r => r

end NRK.Mem
