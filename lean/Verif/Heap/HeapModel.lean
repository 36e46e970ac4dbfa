import Verif.Mem.AllocModel

/-!
# Model of the kernel heap, `kernel/src/memory/mod.rs` (`KernelAllocator`, `GlobalAlloc`)

Objects of up to 128 KiB come from a slab allocator (crate slabmalloc, not in /repo), larger ones of up to a
large page are large pages, and bigger ones are mapped into the kernel's address space.

Simplifications: one core, one affinity, not the emergency allocator (C24, C26), not rack-scale.  Memory is
addressed by kernel virtual addresses.
-/

namespace NRK.Heap

open NRK.Mem NRK.Mem.Spec

/-- Constants of slabmalloc 0.10 and the start of the kernel's window on physical memory (`KERNEL_BASE`,
`lib/kpi/src/lib.rs` line 31).  `cls s` is the size of the slots used for objects of `s` bytes
(`ZoneAllocator::get_max_size`), `overhead` the bytes at the end of a page that the slab allocator keeps for
itself, `maxBase`/`maxAlloc` are `MAX_BASE_ALLOC_SIZE`/`MAX_ALLOC_SIZE`. -/
structure HCfg where
  kb : Nat
  maxBase : Nat
  maxAlloc : Nat
  overhead : Nat
  cls : Nat → Nat

/-- A slot of a slab. -/
structure Slot where
  addr : Nat
  size : Nat
deriving DecidableEq, Repr

/-- What the kernel relies on of a `ZoneAllocator`: slots that are free, slots that are handed out, and the
pages it has got. -/
structure Zone where
  free : List Slot
  live : List Slot
  pages : List Frame

/-- The slots that fit. -/
def Zone.fits (k : HCfg) (z : Zone) (size align : Nat) : List Slot :=
  z.free.filter fun s => decide (s.size = k.cls size) && decide (s.addr % align = 0)

/-- `ZoneAllocator::allocate` (slabmalloc): some free slot of the size class with the alignment; which one is
not known (`pick`).  `none` is `OutOfMemory`. -/
def Zone.allocate (k : HCfg) (z : Zone) (size align pick : Nat) : Option (Nat × Zone) :=
  match (z.fits k size align)[pick % (z.fits k size align).length]? with
  | some s => some (s.addr, { z with free := z.free.erase s, live := s :: z.live })
  | none => none

/-- `ZoneAllocator::deallocate` (slabmalloc): the slot of that size class at that address is free again.
Anything else is against the allocator's contract and counted as a panic (`none`). -/
def Zone.deallocate (k : HCfg) (z : Zone) (ptr size : Nat) : Option Zone :=
  if ⟨ptr, k.cls size⟩ ∈ z.live then
    some { z with free := ⟨ptr, k.cls size⟩ :: z.free, live := z.live.erase ⟨ptr, k.cls size⟩ }
  else none

/-- The slots of a page. -/
def slotsOf (k : HCfg) (f : Frame) (c : Nat) : List Slot :=
  (List.range ((f.size - k.overhead) / c)).map fun i => ⟨k.kb + f.base + i * c, c⟩

/-- `ZoneAllocator::refill` and `refill_large` (slabmalloc): a page is cut into slots. -/
def Zone.refill (k : HCfg) (z : Zone) (f : Frame) (size : Nat) : Zone :=
  { z with free := slotsOf k f (k.cls size) ++ z.free, pages := f :: z.pages }

/-- The state of the heap: cache of the node, cache of the core, slab allocator, the break of the big objects
(`big_objects_sbrk`), what is mapped for big objects, and memory. -/
structure Heap where
  nc : MCache
  tc : MCache
  zone : Zone
  sbrk : Nat
  mapped : List (Nat × Frame)
  mem : Nat → UInt8

/-- The part of a page that the slab allocator keeps for itself. -/
def metaOf (k : HCfg) (f : Frame) : Block := ⟨k.kb + f.base + (f.size - k.overhead), k.overhead⟩

/-- The slab allocator writes to its part of its pages whenever it likes. -/
def scribble (k : HCfg) (pages : List Frame) (noise mem : Nat → UInt8) : Nat → UInt8 :=
  fun a =>
    if pages.any fun f => decide ((metaOf k f).start ≤ a) && decide (a < (metaOf k f).start + (metaOf k f).len)
    then noise a else mem a

/-- What an operation does not determine: which slot is taken, and what the slab allocator writes. -/
structure Env where
  pick : Nat
  noise : Nat → UInt8

/-- Pages one after the other in the address space (`memory/mod.rs` lines 155-192). -/
def place (at_ : Nat) : List Frame → List (Nat × Frame)
  | [] => []
  | f :: fs => (at_, f) :: place (at_ + f.size) fs

/-- `try_alloc` (`memory/mod.rs` lines 78-202). -/
def Heap.tryAlloc (k : HCfg) (h : Heap) (size align : Nat) (e : Env) : Outcome Nat × Heap :=
  match allocatorFor k.maxAlloc size with
  | .zone =>
    match h.zone.allocate k size align e.pick with
    | some (a, z) => (.ok a, { h with zone := z, mem := scribble k h.zone.pages e.noise h.mem })
    | none => (.err .cacheExhausted, h)
  | .memManager =>
    match h.tc.allocLarge with
    | (.ok f, tc) => (.ok (k.kb + f.base), { h with tc := tc })
    | (.err er, tc) => (.err er, { h with tc := tc })
    | (.panic, tc) => (.panic, { h with tc := tc })
  | .mapBig =>
    match allocBig false h.nc h.tc h.sbrk size with
    | (.ok (a, fs), sbrk, nc, tc) =>
      (.ok a, { h with nc := nc, tc := tc, sbrk := sbrk, mapped := place a fs ++ h.mapped })
    | (.err er, sbrk, nc, tc) => (.err er, { h with nc := nc, tc := tc, sbrk := sbrk })
    | (.panic, sbrk, nc, tc) => (.panic, { h with nc := nc, tc := tc, sbrk := sbrk })

/-- A page for an object of that size (`memory/mod.rs` lines 522-523). -/
def zonePage (k : HCfg) (tc : MCache) (size : Nat) : Outcome Frame × MCache :=
  if size ≤ k.maxBase then tc.allocBase else tc.allocLarge

/-- `try_refill_zone` (`memory/mod.rs` lines 520-572). -/
def Heap.refillZone (k : HCfg) (h : Heap) (size : Nat) (e : Env) : Outcome Unit × Heap :=
  match zonePage k h.tc size with
  | (.ok f, tc) =>
    (.ok (), { h with
      tc := tc, zone := h.zone.refill k f size, mem := scribble k (f :: h.zone.pages) e.noise h.mem })
  | (.err er, tc) => (.err er, { h with tc := tc })
  | (.panic, tc) => (.panic, { h with tc := tc })

/-- `try_refill` (`memory/mod.rs` lines 214-246). -/
def Heap.tryRefill (k : HCfg) (h : Heap) (size : Nat) (er : KError) (e : Env) :
    Outcome Unit × Heap :=
  match allocatorFor k.maxAlloc size with
  | .zone =>
    if er = .cacheExhausted then
      match maybeRefill false h.nc h.tc (refillAmount k.maxAlloc k.maxBase size).1
          (refillAmount k.maxAlloc k.maxBase size).2 with
      | (.ok (), nc, tc) => Heap.refillZone k { h with nc := nc, tc := tc } size e
      | (.err er, nc, tc) => (.err er, { h with nc := nc, tc := tc })
      | (.panic, nc, tc) => (.panic, { h with nc := nc, tc := tc })
    else (.panic, h)
  | _ =>
    match refillTcache false h.nc h.tc (refillAmount k.maxAlloc k.maxBase size).1
        (refillAmount k.maxAlloc k.maxBase size).2 with
    | (o, nc, tc) => (o, { h with nc := nc, tc := tc })

/-- The loop of `alloc` (`memory/mod.rs` lines 582-622); a null pointer is `none`. -/
def Heap.allocLoop (k : HCfg) (size align : Nat) (e : Env) : Nat → Heap → Outcome (Option Nat) × Heap
  | 0, h => (.ok none, h)
  | n + 1, h =>
    match h.tryAlloc k size align e with
    | (.ok a, h') => (.ok (some a), h')
    | (.err er, h') =>
      match h'.tryRefill k size er e with
      | (.ok (), h'') => Heap.allocLoop k size align e n h''
      | (.err _, h'') => (.ok none, h'')
      | (.panic, h'') => (.panic, h'')
    | (.panic, h') => (.panic, h')

/-- `alloc` (`memory/mod.rs` lines 581-624). -/
def Heap.alloc (k : HCfg) (h : Heap) (size align : Nat) (e : Env) : Outcome (Option Nat) × Heap :=
  Heap.allocLoop k size align e 3 h

/-- Lines 680-708 of `dealloc` (`memory/mod.rs`): the core's cache, else the node's. -/
def giveBase (nc tc : MCache) (f : Frame) : Outcome Unit × MCache × MCache :=
  match tc.releaseBase f with
  | (.ok (), tc') => (.ok (), nc, tc')
  | (.err _, tc') =>
    match nc.releaseBase f with
    | (.ok (), nc') => (.ok (), nc', tc')
    | (_, nc') => (.panic, nc', tc')
  | (.panic, tc') => (.panic, nc, tc')

/-- `dealloc` (`memory/mod.rs` lines 627-728). -/
def Heap.dealloc (k : HCfg) (h : Heap) (ptr size align : Nat) (e : Env) : Outcome Unit × Heap :=
  if size ≤ k.maxAlloc then
    match h.zone.deallocate k ptr size with
    | some z => (.ok (), { h with zone := z, mem := scribble k h.zone.pages e.noise h.mem })
    | none => (.panic, h)
  else if size ≤ BASE then
    if align ≤ BASE then
      match Frame.new (ptr - k.kb) BASE h.tc.node with
      | .ok f =>
        match giveBase h.nc h.tc f with
        | (o, nc, tc) => (o, { h with nc := nc, tc := tc })
      | _ => (.panic, h)
    else (.panic, h)
  else if size ≤ LARGE then
    if align ≤ LARGE then
      match Frame.new (ptr - k.kb) LARGE h.tc.node with
      | .ok f =>
        match h.tc.releaseLarge f with
        | (.ok (), tc) => (.ok (), { h with tc := tc })
        | (_, tc) => (.panic, { h with tc := tc })
      | _ => (.panic, h)
    else (.panic, h)
  else (.ok (), h)

/-- `copy_nonoverlapping` of `n` bytes. -/
def copy (mem : Nat → UInt8) (src dst n : Nat) : Nat → UInt8 :=
  fun a => if dst ≤ a ∧ a < dst + n then mem (src + (a - dst)) else mem a

/-- The pointer is kept (`memory/mod.rs` lines 736-743). -/
def inPlace (k : HCfg) (size new : Nat) : Prop := size ≤ k.maxAlloc ∧ size ≠ BASE ∧ new ≤ k.cls size

instance (k : HCfg) (size new : Nat) : Decidable (inPlace k size new) := by
  unfold inPlace; exact inferInstance

/-- `realloc` (`memory/mod.rs` lines 730-782). -/
def Heap.realloc (k : HCfg) (h : Heap) (ptr size align new : Nat) (e : Env) :
    Outcome (Option Nat) × Heap :=
  if inPlace k size new then (.ok (some ptr), h)
  else
    match h.alloc k new align e with
    | (.ok (some q), h') =>
      match Heap.dealloc k { h' with mem := copy h'.mem ptr q (min size new) } ptr size align e with
      | (.ok (), h'') => (.ok (some q), h'')
      | (_, h'') => (.panic, h'')
    | r => r

end NRK.Heap
