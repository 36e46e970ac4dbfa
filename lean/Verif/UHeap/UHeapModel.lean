import Verif.Heap.HeapModel
import Verif.Mem.Spec

/-!
# Model of the heap of user programs, `lib/vibrio/src/mem.rs` (`PerCoreAllocator`, `SafeZoneAllocator`, `Pager`)

Every core has a slab allocator (crate slabmalloc, not in /repo; modelled as in `Verif/Heap`) and a pager that maps
fresh memory in the core's part of the address space.

Simplifications:
* One operation at a time: the locks of the slab allocators and pagers are not modelled.
* The slots of all slab allocators are kept in one list, with the core each belongs to.
* `kb` of `HCfg` is 0: there is only one kind of address.
* `maps` is ghost state: all the memory the kernel has mapped.  The kernel refuses to map a range twice (C31).
* `mm` is ghost state: the results of `mmap`.
* An underflowing subtraction panics (`overflow-checks`, on in the dev profile).
-/

namespace NRK.UHeap

open NRK.Mem NRK.Mem.Spec NRK.Heap

/-- A slot of the slab allocator of a core. -/
structure CSlot where
  core : Nat
  addr : Nat
  size : Nat
deriving DecidableEq, Repr

/-- `PER_CORE_MEM_ALLOCATOR` (lines 286-299), `PAGER` (lines 114-125), and memory. -/
structure UHeap where
  free : List CSlot
  live : List CSlot
  pages : List Frame
  pagers : Nat → Pager
  maps : List Block
  mem : Nat → UInt8
  mm : List Block := []

/-- What an operation does not determine: the slot, what the slab allocator writes to its part of its pages, and
whether the kernel has memory for a mapping. -/
structure Env where
  pick : Nat
  noise : Nat → UInt8
  ok : Nat → Nat → Bool

/-- Two ranges overlap. -/
def overlaps (b c : Block) : Bool :=
  decide (0 < c.len) && decide (b.start < c.start + c.len) && decide (c.start < b.start + b.len)

/-- `VSpace::map` (called in line 83): the kernel's answer. -/
def UHeap.kmap (h : UHeap) (ok : Nat → Nat → Bool) (base size : Nat) : Bool :=
  ok base size && !(h.maps.any (overlaps ⟨base, size⟩))

/-- `Pager::alloc_page` (lines 56-65), on the pager of core `i`, for a base or a large page. -/
def UHeap.page (h : UHeap) (ok : Nat → Nat → Bool) (i size : Nat) : Option Nat × UHeap :=
  match (h.pagers i).allocate (h.kmap ok) size size with
  | (.ok a, p) => (some a, { h with pagers := upd h.pagers i p, maps := ⟨a, size⟩ :: h.maps })
  | (_, p) => (none, { h with pagers := upd h.pagers i p })

/-- `try_alloc_page` and `try_alloc_largepage` (lines 143-182) from core `i` on; `n` is `MAX_CORES`, `my` the core
that asks, the first argument bounds the iterations. -/
def UHeap.tryPage (n my size : Nat) (ok : Nat → Nat → Bool) : Nat → Nat → UHeap → Outcome (Option Nat) × UHeap
  | 0, _, h => (.ok none, h)
  | fuel + 1, i, h =>
    match h.page ok i size with
    | (some a, h') => (.ok (some a), h')
    | (none, h') =>
      if my = 0 then (.panic, h')
      else if (i + 1) % n = (my - 1) % n then (.ok none, h')
      else UHeap.tryPage n my size ok fuel ((i + 1) % n) h'

/-- The slots that fit. -/
def UHeap.fits (k : HCfg) (h : UHeap) (c size align : Nat) : List CSlot :=
  h.free.filter fun s => decide (s.core = c) && decide (s.size = k.cls size) && decide (s.addr % align = 0)

/-- `ZoneAllocator::allocate` of core `c` (slabmalloc): some free slot of the size class with the alignment. -/
def UHeap.slot (k : HCfg) (h : UHeap) (c size align : Nat) (e : Env) : Option (Nat × UHeap) :=
  match (h.fits k c size align)[e.pick % (h.fits k c size align).length]? with
  | some s => some (s.addr, { h with
      free := h.free.erase s
      live := s :: h.live
      mem := scribble k h.pages e.noise h.mem })
  | none => none

/-- `refill` and `refill_large` (slabmalloc): the page at `a` is cut into slots. -/
def UHeap.refill (k : HCfg) (h : UHeap) (c a psize size : Nat) (e : Env) : UHeap :=
  let f : Frame := ⟨a, psize, 0⟩
  { h with
    free := (slotsOf k f (k.cls size)).map (fun s => ⟨c, s.addr, s.size⟩) ++ h.free
    pages := f :: h.pages
    mem := scribble k (f :: h.pages) e.noise h.mem }

/-- Lines 226-233: large pages one after the other; the first is the result. -/
def UHeap.bigPages (n c : Nat) (ok : Nat → Nat → Bool) : Nat → Option Nat → UHeap → Outcome (Option Nat) × UHeap
  | 0, first, h => (.ok first, h)
  | m + 1, first, h =>
    match h.tryPage n c LARGE ok n c with
    | (.ok (some a), h') => UHeap.bigPages n c ok m (some (first.getD a)) h'
    | (_, h') => (.panic, h')

/-- `PerCoreAllocator::alloc` on core `c` (lines 308-312) with `SafeZoneAllocator::alloc` (lines 141-238); a null
pointer is `none`. -/
def UHeap.alloc (k : HCfg) (n : Nat) (h : UHeap) (c size align : Nat) (e : Env) : Outcome (Option Nat) × UHeap :=
  if size ≤ k.maxAlloc then
    match h.slot k c size align e with
    | some (a, h') => (.ok (some a), h')
    | none =>
      let psize := if size ≤ k.maxBase then BASE else LARGE
      match h.tryPage n c psize e.ok n c with
      | (.ok (some a), h') =>
        match (h'.refill k c a psize size e).slot k c size align e with
        | some (q, h'') => (.ok (some q), h'')
        | none => (.panic, h')
      | r => r
  else if size ≤ LARGE then
    match h.tryPage n c LARGE e.ok n c with
    | (.ok none, h') => (.panic, h')
    | r => r
  else h.bigPages n c e.ok ((size + LARGE - 1) / LARGE) none

/-- `PerCoreAllocator::dealloc` on core `c` (lines 319-322) with `SafeZoneAllocator::dealloc` (lines 260-281).  A
slot that the slab allocator of this core has not handed out is against its contract and counted as a panic. -/
def UHeap.dealloc (k : HCfg) (h : UHeap) (c ptr size : Nat) (e : Env) : Outcome Unit × UHeap :=
  if size ≤ k.maxAlloc then
    if ptr = 0 then (.ok (), h)
    else if ⟨c, ptr, k.cls size⟩ ∈ h.live then
      (.ok (), { h with
        free := ⟨c, ptr, k.cls size⟩ :: h.free
        live := h.live.erase ⟨c, ptr, k.cls size⟩
        mem := scribble k h.pages e.noise h.mem })
    else (.panic, h)
  else (.ok (), h)

/-- The pointer is kept (lines 241-247). -/
def keeps (k : HCfg) (size new : Nat) : Prop := size ≤ k.maxAlloc ∧ new ≤ k.cls size

instance (k : HCfg) (size new : Nat) : Decidable (keeps k size new) := by unfold keeps; exact inferInstance

/-- `PerCoreAllocator::realloc` on core `c` (lines 314-317) with `SafeZoneAllocator::realloc` (lines 240-258). -/
def UHeap.realloc (k : HCfg) (n : Nat) (h : UHeap) (c ptr size align new : Nat) (e : Env) :
    Outcome (Option Nat) × UHeap :=
  if keeps k size new then (.ok (some ptr), h)
  else
    match h.alloc k n c new align e with
    | (.ok (some q), h') =>
      match UHeap.dealloc k { h' with mem := copy h'.mem ptr q (min size new) } c ptr size e with
      | (.ok (), h'') => (.ok (some q), h'')
      | (_, h'') => (.panic, h'')
    | r => r

/-- `CHUNK_SIZE` of `nrk::mmap` (`lib/vibrio/src/rumprt/crt/mem.rs` line 127). -/
@[irreducible] def CHUNK : Nat := 67108864

/-- The loop of `nrk::mmap` (`lib/vibrio/src/rumprt/crt/mem.rs` lines 128-147): chunks of up to 64 MiB, aligned to a
large page, from the pager of core `c`; the first one is the result.  The first argument bounds the iterations, the
second is the bytes that remain; an error of the pager is a panic. -/
def UHeap.chunks (c : Nat) (ok : Nat → Nat → Bool) : Nat → Nat → Option Nat → UHeap → Outcome (Option Nat) × UHeap
  | 0, _, first, h => (.ok first, h)
  | fuel + 1, rem, first, h =>
    if rem = 0 then (.ok first, h)
    else
      match (h.pagers c).allocate (h.kmap ok) (min CHUNK rem) LARGE with
      | (.ok a, p) => UHeap.chunks c ok fuel (rem - min CHUNK rem) (some (first.getD a))
          { h with
            pagers := upd h.pagers c p
            maps := ⟨a, roundUp (min CHUNK rem) 4096⟩ :: h.maps }
      | (_, p) => (.panic, { h with pagers := upd h.pagers c p })

/-- `nrk::mmap` (`lib/vibrio/src/rumprt/crt/mem.rs` lines 103-151), and `mmap` of it (lines 154-186) for `fd` -1. -/
def UHeap.mmap (h : UHeap) (c addr len : Nat) (ok : Nat → Nat → Bool) : Outcome Nat × UHeap :=
  if addr ≠ 0 ∨ len ≤ 4096 then (.panic, h)
  else
    match h.chunks c ok len len none with
    | (.ok (some p), h') => (.ok p, { h' with mm := ⟨p, len⟩ :: h'.mm })
    | (_, h') => (.panic, h')

end NRK.UHeap
