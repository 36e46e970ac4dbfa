import Verif.Mem.AllocModel
import Verif.Rack.ShmModel
import Verif.Rack.ArenaSpec

/-!
# Model of the kernel heap in the rack-scale build: arenas of local and of shared memory

`KernelAllocator::{alloc, dealloc, realloc}` (`kernel/src/memory/mod.rs` lines 580-783) with the checks of the
rack-scale build, `PerCoreMemory::set_mem_affinity` (`memory/per_core.rs` lines 138-181), `ShmemAlloc`
(`memory/shmemalloc.rs`) and the functions of `kernel/src/transport/shmem.rs` that say whether an address is
shared memory.

Simplifications: how one arena finds memory is C63 and C24; here an arena has pieces of free memory, an
allocation takes some of them, and which ones is open (`pick`).  Pieces are cut (`split`) and arrive from the
node's or the rack's memory (`refill`) at any time.  The emergency allocator (C26) and failures of the caches
to take a page back are left out.  One machine with any number of cores.
-/

namespace NRK.Rack.Arena

open Spec (Piece)
open Shm (Region KBASE TRANSPORT)

/-- The machine: its view of the devices of shared memory (`SHMEM.devices`, `shmem.rs` lines 51-78),
NUM_MACHINES, whether messages go through shared memory, NUMA nodes, the length of `memory_arenas`
(`per_core.rs` line 27), and slabmalloc's `MAX_ALLOC_SIZE` and `get_max_size`. -/
structure Cfg where
  devs : List Region
  machines : Nat
  shmTransport : Bool
  nodes : Nat
  arenas : Nat
  maxAlloc : Nat
  cls : Nat → Nat

/-- The start of the big objects (`memory/mod.rs` line 53). -/
@[irreducible] def SBRK : Nat := KBASE + 2048 * 1024 * 1024 * 1024

/-- `get_affinity_shmem_by_mid` (`shmem.rs` lines 407-430); a missing device and a device smaller than the
messages' part panic. -/
def affinityShmem (c : Cfg) (mid : Nat) : Outcome Region :=
  match c.devs[mid]? with
  | some r =>
    if c.shmTransport && decide (mid ≠ 0) then
      if r.size < TRANSPORT then .panic else .ok ⟨r.base + TRANSPORT, r.size - TRANSPORT⟩
    else .ok r
  | none => .panic

/-- The loop of `is_shmem_addr` over the machines (`shmem.rs` lines 461-468). -/
def scan (c : Cfg) (addr offset : Nat) : List Nat → Outcome Bool
  | [] => .ok false
  | mid :: ms =>
    match affinityShmem c mid with
    | .ok r =>
      if addr ≥ r.base + offset ∧ addr ≤ r.base + offset + r.size then .ok true else scan c addr offset ms
    | _ => .panic

/-- `is_shmem_addr(addr, false, is_kaddr)` (`shmem.rs` lines 450-470). -/
def isShmemAddr (c : Cfg) (addr : Nat) (kaddr : Bool) : Outcome Bool :=
  scan c addr (if kaddr then KBASE else 0) (List.range c.machines)

/-- `is_shmem_addr_with_affinity` (`shmem.rs` lines 474-479). -/
def isShmemAddrWith (c : Cfg) (addr aff : Nat) (kaddr : Bool) : Outcome Bool :=
  let offset := if kaddr then KBASE else 0
  match Mem.shmemAffinityToMid aff with
  | .ok mid =>
    match affinityShmem c mid with
    | .ok r => .ok (decide (addr ≥ r.base + offset) && decide (addr < r.base + offset + r.size))
    | _ => .panic
  | _ => .panic

/-- Memory that is handed out: address, size asked for, the physical memory behind it, and, for the statements
only, the affinity it was allocated with. -/
structure Obj where
  ptr : Nat
  size : Nat
  phys : List Piece
  under : Nat
deriving DecidableEq, Repr

/-- A free piece in the arena `aff` of a core. -/
structure FreePiece where
  core : Nat
  aff : Nat
  piece : Piece
deriving DecidableEq, Repr

/-- The machine's memory: SHMEM_INITIALIZED (`shmem.rs` lines 47-49), each core's affinity, the free pieces of
all arenas of all cores, memory the arenas can still get (per affinity), what is handed out, what is lost, and
the break of the big objects. -/
structure St where
  inited : Bool
  cur : Nat → Nat
  free : List FreePiece
  pool : List (Nat × Piece)
  live : List Obj
  lost : List Piece
  sbrk : Nat

/-- At the start all memory is still to be had; each core has an affinity (`per_core.rs` lines 100-114). -/
def St.init (cur : Nat → Nat) (pool : List (Nat × Piece)) : St :=
  ⟨false, cur, [], pool, [], [], SBRK⟩

/-- `set_mem_affinity` (`per_core.rs` lines 171-181, with `swap_manager`, 138-169). -/
def setAffinity (c : Cfg) (s : St) (core a : Nat) : Outcome St :=
  if a = s.cur core then .ok s
  else if Mem.validNode ⟨c.nodes, c.machines, true⟩ c.arenas a then
    if s.cur core < c.arenas then .ok { s with cur := upd s.cur core a } else .panic
  else .err .invalidAffinityId

/-- The memory an object of this size takes in an arena. -/
def need (c : Cfg) (size : Nat) : Nat := if size ≤ c.maxAlloc then c.cls size else size

/-- Take the pieces at these places, if they are in the arena of the core. -/
def take (core aff : Nat) : List Nat → List FreePiece → Option (List Piece × List FreePiece)
  | [], fs => some ([], fs)
  | i :: is, fs =>
    match fs[i]? with
    | some f =>
      if f.core = core ∧ f.aff = aff then
        match take core aff is (fs.eraseIdx i) with
        | some (ps, fs') => some (f.piece :: ps, fs')
        | none => none
      else none
    | none => none

/-- `alloc` (`memory/mod.rs` lines 581-624) with the memory at `pick`: an object of up to a large page is one
piece, reached through the kernel's window on physical memory; a bigger one is mapped at the break
(lines 104-199).  `none` is the null pointer; then a failed refill may have left the affinity of the core at
that of a local node, `fail` (`memory/mod.rs` lines 404-421).  Objects have at least one byte (`GlobalAlloc`). -/
def alloc (c : Cfg) (s : St) (core size : Nat) (pick : List Nat) (fail : Option Nat) : Option Obj × St :=
  let s0 : St := match fail with
    | some n =>
      if Mem.isShmemAffinity (s.cur core) && !Mem.isShmemAffinity n &&
          Mem.validNode ⟨c.nodes, c.machines, true⟩ c.arenas n
      then { s with cur := upd s.cur core n } else s
    | none => s
  match take core (s.cur core) pick s.free with
  | some ([p], fs) =>
    if 0 < size ∧ size ≤ Mem.LARGE ∧ need c size ≤ p.len then
      let o : Obj := ⟨KBASE + p.base, size, [p], s.cur core⟩
      (some o, { s with free := fs, live := o :: s.live })
    else (none, s0)
  | some (ps, fs) =>
    if Mem.LARGE < size ∧ size ≤ (ps.map Piece.len).sum then
      let o : Obj := ⟨s.sbrk, size, ps, s.cur core⟩
      (some o, { s with free := fs, live := o :: s.live, sbrk := s.sbrk + (ps.map Piece.len).sum })
    else (none, s0)
  | none => (none, s0)

/-- The checks of the rack-scale build (`memory/mod.rs` lines 633-653, 745-765): `true` goes on, `false` is
"wrong allocator". -/
def check (c : Cfg) (s : St) (core ptr : Nat) : Outcome Bool :=
  if s.inited then
    match isShmemAddr c ptr false with
    | .ok false =>
      if Mem.isShmemAffinity (s.cur core) then isShmemAddrWith c ptr (s.cur core) true
      else
        match isShmemAddr c ptr true with
        | .ok b => .ok !b
        | _ => .panic
    | _ => .panic
  else .ok true

/-- `dealloc` (`memory/mod.rs` lines 627-728): memory of the wrong kind and objects of more than a large page
are lost. -/
def dealloc (c : Cfg) (s : St) (core : Nat) (o : Obj) : Outcome St :=
  match check c s core o.ptr with
  | .ok true =>
    if o.size ≤ Mem.LARGE then
      .ok { s with
        live := s.live.erase o
        free := o.phys.map (fun p => ⟨core, s.cur core, p⟩) ++ s.free }
    else .ok { s with live := s.live.erase o, lost := o.phys ++ s.lost }
  | .ok false => .ok { s with live := s.live.erase o, lost := o.phys ++ s.lost }
  | _ => .panic

/-- The pointer is kept (`memory/mod.rs` lines 736-743). -/
def keeps (c : Cfg) (size new : Nat) : Bool :=
  decide (size ≤ c.maxAlloc) && decide (size ≠ Mem.BASE) && decide (new ≤ c.cls size)

/-- `realloc` (`memory/mod.rs` lines 730-782). -/
def realloc (c : Cfg) (s : St) (core : Nat) (o : Obj) (new : Nat) (pick : List Nat) (fail : Option Nat) :
    Outcome (Option Obj × St) :=
  if keeps c o.size new then
    let o' := { o with size := new }
    .ok (some o', { s with live := o' :: s.live.erase o })
  else
    match check c s core o.ptr with
    | .ok true =>
      match alloc c s core new pick fail with
      | (some o', s') =>
        match dealloc c s' core o with
        | .ok s'' => .ok (some o', s'')
        | _ => .panic
      | (none, s') => .ok (none, s')
    | _ => .panic

/-- `ShmemAlloc::allocate` (`shmemalloc.rs` lines 33-65), of an allocator that `ShmemAlloc::new`
(lines 22-30) let pass. -/
def shmemAllocate (c : Cfg) (s : St) (core a size : Nat) (pick : List Nat) (fail : Option Nat) :
    Outcome (Option Obj × St) :=
  if Mem.isShmemAffinity a && decide (a - Mem.MAX_NUMA_NODES < c.machines) then
    match setAffinity c s core a with
    | .ok s1 =>
      match alloc c s1 core size pick fail with
      | (r, s2) =>
        match setAffinity c s2 core (s.cur core) with
        | .ok s3 => .ok (r, s3)
        | _ => .panic
    | _ => .panic
  else .panic

/-- `ShmemAlloc::deallocate` (`shmemalloc.rs` lines 67-86). -/
def shmemDeallocate (c : Cfg) (s : St) (core a : Nat) (o : Obj) : Outcome St :=
  if Mem.isShmemAffinity a && decide (a - Mem.MAX_NUMA_NODES < c.machines) then
    match setAffinity c s core a with
    | .ok s1 =>
      match dealloc c s1 core o with
      | .ok s2 => setAffinity c s2 core (s.cur core)
      | _ => .panic
    | _ => .panic
  else .panic

/-- What happens on the machine. -/
inductive Act where
  /-- the devices of shared memory are looked up for the first time (`shmem.rs` lines 39-45) -/
  | init
  | setAffinity (core a : Nat)
  /-- memory arrives in the arena of the core -/
  | refill (core i : Nat)
  /-- a free piece is cut in two -/
  | split (i n : Nat)
  | alloc (core size : Nat) (pick : List Nat) (fail : Option Nat)
  | dealloc (core j : Nat)
  | realloc (core j new : Nat) (pick : List Nat) (fail : Option Nat)
  | shAlloc (core a size : Nat) (pick : List Nat) (fail : Option Nat)
  | shDealloc (core a j : Nat)

/-- Memory arrives (`memory/mod.rs` lines 275-483): from the pool of the core's affinity. -/
def refill (s : St) (core i : Nat) : St :=
  match s.pool[i]? with
  | some (a, p) =>
    if a = s.cur core then { s with pool := s.pool.eraseIdx i, free := ⟨core, a, p⟩ :: s.free } else s
  | none => s

/-- A free piece is cut in two. -/
def split (s : St) (i n : Nat) : St :=
  match s.free[i]? with
  | some ⟨core, a, p⟩ =>
    if 0 < n ∧ n < p.len then
      { s with free := ⟨core, a, ⟨p.base, n⟩⟩ :: ⟨core, a, ⟨p.base + n, p.len - n⟩⟩ :: s.free.eraseIdx i }
    else s
  | none => s

/-- One step; objects are named by their place in `live`, a place outside does nothing. -/
def step (c : Cfg) (s : St) : Act → Outcome St
  | .init => .ok { s with inited := true }
  | .setAffinity core a =>
    match setAffinity c s core a with
    | .ok s' => .ok s'
    | .err _ => .ok s
    | .panic => .panic
  | .refill core i => .ok (refill s core i)
  | .split i n => .ok (split s i n)
  | .alloc core size pick fail => .ok (alloc c s core size pick fail).2
  | .dealloc core j =>
    match s.live[j]? with
    | some o => dealloc c s core o
    | none => .ok s
  | .realloc core j new pick fail =>
    match s.live[j]? with
    | some o =>
      match realloc c s core o new pick fail with
      | .ok r => .ok r.2
      | _ => .panic
    | none => .ok s
  | .shAlloc core a size pick fail =>
    match shmemAllocate c s core a size pick fail with
    | .ok r => .ok r.2
    | _ => .panic
  | .shDealloc core a j =>
    match s.live[j]? with
    | some o => shmemDeallocate c s core a o
    | none => .ok s

/-- Any history. -/
def run (c : Cfg) (s : St) : List Act → Outcome St
  | [] => .ok s
  | a :: as =>
    match step c s a with
    | .ok s' => run c s' as
    | .err e => .err e
    | .panic => .panic

end NRK.Rack.Arena
