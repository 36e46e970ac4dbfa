import Verif.Rack.MapModel

/-!
# Model of how a kernel refills its shared memory

`KernelAllocator::try_refill_tcache` (`kernel/src/memory/mod.rs` lines 275-332) of the rack-scale build when the
current arena of the core is one of shared memory, and `try_refill_shmem` (lines 335-483).

Simplifications: the allocations of the kernel's own vectors do not fail, and the core's page cache is not
borrowed by someone else (`try_mem_manager` succeeds).
-/

namespace NRK.Rack.Remote

open Mem (Frame MCache LARGE BASE CoreMem Topo Arena)

/-- What a refill works on: the controller (or the connection to it), the arenas of the core, and the machine's
caches of shared pages, one per machine (`client_state.rs` lines 34-36, `controller_state.rs` lines 24-39). -/
structure KernelMem where
  ctrl : Ctrl Resources
  core : CoreMem
  cache : Nat → MCache

/-- The core's page cache is replaced. -/
def KernelMem.setCache (s : KernelMem) (c : MCache) : KernelMem :=
  { s with core := { s.core with cur := { s.core.cur with cache := c } } }

/-- What a machine is: the controller or a client, its machine number and the node that NODE_ID names. -/
structure Host where
  controller : Bool
  me : Nat
  node : Nat

/-- The pages from the DCM scheduler (`memory/mod.rs` lines 411-423): the controller asks for pages of machine
`mid`; a client asks with its own machine number, whatever `mid` is (`get_shmem_frames.rs` lines 41-55). -/
def requestPages (h : Host) (o : Oracle) (l : Link) (mid n : Nat) (c : Ctrl Resources) :
    Outcome (List Frame) × Ctrl Resources :=
  if h.controller then
    match affinityAlloc o mid n c.world with
    | (.ok fs, w) => (regionFrames (fs.map fun f => (f.base, f.aff)), { c with world := w })
    | (.err e, w) => (.err e, { c with world := w })
    | (.panic, w) => (.panic, { c with world := w })
  else getShmemFrames c o l h.me none n

/-- The end of `try_refill_shmem` (`memory/mod.rs` lines 431-482), after the pages `fs` have arrived and the
affinity is that of shared memory again: `needL` large pages and, if base pages are missing, the last page
split up. -/
def storePages (fs : List Frame) (mid needL missing asked : Nat) (s : KernelMem) : Outcome Unit × KernelMem :=
  if fs.length < needL then (.panic, s)
  else
    match s.core.cur.cache.growLarge (fs.take needL) with
    | (.ok _, tc) =>
      if missing = 0 then (.ok (), s.setCache tc)
      else
        match fs[asked - 1]? with
        | some f =>
          match f.pages with
          | .ok ps =>
            let add := min ps.length tc.spareBase
            match tc.growBase true (ps.take add) with
            | (.ok _, tc') =>
              let rest := ps.drop add
              match (s.cache mid).growBase true (rest.take (min rest.length (s.cache mid).spareBase)) with
              | (.ok _, m) => (.ok (), { s.setCache tc' with cache := upd s.cache mid m })
              | _ => (.panic, s.setCache tc')
            | (_, tc') => (.panic, s.setCache tc')
          | _ => (.panic, s.setCache tc)
        | none => (.panic, s.setCache tc)
    | (_, tc) => (.panic, s.setCache tc)

/-- The middle of `try_refill_shmem` (`memory/mod.rs` lines 403-428): the request is made with the affinity of
the local node; if it fails the function returns there (the `?` of lines 413 and 421). -/
def fetchPages (h : Host) (t : Topo) (o : Oracle) (l : Link) (aff mid needL missing asked : Nat) (s : KernelMem) :
    Outcome Unit × KernelMem :=
  match s.core.setAffinity t h.node with
  | (.ok _, core1) =>
    match requestPages h o l mid asked s.ctrl with
    | (.ok fs, c) =>
      match core1.setAffinity t aff with
      | (.ok _, core2) => storePages fs mid needL missing asked { s with ctrl := c, core := core2 }
      | (_, core2) => (.panic, { s with ctrl := c, core := core2 })
    | (.err e, c) => (.err e, { s with ctrl := c, core := core1 })
    | (.panic, c) => (.panic, { s with ctrl := c, core := core1 })
  | (_, core1) => (.panic, { s with core := core1 })

/-- `try_refill_shmem` (`memory/mod.rs` lines 335-483); the number of pages is already limited to what the
core's cache has room for. -/
def refillShmem (h : Host) (t : Topo) (o : Oracle) (l : Link) (aff needB needL : Nat) (s : KernelMem) :
    Outcome Unit × KernelMem :=
  match Mem.shmemAffinityToMid aff with
  | .ok mid =>
    let isLocal := h.controller && decide (mid = h.me)
    if 0 < needB ∨ isLocal = true then
      if 16 ≤ mid then (.panic, s)
      else
        let n := min (s.cache mid).bp.length needB
        match Mem.moveBase true (s.cache mid) s.core.cur.cache n with
        | (.ok _, m, tc) =>
          let s1 := { s.setCache tc with cache := upd s.cache mid m }
          let missing := needB - n
          let asked := if 0 < missing then needL + 1 else needL
          if isLocal then
            match Mem.moveLarge m tc asked with
            | (.ok _, m', tc') =>
              let s2 := { s.setCache tc' with cache := upd s.cache mid m' }
              if missing = 0 then (.ok (), s2) else fetchPages h t o l aff mid needL missing 0 s2
            | (_, m', tc') => (.panic, { s.setCache tc' with cache := upd s.cache mid m' })
          else if missing = 0 ∧ asked = 0 then (.ok (), s1)
          else fetchPages h t o l aff mid needL missing asked s1
        | (_, m, tc) => (.panic, { s.setCache tc with cache := upd s.cache mid m })
    else fetchPages h t o l aff mid needL 0 needL s
  | _ => (.panic, s)

/-- `try_refill_tcache` (`memory/mod.rs` lines 275-313) when the affinity of the core is one of shared memory. -/
def refillShared (h : Host) (t : Topo) (o : Oracle) (l : Link) (needB needL : Nat) (s : KernelMem) :
    Outcome Unit × KernelMem :=
  refillShmem h t o l s.core.cur.aff (min s.core.cur.cache.spareBase needB)
    (min s.core.cur.cache.spareLarge needL) s

end NRK.Rack.Remote
