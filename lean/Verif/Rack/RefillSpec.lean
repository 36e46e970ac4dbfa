import Verif.Rack.RefillModel
import Verif.Rack.MapSpec
import Verif.Mem.AllocProps

/-!
# How a kernel refills its shared memory: vocabulary (C67)
-/

namespace NRK.Rack.Remote

open Rpc (ENTRY)
open NRK.Mem (Frame MCache CoreMem Topo Arena validNode)

/-- How many base pages the core's cache takes of the `need` it should get. -/
def baseWanted (tc : MCache) (need : Nat) : Nat := min (tc.capB - tc.bp.length) need

/-- The same for large pages. -/
def largeWanted (tc : MCache) (need : Nat) : Nat := min (tc.capL - tc.lp.length) need

/-- How many large pages have to be asked for: the large pages, and one more if the machine's own cache `m` has
too few base pages. -/
def askFor (tc m : MCache) (needB needL : Nat) : Nat :=
  largeWanted tc needL + if baseWanted tc needB ≤ m.bp.length then 0 else 1

/-- A core whose current arena is the shared memory of machine `mid`, on host `h` of a rack: a client, or the
controller, which has machine number 0. -/
structure Ready (t : Topo) (h : Host) (mid : Nat) (s : KernelMem) : Prop where
  core : s.core.Wf
  aff : s.core.cur.aff = 12 + mid
  node : s.core.cur.cache.node = 12 + mid
  wf : s.core.cur.cache.Wf
  capB : s.core.cur.cache.capB = 381
  capL : s.core.cur.cache.capL = 128
  cache : (s.cache mid).Wf ∧ (s.cache mid).node = 12 + mid ∧ (s.cache mid).capB = 2048
  pos : 1 ≤ mid
  validLocal : h.node < 12 ∧ validNode t s.core.arenas.length h.node = true
  validShared : validNode t s.core.arenas.length (12 + mid) = true
  small : mid < 16
  self : h.controller = true → h.me = 0

/-- The base pages that come out of the pages `fs`, of which the first `n` stay large. -/
def smallPages (n : Nat) (fs : List Frame) : List Nat :=
  match fs[n]? with
  | some f => (splitPage f).map (·.base)
  | none => []

/-- A refill that went well: with the pages `fs` the core has `nL` more large pages and at least `nB` more base
pages; base pages only move between the core's cache and the machine's, and none is lost; the arenas of other
nodes and the caches for other machines are as before. -/
structure Refilled (h : Host) (mid nB nL : Nat) (fs : List Frame) (s s' : KernelMem) : Prop where
  core : s'.core.Wf
  aff : s'.core.cur.aff = 12 + mid
  zone : s'.core.cur.zone = s.core.cur.zone
  caps : s'.core.cur.cache.node = s.core.cur.cache.node ∧ s'.core.cur.cache.capB = s.core.cur.cache.capB ∧
    s'.core.cur.cache.capL = s.core.cur.cache.capL
  wf : s'.core.cur.cache.Wf
  large : s'.core.cur.cache.lp = ((fs.take nL).map (·.base)).reverse ++ s.core.cur.cache.lp ∧
    s'.core.cur.cache.lp.length = s.core.cur.cache.lp.length + nL
  base : s.core.cur.cache.bp.length + nB ≤ s'.core.cur.cache.bp.length
  same : (s'.core.cur.cache.bp ++ (s'.cache mid).bp).Perm
    (s.core.cur.cache.bp ++ (s.cache mid).bp ++ smallPages nL fs)
  cacheWf : (s'.cache mid).Wf
  cacheSame : s'.cache mid = { s.cache mid with bp := (s'.cache mid).bp }
  caches : ∀ m, m ≠ mid → s'.cache m = s.cache m
  arenas : ∀ n, n ≠ 12 + mid → n ≠ h.node → s'.core.arenaOf n = s.core.arenaOf n
  localArena : ∀ a, s.core.arenaOf h.node = some a → s'.core.arenaOf h.node = some a
  length : s'.core.arenas.length = s.core.arenas.length

end NRK.Rack.Remote
