import Verif.Rack.PageSpec

/-!
# Memory mapping on a rack client: vocabulary (C66)
-/

namespace NRK.Rack.Remote

open Rpc (ENTRY)
open NRK.Mem (Frame MCache)
open NRK.Mem.Spec (Block Disjoint Inside)
open NRK.Proc (Frames)

/-- The 512 pages of 4 KiB of a large page. -/
def splitPage (f : Frame) : List Frame := (List.range 512).map fun i => ⟨f.base + 4096 * i, 4096, f.aff⟩

/-- How many large pages a mapping of `size` bytes needs. -/
def largeCount (size : Nat) : Nat := size / 2097152

/-- How many base pages it needs besides. -/
def baseCount (size : Nat) : Nat := (size % 2097152 + 4095) / 4096

/-- How many of these the client does not have. -/
def missing (cache : MCache) (size : Nat) : Nat := baseCount size - cache.bp.length

/-- How many large pages have to be asked for. -/
def askCount (cache : MCache) (size : Nat) : Nat :=
  if missing cache size = 0 then largeCount size else largeCount size + 1

/-- The base pages from the client's cache. -/
def oldPages (cache : MCache) (size : Nat) : List Frame :=
  (cache.bp.take (baseCount size)).map fun a => ⟨a, 4096, cache.node⟩

/-- The base pages from the last of the pages asked for. -/
def freshPages (cache : MCache) (size : Nat) (fs : List Frame) : List Frame :=
  match fs[largeCount size]? with
  | some f => (splitPage f).take (missing cache size)
  | none => []

/-- The base pages in the cache afterwards, last one in first. -/
def leftPages (cache : MCache) (size : Nat) (fs : List Frame) : List Nat :=
  match fs[largeCount size]? with
  | some f => (((splitPage f).drop (missing cache size)).map (·.base)).reverse
  | none => cache.bp.drop (baseCount size)

/-- The frames of a mapping, in order of address. -/
def mapFramesOf (cache : MCache) (size : Nat) (fs : List Frame) : List Frame :=
  fs.take (largeCount size) ++ freshPages cache size fs ++ oldPages cache size

/-- The rack with the clients' caches (by client and process), the frames mapped so far with the process, and
the pages given to kernels. -/
structure RackMem where
  rack : Cluster Resources
  cache : Nat → Nat → MCache
  given : List (Nat × Frame)
  kernels : List Frame

/-- The frames a call mapped. -/
def mappedBy (pid : Nat) : Outcome (List Frame × List Frame × List Frame) → List (Nat × Frame)
  | .ok (large, fresh, old) => (large ++ fresh ++ old).map fun f => (pid, f)
  | _ => []

/-- The pages a kernel got. -/
def takenBy : Outcome (List Frame) → List Frame
  | .ok fs => fs
  | _ => []

/-- The caches after process `p` of client `k` was left with `m`. -/
def withCache (cache : Nat → Nat → MCache) (k p : Nat) (m : MCache) : Nat → Nat → MCache :=
  fun k' p' => if k' = k ∧ p' = p then m else cache k' p'

/-- A rack after any history in which processes allocate and release physical frames of at most 2 MiB, map
memory, and kernels take pages for themselves.  `id k` is the machine number of client `k`.  Memory once mapped is
never given back: unmapping drops it. -/
inductive MemHist (region : Nat → Option Frame) (id : Nat → Nat) : RackMem → Prop where
  | boot {r : Cluster Resources} {cache : Nat → Nat → MCache} :
      (∀ mid, 1 ≤ mid → mid ≤ 16 → BootPages mid (r.world.ext.mgr (mid - 1)) (region mid)) →
      (∀ m n f g, region m = some f → region n = some g → m ≠ n → Disjoint f.block g.block) →
      (∀ pid, r.world.ext.frames pid = Frames.new) → (∀ k, (r.srv k).data.length = ENTRY) →
      (∀ k p, cache k p = MCache.new 2048 0 (12 + id k)) → MemHist region id ⟨r, cache, [], []⟩
  | alloc {s : RackMem} {k : Nat} {o : Oracle} {l : Link} {pid size aff : Nat}
      {res : Outcome (UInt64 × UInt64)} {c : Ctrl Resources} : MemHist region id s →
      l.slot1.length = ENTRY → l.slot2.length = ENTRY → pid < 2 ^ 64 → size ≤ 2097152 → aff < 2 ^ 64 →
      allocatePhysical ⟨s.rack.srv k, s.rack.world⟩ o l pid size aff = (res, c) →
      MemHist region id { s with rack := ⟨upd s.rack.srv k c.srv, c.world⟩ }
  | free {s : RackMem} {k : Nat} {o : Oracle} {l : Link} {pid fid : Nat}
      {res : Outcome (UInt64 × UInt64)} {c : Ctrl Resources} : MemHist region id s →
      l.slot1.length = ENTRY → l.slot2.length = ENTRY → pid < 2 ^ 64 →
      releasePhysical ⟨s.rack.srv k, s.rack.world⟩ o l pid fid = (res, c) →
      MemHist region id { s with rack := ⟨upd s.rack.srv k c.srv, c.world⟩ }
  | kernel {s : RackMem} {k : Nat} {o : Oracle} {l : Link} {n : Nat}
      {res : Outcome (List Frame)} {c : Ctrl Resources} : MemHist region id s →
      l.slot1.length = ENTRY → l.slot2.length = ENTRY → id k < 2 ^ 64 → n < 2 ^ 64 →
      getShmemFrames ⟨s.rack.srv k, s.rack.world⟩ o l (id k) none n = (res, c) →
      MemHist region id ⟨⟨upd s.rack.srv k c.srv, c.world⟩, s.cache, s.given, takenBy res ++ s.kernels⟩
  | map {s : RackMem} {k : Nat} {o : Oracle} {l : Link} {pid size : Nat}
      {res : Outcome (List Frame × List Frame × List Frame)} {c : Ctrl Resources} {m : MCache} :
      MemHist region id s → l.slot1.length = ENTRY → l.slot2.length = ENTRY → id k < 2 ^ 64 → pid < 2 ^ 64 →
      size < 2 ^ 64 →
      mapPagesOf ⟨s.rack.srv k, s.rack.world⟩ o l (id k) (s.cache k pid) pid size = (res, c, m) →
      MemHist region id
        ⟨⟨upd s.rack.srv k c.srv, c.world⟩, withCache s.cache k pid m, mappedBy pid res ++ s.given, s.kernels⟩
  | other {s : RackMem} {r' : Cluster Resources} : MemHist region id s →
      r'.world.ext.mgr = s.rack.world.ext.mgr →
      (∀ pid fid f, Holds r'.world pid fid f ↔ Holds s.rack.world pid fid f) →
      (∀ (pid fid n : Nat), (r'.world.ext.frames pid : Frames)[fid]? = some (none, n) → n = 0) →
      (∀ pid, (r'.world.ext.frames pid).length = (s.rack.world.ext.frames pid).length) →
      (∀ k, (r'.srv k).data.length = ENTRY) → MemHist region id { s with rack := r' }

end NRK.Rack.Remote
