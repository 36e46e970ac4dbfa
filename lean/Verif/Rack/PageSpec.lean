import Verif.Rack.ResourceModel
import Verif.Rack.MapModel
import Verif.Rack.RemoteFsProps

/-!
# Physical pages on a rack: vocabulary (C65)
-/

namespace NRK.Rack.Remote

open Rpc (ENTRY)
open NRK.Mem (Frame MCache LARGE)
open NRK.Mem.Spec (Block Disjoint Inside)
open NRK.Proc (Frames)

/-- The world with other free pages of a machine. -/
def withPages (w : World Resources) (m : Nat) (lp : List Nat) : World Resources :=
  { w with ext := { w.ext with mgr := upd w.ext.mgr m { w.ext.mgr m with lp := lp } } }

/-- The world with another table of frames of a process. -/
def withTable (w : World Resources) (pid : Nat) (fs : Frames) : World Resources :=
  { w with ext := { w.ext with frames := upd w.ext.frames pid fs } }

/-- The process has the frame under that identifier. -/
def Holds (w : World Resources) (pid fid : Nat) (f : Frame) : Prop :=
  ∃ n : Nat, (w.ext.frames pid)[fid]? = some (some f, n)

/-- The page is free on machine `mid`. -/
def FreePage (w : World Resources) (mid a : Nat) : Prop := a ∈ (w.ext.mgr (mid - 1)).lp

/-- The 2 MiB page at an address. -/
def page (a : Nat) : Block := ⟨a, 2097152⟩

/-- The state of machine `mid`'s free pages when it has registered with `region` as its shared memory
(`registration.rs` lines 127-139, on the empty manager of `controller_state.rs` lines 42-51). -/
def registeredPages (mid : Nat) (region : Frame) : Outcome MCache :=
  (MCache.new 0 65536 (12 + mid)).populate4kFirst region true

/-- Machine `mid`'s free pages before the first call. -/
def BootPages (mid : Nat) (m : MCache) : Option Frame → Prop
  | some f => f.Ok ∧ f.base + f.size ≤ 2 ^ 64 ∧ registeredPages mid f = .ok m
  | none => m = MCache.new 0 65536 (12 + mid)

/-- The machines in the list give their topmost free page each, one after the other. -/
inductive Given : World Resources → List Nat → List Frame → World Resources → Prop where
  | nil {w : World Resources} : Given w [] [] w
  | cons {w w' : World Resources} {mid a : Nat} {as mids : List Nat} {fs : List Frame} : 1 ≤ mid → mid ≤ 16 →
      (w.ext.mgr (mid - 1)).lp = a :: as → Given (withPages w (mid - 1) as) mids fs w' →
      Given w (mid :: mids) (⟨a, 2097152, 12 + mid⟩ :: fs) w'

/-- The rack after any history of calls by programs that ask for at most 2 MiB at a time, and of requests for
pages by programs that map memory and by the clients' kernels.  `region` is the
shared memory with which machines registered; the regions do not overlap.  In between anything may happen
that leaves the free pages and the frames of the processes alone (mapping a frame changes only its count). -/
inductive PageHist (region : Nat → Option Frame) : Cluster Resources → Prop where
  | boot {r : Cluster Resources} :
      (∀ mid, 1 ≤ mid → mid ≤ 16 → BootPages mid (r.world.ext.mgr (mid - 1)) (region mid)) →
      (∀ m n f g, region m = some f → region n = some g → m ≠ n → Disjoint f.block g.block) →
      (∀ pid, r.world.ext.frames pid = Frames.new) → (∀ k, (r.srv k).data.length = ENTRY) → PageHist region r
  | alloc {r : Cluster Resources} {k : Nat} {o : Oracle} {l : Link} {pid size aff : Nat}
      {res : Outcome (UInt64 × UInt64)} {c : Ctrl Resources} : PageHist region r →
      l.slot1.length = ENTRY → l.slot2.length = ENTRY → pid < 2 ^ 64 → size ≤ 2097152 → aff < 2 ^ 64 →
      allocatePhysical ⟨r.srv k, r.world⟩ o l pid size aff = (res, c) →
      PageHist region ⟨upd r.srv k c.srv, c.world⟩
  | free {r : Cluster Resources} {k : Nat} {o : Oracle} {l : Link} {pid fid : Nat}
      {res : Outcome (UInt64 × UInt64)} {c : Ctrl Resources} : PageHist region r →
      l.slot1.length = ENTRY → l.slot2.length = ENTRY → pid < 2 ^ 64 →
      releasePhysical ⟨r.srv k, r.world⟩ o l pid fid = (res, c) →
      PageHist region ⟨upd r.srv k c.srv, c.world⟩
  | take {r : Cluster Resources} {k : Nat} {o : Oracle} {l : Link} {me n : Nat} {pid : Option Nat}
      {res : Outcome (List Frame)} {c : Ctrl Resources} : PageHist region r →
      l.slot1.length = ENTRY → l.slot2.length = ENTRY → me < 2 ^ 64 → (∀ p, pid = some p → p < 2 ^ 64) →
      n < 2 ^ 64 → getShmemFrames ⟨r.srv k, r.world⟩ o l me pid n = (res, c) →
      PageHist region ⟨upd r.srv k c.srv, c.world⟩
  | other {r r' : Cluster Resources} : PageHist region r → r'.world.ext.mgr = r.world.ext.mgr →
      (∀ pid fid f, Holds r'.world pid fid f ↔ Holds r.world pid fid f) →
      (∀ (pid fid n : Nat), (r'.world.ext.frames pid : Frames)[fid]? = some (none, n) → n = 0) →
      (∀ pid, (r'.world.ext.frames pid).length = (r.world.ext.frames pid).length) →
      (∀ k, (r'.srv k).data.length = ENTRY) → PageHist region r'

end NRK.Rack.Remote
