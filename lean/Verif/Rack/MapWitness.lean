import Verif.Rack.MapProps

/-!
# C66: concrete cases
-/

namespace NRK.Rack.Remote

open Rpc (ENTRY ENTRY_eq)
open NRK.Mem (Frame MCache LARGE BASE LARGE_eq BASE_eq)
open NRK.Mem.Spec (Block Disjoint Inside AllDisjoint)
open NRK.VSpace (seg total userTop VSpace MapAction PML4)
open NRK.Proc (Frames)
open NRK.Machine (LowestFree)

/-- Machine 1 has registered, nothing has been asked for. -/
def memRack (w : World Resources) : RackMem := ⟨pageRack w, fun _ _ => MCache.new 2048 0 13, [], []⟩

theorem memRack_hist (w : World Resources) : MemHist demoRegion (fun _ => 1) (memRack w) :=
  .boot (pageRack_boot w) demoRegion_disjoint (fun _ => rfl) (fun _ => List.length_replicate) (fun _ _ => rfl)

/-- An address space and its environment. -/
def bare : VSpace := ⟨[], PML4.empty⟩

def usual : VSpace.Env := ⟨false, fun _ => false⟩

theorem bare_free (x : Nat) : bare.resolve x = .err .notMapped := rfl

theorem bare_run : VSpace.Run usual bare := VSpace.Run.new _ (fun _ _ => rfl)

theorem left_sample : (leftPages (MCache.new 2048 0 13) (2097152 + 5000)
    [⟨6291456, 2097152, 13⟩, ⟨4194304, 2097152, 13⟩]).length = 510 := by decide +kernel

theorem left_small : leftPages (MCache.new 2048 0 13) 4096 [⟨6291456, 2097152, 13⟩] =
    8384512 :: (leftPages (MCache.new 2048 0 13) 4096 [⟨6291456, 2097152, 13⟩]).tail := by decide +kernel

attribute [local irreducible] leftPages

/-- The hypotheses of `c66_map_partial` are met: a process maps 2 MiB and 5000 bytes and gets the upper page
and two base pages of the lower one; 510 base pages are kept for it. -/
theorem c66_sample (w : World Resources) (o : Oracle) (l : Link) (ho : ∀ i, o.mids i = 1)
    (l1 : l.slot1.length = ENTRY) (l2 : l.slot2.length = ENTRY) (mem : Nat → UInt8) :
    ∃ s', mapMemRack usual (fun _ => false) o l 1 7 0x400000 (2097152 + 5000) ((memRack w).at 0 7 bare mem) =
        (.ok (6291456, 2097152 + 8192), s') ∧
      s'.vs.resolve 0x400010 = .ok (6291472, MapAction.writable) ∧
      s'.vs.resolve 0x601010 = .ok (4198416, MapAction.writable) ∧
      s'.vs.resolve 0x602000 = .err .notMapped ∧ s'.mem 6291472 = 0 ∧ s'.mem 4198416 = 0 ∧
      s'.cache.bp.length = 510 ∧ s'.ctrl.world.ext.mgr 0 = ⟨0, 65536, 13, [], []⟩ := by
  have hask : askCount ((memRack w).cache 0 7) (2097152 + 5000) = 2 :=
    (by decide : askCount (MCache.new 2048 0 13) (2097152 + 5000) = 2)
  have hseg : ∀ x, seg 0x400000 (mapFramesOf ((memRack w).cache 0 7) (2097152 + 5000)
      [⟨6291456, 2097152, 13⟩, ⟨4194304, 2097152, 13⟩]) x = seg 0x400000 [⟨6291456, 2097152, 13⟩,
        ⟨4194304, 4096, 13⟩, ⟨4198400, 4096, 13⟩] x := fun x => by
    have : mapFramesOf (MCache.new 2048 0 13) (2097152 + 5000) [⟨6291456, 2097152, 13⟩, ⟨4194304, 2097152, 13⟩] =
      [⟨6291456, 2097152, 13⟩, ⟨4194304, 4096, 13⟩, ⟨4198400, 4096, 13⟩] := by decide +kernel
    rw [show mapFramesOf ((memRack w).cache 0 7) _ _ = _ from this]
  obtain ⟨srv, vs', mem', first, e, h1, _, _, h3, h4, _, _⟩ := c66_map_partial (memRack_hist w) 0 o l l1 l2 usual rfl
    (fun _ => false) (fun _ => rfl) bare bare_run mem 7 0x400000 (2097152 + 5000) (by decide) (by decide) (by decide)
    (by decide) (by decide) (by decide) (by decide) (fun _ _ _ => rfl)
    [⟨6291456, 2097152, 13⟩, ⟨4194304, 2097152, 13⟩] _ (by rw [hask]; decide)
    (by
      rw [hask]
      simp only [show List.range 2 = [0, 1] from rfl, List.map_cons, List.map_nil, ho]
      exact .cons (by decide) (by decide) rfl (.cons (by decide) (by decide) rfl .nil))
  have hf : first = 6291456 := (Option.some.inj h1).symm
  subst hf
  refine ⟨_, e, ?_, ?_, ?_, ?_, ?_, ?_, rfl⟩
  · rw [h3 _ (by decide), hseg]
    rfl
  · rw [h3 _ (by decide), hseg]
    rfl
  · rw [h3 _ (by decide), hseg, (by decide +kernel : seg 0x400000 [⟨6291456, 2097152, 13⟩,
        ⟨4194304, 4096, 13⟩, ⟨4198400, 4096, 13⟩] 0x602000 = none)]
    simp only [bare_free]
  · exact h4 ⟨6291456, 2097152, 13⟩ (List.mem_append_left _ (by simp [largeCount])) _ ⟨by decide, by decide⟩
  · exact h4 ⟨4198400, 4096, 13⟩ (List.mem_append_right _
      (by decide +kernel : (⟨4198400, 4096, 13⟩ : Frame) ∈ freshPages (MCache.new 2048 0 13) (2097152 + 5000)
        [⟨6291456, 2097152, 13⟩, ⟨4194304, 2097152, 13⟩])) _ ⟨by decide, by decide⟩
  · exact left_sample

/-- **C66, a defect.** An address that is not aligned crashes the kernel, and so does an address where
something is mapped. -/
theorem c66_remap_crashes (w : World Resources) (o : Oracle) (l : Link) (ho : ∀ i, o.mids i = 1)
    (l1 : l.slot1.length = ENTRY) (l2 : l.slot2.length = ENTRY) (mem : Nat → UInt8) :
    (mapMemRack usual (fun _ => false) o l 1 7 0x400008 4096 ((memRack w).at 0 7 bare mem)).1 = .panic ∧
    (mapMemRack usual (fun _ => false) o l 1 7 0x401000 2097152 ((memRack w).at 0 7 bare mem)).1 = .panic ∧
    (mapMemRack usual (fun _ => false) o l 1 7 0x401000 4096 ((memRack w).at 0 7 VSpace.exTwo mem)).1 = .panic := by
  have ha : askCount (MCache.new 2048 0 13) 4096 = 1 := by decide
  have hb : askCount (MCache.new 2048 0 13) 2097152 = 1 := by decide
  have hg : Given (memRack w).rack.world ((List.range 1).map o.mids) [⟨6291456, 2097152, 13⟩]
      (withPages (memRack w).rack.world 0 [4194304]) := by
    simp only [show List.range 1 = [0] from rfl, List.map_cons, List.map_nil, ho]
    exact .cons (by decide) (by decide) rfl .nil
  refine ⟨?_, ?_, ?_⟩
  · rw [mapMemRack_frames (memRack_hist w) 0 o l l1 l2 usual (fun _ => false) bare mem 7 _ 4096 (by decide) (by decide)
      (by decide) [⟨6291456, 2097152, 13⟩] _ (by decide : askCount (MCache.new 2048 0 13) 4096 ≤ 508) (by
        rw [show askCount ((memRack w).cache 0 7) 4096 = 1 from ha]; exact hg)]
    show (VSpace.mapPages usual (mapFramesOf (MCache.new 2048 0 13) 4096 _) _ _ _).2 = _
    decide +kernel
  · rw [mapMemRack_frames (memRack_hist w) 0 o l l1 l2 usual (fun _ => false) bare mem 7 _ 2097152 (by decide) (by decide)
      (by decide) [⟨6291456, 2097152, 13⟩] _ (by decide : askCount (MCache.new 2048 0 13) 2097152 ≤ 508) (by
        rw [show askCount ((memRack w).cache 0 7) 2097152 = 1 from hb]; exact hg)]
    show (VSpace.mapPages usual (mapFramesOf (MCache.new 2048 0 13) 2097152 _) _ _ _).2 = _
    decide +kernel
  · rw [mapMemRack_frames (memRack_hist w) 0 o l l1 l2 usual (fun _ => false) VSpace.exTwo mem 7 _ 4096 (by decide) (by decide)
      (by decide) [⟨6291456, 2097152, 13⟩] _ (by decide : askCount (MCache.new 2048 0 13) 4096 ≤ 508) (by
        rw [show askCount ((memRack w).cache 0 7) 4096 = 1 from ha]; exact hg)]
    show (VSpace.mapPages usual (mapFramesOf (MCache.new 2048 0 13) 4096 _) _ _ _).2 = _
    decide +kernel

/-- **C66, a defect.** Mapping 1 GiB or more crashes the kernel. -/
theorem c66_gigabyte_crashes {region : Nat → Option Frame} {id : Nat → Nat} {s : RackMem} (h : MemHist region id s)
    (k : Nat) (o : Oracle) (l : Link) (l1 : l.slot1.length = ENTRY) (l2 : l.slot2.length = ENTRY)
    (env : VSpace.Env) (oom : Nat → Bool) (vs : VSpace) (mem : Nat → UInt8) (pid base size : Nat)
    (hid : id k < 2 ^ 64) (hp : pid < 2 ^ 64) (hz : size < 2 ^ 64) (hbig : 2 ^ 30 ≤ size) :
    (mapMemRack env oom o l (id k) pid base size (s.at k pid vs mem)).1 = .panic := by
  refine c66_crashes h k o l l1 l2 env oom vs mem pid base size hid hp hz (.inl ?_)
  unfold askCount largeCount
  split <;> omega

/-- **C66, a defect.** A process reads what another process wrote.  Process 7 allocates a page and gives it
back; process 8 maps 4 KiB twice, and the second piece is part of that page with its contents. -/
theorem c66_leak (w : World Resources) (o : Oracle) (l : Link) (ho : ∀ i, o.mids i = 1) (hm : o.mid = 1)
    (hacc : o.accepts = true) (l1 : l.slot1.length = ENTRY) (l2 : l.slot2.length = ENTRY) (mem : Nat → UInt8) :
    ∃ c1 c2 s3 s4,
      allocatePhysical ⟨(memRack w).rack.srv 0, (memRack w).rack.world⟩ o l 7 2097152 0 = (.ok (0, 6291456), c1) ∧
      Holds c1.world 7 0 ⟨6291456, 2097152, 13⟩ ∧
      releasePhysical c1 o l 7 0 = (.ok (0, 0), c2) ∧
      mapMemRack usual (fun _ => false) o l 1 8 0x400000 4096 ⟨c2, MCache.new 2048 0 13, bare, mem⟩ =
        (.ok (6291456, 4096), s3) ∧
      mapMemRack usual (fun _ => false) o l 1 8 0x401000 4096 s3 = (.ok (8384512, 4096), s4) ∧
      ∀ i, i < 4096 → s4.vs.resolve (0x401000 + i) = .ok (8384512 + i, MapAction.writable) ∧
        s4.mem (8384512 + i) = mem (8384512 + i) ∧ (Frame.block ⟨6291456, 2097152, 13⟩).Has (8384512 + i) := by
  obtain ⟨srv, s1, _, _, c3⟩ := c65_allocate ⟨(memRack w).rack.srv 0, (memRack w).rack.world⟩ o l
    ⟨l1, l2, List.length_replicate⟩ 7 2097152 0 (by decide) (by decide) (by decide)
  obtain ⟨_, _, d3⟩ := c3 (by omega) (by omega) 6291456 [4194304] (by rw [hm]; rfl) (by rw [hm]; rfl)
    (by rw [LARGE_eq]) (by decide)
  have e1 := d3 (by decide) 0 demo_lowest
  have h1 := MemHist.alloc (memRack_hist w) (k := 0) l1 l2 (by decide) (by decide) (by decide) e1
  rw [hm] at e1 h1
  obtain ⟨_, _, c4⟩ := c65_release
    ⟨srv, withTable (withPages (memRack w).rack.world 0 [4194304]) 7
      (((memRack w).rack.world.ext.frames 7).set 0 (some ⟨6291456, 2097152, 13⟩, 0))⟩ o l
    ⟨l1, l2, s1⟩ 7 0 (by decide)
  obtain ⟨srv2, s2, d4, _⟩ := c4 ⟨6291456, 2097152, 13⟩ 1 rfl (by decide) (by decide) rfl (by decide) (by decide)
    (by rw [LARGE_eq]; decide) rfl
  have e2 := d4 (by decide : [4194304].length < 65536)
  rw [hacc] at e2
  have h2 := MemHist.free h1 (k := 0) (pid := 7) (fid := 0) (o := o) (l := l) l1 l2 (by decide) e2
  obtain ⟨srv3, vs3, mem3, f3, e3, p3, _, r3, m3, _, z3, h3⟩ := c66_map_partial h2 0 o l l1 l2 usual rfl
    (fun _ => false) (fun _ => rfl) bare bare_run mem 8 0x400000 4096 (by decide) (by decide) (by decide)
    (by decide) (by decide) (by decide) (by decide) (fun _ _ _ => rfl)
    [⟨6291456, 2097152, 13⟩] _ (by decide : askCount (MCache.new 2048 0 13) 4096 ≤ 508)
    (by
      change Given _ ((List.range (askCount (MCache.new 2048 0 13) 4096)).map o.mids) _ _
      rw [(by decide : askCount (MCache.new 2048 0 13) 4096 = 1)]
      simp only [show List.range 1 = [0] from rfl, List.map_cons, List.map_nil, ho]
      exact .cons (mid := 1) (by decide) (by decide) rfl .nil)
  have hF : mapFramesOf (MCache.new 2048 0 13) 4096 [⟨6291456, 2097152, 13⟩] = [⟨6291456, 4096, 13⟩] := by
    decide +kernel
  have p3' : (mapFramesOf (MCache.new 2048 0 13) 4096 [⟨6291456, 2097152, 13⟩]).head?.map (·.base) = some f3 := p3
  rw [hF] at p3'
  have hf : f3 = 6291456 := (Option.some.inj p3').symm
  subst hf
  have hfree : ∀ x, x < 2 ^ 48 → seg 0x400000 [⟨6291456, 4096, 13⟩] x = none → vs3.resolve x = .err .notMapped := by
    intro x hx hn
    rw [m3 x hx]
    split
    · rename_i p hs
      have hs' : seg 0x400000 (mapFramesOf (MCache.new 2048 0 13) 4096 [⟨6291456, 2097152, 13⟩]) x = some p := hs
      rw [hF, hn] at hs'
      cases hs'
    · exact bare_free x
  obtain ⟨s4, e4, q4, q5⟩ := c66_kept_page_not_zeroed h3 0 o l l1 l2 usual rfl (fun _ => false) (fun _ => rfl) vs3 r3 mem3
    8 0x401000 8384512 _ (by decide) (by decide) (by decide) (by decide) (fun x hx hx' => hfree x (by omega) (by
      apply VSpace.seg_out
      rw [(by decide +kernel : total [Frame.mk 6291456 4096 13] = 4096)]
      omega)) left_small
  refine ⟨_, _, _, s4, e1, ⟨0, rfl⟩, e2, e3, e4, fun i hi => ⟨q4 i hi, ?_, ?_⟩⟩
  · rw [q5]
    refine z3 _ fun f hf => ?_
    have hf' : f = ⟨6291456, 4096, 13⟩ := by
      have : [Frame.mk 6291456 2097152 13].take (largeCount 4096) ++
        freshPages (MCache.new 2048 0 13) 4096 [⟨6291456, 2097152, 13⟩] = [⟨6291456, 4096, 13⟩] := by decide +kernel
      have hf2 : f ∈ [Frame.mk 6291456 2097152 13].take (largeCount 4096) ++
        freshPages (MCache.new 2048 0 13) 4096 [⟨6291456, 2097152, 13⟩] := hf
      rw [this] at hf2
      exact List.mem_singleton.1 hf2
    subst hf'
    rintro ⟨_, h⟩
    have : 8384512 + i < 6291456 + 4096 := h
    omega
  · exact ⟨by show 6291456 ≤ 8384512 + i; omega, by show 8384512 + i < 6291456 + 2097152; omega⟩

end NRK.Rack.Remote
