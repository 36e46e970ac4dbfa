import Verif.Rack.MapInv
import Verif.Machine.MachineLemmas

/-!
# C66: mapping memory on a rack client
-/

namespace NRK.Rack.Remote

open Rpc (ENTRY ENTRY_eq)
open NRK.Mem (Frame MCache LARGE BASE LARGE_eq BASE_eq)
open NRK.Mem.Spec (Block Disjoint Inside AllDisjoint)
open NRK.VSpace (seg total userTop VSpace MapAction)
open NRK.Proc (Frames)
open NRK.Machine (LowestFree)

/-- What a process on client `k` starts from. -/
def RackMem.at (s : RackMem) (k pid : Nat) (vs : VSpace) (mem : Nat → UInt8) : MapState :=
  ⟨⟨s.rack.srv k, s.rack.world⟩, s.cache k pid, vs, mem⟩

theorem mapFramesOf_good {region : Nat → Option Frame} {cache : MCache} {w w' : World Resources} {ms : List Nat}
    {fs : List Frame} (hi : PageInv region w) (hw : cache.Wf) (size : Nat) (hg : Given w ms fs w')
    (hms : ms.length = askCount cache size) :
    (fs.take (largeCount size)).length = largeCount size ∧
    (freshPages cache size fs ++ oldPages cache size).length = baseCount size ∧
    (∀ f ∈ fs.take (largeCount size), f.size = 2097152 ∧ f.base % 2097152 = 0) ∧
    (∀ f ∈ freshPages cache size fs ++ oldPages cache size, f.size = 4096 ∧ f.base % 4096 = 0) := by
  obtain ⟨g1, _, _⟩ := hg.facts hi
  have hlen : fs.length = askCount cache size := by rw [hg.length, hms]
  have hb := baseCount_le size
  have hask : largeCount size ≤ askCount cache size ∧
      (missing cache size ≠ 0 → largeCount size < askCount cache size) ∧
      (missing cache size = 0 → askCount cache size = largeCount size) := by
    unfold askCount; split <;> omega
  have hs : ∀ f ∈ fs, f.size = 2097152 ∧ f.base % 2097152 = 0 := fun f hf => by
    have h1 := (g1 f hf).1.1
    have h2 := (g1 f hf).1.2.1
    rw [LARGE_eq] at h1 h2
    exact ⟨h1, h2⟩
  refine ⟨by rw [List.length_take]; omega, ?_, fun f hf => hs f (List.mem_of_mem_take hf), fun f hf => ?_⟩
  · have hold : (oldPages cache size).length = min (baseCount size) cache.bp.length := by
      unfold oldPages; rw [List.length_map, List.length_take]
    rw [List.length_append, hold]
    unfold freshPages
    cases hl : fs[largeCount size]? with
    | none =>
      rw [List.getElem?_eq_none_iff] at hl
      have : missing cache size = 0 := Classical.byContradiction fun h => by have := hask.2.1 h; omega
      unfold missing at this
      simp only [List.length_nil]
      omega
    | some f =>
      simp only [List.length_take, splitPage_length]
      have h1 := (List.getElem?_eq_some_iff.1 hl).1
      have : missing cache size ≠ 0 := fun h => by have := hask.2.2 h; omega
      unfold missing at this ⊢
      omega
  · rcases List.mem_append.1 hf with hf | hf
    · unfold freshPages at hf
      cases hl : fs[largeCount size]? with
      | none => rw [hl] at hf; cases hf
      | some g =>
        rw [hl] at hf
        obtain ⟨i, _, rfl⟩ := List.mem_map.1 (List.mem_of_mem_take hf)
        have := (hs g (List.mem_of_getElem? hl)).2
        exact ⟨rfl, by show (g.base + 4096 * i) % 4096 = 0; omega⟩
    · obtain ⟨a, ha, rfl⟩ := List.mem_map.1 hf
      have := hw.alB a (List.mem_of_mem_take ha)
      rw [BASE_eq] at this
      exact ⟨rfl, this⟩

/-- **C66.** After any history: a process on a client maps `size` bytes (not zero) at an aligned address (2 MiB
if it asks for that much) in a range of user addresses where nothing is mapped, the machines chosen have free
pages, and it takes at most 508 of them.  Then the call succeeds and reports the address of the first frame and
the size rounded up to pages; exactly that range is mapped, writable, to the frames one after the other: the
pages the machines gave, base pages of one more such page, and base pages this client had kept for the process.
The machines have given no other pages and what is left is kept for the process.  Every byte in a page that
came from a machine is zero; no other memory is touched.  Missing for the full statement: the pages kept are not zeroed
(`c66_kept_page_not_zeroed`), and other calls crash (`c66_crashes`, `c66_zero_size_crashes`,
`c66_remap_crashes`). -/
theorem c66_map_partial {region : Nat → Option Frame} {id : Nat → Nat} {s : RackMem} (h : MemHist region id s)
    (k : Nat) (o : Oracle) (l : Link) (l1 : l.slot1.length = ENTRY) (l2 : l.slot2.length = ENTRY)
    (env : VSpace.Env) (hk : env.pages4k = false) (oom : Nat → Bool) (hoom : ∀ i, oom i = false)
    (vs : VSpace) (hr : VSpace.Run env vs) (mem : Nat → UInt8) (pid base size : Nat) (hid : id k < 2 ^ 64)
    (hp : pid < 2 ^ 64) (hz : size < 2 ^ 64) (h0 : 0 < size) (hal : base % 4096 = 0)
    (hlarge : 2097152 ≤ size → base % 2097152 = 0)
    (hu : base + (size + 4095) / 4096 * 4096 ≤ userTop)
    (hfree : ∀ x, base ≤ x → x < base + (size + 4095) / 4096 * 4096 → vs.resolve x = .err .notMapped)
    (fs : List Frame) (w' : World Resources) (h508 : askCount (s.cache k pid) size ≤ 508)
    (hg : Given s.rack.world ((List.range (askCount (s.cache k pid) size)).map o.mids) fs w') :
    ∃ srv vs' mem' first, mapMemRack env oom o l (id k) pid base size (s.at k pid vs mem) =
        (.ok (first, (size + 4095) / 4096 * 4096),
          ⟨⟨srv, w'⟩, { s.cache k pid with bp := leftPages (s.cache k pid) size fs }, vs', mem'⟩) ∧
      (mapFramesOf (s.cache k pid) size fs).head?.map (·.base) = some first ∧
      total (mapFramesOf (s.cache k pid) size fs) = (size + 4095) / 4096 * 4096 ∧
      VSpace.Run env vs' ∧
      (∀ x, x < 2 ^ 48 → vs'.resolve x = match seg base (mapFramesOf (s.cache k pid) size fs) x with
        | some p => .ok (p, MapAction.writable)
        | Option.none => vs.resolve x) ∧
      (∀ f ∈ fs.take (largeCount size) ++ freshPages (s.cache k pid) size fs, ∀ p, f.block.Has p → mem' p = 0) ∧
      (∀ p, (∀ f ∈ fs.take (largeCount size) ++ freshPages (s.cache k pid) size fs, ¬ f.block.Has p) →
        mem' p = mem p) ∧
      MemHist region id ⟨⟨upd s.rack.srv k srv, w'⟩,
        withCache s.cache k pid { s.cache k pid with bp := leftPages (s.cache k pid) size fs },
        (mapFramesOf (s.cache k pid) size fs).map (fun f => (pid, f)) ++ s.given, s.kernels⟩ := by
  obtain ⟨hi, hs⟩ := h.pages.inv
  have hv := h.inv
  obtain ⟨res, c, m, he⟩ : ∃ res c m, mapPagesOf ⟨s.rack.srv k, s.rack.world⟩ o l (id k) (s.cache k pid) pid size =
    (res, c, m) := ⟨_, _, _, rfl⟩
  obtain ⟨hkept, hc⟩ := mapPagesOf_cases (region := region) ⟨s.rack.srv k, s.rack.world⟩ o l ⟨l1, l2, hs k⟩ (id k)
    (s.cache k pid) pid size hi (hv.wf k pid) (hv.cap k pid) (by rw [hv.node]; omega) hid hp hz res c m he
  rcases hc with ⟨fs', _, hg', rfl, rfl⟩ | ⟨_, _, hn⟩
  · have e1 := hg.take hi
    have e2 := hg'.take hi
    rw [e1] at e2
    simp only [Prod.mk.injEq, Outcome.ok.injEq] at e2
    obtain ⟨rfl, e3⟩ := e2
    obtain ⟨srv, w⟩ := c
    simp only at e3
    subst e3
    obtain ⟨a1, a2, a3, a4⟩ := mapFramesOf_good hi (hv.wf k pid) size hg (by simp)
    obtain ⟨vs', first, frames, hf, hm, h1, h2, hr', h3⟩ := VSpace.c58_map_syscall_partial env hk
      (fun lp bp => if lp = largeCount size ∧ bp = baseCount size then mapFramesOf (s.cache k pid) size fs
        else VSpace.exAlloc lp bp)
      (fun lp bp => by
        by_cases hc : lp = largeCount size ∧ bp = baseCount size
        · refine ⟨fs.take (largeCount size), freshPages (s.cache k pid) size fs ++ oldPages (s.cache k pid) size, ?_,
            by rw [a1, hc.1], by rw [a2, hc.2], a3, a4⟩
          simp only [if_pos hc]
          unfold mapFramesOf
          rw [List.append_assoc]
        · simp only [if_neg hc]
          exact VSpace.exAlloc_good lp bp) oom vs hr base size h0 hal hlarge hoom hu hfree
    rw [show size / 2097152 = largeCount size from rfl, show (size % 2097152 + 4095) / 4096 = baseCount size from rfl,
      if_pos ⟨rfl, rfl⟩] at hf
    subst hf
    rw [VSpace.mapMem_eq] at hm
    rw [show size / 2097152 = largeCount size from rfl, show (size % 2097152 + 4095) / 4096 = baseCount size from rfl,
      if_pos ⟨rfl, rfl⟩] at hm
    refine ⟨srv, vs', (fs.take (largeCount size) ++ freshPages (s.cache k pid) size fs).foldl Machine.zero mem,
      first, ?_, h1, h2, hr', h3, fun f hf p hp => ?_, fun p hp => ?_, .map h l1 l2 hid hp hz he⟩
    · unfold mapMemRack
      rw [show (s.at k pid vs mem).ctrl = ⟨s.rack.srv k, s.rack.world⟩ from rfl,
        show (s.at k pid vs mem).cache = s.cache k pid from rfl, he]
      simp only [show (s.at k pid vs mem).vs = vs from rfl, show (s.at k pid vs mem).mem = mem from rfl]
      rw [show fs.take (largeCount size) ++ freshPages (s.cache k pid) size fs ++ oldPages (s.cache k pid) size =
        mapFramesOf (s.cache k pid) size fs from rfl, hm]
    · exact (Machine.foldl_zero _ mem p).1 ⟨f, hf, hp⟩
    · exact (Machine.foldl_zero _ mem p).2 hp
  · exact absurd ⟨h508, fs, w', hg⟩ hn

/-- Whatever becomes of the mapping, these are the frames. -/
theorem mapMemRack_frames {region : Nat → Option Frame} {id : Nat → Nat} {s : RackMem} (h : MemHist region id s)
    (k : Nat) (o : Oracle) (l : Link) (l1 : l.slot1.length = ENTRY) (l2 : l.slot2.length = ENTRY)
    (env : VSpace.Env) (oom : Nat → Bool) (vs : VSpace) (mem : Nat → UInt8) (pid base size : Nat) (hid : id k < 2 ^ 64)
    (hp : pid < 2 ^ 64) (hz : size < 2 ^ 64) (fs : List Frame) (w' : World Resources)
    (h508 : askCount (s.cache k pid) size ≤ 508)
    (hg : Given s.rack.world ((List.range (askCount (s.cache k pid) size)).map o.mids) fs w') :
    (mapMemRack env oom o l (id k) pid base size (s.at k pid vs mem)).1 =
      (VSpace.mapPages env (mapFramesOf (s.cache k pid) size fs) oom vs base).2 := by
  obtain ⟨hi, hs⟩ := h.pages.inv
  have hv := h.inv
  obtain ⟨res, c, m, he⟩ : ∃ res c m, mapPagesOf ⟨s.rack.srv k, s.rack.world⟩ o l (id k) (s.cache k pid) pid size =
    (res, c, m) := ⟨_, _, _, rfl⟩
  obtain ⟨_, hc⟩ := mapPagesOf_cases (region := region) ⟨s.rack.srv k, s.rack.world⟩ o l ⟨l1, l2, hs k⟩ (id k)
    (s.cache k pid) pid size hi (hv.wf k pid) (hv.cap k pid) (by rw [hv.node]; omega) hid hp hz res c m he
  rcases hc with ⟨fs', _, hg', rfl, rfl⟩ | ⟨_, _, hn⟩
  · have e2 := hg'.take hi
    rw [hg.take hi] at e2
    simp only [Prod.mk.injEq, Outcome.ok.injEq] at e2
    obtain ⟨rfl, _⟩ := e2
    unfold mapMemRack
    rw [show (s.at k pid vs mem).ctrl = ⟨s.rack.srv k, s.rack.world⟩ from rfl,
      show (s.at k pid vs mem).cache = s.cache k pid from rfl, he]
    rfl
  · exact absurd ⟨h508, fs, w', hg⟩ hn

/-- **C66, defects.** If a machine that was chosen has no free page or no such machine exists, or if more than
508 large pages are needed (about 1 GiB), the kernel crashes. -/
theorem c66_crashes {region : Nat → Option Frame} {id : Nat → Nat} {s : RackMem} (h : MemHist region id s)
    (k : Nat) (o : Oracle) (l : Link) (l1 : l.slot1.length = ENTRY) (l2 : l.slot2.length = ENTRY)
    (env : VSpace.Env) (oom : Nat → Bool) (vs : VSpace) (mem : Nat → UInt8) (pid base size : Nat)
    (hid : id k < 2 ^ 64) (hp : pid < 2 ^ 64) (hz : size < 2 ^ 64)
    (hbad : 508 < askCount (s.cache k pid) size ∨
      ¬ ∃ fs w', Given s.rack.world ((List.range (askCount (s.cache k pid) size)).map o.mids) fs w') :
    (mapMemRack env oom o l (id k) pid base size (s.at k pid vs mem)).1 = .panic := by
  obtain ⟨hi, hs⟩ := h.pages.inv
  have hv := h.inv
  obtain ⟨res, c, m, he⟩ : ∃ res c m, mapPagesOf ⟨s.rack.srv k, s.rack.world⟩ o l (id k) (s.cache k pid) pid size =
    (res, c, m) := ⟨_, _, _, rfl⟩
  obtain ⟨_, hc⟩ := mapPagesOf_cases (region := region) ⟨s.rack.srv k, s.rack.world⟩ o l ⟨l1, l2, hs k⟩ (id k)
    (s.cache k pid) pid size hi (hv.wf k pid) (hv.cap k pid) (by rw [hv.node]; omega) hid hp hz res c m he
  rcases hc with ⟨fs, h5, hg, _⟩ | ⟨rfl, _⟩
  · rcases hbad with hb | hb
    · omega
    · exact absurd ⟨fs, _, hg⟩ hb
  · unfold mapMemRack
    rw [show (s.at k pid vs mem).ctrl = ⟨s.rack.srv k, s.rack.world⟩ from rfl,
      show (s.at k pid vs mem).cache = s.cache k pid from rfl, he]

/-- **C66, a defect.** Mapping nothing crashes the kernel. -/
theorem c66_zero_size_crashes (s : MapState) (o : Oracle) (l : Link) (me : Nat) (env : VSpace.Env)
    (oom : Nat → Bool) (pid base : Nat) : (mapMemRack env oom o l me pid base 0 s).1 = .panic := by
  unfold mapMemRack mapPagesOf
  simp only [VSpace.sizeToPages_eq]
  rw [show min s.cache.bp.length ((0 % 2097152 + 4095) / 4096) = 0 by simp]
  rfl

/-- **C66, a defect.** A base page that the client kept for the process is mapped with the contents it has: the
call touches no memory at all. -/
theorem c66_kept_page_not_zeroed {region : Nat → Option Frame} {id : Nat → Nat} {s : RackMem}
    (h : MemHist region id s) (k : Nat) (o : Oracle) (l : Link) (l1 : l.slot1.length = ENTRY)
    (l2 : l.slot2.length = ENTRY) (env : VSpace.Env) (hk : env.pages4k = false) (oom : Nat → Bool)
    (hoom : ∀ i, oom i = false) (vs : VSpace) (hr : VSpace.Run env vs) (mem : Nat → UInt8) (pid base a : Nat) (as : List Nat)
    (hid : id k < 2 ^ 64) (hp : pid < 2 ^ 64) (hal : base % 4096 = 0) (hu : base + 4096 ≤ userTop)
    (hfree : ∀ x, base ≤ x → x < base + 4096 → vs.resolve x = .err .notMapped)
    (hc : (s.cache k pid).bp = a :: as) :
    ∃ s', mapMemRack env oom o l (id k) pid base 4096 (s.at k pid vs mem) = (.ok (a, 4096), s') ∧
      (∀ i, i < 4096 → s'.vs.resolve (base + i) = .ok (a + i, MapAction.writable)) ∧ s'.mem = mem := by
  have hask : askCount (s.cache k pid) 4096 = 0 := by
    unfold askCount missing baseCount largeCount
    rw [hc, List.length_cons, if_pos (by omega)]
  have hframes : mapFramesOf (s.cache k pid) 4096 [] = [⟨a, 4096, (s.cache k pid).node⟩] := by
    unfold mapFramesOf freshPages oldPages
    rw [hc]
    rfl
  obtain ⟨srv, vs', mem', first, e, h1, _, _, h3, h4, h5, _⟩ := c66_map_partial h k o l l1 l2 env hk oom hoom vs hr mem
    pid base 4096 hid hp (by decide) (by decide) hal (fun h => absurd h (by decide)) hu hfree [] s.rack.world
    (by omega) (by rw [hask]; exact .nil)
  rw [hframes] at h1 h3
  have hfirst : first = a := (Option.some.inj h1).symm
  subst hfirst
  have hu' : userTop ≤ 2 ^ 48 := by decide
  refine ⟨_, e, fun i hi => ?_, ?_⟩
  · rw [h3 (base + i) (by omega)]
    have : seg base [⟨first, 4096, (s.cache k pid).node⟩] (base + i) = some (first + i) := by
      unfold VSpace.seg
      rw [if_pos ⟨by omega, by show base + i < base + 4096; omega⟩]
      rw [show base + i - base = i by omega]
    rw [this]
  · funext p
    refine h5 p fun f hf => ?_
    simp [freshPages] at hf

/-- **C66.** After any history of allocations, releases, mappings and requests of kernels: the frames mapped and
the pages given to kernels overlap neither each other, nor a frame that any process has allocated, nor a page
that is free on any machine, nor a page that a client keeps for later. -/
theorem c66_disjoint {region : Nat → Option Frame} {id : Nat → Nat} {s : RackMem} (h : MemHist region id s) :
    AllDisjoint (s.given.map fun g => g.2.block) ∧ AllDisjoint (s.kernels.map (·.block)) ∧
    (∀ p f, (p, f) ∈ s.given → ∀ g ∈ s.kernels, Disjoint f.block g.block) ∧
    (∀ f, (∃ p, (p, f) ∈ s.given) ∨ f ∈ s.kernels →
      (∀ q j g, Holds s.rack.world q j g → Disjoint f.block g.block) ∧
      (∀ mid a, 1 ≤ mid → mid ≤ 16 → FreePage s.rack.world mid a → Disjoint f.block (page a)) ∧
      (∀ k q a, a ∈ (s.cache k q).bp → Disjoint f.block ⟨a, 4096⟩)) ∧
    (∀ k p a k' q b, a ∈ (s.cache k p).bp → b ∈ (s.cache k' q).bp → (k, p, a) ≠ (k', q, b) →
      Disjoint ⟨a, 4096⟩ ⟨b, 4096⟩) := by
  have hv := h.inv
  have hi := h.pages.inv.1
  have hgiven : ∀ p f, (p, f) ∈ s.given → f.block ∈ blocksOf s none := fun p f hf => List.mem_map.2 ⟨(p, f), hf, rfl⟩
  have hkern : ∀ f, f ∈ s.kernels → f.block ∈ blocksOf s (some none) := fun f hf => List.mem_map.2 ⟨f, hf, rfl⟩
  refine ⟨hv.sep.self none, hv.sep.self (some none),
    fun p f hf g hg => hv.sep.other none (some none) (by simp) _ (hgiven p f hf) _ (hkern g hg),
    fun f hf => ?_, fun k p a k' q b ha hb hne => ?_⟩
  · obtain ⟨o, ho, hfb⟩ : ∃ o : Keeper, (∀ k q, o ≠ some (some (k, q))) ∧ f.block ∈ blocksOf s o := by
      rcases hf with ⟨p, hf⟩ | hf
      · exact ⟨none, fun _ _ => by simp, hgiven p f hf⟩
      · exact ⟨some none, fun _ _ => by simp, hkern f hf⟩
    obtain ⟨a, h1, h2, h3⟩ := hv.nobody o f.block hfb
    refine ⟨fun q j g hg => ?_, fun mid b m0 m16 hb => ?_, fun k q b hb => ?_⟩
    · obtain ⟨g1, g2, _⟩ := hi.held q j g hg
      exact (pages_disjoint h1 g2 (Ne.symm (h2.2 q j g hg))).mono h3 (frame_in_page g1)
    · refine (pages_disjoint h1 (hi.free mid b m0 m16 hb).1 fun e => ?_).mono h3 (fun _ hx => hx)
      exact h2.1 mid m0 m16 (e ▸ hb)
    · exact hv.sep.other o (some (some (k, q))) (ho k q) _ hfb _ (List.mem_map.2 ⟨b, hb, rfl⟩)
  · have ha' : (⟨a, 4096⟩ : Block) ∈ blocksOf s (some (some (k, p))) := List.mem_map.2 ⟨a, ha, rfl⟩
    have hb' : (⟨b, 4096⟩ : Block) ∈ blocksOf s (some (some (k', q))) := List.mem_map.2 ⟨b, hb, rfl⟩
    by_cases hc : (k, p) = (k', q)
    · have hab : a ≠ b := fun e => hne (by simp only [Prod.mk.injEq] at hc ⊢; exact ⟨hc.1, hc.2, e⟩)
      rw [← hc] at hb'
      exact Machine.pairwise_all (fun _ _ hd => hd.symm) (hv.sep.self (some (some (k, p)))) _ ha' _ hb'
        (fun e => hab (by injection e))
    · exact hv.sep.other _ _ (fun e => hc (Option.some.inj (Option.some.inj e))) _ ha' _ hb'

end NRK.Rack.Remote
