import Verif.Rack.PageRoom

/-!
# C65: physical pages of a rack, over histories
-/

namespace NRK.Rack.Remote

open Rpc (ENTRY ENTRY_eq)
open NRK.Mem (Frame MCache LARGE LARGE_eq)
open NRK.Mem.Spec (Block Disjoint Inside)
open NRK.Proc (Frames)
open NRK.Machine (LowestFree AllUsed add_exact)

theorem pages_disjoint {a b : Nat} (ha : a % LARGE = 0) (hb : b % LARGE = 0) (hne : a ≠ b) :
    Disjoint (page a) (page b) := by
  intro x ⟨⟨h1, h2⟩, ⟨h3, h4⟩⟩
  simp only [page] at h1 h2 h3 h4
  rw [LARGE_eq] at ha hb
  omega

theorem frame_in_page {f : Frame} (h : f.size ≤ 2097152) : Inside f.block (page f.base) := by
  intro x ⟨h1, h2⟩
  have h1 : f.base ≤ x := h1
  have h2 : x < f.base + f.size := h2
  exact ⟨h1, by show x < f.base + 2097152; omega⟩

/-- **C65.** As long as programs ask for at most 2 MiB at a time: no two frames of any processes overlap,
no frame overlaps a page that is free on any machine, no two free pages overlap, and every frame lies in the
shared memory of the machine its affinity names.  Missing for the full statement: larger sizes, for which it
is false (`c65_large_request_overlaps`). -/
theorem c65_disjoint_partial {region : Nat → Option Frame} {r : Cluster Resources} (h : PageHist region r) :
    (∀ p i f q j g, Holds r.world p i f → Holds r.world q j g → (p, i) ≠ (q, j) → Disjoint f.block g.block) ∧
    (∀ p i f mid a, Holds r.world p i f → 1 ≤ mid → mid ≤ 16 → FreePage r.world mid a →
      Disjoint f.block (page a)) ∧
    (∀ m n a b, 1 ≤ m → m ≤ 16 → 1 ≤ n → n ≤ 16 → FreePage r.world m a → FreePage r.world n b →
      (m, a) ≠ (n, b) → Disjoint (page a) (page b)) ∧
    (∀ p i f, Holds r.world p i f → ∃ mid g, 1 ≤ mid ∧ mid ≤ 16 ∧ f.aff = 12 + mid ∧ region mid = some g ∧
      Inside f.block g.block) := by
  have hi := h.inv.1
  refine ⟨?_, ?_, ?_, ?_⟩
  · intro p i f q j g hf hg hne
    obtain ⟨f1, f2, _⟩ := hi.held p i f hf
    obtain ⟨g1, g2, _⟩ := hi.held q j g hg
    refine (pages_disjoint f2 g2 fun e => hne ?_).mono (frame_in_page f1) (frame_in_page g1)
    obtain ⟨rfl, rfl⟩ := hi.uniq p i f q j g hf hg e
    rfl
  · intro p i f mid a hf m0 m16 ha
    obtain ⟨f1, f2, _⟩ := hi.held p i f hf
    exact (pages_disjoint f2 (hi.free mid a m0 m16 ha).1 (hi.excl mid a p i f m0 m16 ha hf)).mono
      (frame_in_page f1) (fun _ hx => hx)
  · intro m n a b m0 m16 n0 n16 ha hb hne
    refine pages_disjoint (hi.free m a m0 m16 ha).1 (hi.free n b n0 n16 hb).1 fun e => hne ?_
    subst e
    rw [hi.cross m n a m0 m16 n0 n16 ha hb]
  · intro p i f hf
    obtain ⟨f1, _, _, mid, g, m0, m16, f4, f5, f6⟩ := hi.held p i f hf
    exact ⟨mid, g, m0, m16, f4, f5, fun x hx => f6 x (frame_in_page f1 x hx)⟩

/-- **C65.** After any history an allocation on a machine the manager may choose: the new frame starts at a
page that was free on that machine and is free nowhere afterwards; it has the requested size and the machine's
affinity; identifier and address are returned; the frames of everybody are otherwise as before. -/
theorem c65_allocate_ok {region : Nat → Option Frame} {r : Cluster Resources} (h : PageHist region r)
    (k : Nat) (o : Oracle) (l : Link) (l1 : l.slot1.length = ENTRY) (l2 : l.slot2.length = ENTRY)
    (pid size aff : Nat) (hp : pid < 2 ^ 64) (hs : size < 2 ^ 64) (ha : aff < 2 ^ 64) (x y : UInt64)
    (c : Ctrl Resources)
    (e : allocatePhysical ⟨r.srv k, r.world⟩ o l pid size aff = (.ok (x, y), c)) :
    FreePage r.world o.mid y.toNat ∧ (∀ mid, 1 ≤ mid → mid ≤ 16 → ¬ FreePage c.world mid y.toNat) ∧
    (∀ p i f, Holds c.world p i f ↔
      if p = pid ∧ i = x.toNat then f = ⟨y.toNat, size, 12 + o.mid⟩ else Holds r.world p i f) ∧
    (∀ f, ¬ Holds r.world pid x.toNat f) := by
  obtain ⟨hi, hsrv⟩ := h.inv
  obtain ⟨srv, s1, c1, c2, c3⟩ := c65_allocate ⟨r.srv k, r.world⟩ o l ⟨l1, l2, hsrv k⟩ pid size aff hp hs ha
  by_cases hbad : o.mid = 0 ∨ 16 < o.mid
  · rw [c1 hbad] at e; cases e
  have m0 : 1 ≤ o.mid := by omega
  have m16 : o.mid ≤ 16 := by omega
  cases hlp : (r.world.ext.mgr (o.mid - 1)).lp with
  | nil => rw [c2 m0 m16 hlp] at e; cases e
  | cons a as =>
    have hfa : FreePage r.world o.mid a := by unfold FreePage; rw [hlp]; exact List.mem_cons_self
    have hfr := hi.free o.mid a m0 m16 hfa
    obtain ⟨d1, d2, d3⟩ := c3 m0 m16 a as hlp (hi.node o.mid m0 m16) hfr.1 hfr.2.1
    obtain ⟨_, p2⟩ := hi.pop m0 m16 hlp
    by_cases hsz : size % 4096 = 0
    · rcases add_exact (r.world.ext.frames pid) ⟨a, size, 12 + o.mid⟩ with ⟨fid, hl, _⟩ | ⟨hall, _⟩
      · rw [d3 hsz fid hl] at e
        cases e
        obtain ⟨n, hn⟩ := hl.1
        have hlen := (List.getElem?_eq_some_iff.1 hn).1
        have ey : (UInt64.ofNat a).toNat = a := UInt64.toNat_ofNat_of_lt' (by simp only [UInt64.size]; omega)
        have ex : (UInt64.ofNat fid).toNat = fid := by
          have := hi.len pid
          exact UInt64.toNat_ofNat_of_lt' (by simp only [UInt64.size]; omega)
        rw [ex, ey]
        refine ⟨hfa, p2.1, fun p i f => ?_, ?_⟩
        · show Holds (withTable (withPages r.world (o.mid - 1) as) pid _) p i f ↔ _
          rw [show Holds (withTable (withPages r.world (o.mid - 1) as) pid
              ((r.world.ext.frames pid).set fid (some ⟨a, size, 12 + o.mid⟩, 0))) p i f ↔ _ from
              holds_withTable (withPages r.world (o.mid - 1) as) pid fid _ p i f hlen]
          by_cases hc : p = pid ∧ i = fid
          · rw [if_pos hc, if_pos hc]
            simp [eq_comm]
          · rw [if_neg hc, if_neg hc]
            rfl
        · intro f ⟨m, hm⟩
          rw [hn] at hm
          cases hm
      · rw [d2 hsz hall] at e; cases e
    · rw [d1 hsz] at e; cases e

/-- **C65.** After any history a frame that is not mapped can be given back, whatever its size up to 2 MiB: the
page is then free on the machine it came from, the identifier is free, everything else is as before.  If the
resource manager refuses, the caller is told so, although the page has been given back. -/
theorem c65_release_ok {region : Nat → Option Frame} {r : Cluster Resources} (h : PageHist region r)
    (k : Nat) (o : Oracle) (l : Link) (l1 : l.slot1.length = ENTRY) (l2 : l.slot2.length = ENTRY)
    (pid fid : Nat) (hp : pid < 2 ^ 64) (f : Frame) (hf : (r.world.ext.frames pid)[fid]? = some (some f, 0)) :
    ∃ c, releasePhysical ⟨r.srv k, r.world⟩ o l pid fid =
        (if o.accepts then .ok (0, 0) else .err .dcmError, c) ∧
      (∃ mid, 1 ≤ mid ∧ mid ≤ 16 ∧ f.aff = 12 + mid ∧ ∀ m a, 1 ≤ m → m ≤ 16 →
        (FreePage c.world m a ↔ FreePage r.world m a ∨ (m = mid ∧ a = f.base))) ∧
      ∀ p i g, Holds c.world p i g ↔ Holds r.world p i g ∧ (p, i) ≠ (pid, fid) := by
  obtain ⟨hi, hsrv⟩ := h.inv
  obtain ⟨_, _, c3⟩ := c65_release ⟨r.srv k, r.world⟩ o l ⟨l1, l2, hsrv k⟩ pid fid hp
  obtain ⟨g1, g2, g3, mid, g, m0, m16, g4, g5, g6⟩ := hi.held pid fid f ⟨0, hf⟩
  obtain ⟨srv, s1, d1, _⟩ := c3 f mid hf g3 (by omega) g4 m0 m16 g2 (hi.node mid m0 m16)
  have hlen := (List.getElem?_eq_some_iff.1 hf).1
  obtain ⟨out, o1, o2⟩ := h.room mid m0 m16
  have hpos := List.length_pos_of_mem (o2 pid fid f ⟨0, hf⟩ g4)
  refine ⟨_, d1 (show (r.world.ext.mgr (mid - 1)).lp.length < (r.world.ext.mgr (mid - 1)).capL by omega), ⟨mid, m0, m16, g4, ?_⟩, ?_⟩
  · intro m a hm0 hm16
    show FreePage (withPages (withTable r.world pid _) (mid - 1) (f.base :: (r.world.ext.mgr (mid - 1)).lp)) m a ↔ _
    rw [free_withPages]
    by_cases hc : m - 1 = mid - 1
    · have : m = mid := by omega
      subst this
      rw [if_pos hc, List.mem_cons, or_comm]
      simp [FreePage]
    · rw [if_neg hc]
      have : m ≠ mid := by omega
      simp [this, FreePage, withTable]
  · intro p i x
    show Holds (withTable r.world pid _) p i x ↔ _
    rw [show Holds (withTable r.world pid ((r.world.ext.frames pid).set fid (none, 0))) p i x ↔ _ from
      holds_withTable r.world pid fid _ p i x hlen]
    by_cases hc : p = pid ∧ i = fid
    · rw [if_pos hc]
      simp [hc.1, hc.2]
    · rw [if_neg hc]
      simp only [ne_eq, Prod.mk.injEq, hc, not_false_eq_true, and_true]

/-- **C65, a defect.** When the process's table is full the call fails, and the page it was given is lost:
nobody has it afterwards and it is free nowhere. -/
theorem c65_refused_page_lost {region : Nat → Option Frame} {r : Cluster Resources} (h : PageHist region r)
    (k : Nat) (o : Oracle) (l : Link) (l1 : l.slot1.length = ENTRY) (l2 : l.slot2.length = ENTRY)
    (pid size aff : Nat) (hp : pid < 2 ^ 64) (hs : size < 2 ^ 64) (ha : aff < 2 ^ 64) (hsz : size % 4096 = 0)
    (m0 : 1 ≤ o.mid) (m16 : o.mid ≤ 16) (a : Nat) (as : List Nat)
    (hlp : (r.world.ext.mgr (o.mid - 1)).lp = a :: as) (hall : AllUsed (r.world.ext.frames pid)) :
    ∃ c, allocatePhysical ⟨r.srv k, r.world⟩ o l pid size aff = (.err .tooManyRegisteredFrames, c) ∧
      FreePage r.world o.mid a ∧ (∀ mid, 1 ≤ mid → mid ≤ 16 → ¬ FreePage c.world mid a) ∧
      ∀ p i f, Holds c.world p i f → f.base ≠ a := by
  obtain ⟨hi, hsrv⟩ := h.inv
  obtain ⟨srv, s1, _, _, c3⟩ := c65_allocate ⟨r.srv k, r.world⟩ o l ⟨l1, l2, hsrv k⟩ pid size aff hp hs ha
  have hfa : FreePage r.world o.mid a := by unfold FreePage; rw [hlp]; exact List.mem_cons_self
  have hfr := hi.free o.mid a m0 m16 hfa
  obtain ⟨_, d2, _⟩ := c3 m0 m16 a as hlp (hi.node o.mid m0 m16) hfr.1 hfr.2.1
  obtain ⟨_, p2⟩ := hi.pop m0 m16 hlp
  exact ⟨_, d2 hsz hall, hfa, p2.1, p2.2⟩

/-! ## Concrete cases -/

/-- Shared memory of 4 MiB at 4 MiB on machine 1. -/
def demoRegion : Nat → Option Frame := fun m => if m = 1 then some ⟨4194304, 4194304, 13⟩ else none

/-- Its free pages. -/
def demoMgr (m : Nat) : MCache :=
  if m = 0 then ⟨0, 65536, 13, [], [6291456, 4194304]⟩ else MCache.new 0 65536 (13 + m)

unseal NRK.Mem.BASE NRK.Mem.LARGE in
theorem demo_pages : registeredPages 1 ⟨4194304, 4194304, 13⟩ = .ok (demoMgr 0) := by decide +kernel

/-- A rack on which machine 1 has registered and nothing has been asked for. -/
def pageRack (w : World Resources) : Cluster Resources :=
  ⟨fun _ => Rpc.Server.new,
    { w with ext := { w.ext with mgr := demoMgr, frames := fun _ => Frames.new } }⟩

theorem pageRack_boot (w : World Resources) : ∀ mid, 1 ≤ mid → mid ≤ 16 →
    BootPages mid ((pageRack w).world.ext.mgr (mid - 1)) (demoRegion mid) := by
  intro mid m0 m16
  by_cases h : mid = 1
  · subst h
    show BootPages 1 (demoMgr 0) (some ⟨4194304, 4194304, 13⟩)
    refine ⟨?_, by decide, demo_pages⟩
    unfold Frame.Ok
    rw [NRK.Mem.BASE_eq]
    decide
  · have e1 : demoRegion mid = none := by unfold demoRegion; rw [if_neg h]
    have e2 : demoMgr (mid - 1) = MCache.new 0 65536 (12 + mid) := by
      unfold demoMgr
      rw [if_neg (by omega), show 13 + (mid - 1) = 12 + mid by omega]
    show BootPages mid (demoMgr (mid - 1)) (demoRegion mid)
    rw [e1, e2]
    rfl

theorem demoRegion_disjoint : ∀ m n f g, demoRegion m = some f → demoRegion n = some g → m ≠ n →
    Disjoint f.block g.block := by
  intro m n f g hm hn hne
  unfold demoRegion at hm hn
  split at hm
  · split at hn
    · omega
    · cases hn
  · cases hm

theorem pageRack_hist (w : World Resources) : PageHist demoRegion (pageRack w) :=
  .boot (pageRack_boot w) demoRegion_disjoint (fun _ => rfl) (fun _ => List.length_replicate)

theorem demo_lowest : LowestFree Frames.new 0 := ⟨⟨0, rfl⟩, fun i hi => by omega⟩

/-- The hypotheses are met: a process asks for one page of 4096 bytes and gets the upper page. -/
theorem c65_sample (w : World Resources) (o : Oracle) (l : Link) (ho : o.mid = 1)
    (l1 : l.slot1.length = ENTRY) (l2 : l.slot2.length = ENTRY) :
    ∃ c, allocatePhysical ⟨(pageRack w).srv 0, (pageRack w).world⟩ o l 7 4096 0 = (.ok (0, 6291456), c) ∧
      Holds c.world 7 0 ⟨6291456, 4096, 13⟩ ∧ PageHist demoRegion ⟨upd (pageRack w).srv 0 c.srv, c.world⟩ := by
  obtain ⟨srv, s1, _, _, c3⟩ := c65_allocate ⟨(pageRack w).srv 0, (pageRack w).world⟩ o l
    ⟨l1, l2, List.length_replicate⟩ 7 4096 0 (by decide) (by decide) (by decide)
  obtain ⟨_, _, d3⟩ := c3 (by omega) (by omega) 6291456 [4194304] (by rw [ho]; rfl) (by rw [ho]; rfl)
    (by rw [LARGE_eq]) (by decide)
  have e := d3 (by decide) 0 demo_lowest
  refine ⟨_, e, ⟨0, ?_⟩, .alloc (pageRack_hist w) l1 l2 (by decide) (by decide) (by decide) e⟩
  rw [ho]
  rfl

/-- **C65, a defect.** Nobody checks the size: two processes that ask for 4 MiB each are both given frames of
that size, and the frames overlap; the first reaches beyond the shared memory of the machine. -/
theorem c65_large_request_overlaps (w : World Resources) (o : Oracle) (l : Link) (ho : o.mid = 1)
    (l1 : l.slot1.length = ENTRY) (l2 : l.slot2.length = ENTRY) :
    ∃ c c' : Ctrl Resources,
      allocatePhysical ⟨(pageRack w).srv 0, (pageRack w).world⟩ o l 7 4194304 0 = (.ok (0, 6291456), c) ∧
      allocatePhysical c o l 8 4194304 0 = (.ok (0, 4194304), c') ∧
      Holds c'.world 7 0 ⟨6291456, 4194304, 13⟩ ∧ Holds c'.world 8 0 ⟨4194304, 4194304, 13⟩ ∧
      ¬ Disjoint (Frame.block ⟨6291456, 4194304, 13⟩) (Frame.block ⟨4194304, 4194304, 13⟩) ∧
      ¬ Inside (Frame.block ⟨6291456, 4194304, 13⟩) (Frame.block ⟨4194304, 4194304, 13⟩) := by
  obtain ⟨srv, s1, _, _, c3⟩ := c65_allocate ⟨(pageRack w).srv 0, (pageRack w).world⟩ o l
    ⟨l1, l2, List.length_replicate⟩ 7 4194304 0 (by decide) (by decide) (by decide)
  obtain ⟨_, _, d3⟩ := c3 (by omega) (by omega) 6291456 [4194304] (by rw [ho]; rfl) (by rw [ho]; rfl)
    (by rw [LARGE_eq]) (by decide)
  have e := d3 (by decide) 0 demo_lowest
  obtain ⟨srv', s1', _, _, c3'⟩ := c65_allocate
    ⟨srv, withTable (withPages (pageRack w).world (o.mid - 1) [4194304]) 7
      (((pageRack w).world.ext.frames 7).set 0 (some ⟨6291456, 4194304, 12 + o.mid⟩, 0))⟩ o l
    ⟨l1, l2, s1⟩ 8 4194304 0 (by decide) (by decide) (by decide)
  obtain ⟨_, _, d3'⟩ := c3' (by omega) (by omega) 4194304 [] (by rw [ho]; rfl) (by rw [ho]; rfl)
    (by rw [LARGE_eq]) (by decide)
  have e' := d3' (by decide) 0 demo_lowest
  refine ⟨_, _, e, e', ⟨0, by rw [ho]; rfl⟩, ⟨0, by rw [ho]; rfl⟩, ?_, ?_⟩
  · intro h
    exact h 6291456 ⟨⟨by decide, by decide⟩, ⟨by decide, by decide⟩⟩
  · intro h
    have := h 8388608 ⟨by decide, by decide⟩
    exact absurd this.2 (by decide)

/-- **C65, a defect.** A size that is not a whole number of 4 KiB pages crashes the client's kernel. -/
theorem c65_odd_size_crashes (w : World Resources) (o : Oracle) (l : Link) (ho : o.mid = 1)
    (l1 : l.slot1.length = ENTRY) (l2 : l.slot2.length = ENTRY) :
    (allocatePhysical ⟨(pageRack w).srv 0, (pageRack w).world⟩ o l 7 100 0).1 = .panic := by
  obtain ⟨srv, s1, _, _, c3⟩ := c65_allocate ⟨(pageRack w).srv 0, (pageRack w).world⟩ o l
    ⟨l1, l2, List.length_replicate⟩ 7 100 0 (by decide) (by decide) (by decide)
  obtain ⟨d1, _, _⟩ := c3 (by omega) (by omega) 6291456 [4194304] (by rw [ho]; rfl) (by rw [ho]; rfl)
    (by rw [LARGE_eq]) (by decide)
  rw [d1 (by decide)]

end NRK.Rack.Remote
