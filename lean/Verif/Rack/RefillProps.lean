import Verif.Rack.RefillStore

/-!
# C67: a kernel refills its shared memory
-/

namespace NRK.Rack.Remote

open Rpc (ENTRY ENTRY_eq)
open NRK.Mem (Frame MCache LARGE BASE LARGE_eq BASE_eq CoreMem Topo Arena validNode)

/-- **C67.** A client's kernel that asks for `n` pages: they are the topmost free pages of its own machine, in
order; if the scheduler refuses, the kernel gets an error and nothing changes. -/
theorem c67_kernel_request {region : Nat → Option Frame} {r : Cluster Resources} (hist : PageHist region r) (k : Nat)
    (o : Oracle) (l : Link) (l1 : l.slot1.length = ENTRY) (l2 : l.slot2.length = ENTRY) (me n : Nat)
    (m1 : 1 ≤ me) (m16 : me ≤ 16) (h0 : 0 < n) (hn : n ≤ 508) :
    (o.accepts = false → ∃ srv, getShmemFrames ⟨r.srv k, r.world⟩ o l me none n =
      (.err .dcmNotEnoughMemory, ⟨srv, r.world⟩)) ∧
    (o.accepts = true → n ≤ (r.world.ext.mgr (me - 1)).lp.length → ∃ srv fs w',
      getShmemFrames ⟨r.srv k, r.world⟩ o l me none n = (.ok fs, ⟨srv, w'⟩) ∧
      Given r.world (List.replicate n me) fs w') ∧
    (o.accepts = true → (r.world.ext.mgr (me - 1)).lp.length < n →
      (getShmemFrames ⟨r.srv k, r.world⟩ o l me none n).1 = .panic) := by
  obtain ⟨hi, hsrv⟩ := hist.inv
  obtain ⟨g1, g2, g3⟩ := requestPages_eq (c := ⟨r.srv k, r.world⟩) hi ⟨false, me, 0⟩ o l ⟨l1, l2, hsrv k⟩ me n m1 m16 hn
    (fun _ => h0)
  refine ⟨fun h => ?_, fun h h' => ?_, fun h h' => g3 h h'⟩
  · obtain ⟨srv, _, e⟩ := g1 h; exact ⟨srv, e⟩
  · obtain ⟨srv, fs, w', _, e, g⟩ := g2 h h'; exact ⟨srv, fs, w', e, g⟩

/-- **C67, a defect.** A request for more than 508 pages, or for no page, crashes the client's kernel. -/
theorem c67_request_crashes {region : Nat → Option Frame} {r : Cluster Resources} (hist : PageHist region r) (k : Nat)
    (o : Oracle) (l : Link) (l1 : l.slot1.length = ENTRY) (l2 : l.slot2.length = ENTRY) (me n : Nat)
    (m1 : 1 ≤ me) (m16 : me ≤ 16) (hn : n < 2 ^ 64) (ha : o.accepts = true) (hbad : n = 0 ∨ 508 < n) :
    (getShmemFrames ⟨r.srv k, r.world⟩ o l me none n).1 = .panic := by
  by_cases h0 : n = 0
  · unfold getShmemFrames; rw [if_pos h0]
  · obtain ⟨hi, hsrv⟩ := hist.inv
    obtain ⟨t1, t2⟩ := takeSame (region := region) me m1 m16 n r.world hi
    have hg : grants o me none n r.world = takePages (List.replicate n me) r.world := by
      unfold grants affinityAlloc; simp only; rw [if_neg (by omega), if_neg (by simp [ha])]
    obtain ⟨g1, _, g3⟩ := getFrames_eq ⟨r.srv k, r.world⟩ o l ⟨l1, l2, hsrv k⟩ me none n (by omega) (fun _ h => by cases h)
      (by omega) hn
    by_cases hl : n ≤ (r.world.ext.mgr (me - 1)).lp.length
    · obtain ⟨fs, w', e, g⟩ := t1 hl
      rw [hg, e] at g3
      obtain ⟨srv, _, q⟩ := g3 fs rfl (by rw [g.length, List.length_replicate]) fun f hf => ((g.facts hi).1 f hf).1
      rw [q, if_neg (by omega)]
    · rw [hg] at g1
      obtain ⟨srv, _, e⟩ := g1 (t2 (by omega))
      rw [e]

/-- The state after a refill can be refilled again. -/
theorem Refilled.ready {t : Topo} {h : Host} {mid nB nL : Nat} {fs : List Frame} {s s' : KernelMem}
    (hs : Ready t h mid s) (hr : Refilled h mid nB nL fs s s') : Ready t h mid s' := by
  refine ⟨hr.core, hr.aff, by rw [hr.caps.1]; exact hs.node, hr.wf, by rw [hr.caps.2.1]; exact hs.capB,
    by rw [hr.caps.2.2]; exact hs.capL, ⟨hr.cacheWf, ?_, ?_⟩, hs.pos, ?_, ?_, hs.small, hs.self⟩
  · rw [hr.cacheSame]; exact hs.cache.2.1
  · rw [hr.cacheSame]; exact hs.cache.2.2
  · rw [hr.length]; exact hs.validLocal
  · rw [hr.length]; exact hs.validShared

/-- **C67, what holds.** A core of a client whose current arena is the shared memory of its own machine, or a
core of the controller that uses the shared memory of another machine, asks for `needB` base pages and `needL` large
pages.  The numbers are cut down to the room in the core's cache.  If enough base pages are in the machine's
cache and no large page is wanted, the pages come from there.  Otherwise the scheduler decides: if it accepts and
the machine has the pages, the core gets what it asked for, from the topmost free pages of that machine; the pages
are neither lost nor in two places; the arenas of other nodes and the other caches are left alone; and the core
is where it was before.  Missing: what happens if the scheduler refuses (`c67_refused`). -/
theorem c67_refill_partial {region : Nat → Option Frame} {r : Cluster Resources} (hist : PageHist region r) (k : Nat)
    {t : Topo} {h : Host} {mid : Nat} {s : KernelMem} (hs : Ready t h mid s) (hc : s.ctrl = ⟨r.srv k, r.world⟩)
    (hown : h.controller = false → mid = h.me) (o : Oracle) (l : Link) (l1 : l.slot1.length = ENTRY)
    (l2 : l.slot2.length = ENTRY) (needB needL : Nat) :
    (askFor s.core.cur.cache (s.cache mid) needB needL = 0 → 0 < baseWanted s.core.cur.cache needB →
      ∃ s', refillShared h t o l needB needL s = (.ok (), s') ∧ s'.ctrl = s.ctrl ∧
        Refilled h mid (baseWanted s.core.cur.cache needB) 0 [] s s') ∧
    (0 < askFor s.core.cur.cache (s.cache mid) needB needL → o.accepts = true →
      askFor s.core.cur.cache (s.cache mid) needB needL ≤ (r.world.ext.mgr (mid - 1)).lp.length →
      ∃ srv fs w' s', refillShared h t o l needB needL s = (.ok (), s') ∧ s'.ctrl = ⟨srv, w'⟩ ∧
        Given r.world (List.replicate (askFor s.core.cur.cache (s.cache mid) needB needL) mid) fs w' ∧
        Refilled h mid (baseWanted s.core.cur.cache needB) (largeWanted s.core.cur.cache needL) fs s s') ∧
    (0 < askFor s.core.cur.cache (s.cache mid) needB needL → o.accepts = true →
      (r.world.ext.mgr (mid - 1)).lp.length < askFor s.core.cur.cache (s.cache mid) needB needL →
      (refillShared h t o l needB needL s).1 = .panic) := by
  obtain ⟨hi, hsrv⟩ := hist.inv
  have hsrc : h.source mid = mid := by
    unfold Host.source
    cases hh : h.controller with
    | true => rfl
    | false => exact (hown hh).symm
  have hmv := movedTo_refilled hs (min (s.cache mid).bp.length (baseWanted s.core.cur.cache needB)) (Nat.min_le_left _ _)
    (by have := hs.wf.capB; unfold baseWanted; omega)
  have hask : askFor s.core.cur.cache (s.cache mid) needB needL ≤ 508 := by
    have := hs.capL
    unfold askFor largeWanted
    split <;> omega
  have hsm := hs.small
  have hpos := hs.pos
  rw [refill_eq hs]
  obtain ⟨core1, core2, e1, e2, p1, p2, p3, p4, p5, p6, p7, p8⟩ :=
    hs.switch (min (s.cache mid).bp.length (baseWanted s.core.cur.cache needB))
  have hreq := fun h0 => requestPages_eq (c := ⟨r.srv k, r.world⟩) hi h o l ⟨l1, l2, hsrv k⟩ mid
    (askFor s.core.cur.cache (s.cache mid) needB needL) (by rw [hsrc]; exact hpos) (by rw [hsrc]; omega) hask h0
  refine ⟨fun h0 hb => ?_, fun h0 ha hl => ?_, fun h0 ha hl => ?_⟩
  · rw [if_pos ⟨h0, hb⟩]
    refine ⟨_, rfl, rfl, ?_⟩
    have hle : baseWanted s.core.cur.cache needB ≤ (s.cache mid).bp.length := by
      unfold askFor at h0
      split at h0
      · assumption
      · omega
    rw [Nat.min_eq_right hle] at hmv ⊢
    exact hmv
  · rw [if_neg (by omega)]
    obtain ⟨srv, fs, w', _, q1, q2⟩ := (hreq (fun _ => h0)).2.1 ha (by rw [hsrc]; exact hl)
    rw [hsrc] at q2
    obtain ⟨s', q3, q4, q5⟩ := store_refilled hs fs needB needL
      (fun f hf => q2.pagesOf hi f (List.mem_of_mem_take hf)) (q2.pagesOf hi).shared ⟨srv, w'⟩ core2
      (by rw [q2.length, List.length_replicate]) p3 p5 (fun n a b => (p6 n a b).2) (fun a ha => (p7 a ha).2) p8
    refine ⟨srv, fs, w', s', ?_, q4, q2, q5⟩
    unfold fetchPages
    rw [e1]
    simp only
    rw [show (movedTo s mid (min (s.cache mid).bp.length (baseWanted s.core.cur.cache needB))).ctrl = ⟨r.srv k, r.world⟩
      from hc, q1]
    simp only
    rw [e2]
    exact q3
  · rw [if_neg (by omega)]
    have q1 := (hreq (fun _ => h0)).2.2 ha (by rw [hsrc]; exact hl)
    unfold fetchPages
    rw [e1]
    simp only
    rw [show (movedTo s mid (min (s.cache mid).bp.length (baseWanted s.core.cur.cache needB))).ctrl = ⟨r.srv k, r.world⟩
      from hc]
    generalize requestPages h o l mid _ _ = q at q1
    obtain ⟨x, y⟩ := q
    simp only at q1
    subst q1
    rfl

/-- **C67, a defect.** If the scheduler refuses, the caller gets an error, and from then on the core allocates
from the memory of the local node: the arena of shared memory, with the base pages taken so far, is put aside. -/
theorem c67_refused {region : Nat → Option Frame} {r : Cluster Resources} (hist : PageHist region r) (k : Nat)
    {t : Topo} {h : Host} {mid : Nat} {s : KernelMem} (hs : Ready t h mid s) (hc : s.ctrl = ⟨r.srv k, r.world⟩)
    (hown : h.controller = false → mid = h.me) (o : Oracle) (l : Link) (l1 : l.slot1.length = ENTRY)
    (l2 : l.slot2.length = ENTRY) (needB needL : Nat) (h0 : 0 < askFor s.core.cur.cache (s.cache mid) needB needL)
    (ha : o.accepts = false) :
    ∃ s' a, refillShared h t o l needB needL s = (.err .dcmNotEnoughMemory, s') ∧ s'.ctrl.world = r.world ∧
      s'.core.cur.aff = h.node ∧ h.node ≠ s.core.cur.aff ∧ s'.core.arenaOf (12 + mid) = some a ∧
      a.cache.lp = s.core.cur.cache.lp ∧
      (a.cache.bp ++ (s'.cache mid).bp).Perm (s.core.cur.cache.bp ++ (s.cache mid).bp) := by
  obtain ⟨hi, hsrv⟩ := hist.inv
  have hsrc : h.source mid = mid := by
    unfold Host.source
    cases hh : h.controller with
    | true => rfl
    | false => exact (hown hh).symm
  have hmv := movedTo_refilled hs (min (s.cache mid).bp.length (baseWanted s.core.cur.cache needB)) (Nat.min_le_left _ _)
    (by have := hs.wf.capB; unfold baseWanted; omega)
  have hask : askFor s.core.cur.cache (s.cache mid) needB needL ≤ 508 := by
    have := hs.capL
    unfold askFor largeWanted
    split <;> omega
  have hsm := hs.small
  have hpos := hs.pos
  rw [refill_eq hs]
  obtain ⟨core1, core2, e1, e2, p1, p2, p3, p4, p5, p6, p7, p8⟩ :=
    hs.switch (min (s.cache mid).bp.length (baseWanted s.core.cur.cache needB))
  obtain ⟨srv, _, q1⟩ := (requestPages_eq (c := ⟨r.srv k, r.world⟩) hi h o l ⟨l1, l2, hsrv k⟩ mid
    (askFor s.core.cur.cache (s.cache mid) needB needL) (by rw [hsrc]; exact hpos) (by rw [hsrc]; omega) hask
    (fun _ => h0)).1 ha
  rw [if_neg (by omega)]
  refine ⟨{ movedTo s mid (min (s.cache mid).bp.length (baseWanted s.core.cur.cache needB)) with
      ctrl := ⟨srv, r.world⟩, core := core1 }, _, ?_, rfl, p1, ?_, p2, rfl, ?_⟩
  · unfold fetchPages
    rw [e1]
    simp only
    rw [show (movedTo s mid (min (s.cache mid).bp.length (baseWanted s.core.cur.cache needB))).ctrl = ⟨r.srv k, r.world⟩
      from hc, q1]
  · have := hs.validLocal.1; rw [hs.aff]; omega
  · have := hmv.same
    rw [show smallPages 0 [] = [] from rfl, List.append_nil] at this
    exact this

/-- **C67, a defect.** A refill of a client's core whose cache has no room, or of no pages, crashes the kernel. -/
theorem c67_nothing_crashes {t : Topo} {h : Host} {mid : Nat} {s : KernelMem} (hs : Ready t h mid s)
    (hcl : h.controller = false) (o : Oracle) (l : Link) (needB needL : Nat)
    (hB : s.core.cur.cache.bp.length = 381 ∨ needB = 0) (hL : s.core.cur.cache.lp.length = 128 ∨ needL = 0) :
    (refillShared h t o l needB needL s).1 = .panic := by
  have b0 : baseWanted s.core.cur.cache needB = 0 := by
    have := hs.capB; unfold baseWanted; omega
  have l0 : largeWanted s.core.cur.cache needL = 0 := by
    have := hs.capL; unfold largeWanted; omega
  have a0 : askFor s.core.cur.cache (s.cache mid) needB needL = 0 := by
    unfold askFor; rw [b0, l0, if_pos (Nat.zero_le _)]
  rw [refill_eq hs, if_neg (by omega), a0]
  obtain ⟨core1, core2, e1, _⟩ := hs.switch (min (s.cache mid).bp.length (baseWanted s.core.cur.cache needB))
  unfold fetchPages
  rw [e1]
  have : ∀ c, requestPages h o l mid 0 c = (.panic, c) := fun c => by
    unfold requestPages getShmemFrames
    simp [hcl]
  simp only [this]

/-- **C67, a defect.** A client whose core uses the shared memory of another machine is given pages of its own
machine; if a large page is wanted, it crashes. -/
theorem c67_other_machine_crashes {region : Nat → Option Frame} {r : Cluster Resources} (hist : PageHist region r)
    (k : Nat) {t : Topo} {h : Host} {mid : Nat} {s : KernelMem} (hs : Ready t h mid s)
    (hc : s.ctrl = ⟨r.srv k, r.world⟩) (hcl : h.controller = false) (hother : mid ≠ h.me) (m1 : 1 ≤ h.me)
    (m16 : h.me ≤ 16) (o : Oracle) (l : Link) (l1 : l.slot1.length = ENTRY)
    (l2 : l.slot2.length = ENTRY) (needB needL : Nat) (ha : o.accepts = true)
    (h0 : 0 < largeWanted s.core.cur.cache needL) :
    (refillShared h t o l needB needL s).1 = .panic := by
  obtain ⟨hi, hsrv⟩ := hist.inv
  have hsrc : h.source mid = h.me := by unfold Host.source; rw [hcl]; rfl
  have hask : askFor s.core.cur.cache (s.cache mid) needB needL ≤ 508 := by
    have := hs.capL
    unfold askFor largeWanted
    split <;> omega
  have hask0 : largeWanted s.core.cur.cache needL ≤ askFor s.core.cur.cache (s.cache mid) needB needL := by
    unfold askFor; omega
  rw [refill_eq hs, if_neg (by omega)]
  obtain ⟨core1, core2, e1, e2, p1, p2, p3, p4, p5, p6, p7, p8⟩ :=
    hs.switch (min (s.cache mid).bp.length (baseWanted s.core.cur.cache needB))
  obtain ⟨_, r2, r3⟩ := requestPages_eq (c := ⟨r.srv k, r.world⟩) hi h o l ⟨l1, l2, hsrv k⟩ mid
    (askFor s.core.cur.cache (s.cache mid) needB needL) (by rw [hsrc]; exact m1) (by rw [hsrc]; omega) hask
    (fun _ => by omega)
  rw [hsrc] at r2 r3
  unfold fetchPages
  rw [e1]
  simp only
  rw [show (movedTo s mid (min (s.cache mid).bp.length (baseWanted s.core.cur.cache needB))).ctrl = ⟨r.srv k, r.world⟩
    from hc]
  by_cases hl : askFor s.core.cur.cache (s.cache mid) needB needL ≤ (r.world.ext.mgr (h.me - 1)).lp.length
  · obtain ⟨srv, fs, w', _, q1, q2⟩ := r2 ha hl
    rw [q1]
    simp only
    rw [e2]
    simp only
    have hlen : fs.length = askFor s.core.cur.cache (s.cache mid) needB needL := by
      rw [q2.length, List.length_replicate]
    have hpg := q2.pagesOf hi
    cases fs with
    | nil => simp at hlen; omega
    | cons f fs =>
      have hf := hpg f (by simp)
      unfold storePages
      rw [if_neg (by omega)]
      obtain ⟨n, hn⟩ : ∃ n, largeWanted s.core.cur.cache needL = n + 1 := ⟨_, (Nat.sub_add_cancel h0).symm⟩
      rw [hn, List.take_succ_cons]
      have hgl : core2.cur.cache.growLarge (f :: fs.take n) = (.panic, core2.cur.cache) := by
        unfold MCache.growLarge
        rw [if_neg]
        rintro ⟨_, _, h3⟩
        have hnode : core2.cur.cache.node = 12 + mid := by rw [p3]; exact hs.node
        rw [hnode, hf.2.2] at h3
        omega
      simp only [hgl]
  · have q1 := r3 ha (Nat.lt_of_not_le hl)
    generalize requestPages h o l mid _ _ = q at q1
    obtain ⟨x, y⟩ := q
    simp only at q1
    subst q1
    rfl

/-- **C67, a defect.** The same client, when base pages are missing and no large page is wanted: pages of its own
machine end up among the pages of the other machine, in the core's cache and in the cache for that machine. -/
theorem c67_other_machine_mixed {region : Nat → Option Frame} {r : Cluster Resources} (hist : PageHist region r)
    (k : Nat) {t : Topo} {h : Host} {mid : Nat} {s : KernelMem} (hs : Ready t h mid s)
    (hc : s.ctrl = ⟨r.srv k, r.world⟩) (hcl : h.controller = false) (m1 : 1 ≤ h.me)
    (m16 : h.me ≤ 16) (o : Oracle) (l : Link) (l1 : l.slot1.length = ENTRY)
    (l2 : l.slot2.length = ENTRY) (needB : Nat) (ha : o.accepts = true)
    (h0 : (s.cache mid).bp.length < baseWanted s.core.cur.cache needB) (a : Nat) (as : List Nat)
    (hfree : (r.world.ext.mgr (h.me - 1)).lp = a :: as) :
    ∃ s', refillShared h t o l needB 0 s = (.ok (), s') ∧ s'.ctrl.world = withPages r.world (h.me - 1) as ∧
      Refilled h mid (baseWanted s.core.cur.cache needB) 0 [⟨a, 2097152, 12 + h.me⟩] s s' := by
  obtain ⟨hi, hsrv⟩ := hist.inv
  have hsrc : h.source mid = h.me := by unfold Host.source; rw [hcl]; rfl
  have hlw : largeWanted s.core.cur.cache 0 = 0 := by unfold largeWanted; omega
  have hask : askFor s.core.cur.cache (s.cache mid) needB 0 = 1 := by
    unfold askFor
    rw [hlw, if_neg (by omega)]
  rw [refill_eq hs, if_neg (by omega)]
  obtain ⟨core1, core2, e1, e2, p1, p2, p3, p4, p5, p6, p7, p8⟩ :=
    hs.switch (min (s.cache mid).bp.length (baseWanted s.core.cur.cache needB))
  obtain ⟨srv, fs, w', _, q1, q2⟩ := (requestPages_eq (c := ⟨r.srv k, r.world⟩) hi h o l ⟨l1, l2, hsrv k⟩ mid
    1 (by rw [hsrc]; exact m1) (by rw [hsrc]; omega) (by omega)
    (fun _ => by omega)).2.1 ha (by rw [hsrc, hfree]; simp)
  rw [hsrc] at q2
  obtain ⟨rfl, rfl⟩ : fs = [⟨a, 2097152, 12 + h.me⟩] ∧ w' = withPages r.world (h.me - 1) as := by
    cases q2 with
    | cons _ _ hlp g =>
      rw [hfree] at hlp
      cases hlp
      cases g
      exact ⟨rfl, rfl⟩
  obtain ⟨s', q3, q4, q5⟩ := store_refilled hs _ needB 0
    (fun f hf => by rw [hlw] at hf; cases hf) (q2.pagesOf hi).shared ⟨srv, _⟩ core2
    (by rw [q2.length, List.length_replicate, hask]) p3 p5 (fun n a b => (p6 n a b).2) (fun a ha => (p7 a ha).2) p8
  rw [hlw] at q5
  refine ⟨s', ?_, by rw [q4], q5⟩
  unfold fetchPages
  rw [e1]
  simp only
  rw [show (movedTo s mid (min (s.cache mid).bp.length (baseWanted s.core.cur.cache needB))).ctrl = ⟨r.srv k, r.world⟩
    from hc, hask, q1]
  simp only
  rw [e2]
  rw [hask] at q3
  exact q3

/-- **C67.** The controller's own shared memory: its cache has base and large pages.  If there are enough of both,
they move to the core; in every other case the controller crashes, even if only base pages are missing and there
are large pages that could be split. -/
theorem c67_controller {t : Topo} {h : Host} {s : KernelMem} (hcl : h.controller = true) (h0 : h.me = 0)
    (aff : s.core.cur.aff = 12) (hn : s.core.cur.cache.node = 12) (hw : s.core.cur.cache.Wf)
    (hcw : (s.cache 0).Wf) (hcn : (s.cache 0).node = 12) (o : Oracle) (l : Link) (needB needL : Nat) :
    (baseWanted s.core.cur.cache needB ≤ (s.cache 0).bp.length →
      largeWanted s.core.cur.cache needL ≤ (s.cache 0).lp.length →
      refillShared h t o l needB needL s = (.ok (), { s.setCache { s.core.cur.cache with
          bp := ((s.cache 0).bp.take (baseWanted s.core.cur.cache needB)).reverse ++ s.core.cur.cache.bp
          lp := ((s.cache 0).lp.take (largeWanted s.core.cur.cache needL)).reverse ++ s.core.cur.cache.lp }
        with cache := upd s.cache 0 { s.cache 0 with
          bp := (s.cache 0).bp.drop (baseWanted s.core.cur.cache needB)
          lp := (s.cache 0).lp.drop (largeWanted s.core.cur.cache needL) } })) ∧
    ((s.cache 0).bp.length < baseWanted s.core.cur.cache needB ∨
      (s.cache 0).lp.length < largeWanted s.core.cur.cache needL →
      (refillShared h t o l needB needL s).1 = .panic) := by
  have hB : s.core.cur.cache.bp.length + baseWanted s.core.cur.cache needB ≤ s.core.cur.cache.capB := by
    have := hw.capB
    unfold baseWanted
    omega
  have hL : s.core.cur.cache.lp.length + largeWanted s.core.cur.cache needL ≤ s.core.cur.cache.capL := by
    have := hw.capL
    unfold largeWanted
    omega
  unfold refillShared
  rw [show min s.core.cur.cache.spareBase needB = baseWanted s.core.cur.cache needB from rfl,
    show min s.core.cur.cache.spareLarge needL = largeWanted s.core.cur.cache needL from rfl, aff]
  generalize baseWanted s.core.cur.cache needB = nB at *
  generalize largeWanted s.core.cur.cache needL = nL at *
  unfold refillShmem
  have hmid : Mem.shmemAffinityToMid 12 = .ok 0 := rfl
  rw [hmid]
  simp only [hcl, h0, decide_true, Bool.and_self, or_true, if_true]
  rw [if_neg (by omega), moveBase_exact _ _ _ hcw (by omega) (by omega) (Nat.min_le_left _ _) (by omega)]
  simp only
  have hfetch : ∀ n m a s', (fetchPages h t o l 12 0 n m a s').1 = .panic := by
    intro n m a s'
    unfold fetchPages
    generalize s'.core.setAffinity t h.node = q
    obtain ⟨x, y⟩ := q
    cases x with
    | ok _ =>
      have : requestPages h o l 0 a s'.ctrl = (.panic, s'.ctrl) := by
        unfold requestPages affinityAlloc
        simp [hcl]
      simp only [this]
    | err e => rfl
    | panic => rfl
  constructor
  · intro b1 b2
    rw [Nat.min_eq_right b1, Nat.sub_self, if_neg (by omega)]
    rw [moveLarge_exact nL { s.cache 0 with bp := (s.cache 0).bp.drop nB } { s.core.cur.cache with
        bp := ((s.cache 0).bp.take nB).reverse ++ s.core.cur.cache.bp } ⟨by simp only [List.length_drop]; have := hcw.capB; omega, hcw.capL,
      fun a ha => hcw.alB a (List.mem_of_mem_drop ha), hcw.alL⟩ (by show (s.cache 0).node = s.core.cur.cache.node; omega)
      b2 hL]
    simp only [if_true]
  · intro hbad
    by_cases hb : (s.cache 0).bp.length < nB
    · generalize Mem.moveLarge _ _ _ = q
      obtain ⟨x, m, tc⟩ := q
      cases x with
      | ok _ =>
        simp only
        rw [if_neg (by omega)]
        exact hfetch _ _ _ _
      | err e => rfl
      | panic => rfl
    · have hl := hbad.resolve_left hb
      rw [Nat.min_eq_right (by omega), Nat.sub_self, if_neg (by omega)]
      have := (Mem.moveLarge_spec nL { s.cache 0 with bp := (s.cache 0).bp.drop nB } { s.core.cur.cache with
          bp := ((s.cache 0).bp.take nB).reverse ++ s.core.cur.cache.bp }
        ⟨by simp only [List.length_drop]; have := hcw.capB; omega, hcw.capL,
          fun a ha => hcw.alB a (List.mem_of_mem_drop ha), hcw.alL⟩
        ⟨by simp only [List.length_append, List.length_reverse, List.length_take]; omega, hw.capL, fun a ha => by
          rcases List.mem_append.1 ha with h | h
          · exact hcw.alB a (List.mem_of_mem_take (List.mem_reverse.1 h))
          · exact hw.alB a h, hw.alL⟩ (by show (s.cache 0).node = s.core.cur.cache.node; omega) (by
          show nL ≤ s.core.cur.cache.capL - s.core.cur.cache.lp.length; omega)).2.2.2.2.2.2.2 hl
      generalize Mem.moveLarge _ _ _ = q at this ⊢
      obtain ⟨x, m, tc⟩ := q
      simp only at this
      subst this
      rfl

end NRK.Rack.Remote
