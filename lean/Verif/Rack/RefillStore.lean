import Verif.Rack.RefillPlan

/-!
# How a kernel refills its shared memory: the result
-/

namespace NRK.Rack.Remote

open Rpc (ENTRY ENTRY_eq)
open NRK.Mem (Frame MCache LARGE BASE LARGE_eq BASE_eq CoreMem Topo Arena validNode)

theorem movedTo_refilled {t : Topo} {h : Host} {mid : Nat} {s : KernelMem} (hs : Ready t h mid s) (n : Nat)
    (hn : n ≤ (s.cache mid).bp.length) (hr : s.core.cur.cache.bp.length + n ≤ s.core.cur.cache.capB) :
    Refilled h mid n 0 [] s (movedTo s mid n) := by
  have hm : (movedTo s mid n).cache mid = { s.cache mid with bp := (s.cache mid).bp.drop n } := upd_same _ _ _
  have hcw := hs.cache.1
  refine ⟨movedTo_core hs.core, hs.aff, rfl, ⟨rfl, rfl, rfl⟩, ⟨?_, hs.wf.capL, ?_, hs.wf.alL⟩, ⟨rfl, rfl⟩, ?_, ?_, ?_, ?_,
    fun m hne => upd_other _ _ hne, fun n' h1 _ => setCache_arenaOf s.core _ n' (by rw [hs.aff]; exact h1),
    fun a ha => ?_, rfl⟩
  · show (((s.cache mid).bp.take n).reverse ++ s.core.cur.cache.bp).length ≤ s.core.cur.cache.capB
    simp only [List.length_append, List.length_reverse, List.length_take]
    omega
  · intro a ha
    rcases List.mem_append.1 (show a ∈ ((s.cache mid).bp.take n).reverse ++ s.core.cur.cache.bp from ha) with h | h
    · exact hcw.alB a (List.mem_of_mem_take (List.mem_reverse.1 h))
    · exact hs.wf.alB a h
  · show s.core.cur.cache.bp.length + n ≤ (((s.cache mid).bp.take n).reverse ++ s.core.cur.cache.bp).length
    simp only [List.length_append, List.length_reverse, List.length_take]
    omega
  · rw [hm]
    show ((((s.cache mid).bp.take n).reverse ++ s.core.cur.cache.bp) ++ (s.cache mid).bp.drop n).Perm _
    rw [show smallPages 0 [] = [] from rfl, List.append_nil]
    conv => rhs; rw [← List.take_append_drop n (s.cache mid).bp]
    rw [List.perm_iff_count]
    intro b
    simp only [List.count_append, List.count_reverse]
    omega
  · rw [hm]
    exact ⟨by have := hcw.capB; simp only [List.length_drop]; omega, hcw.capL,
      fun a ha => hcw.alB a (List.mem_of_mem_drop ha), hcw.alL⟩
  · rw [hm]
  · rw [show (movedTo s mid n).core.arenaOf h.node = _ from setCache_arenaOf s.core _ h.node (by
      have := hs.validLocal.1; rw [hs.aff]; omega)]
    exact ha

/-- What a refill does once the pages have arrived. -/
theorem store_refilled {t : Topo} {h : Host} {mid : Nat} {s : KernelMem} (hs : Ready t h mid s) (fs : List Frame)
    (needB needL : Nat) (hf : PagesOf mid (fs.take (largeWanted s.core.cur.cache needL))) (hsh : SharedPages fs) (c : Ctrl Resources) (core2 : CoreMem)
    (hlen : fs.length = askFor s.core.cur.cache (s.cache mid) needB needL)
    (p1 : core2.cur = (movedTo s mid (min (s.cache mid).bp.length (baseWanted s.core.cur.cache needB))).core.cur)
    (p2 : core2.Wf)
    (p3 : ∀ n, n ≠ h.node → n ≠ 12 + mid → core2.arenaOf n = s.core.arenaOf n)
    (p4 : ∀ a, s.core.arenaOf h.node = some a → core2.arenaOf h.node = some a)
    (p5 : core2.arenas.length = s.core.arenas.length) :
    ∃ s', storePages fs mid (largeWanted s.core.cur.cache needL)
        (baseWanted s.core.cur.cache needB - (s.cache mid).bp.length)
        (askFor s.core.cur.cache (s.cache mid) needB needL)
        { movedTo s mid (min (s.cache mid).bp.length (baseWanted s.core.cur.cache needB)) with ctrl := c, core := core2 } =
        (.ok (), s') ∧ s'.ctrl = c ∧
      Refilled h mid (baseWanted s.core.cur.cache needB) (largeWanted s.core.cur.cache needL) fs s s' := by
  have hB : s.core.cur.cache.bp.length + baseWanted s.core.cur.cache needB ≤ s.core.cur.cache.capB := by
    have := hs.wf.capB
    unfold baseWanted
    omega
  have hL : s.core.cur.cache.lp.length + largeWanted s.core.cur.cache needL ≤ s.core.cur.cache.capL := by
    have := hs.wf.capL
    unfold largeWanted
    omega
  have hmoved := movedTo_refilled hs (min (s.cache mid).bp.length (baseWanted s.core.cur.cache needB)) (Nat.min_le_left _ _)
    (by omega)
  unfold askFor at *
  generalize baseWanted s.core.cur.cache needB = nB at *
  generalize largeWanted s.core.cur.cache needL = nL at *
  have hcur : core2.cur.aff = 12 + mid := by rw [p1]; exact hs.aff
  have hcache : core2.cur.cache = { s.core.cur.cache with
      bp := ((s.cache mid).bp.take (min (s.cache mid).bp.length nB)).reverse ++ s.core.cur.cache.bp } := by rw [p1]; rfl
  by_cases hle : nB ≤ (s.cache mid).bp.length
  · rw [if_pos hle] at hlen ⊢
    rw [Nat.add_zero] at hlen ⊢
    rw [Nat.sub_eq_zero_of_le hle, store_large (by rw [List.take_of_length_le (by omega)] at hf; exact hf) (by show core2.cur.cache.node = _; rw [hcache]; exact hs.node) hlen (by
      show core2.cur.cache.lp.length + nL ≤ core2.cur.cache.capL; rw [hcache]; exact hL)]
    refine ⟨_, rfl, rfl, ⟨p2.cur, p2.free, p2.place⟩, hcur, ?_, ?_, ⟨?_, ?_, ?_, ?_⟩, ⟨?_, ?_⟩, ?_, ?_, hmoved.cacheWf,
      hmoved.cacheSame, hmoved.caches, fun n h1 h2 => ?_, fun a ha => ?_, p5⟩
    · show core2.cur.zone = _; rw [p1]; rfl
    · show core2.cur.cache.node = _ ∧ core2.cur.cache.capB = _ ∧ core2.cur.cache.capL = _; rw [hcache]; exact ⟨rfl, rfl, rfl⟩
    · show core2.cur.cache.bp.length ≤ core2.cur.cache.capB
      rw [hcache]; exact hmoved.wf.capB
    · show ((fs.map (·.base)).reverse ++ core2.cur.cache.lp).length ≤ core2.cur.cache.capL
      rw [hcache]
      simp only [List.length_append, List.length_reverse, List.length_map]
      omega
    · show ∀ a ∈ core2.cur.cache.bp, _
      rw [hcache]; exact hmoved.wf.alB
    · intro a ha
      rcases List.mem_append.1 (show a ∈ (fs.map (·.base)).reverse ++ core2.cur.cache.lp from ha) with h | h
      · obtain ⟨f, hf', rfl⟩ := List.mem_map.1 (List.mem_reverse.1 h)
        exact (hsh f hf').2.1
      · rw [hcache] at h
        exact hs.wf.alL a h
    · show (fs.map (·.base)).reverse ++ core2.cur.cache.lp = _
      rw [hcache, List.take_of_length_le (show fs.length ≤ nL by omega)]
    · show ((fs.map (·.base)).reverse ++ core2.cur.cache.lp).length = _
      rw [hcache]
      simp only [List.length_append, List.length_reverse, List.length_map]
      omega
    · show s.core.cur.cache.bp.length + nB ≤ core2.cur.cache.bp.length
      have := hmoved.base
      rw [Nat.min_eq_right hle] at this
      rw [hcache, Nat.min_eq_right hle]; exact this
    · show (core2.cur.cache.bp ++ _).Perm _
      rw [show smallPages nL fs = [] by unfold smallPages; rw [List.getElem?_eq_none (by omega)]]
      rw [hcache]
      exact hmoved.same
    · show ({ core2 with cur := { core2.cur with cache := _ } } : CoreMem).arenaOf n = _
      rw [setCache_arenaOf core2 _ n (by rw [hcur]; exact h1)]
      exact p3 n h2 h1
    · show ({ core2 with cur := { core2.cur with cache := _ } } : CoreMem).arenaOf h.node = _
      rw [setCache_arenaOf core2 _ _ (by rw [hcur]; have := hs.validLocal.1; omega)]
      exact p4 a ha
  · rw [if_neg hle] at hlen ⊢
    have hmin : min (s.cache mid).bp.length nB = (s.cache mid).bp.length := by omega
    rw [hmin] at hmoved hcache p1 ⊢
    rw [List.take_length] at hcache
    obtain ⟨gs, f, rfl⟩ : ∃ gs f, fs = gs ++ [f] := by
      rcases List.eq_nil_or_concat fs with rfl | ⟨gs, f, rfl⟩
      · simp at hlen
      · exact ⟨gs, f, by simp⟩
    have hgl : gs.length = nL := by simp at hlen; omega
    have hm : (movedTo s mid (s.cache mid).bp.length).cache mid = { s.cache mid with bp := [] } := by
      show upd s.cache mid _ mid = _
      rw [upd_same, List.drop_length]
    have hsp := splitPage_facts (hsh f (by simp))
    rw [List.take_append_of_le_length (by omega), List.take_of_length_le (by omega)] at hf
    rw [store_split hf (hsh f (by simp)) (by show core2.cur.cache.node = _; rw [hcache]; exact hs.node) hgl (by omega)
      (by show core2.cur.cache.lp.length + nL ≤ core2.cur.cache.capL; rw [hcache]; exact hL)
      (by
        show core2.cur.cache.bp.length ≤ core2.cur.cache.capB
        rw [hcache]
        simp only [List.length_append, List.length_reverse]
        omega)
      (by
        show ((movedTo s mid (s.cache mid).bp.length).cache mid).node = _
        rw [hm]; exact hs.cache.2.1)
      (by
        show ((movedTo s mid (s.cache mid).bp.length).cache mid).bp = [] ∧
          512 ≤ ((movedTo s mid (s.cache mid).bp.length).cache mid).capB
        rw [hm]
        have := hs.cache.2.2
        exact ⟨rfl, by show 512 ≤ (s.cache mid).capB; omega⟩)]
    simp only [hm]
    have hspare : core2.cur.cache.spareBase = s.core.cur.cache.capB - ((s.cache mid).bp.length + s.core.cur.cache.bp.length) := by
      unfold MCache.spareBase
      rw [hcache]
      simp only [List.length_append, List.length_reverse]
    simp only [hspare]
    have hcapB := hs.capB
    generalize hk : min 512 (s.core.cur.cache.capB - ((s.cache mid).bp.length + s.core.cur.cache.bp.length)) = k
    refine ⟨_, rfl, rfl, ⟨p2.cur, p2.free, p2.place⟩, hcur, ?_, ?_, ⟨?_, ?_, ?_, ?_⟩, ⟨?_, ?_⟩, ?_, ?_, ⟨?_, ?_, ?_, ?_⟩,
      ?_, fun m hne => ?_, fun n h1 h2 => ?_, fun a ha => ?_, p5⟩
    · show core2.cur.zone = _; rw [p1]; rfl
    · show core2.cur.cache.node = _ ∧ core2.cur.cache.capB = _ ∧ core2.cur.cache.capL = _; rw [hcache]; exact ⟨rfl, rfl, rfl⟩
    · show ((((splitPage f).take k).map (·.base)).reverse ++ core2.cur.cache.bp).length ≤ core2.cur.cache.capB
      rw [hcache]
      simp only [List.length_append, List.length_reverse, List.length_map, List.length_take, splitPage_length]
      omega
    · show ((gs.map (·.base)).reverse ++ core2.cur.cache.lp).length ≤ core2.cur.cache.capL
      rw [hcache]
      simp only [List.length_append, List.length_reverse, List.length_map]
      omega
    · intro a ha
      rcases List.mem_append.1 (show a ∈ (((splitPage f).take k).map (·.base)).reverse ++ core2.cur.cache.bp from ha) with h | h
      · obtain ⟨g, hg, rfl⟩ := List.mem_map.1 (List.mem_reverse.1 h)
        exact (hsp g (List.mem_of_mem_take hg)).2.1
      · rw [hcache] at h
        rcases List.mem_append.1 h with h | h
        · exact hs.cache.1.alB a (List.mem_reverse.1 h)
        · exact hs.wf.alB a h
    · intro a ha
      rcases List.mem_append.1 (show a ∈ (gs.map (·.base)).reverse ++ core2.cur.cache.lp from ha) with h | h
      · obtain ⟨g, hg, rfl⟩ := List.mem_map.1 (List.mem_reverse.1 h)
        exact (hsh g (by simp [hg])).2.1
      · rw [hcache] at h
        exact hs.wf.alL a h
    · show (gs.map (·.base)).reverse ++ core2.cur.cache.lp = _
      rw [hcache, List.take_append_of_le_length (show nL ≤ gs.length by omega), List.take_of_length_le (show gs.length ≤ nL by omega)]
    · show ((gs.map (·.base)).reverse ++ core2.cur.cache.lp).length = _
      rw [hcache]
      simp only [List.length_append, List.length_reverse, List.length_map]
      omega
    · show s.core.cur.cache.bp.length + nB ≤ ((((splitPage f).take k).map (·.base)).reverse ++ core2.cur.cache.bp).length
      rw [hcache]
      simp only [List.length_append, List.length_reverse, List.length_map, List.length_take, splitPage_length]
      omega
    · have hcm : upd (movedTo s mid (s.cache mid).bp.length).cache mid { s.cache mid with
          bp := (((splitPage f).drop k).map (·.base)).reverse } mid = { s.cache mid with
          bp := (((splitPage f).drop k).map (·.base)).reverse } := upd_same _ _ _
      show (((((splitPage f).take k).map (·.base)).reverse ++ core2.cur.cache.bp) ++ (upd _ mid _ mid : MCache).bp).Perm _
      rw [upd_same, hcache]
      rw [show smallPages nL (gs ++ [f]) = (splitPage f).map (·.base) by
        unfold smallPages
        rw [List.getElem?_append_right (by omega), hgl, Nat.sub_self]
        rfl]
      have e : (splitPage f).map (·.base) = ((splitPage f).take k).map (·.base) ++ ((splitPage f).drop k).map (·.base) := by
        rw [← List.map_append, List.take_append_drop]
      rw [e, List.perm_iff_count]
      intro b
      simp only [List.count_append, List.count_reverse]
      omega
    · show (upd _ mid _ mid : MCache).bp.length ≤ (upd _ mid _ mid : MCache).capB
      rw [upd_same]
      have := hs.cache.2.2
      simp only [List.length_reverse, List.length_map, List.length_drop, splitPage_length]
      omega
    · show (upd _ mid _ mid : MCache).lp.length ≤ (upd _ mid _ mid : MCache).capL
      rw [upd_same]; exact hs.cache.1.capL
    · show ∀ a ∈ (upd _ mid _ mid : MCache).bp, _
      rw [upd_same]
      intro a ha
      obtain ⟨g, hg, rfl⟩ := List.mem_map.1 (List.mem_reverse.1 ha)
      exact (hsp g (List.mem_of_mem_drop hg)).2.1
    · show ∀ a ∈ (upd _ mid _ mid : MCache).lp, _
      rw [upd_same]; exact hs.cache.1.alL
    · simp only [upd_same]
    · show upd (upd _ _ _) mid _ m = _
      rw [upd_other _ _ hne, upd_other _ _ hne]
    · show ({ core2 with cur := { core2.cur with cache := _ } } : CoreMem).arenaOf n = _
      rw [setCache_arenaOf core2 _ n (by rw [hcur]; exact h1)]
      exact p3 n h2 h1
    · show ({ core2 with cur := { core2.cur with cache := _ } } : CoreMem).arenaOf h.node = _
      rw [setCache_arenaOf core2 _ _ (by rw [hcur]; have := hs.validLocal.1; omega)]
      exact p4 a ha

end NRK.Rack.Remote
