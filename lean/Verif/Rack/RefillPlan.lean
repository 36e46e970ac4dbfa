import Verif.Rack.RefillLemmas

/-!
# How a kernel refills its shared memory: where the pages go
-/

namespace NRK.Rack.Remote

open Rpc (ENTRY ENTRY_eq)
open NRK.Mem (Frame MCache LARGE BASE LARGE_eq BASE_eq CoreMem Topo Arena validNode)

/-- Pages of machine `mid`. -/
def PagesOf (mid : Nat) (fs : List Frame) : Prop := ∀ f ∈ fs, f.size = LARGE ∧ f.base % LARGE = 0 ∧ f.aff = 12 + mid

theorem Given.pagesOf {region : Nat → Option Frame} : ∀ {n : Nat} {m : Nat} {w w' : World Resources} {fs : List Frame},
    PageInv region w → Given w (List.replicate n m) fs w' → PagesOf m fs := by
  intro n
  induction n with
  | zero => intro m w w' fs _ h; cases h; intro f hf; cases hf
  | succ n ih =>
    intro m w w' fs hi h
    rw [List.replicate_succ] at h
    cases h with
    | @cons _ _ _ a as _ fs m0 m16 hlp g =>
      obtain ⟨p1, _⟩ := hi.pop m0 m16 hlp
      have hfr := hi.free m a m0 m16 (by unfold FreePage; rw [hlp]; exact List.mem_cons_self)
      intro f hf
      rcases List.mem_cons.1 hf with rfl | hf
      · exact ⟨LARGE_eq.symm, hfr.1, rfl⟩
      · exact ih p1 g f hf

/-- Pages of shared memory. -/
def SharedPages (fs : List Frame) : Prop := ∀ f ∈ fs, f.size = LARGE ∧ f.base % LARGE = 0 ∧ 12 ≤ f.aff

theorem PagesOf.shared {mid : Nat} {fs : List Frame} (h : PagesOf mid fs) : SharedPages fs := fun f hf =>
  ⟨(h f hf).1, (h f hf).2.1, by rw [(h f hf).2.2]; omega⟩

theorem splitPage_facts {f : Frame} (hf : f.size = LARGE ∧ f.base % LARGE = 0 ∧ 12 ≤ f.aff) :
    ∀ g ∈ splitPage f, g.size = BASE ∧ g.base % BASE = 0 ∧ 12 ≤ g.aff := by
  intro g hg
  obtain ⟨i, _, rfl⟩ := List.mem_map.1 hg
  obtain ⟨_, h2, h3⟩ := hf
  simp only [LARGE_eq, BASE_eq] at *
  refine ⟨trivial, by omega, by omega⟩

theorem store_large {s : KernelMem} {fs : List Frame} {mid n : Nat} (hf : PagesOf mid fs)
    (hn : s.core.cur.cache.node = 12 + mid) (hl : fs.length = n)
    (hroom : s.core.cur.cache.lp.length + n ≤ s.core.cur.cache.capL) :
    storePages fs mid n 0 n s = (.ok (), s.setCache { s.core.cur.cache with
      lp := (fs.map (·.base)).reverse ++ s.core.cur.cache.lp }) := by
  unfold storePages
  rw [if_neg (by omega), List.take_of_length_le (by omega), growLarge_exact fs _ (by omega)
    (fun f h => by rw [hn]; exact hf f h)]
  rfl

theorem store_split {s : KernelMem} {fs : List Frame} {f : Frame} {mid n missing : Nat} (hf : PagesOf mid fs)
    (hff : f.size = LARGE ∧ f.base % LARGE = 0 ∧ 12 ≤ f.aff)
    (hn : s.core.cur.cache.node = 12 + mid) (hl : fs.length = n) (hm : 0 < missing)
    (hroom : s.core.cur.cache.lp.length + n ≤ s.core.cur.cache.capL)
    (hb : s.core.cur.cache.bp.length ≤ s.core.cur.cache.capB)
    (hcn : (s.cache mid).node = 12 + mid) (hcr : (s.cache mid).bp = [] ∧ 512 ≤ (s.cache mid).capB) :
    storePages (fs ++ [f]) mid n missing (n + 1) s = (.ok (),
      { s.setCache { s.core.cur.cache with
          lp := (fs.map (·.base)).reverse ++ s.core.cur.cache.lp
          bp := (((splitPage f).take (min 512 s.core.cur.cache.spareBase)).map (·.base)).reverse ++ s.core.cur.cache.bp }
        with cache := upd s.cache mid { s.cache mid with
          bp := (((splitPage f).drop (min 512 s.core.cur.cache.spareBase)).map (·.base)).reverse } }) := by
  have hsp := splitPage_facts hff
  unfold storePages
  rw [if_neg (by simp; omega), List.take_append_of_le_length (by omega), List.take_of_length_le (by omega),
    growLarge_exact fs _ (by omega) (fun g h => by rw [hn]; exact hf g h)]
  simp only
  rw [if_neg (by omega), Nat.add_sub_cancel, List.getElem?_append_right (by omega), hl, Nat.sub_self]
  simp only [List.getElem?_cons_zero]
  rw [pages_split f hff.1 hff.2.1]
  simp only [splitPage_length]
  rw [show MCache.spareBase { s.core.cur.cache with lp := (fs.map (·.base)).reverse ++ s.core.cur.cache.lp } =
    s.core.cur.cache.spareBase from rfl]
  rw [growBase_exact _ _ (by show 12 ≤ s.core.cur.cache.node; omega) (by
    show s.core.cur.cache.bp.length + _ ≤ s.core.cur.cache.capB
    rw [List.length_take, splitPage_length]
    unfold MCache.spareBase
    omega) (fun g hg => hsp g (List.mem_of_mem_take hg))]
  simp only
  have hlen : ((splitPage f).drop (min 512 s.core.cur.cache.spareBase)).length ≤ 512 := by
    rw [List.length_drop, splitPage_length]; omega
  rw [List.take_of_length_le (by unfold MCache.spareBase at *; rw [hcr.1]; simp only [List.length_nil]; omega)]
  rw [growBase_exact _ _ (by omega) (by rw [hcr.1, List.length_nil]; omega) (fun g hg => hsp g (List.mem_of_mem_drop hg))]
  simp only [hcr.1, List.append_nil]

/-- After the base pages were taken from the machine's cache. -/
def movedTo (s : KernelMem) (mid n : Nat) : KernelMem :=
  { s.setCache { s.core.cur.cache with bp := ((s.cache mid).bp.take n).reverse ++ s.core.cur.cache.bp }
    with cache := upd s.cache mid { s.cache mid with bp := (s.cache mid).bp.drop n } }

theorem movedTo_zero (s : KernelMem) (mid : Nat) : movedTo s mid 0 = s := by
  unfold movedTo
  simp only [List.take_zero, List.drop_zero, List.reverse_nil, List.nil_append]
  rw [show ({ s.cache mid with bp := (s.cache mid).bp } : MCache) = s.cache mid from rfl, upd_self]
  rfl

theorem refill_eq {t : Topo} {h : Host} {mid : Nat} {s : KernelMem} (hs : Ready t h mid s) (o : Oracle) (l : Link)
    (needB needL : Nat) :
    refillShared h t o l needB needL s =
      if askFor s.core.cur.cache (s.cache mid) needB needL = 0 ∧ 0 < baseWanted s.core.cur.cache needB then
        (.ok (), movedTo s mid (min (s.cache mid).bp.length (baseWanted s.core.cur.cache needB)))
      else fetchPages h t o l (12 + mid) mid (largeWanted s.core.cur.cache needL)
        (baseWanted s.core.cur.cache needB - (s.cache mid).bp.length)
        (askFor s.core.cur.cache (s.cache mid) needB needL)
        (movedTo s mid (min (s.cache mid).bp.length (baseWanted s.core.cur.cache needB))) := by
  unfold refillShared
  rw [show min s.core.cur.cache.spareBase needB = baseWanted s.core.cur.cache needB from rfl,
    show min s.core.cur.cache.spareLarge needL = largeWanted s.core.cur.cache needL from rfl, hs.aff]
  have hB : s.core.cur.cache.bp.length + baseWanted s.core.cur.cache needB ≤ s.core.cur.cache.capB := by
    have := hs.wf.capB
    unfold baseWanted
    omega
  unfold askFor
  generalize baseWanted s.core.cur.cache needB = nB at *
  generalize largeWanted s.core.cur.cache needL = nL at *
  unfold refillShmem
  have hmid : Mem.shmemAffinityToMid (12 + mid) = .ok mid := by
    unfold Mem.shmemAffinityToMid Mem.MAX_NUMA_NODES
    rw [if_pos (by omega), Nat.add_sub_cancel_left]
  have hloc : (h.controller && decide (mid = h.me)) = false := by
    cases hc : h.controller with
    | false => rfl
    | true =>
      have := hs.self hc
      have := hs.pos
      simp; omega
  rw [hmid]
  simp only [hloc]
  by_cases h0 : 0 < nB
  · rw [if_pos (.inl h0), if_neg (by have := hs.small; omega)]
    rw [moveBase_exact _ _ _ hs.cache.1 (by have := hs.cache.2.1; omega) (by have := hs.node; omega) (Nat.min_le_left _ _)
      (by omega)]
    simp only [if_neg (show ¬ (false = true) by simp)]
    have e1 : nB - min (s.cache mid).bp.length nB = nB - (s.cache mid).bp.length := by omega
    have e2 : (if 0 < nB - (s.cache mid).bp.length then nL + 1 else nL) =
        nL + if nB ≤ (s.cache mid).bp.length then 0 else 1 := by
      split <;> split <;> omega
    rw [e1, e2]
    by_cases hz : (nL + if nB ≤ (s.cache mid).bp.length then 0 else 1) = 0
    · rw [if_pos ⟨by split at hz <;> omega, hz⟩, if_pos ⟨hz, h0⟩]; rfl
    · have hq : ¬ ((nL + if nB ≤ (s.cache mid).bp.length then 0 else 1) = 0 ∧ 0 < nB) := fun q => hz q.1
      rw [if_neg (fun q => hz q.2), if_neg hq]; rfl
  · have hn0 : nB = 0 := by omega
    subst hn0
    rw [if_neg (by simp), if_neg (by simp)]
    simp only [Nat.min_zero, movedTo_zero, Nat.zero_sub, Nat.zero_le, if_true, Nat.add_zero]

theorem movedTo_core {s : KernelMem} {mid n : Nat} (h : s.core.Wf) : (movedTo s mid n).core.Wf :=
  ⟨h.cur, h.free, h.place⟩

theorem setCache_arenaOf (core : CoreMem) (c : MCache) (n : Nat) (hn : n ≠ core.cur.aff) :
    ({ core with cur := { core.cur with cache := c } } : CoreMem).arenaOf n = core.arenaOf n := by
  unfold CoreMem.arenaOf
  simp only [if_neg hn]

/-- The local node is another node than the one of the shared memory. -/
theorem Ready.switch {t : Topo} {h : Host} {mid : Nat} {s : KernelMem} (hs : Ready t h mid s) (n : Nat) :
    ∃ core1 core2, (movedTo s mid n).core.setAffinity t h.node = (.ok (), core1) ∧
      core1.setAffinity t (12 + mid) = (.ok (), core2) ∧
      core1.cur.aff = h.node ∧ core1.arenaOf (12 + mid) = some (movedTo s mid n).core.cur ∧
      core2.cur = (movedTo s mid n).core.cur ∧ core1.Wf ∧ core2.Wf ∧
      (∀ n, n ≠ h.node → n ≠ 12 + mid → core1.arenaOf n = s.core.arenaOf n ∧ core2.arenaOf n = s.core.arenaOf n) ∧
      (∀ a, s.core.arenaOf h.node = some a → core1.cur = a ∧ core2.arenaOf h.node = some a) ∧
      core2.arenas.length = s.core.arenas.length := by
  have hl := hs.validLocal
  have ha : (movedTo s mid n).core.cur.aff = 12 + mid := hs.aff
  obtain ⟨core1, core2, e1, e2, p1, p2, p3, p4, p5, p6, p7, p8, p9, _⟩ := there_and_back (t := t)
    (movedTo_core (mid := mid) (n := n) hs.core) h.node (by rw [ha]; omega) hl.2 (by rw [ha]; exact hs.validShared)
  rw [ha] at e2 p2
  have hself : ∀ m, m ≠ 12 + mid → (movedTo s mid n).core.arenaOf m = s.core.arenaOf m := fun m hm =>
    setCache_arenaOf s.core _ m (by rw [hs.aff]; exact hm)
  refine ⟨core1, core2, e1, e2, p1, p2, p3, p4, p5, fun m h1 h2 => ⟨?_, ?_⟩, fun a h => p8 a ?_, p9⟩
  · rw [p6 m h1, hself m h2]
  · rw [p7 m h1, hself m h2]
  · rw [hself _ (by omega)]; exact h

end NRK.Rack.Remote
