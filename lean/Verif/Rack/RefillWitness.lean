import Verif.Rack.RefillProps
import Verif.Rack.MapWitness

/-!
# C67: concrete cases
-/

namespace NRK.Rack.Remote

open Rpc (ENTRY ENTRY_eq)
open NRK.Mem (Frame MCache LARGE BASE LARGE_eq BASE_eq CoreMem Topo Arena validNode)

/-- A core of client machine 1, on a rack of two machines, which uses the shared memory of machine `mid`. -/
def refillDemo (w : World Resources) (mid : Nat) : KernelMem :=
  ⟨⟨(pageRack w).srv 0, (pageRack w).world⟩, CoreMem.new 28 (12 + mid), fun m => MCache.new 2048 0 (12 + m)⟩

theorem refillDemo_ready (w : World Resources) (mid : Nat) (h : mid = 1 ∨ mid = 2) :
    Ready ⟨1, 3, true⟩ ⟨false, 1, 0⟩ mid (refillDemo w mid) := by
  refine ⟨Mem.new_wf 28 _ (by omega), rfl, rfl, Mem.new_cache_wf _ _ _, rfl, rfl, ⟨Mem.new_cache_wf _ _ _, rfl, rfl⟩,
    by omega, ⟨by decide, by simp [refillDemo, CoreMem.new]; decide⟩, ?_, by omega, fun h => by cases h⟩
  rcases h with rfl | rfl
  · simp [refillDemo, CoreMem.new]; decide
  · simp [refillDemo, CoreMem.new]; decide

theorem mem_splitPage (f : Frame) (a : Nat) : a ∈ (splitPage f).map (·.base) ↔ ∃ i, i < 512 ∧ a = f.base + 4096 * i := by
  constructor
  · intro h
    obtain ⟨g, hg, rfl⟩ := List.mem_map.1 h
    obtain ⟨i, hi, rfl⟩ := List.mem_map.1 hg
    exact ⟨i, List.mem_range.1 hi, rfl⟩
  · rintro ⟨i, hi, rfl⟩
    exact List.mem_map.2 ⟨⟨f.base + 4096 * i, 4096, f.aff⟩, List.mem_map.2 ⟨i, List.mem_range.2 hi, rfl⟩, rfl⟩

attribute [local irreducible] splitPage

/-- The hypotheses of `c67_refill_partial` are met: a core that asks for one large page and three base pages gets
the upper page of machine 1 as a large page, and 381 base pages of the lower one. -/
theorem c67_sample (w : World Resources) (o : Oracle) (l : Link) (ha : o.accepts = true)
    (l1 : l.slot1.length = ENTRY) (l2 : l.slot2.length = ENTRY) :
    ∃ s', refillShared ⟨false, 1, 0⟩ ⟨1, 3, true⟩ o l 3 1 (refillDemo w 1) = (.ok (), s') ∧
      s'.core.cur.cache.lp = [6291456] ∧ 3 ≤ s'.core.cur.cache.bp.length ∧
      s'.core.cur.cache.bp.length + (s'.cache 1).bp.length = 512 ∧
      (∀ a, a ∈ s'.core.cur.cache.bp ∨ a ∈ (s'.cache 1).bp → ∃ i, i < 512 ∧ a = 4194304 + 4096 * i) := by
  have hask : askFor (MCache.new 381 128 13) (MCache.new 2048 0 13) 3 1 = 2 := by decide
  obtain ⟨srv, fs, w', s', e, _, g, hr⟩ := (c67_refill_partial (pageRack_hist w) 0 (refillDemo_ready w 1 (.inl rfl)) rfl
    (fun _ => rfl) o l l1 l2 3 1).2.1 (by show 0 < askFor (MCache.new 381 128 13) (MCache.new 2048 0 13) 3 1; omega) ha
    (by show askFor (MCache.new 381 128 13) (MCache.new 2048 0 13) 3 1 ≤ _; rw [hask]; exact Nat.le_refl 2)
  have hw1 : largeWanted (refillDemo w 1).core.cur.cache 1 = 1 := by rfl
  have hw3 : baseWanted (refillDemo w 1).core.cur.cache 3 = 3 := by rfl
  have hfs : fs = [⟨6291456, 2097152, 13⟩, ⟨4194304, 2097152, 13⟩] := by
    have g' : Given (pageRack w).world (List.replicate (askFor (MCache.new 381 128 13) (MCache.new 2048 0 13) 3 1) 1) fs w' := g
    rw [hask] at g'
    cases g' with
    | cons _ _ hlp g =>
      have h1 : [6291456, 4194304] = _ := hlp
      cases h1
      cases g with
      | cons _ _ hlp g =>
        have h2 : [4194304] = _ := hlp
        cases h2
        cases g
        rfl
  subst hfs
  rw [hw1, hw3] at hr
  have hperm : (s'.core.cur.cache.bp ++ (s'.cache 1).bp).Perm
      ((splitPage ⟨4194304, 2097152, 13⟩).map (·.base)) := hr.same
  refine ⟨s', e, hr.large.1, ?_, ?_, fun a h => ?_⟩
  · have : 0 + 3 ≤ _ := hr.base
    omega
  · rw [← List.length_append, hperm.length_eq, List.length_map, splitPage_length]
  · exact (mem_splitPage _ a).1 (hperm.mem_iff.1 (List.mem_append.2 h))

/-- The hypotheses of `c67_refused`, `c67_nothing_crashes`, `c67_other_machine_crashes` and
`c67_other_machine_mixed` are met. -/
theorem c67_defects_sample (w : World Resources) (o : Oracle) (l : Link)
    (l1 : l.slot1.length = ENTRY) (l2 : l.slot2.length = ENTRY) :
    (o.accepts = false → ∃ s', refillShared ⟨false, 1, 0⟩ ⟨1, 3, true⟩ o l 3 1 (refillDemo w 1) =
      (.err .dcmNotEnoughMemory, s') ∧ s'.core.cur.aff = 0) ∧
    (refillShared ⟨false, 1, 0⟩ ⟨1, 3, true⟩ o l 0 0 (refillDemo w 1)).1 = .panic ∧
    (o.accepts = true → (refillShared ⟨false, 1, 0⟩ ⟨1, 3, true⟩ o l 0 1 (refillDemo w 2)).1 = .panic) ∧
    (o.accepts = true → ∃ s', refillShared ⟨false, 1, 0⟩ ⟨1, 3, true⟩ o l 3 0 (refillDemo w 2) = (.ok (), s') ∧
      (6291456 ∈ s'.core.cur.cache.bp ∨ 6291456 ∈ (s'.cache 2).bp) ∧ demoRegion 2 = none) := by
  refine ⟨fun ha => ?_, ?_, fun ha => ?_, fun ha => ?_⟩
  · obtain ⟨s', _, e, _, p, _⟩ := c67_refused (pageRack_hist w) 0 (refillDemo_ready w 1 (.inl rfl)) rfl
      (fun _ => rfl) o l l1 l2 3 1 (by
        show 0 < askFor (MCache.new 381 128 13) (MCache.new 2048 0 13) 3 1; decide) ha
    exact ⟨s', e, p⟩
  · exact c67_nothing_crashes (refillDemo_ready w 1 (.inl rfl)) rfl o l 0 0 (.inr rfl) (.inr rfl)
  · exact c67_other_machine_crashes (pageRack_hist w) 0 (refillDemo_ready w 2 (.inr rfl)) rfl rfl (by decide) (by decide)
      (by decide) o l l1 l2 0 1 ha (by show 0 < largeWanted (MCache.new 381 128 14) 1; decide)
  · obtain ⟨s', e, _, hr⟩ := c67_other_machine_mixed (pageRack_hist w) 0 (refillDemo_ready w 2 (.inr rfl)) rfl rfl
      (by decide) (by decide) o l l1 l2 3 ha (by show 0 < baseWanted (MCache.new 381 128 14) 3; decide) 6291456 [4194304] rfl
    refine ⟨s', e, ?_, rfl⟩
    have hperm : (s'.core.cur.cache.bp ++ (s'.cache 2).bp).Perm
      ((splitPage ⟨6291456, 2097152, 13⟩).map (·.base)) := hr.same
    refine List.mem_append.1 (hperm.mem_iff.2 ((mem_splitPage _ _).2 ⟨0, by decide, rfl⟩))

end NRK.Rack.Remote
