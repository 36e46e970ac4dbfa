import Verif.Rack.MapSpec
import Verif.Rack.PageInv
import Verif.Mem.AllocProps
import Verif.VSpace.VSpaceProps

/-!
# Helper lemmas for memory mapping on a rack client: which pages
-/

namespace NRK.Rack.Remote

open Rpc (ENTRY ENTRY_eq)
open NRK.Mem (Frame MCache LARGE BASE LARGE_eq BASE_eq takeBase takeBase_spec pageList pages_eq)
open NRK.Mem.Spec (Block Disjoint Inside AllDisjoint)

theorem splitPage_length (f : Frame) : (splitPage f).length = 512 := by simp [splitPage]

theorem pages_split (f : Frame) (hs : f.size = LARGE) (ha : f.base % LARGE = 0) : f.pages = .ok (splitPage f) := by
  rw [pages_eq f ⟨by simp only [LARGE_eq, BASE_eq] at *; omega, by simp only [LARGE_eq, BASE_eq] at *; omega⟩]
  unfold pageList splitPage Frame.basePages
  rw [hs, LARGE_eq, BASE_eq]

theorem growBase_exact (fs : List Frame) : ∀ (c : MCache), 12 ≤ c.node → c.bp.length + fs.length ≤ c.capB →
    (∀ f ∈ fs, f.size = BASE ∧ f.base % BASE = 0 ∧ 12 ≤ f.aff) →
    c.growBase true fs = (.ok (), { c with bp := (fs.map (·.base)).reverse ++ c.bp }) := by
  induction fs with
  | nil => intro c _ _ _; rfl
  | cons f fs ih =>
    intro c hn hl hf
    obtain ⟨h1, h2, h3⟩ := hf f (by simp)
    rw [List.length_cons] at hl
    unfold MCache.growBase
    rw [if_pos ⟨h1, h2, by
      unfold Mem.affinityFits Mem.isShmemAffinity Mem.MAX_NUMA_NODES
      simp only [if_true, beq_iff_eq]
      rw [decide_eq_true h3, decide_eq_true hn]⟩]
    have : c.pushBase f.base = some { c with bp := f.base :: c.bp } := by
      unfold MCache.pushBase; rw [if_pos (by omega)]
    simp only [this]
    rw [ih { c with bp := f.base :: c.bp } hn (by simp only [List.length_cons]; omega) (fun g hg => hf g (by simp [hg]))]
    simp

theorem takeBase_exact (c : MCache) (hw : c.Wf) (n : Nat) (hn : n ≤ c.bp.length) :
    takeBase c n = (.ok ((c.bp.take n).map fun a => ⟨a, 4096, c.node⟩), { c with bp := c.bp.drop n }) := by
  obtain ⟨fs, e, h1, h2⟩ := (takeBase_spec n c hw).1 hn
  rw [e]
  congr 2
  have hlen : fs.length = (c.bp.take n).length := by simpa using congrArg List.length h1
  apply List.ext_getElem
  · rw [List.length_map, hlen]
  · intro i i1 i2
    have hb : (fs.map (·.block))[i]? = ((c.bp.take n).map (fun a => (⟨a, BASE⟩ : Block)))[i]? := by rw [h1]
    rw [List.getElem?_eq_getElem (by simpa using i1), List.getElem?_eq_getElem (by simpa using i2)] at hb
    simp only [List.getElem_map, Option.some.injEq] at hb ⊢
    have ha := h2 fs[i] (List.getElem_mem _)
    generalize fs[i] = f at *
    obtain ⟨b, z, a⟩ := f
    simp only [Frame.block, Block.mk.injEq] at hb
    simp only at ha
    rw [hb.1, hb.2, ha, BASE_eq]

theorem askCount_eq (cache : MCache) (size : Nat) :
    (if 0 < baseCount size - min cache.bp.length (baseCount size) then largeCount size + 1 else largeCount size) =
      askCount cache size := by
  unfold askCount missing
  by_cases h : baseCount size - cache.bp.length = 0
  · rw [if_pos h, if_neg (by omega)]
  · rw [if_neg h, if_pos (by omega)]

theorem baseCount_le (size : Nat) : baseCount size ≤ 512 := by unfold baseCount; omega

/-- What a call takes and leaves. -/
theorem mapPagesOf_cases {region : Nat → Option Frame} (c : Ctrl Resources) (o : Oracle) (l : Link) (hc : Conn l c)
    (me : Nat) (cache : MCache) (pid size : Nat) (hi : PageInv region c.world) (hw : cache.Wf)
    (hcap : cache.capB = 2048) (hnode : 12 ≤ cache.node) (hm : me < 2 ^ 64) (hp : pid < 2 ^ 64) (hs : size < 2 ^ 64)
    (res : Outcome (List Frame × List Frame × List Frame)) (c' : Ctrl Resources) (cache' : MCache)
    (he : mapPagesOf c o l me cache pid size = (res, c', cache')) :
    Kept region c.world c' ∧
    ((∃ fs, askCount cache size ≤ 508 ∧ Given c.world ((List.range (askCount cache size)).map o.mids) fs c'.world ∧
        res = .ok (fs.take (largeCount size), freshPages cache size fs, oldPages cache size) ∧
        cache' = { cache with bp := leftPages cache size fs }) ∨
      (res = .panic ∧ cache' = { cache with bp := cache.bp.drop (baseCount size) } ∧
        ¬ (askCount cache size ≤ 508 ∧
          ∃ fs w', Given c.world ((List.range (askCount cache size)).map o.mids) fs w'))) := by
  have hstp : Mem.sizeToPages size = (baseCount size, largeCount size) := VSpace.sizeToPages_eq size
  have htake := takeBase_exact cache hw (min cache.bp.length (baseCount size)) (Nat.min_le_left _ _)
  have e1 : cache.bp.take (min cache.bp.length (baseCount size)) = cache.bp.take (baseCount size) := by
    by_cases h : cache.bp.length ≤ baseCount size
    · rw [Nat.min_eq_left h, List.take_of_length_le (Nat.le_refl _), List.take_of_length_le h]
    · rw [Nat.min_eq_right (by omega)]
  have e2 : cache.bp.drop (min cache.bp.length (baseCount size)) = cache.bp.drop (baseCount size) := by
    by_cases h : cache.bp.length ≤ baseCount size
    · rw [Nat.min_eq_left h, List.drop_of_length_le (Nat.le_refl _), List.drop_of_length_le h]
    · rw [Nat.min_eq_right (by omega)]
  have e3 : baseCount size - min cache.bp.length (baseCount size) = missing cache size := by
    unfold missing; omega
  rw [e1, e2] at htake
  unfold mapPagesOf at he
  simp only [hstp, htake, askCount_eq] at he
  have hold : (cache.bp.take (baseCount size)).map (fun a => (⟨a, 4096, cache.node⟩ : Frame)) = oldPages cache size := rfl
  rw [hold] at he
  simp only [e3] at he
  by_cases h0 : askCount cache size = 0
  · rw [if_pos h0] at he
    cases he
    have hz : missing cache size = 0 ∧ largeCount size = 0 := by
      unfold askCount at h0
      split at h0 <;> omega
    refine ⟨⟨hi, hc.srv, fun _ h => h⟩, .inl ⟨[], by omega, by rw [h0]; exact .nil, ?_, ?_⟩⟩
    · simp [freshPages]
    · simp [leftPages]
  rw [if_neg h0] at he
  have hn : askCount cache size < 2 ^ 64 := by
    unfold askCount largeCount
    split <;> omega
  have hp' : ∀ p, some pid = some p → p < 2 ^ 64 := fun p h => by cases h; exact hp
  obtain ⟨g1, g2, g3⟩ := getFrames_eq c o l hc me (some pid) (askCount cache size) hm hp' (by omega) hn
  obtain ⟨k1, k2, k3⟩ := takePages_given ((List.range (askCount cache size)).map o.mids) c.world hi
  have hgr : grants o me (some pid) (askCount cache size) c.world =
    takePages ((List.range (askCount cache size)).map o.mids) c.world := rfl
  rw [hgr] at g1 g2 g3
  rcases k3 with k3 | ⟨fs, k3, k4⟩
  · obtain ⟨srv, s1, e⟩ := g1 k3
    simp only [e] at he
    cases he
    refine ⟨⟨k1, s1, k2⟩, .inr ⟨rfl, rfl, fun ⟨_, fs, w', h⟩ => ?_⟩⟩
    rw [h.take hi] at k3
    cases k3
  have hlen : fs.length = askCount cache size := by rw [k4.length]; simp
  obtain ⟨srv, s1, e⟩ := g3 fs k3 hlen (fun f hf => ((k4.facts hi).1 f hf).1)
  simp only [e] at he
  by_cases h508 : askCount cache size ≤ 508
  · simp only [h508, if_true] at he
    by_cases hmiss : missing cache size = 0
    · rw [if_pos hmiss] at he
      have hnone : fs[largeCount size]? = none := by
        rw [List.getElem?_eq_none_iff, hlen]
        unfold askCount; rw [if_pos hmiss]; exact Nat.le_refl _
      cases he
      refine ⟨⟨k1, s1, k2⟩, .inl ⟨fs, h508, k4, ?_, ?_⟩⟩
      · simp only [freshPages, hnone]
      · simp only [leftPages, hnone]
    · rw [if_neg hmiss] at he
      have hlt : largeCount size < fs.length := by
        rw [hlen]; unfold askCount; rw [if_neg hmiss]; omega
      have hsome : fs[largeCount size]? = some fs[largeCount size] := List.getElem?_eq_getElem hlt
      have hmem : fs[largeCount size] ∈ fs := List.getElem_mem hlt
      generalize fs[largeCount size] = f at hsome hmem
      obtain ⟨⟨f1, f2, f3, f4⟩, _, mid, g, m0, m16, f5, _⟩ := (k4.facts hi).1 f hmem
      have hb := baseCount_le size
      have hml : missing cache size ≤ 512 := by unfold missing; omega
      have hdrop : cache.bp.drop (baseCount size) = [] := by
        apply List.drop_of_length_le
        unfold missing at hmiss; omega
      simp only [hsome, pages_split f f1 f2] at he
      rw [if_neg (by rw [splitPage_length]; omega)] at he
      have hsp : MCache.spareBase { cache with bp := cache.bp.drop (baseCount size) } = 2048 := by
        unfold MCache.spareBase
        simp only [hdrop, hcap, List.length_nil]
      rw [hsp] at he
      have hrl : ((splitPage f).drop (missing cache size)).length ≤ 512 := by
        rw [List.length_drop, splitPage_length]; omega
      rw [Nat.min_eq_left (by omega), List.take_of_length_le (Nat.le_refl _)] at he
      rw [growBase_exact _ { cache with bp := cache.bp.drop (baseCount size) } hnode (by simp only [hdrop, hcap, List.length_nil]; omega) (by
        intro x hx
        obtain ⟨i, _, rfl⟩ := List.mem_map.1 (List.mem_of_mem_drop hx)
        refine ⟨BASE_eq.symm, ?_, by show 12 ≤ f.aff; omega⟩
        show (f.base + 4096 * i) % BASE = 0
        rw [LARGE_eq] at f2
        rw [BASE_eq]
        omega)] at he
      simp only at he
      cases he
      refine ⟨⟨k1, s1, k2⟩, .inl ⟨fs, h508, k4, ?_, ?_⟩⟩
      · simp only [freshPages, hsome]
      · simp only [leftPages, hsome, hdrop, List.append_nil]
  · simp only [h508, if_false] at he
    cases he
    exact ⟨⟨k1, s1, k2⟩, .inr ⟨rfl, rfl, fun h => h508 h.1⟩⟩

end NRK.Rack.Remote
