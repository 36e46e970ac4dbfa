import Verif.Mem.PmemProps

/-!
# C105: concrete cases
-/

namespace NRK.Mem.Pmem

open NRK.Mem.Spec NRK.Mem.Pmem.Spec

/-- Insert a frame before the first one of a later node. -/
def insertNode (f : Frame) : List Frame → List Frame
  | [] => [f]
  | g :: l => if f.aff ≤ g.aff then f :: g :: l else g :: insertNode f l

/-- Sorting by insertion. -/
def sortNodes : List Frame → List Frame
  | [] => []
  | f :: l => insertNode f (sortNodes l)

theorem insertNode_perm (f : Frame) : ∀ l, (insertNode f l).Perm (f :: l)
  | [] => .refl _
  | g :: l => by
    unfold insertNode
    split
    · exact .refl _
    · exact ((insertNode_perm f l).cons g).trans (.swap f g l)

theorem insertNode_sorted (f : Frame) : ∀ l : List Frame, l.Pairwise (fun a b => a.aff ≤ b.aff) →
    (insertNode f l).Pairwise (fun a b => a.aff ≤ b.aff)
  | [], _ => by simp [insertNode]
  | g :: l, h => by
    obtain ⟨h1, h2⟩ := List.pairwise_cons.1 h
    unfold insertNode
    split
    · rename_i hle
      refine List.pairwise_cons.2 ⟨fun x hx => ?_, h⟩
      rcases List.mem_cons.1 hx with rfl | hx
      · exact hle
      · have := h1 x hx
        omega
    · refine List.pairwise_cons.2 ⟨fun x hx => ?_, insertNode_sorted f l h2⟩
      rcases List.mem_cons.1 ((insertNode_perm f l).mem_iff.1 hx) with rfl | hx
      · omega
      · exact h1 x hx

theorem sortNodes_ok : Sorts sortNodes := by
  intro l
  induction l with
  | nil => exact ⟨.refl _, .nil⟩
  | cons f l ih => exact ⟨(insertNode_perm f _).trans (ih.1.cons f), insertNode_sorted f _ ih.2⟩

/-- Two NVDIMMs, the first of node 1, and a region of another type. -/
def dimms : List Region := [⟨0x180000000, 2048, true⟩, ⟨0x100000000, 2048, true⟩, ⟨0x1000, 4, false⟩]

def nodes : List NumaRange := [⟨0x100000000, 0x180000000, 0⟩, ⟨0x180000000, 0x200000000, 1⟩]

theorem BASE_val : BASE = 4096 := BASE_eq

/-- They meet the hypotheses, are mapped twice each and sorted by node. -/
theorem c105_case : AllDisjoint ((Persistent dimms).map Region.block) ∧
    nodes.Pairwise (fun a b => ∀ x, ¬ (a.Has x ∧ b.Has x)) ∧
    (∀ r ∈ Persistent dimms, r.start ≠ 0 ∧ ¬ ReachesApic r.block) ∧
    initPmem sortNodes nodes dimms = .ok
      ([⟨0x400100000000, 0x100000000, 0x800000⟩, ⟨0x100000000, 0x100000000, 0x800000⟩,
        ⟨0x400180000000, 0x180000000, 0x800000⟩, ⟨0x180000000, 0x180000000, 0x800000⟩],
       [⟨0x100000000, 0x800000, 0⟩, ⟨0x180000000, 0x800000, 1⟩]) := by
  refine ⟨?_, ?_, ?_, by decide +kernel⟩
  · simp only [dimms, Persistent, List.filter, List.map, AllDisjoint, Region.block, BASE_val]
    refine List.pairwise_cons.2 ⟨?_, List.pairwise_cons.2 ⟨by simp, List.Pairwise.nil⟩⟩
    intro b hb
    rw [List.mem_singleton] at hb
    subst hb
    exact disjoint_of_ge (by simp)
  · refine List.pairwise_cons.2 ⟨?_, List.pairwise_cons.2 ⟨by simp, List.Pairwise.nil⟩⟩
    intro n hn x
    rw [List.mem_singleton] at hn
    subst hn
    simp only [NumaRange.Has]
    omega
  · intro r hr
    have : r = ⟨0x180000000, 2048, true⟩ ∨ r = ⟨0x100000000, 2048, true⟩ := by
      simpa [Persistent, dimms] using hr
    rcases this with rfl | rfl <;> simp [ReachesApic, Region.block, BASE_val]

/-- The memory manager can be built from them. -/
theorem c105_case_boot : (match bootPmem false sortNodes nodes dimms with
    | .ok (_, some g) => g.caches.length == 2
    | _ => false) = true := by
  decide +kernel

/-- 8 MiB that end where the interrupt controller's page starts: managed, not mapped. -/
theorem c105_not_mapped_case : initPmem sortNodes [] [⟨0xfe600000, 2048, true⟩] = .ok ([], [⟨0xfe600000, 0x800000, 0⟩]) ∧
    ReachesApic (⟨0xfe600000, 0x800000⟩ : Block) := by
  refine ⟨by decide +kernel, by simp [ReachesApic]⟩

/-- With NUMA information, a region that starts at 0 stops the boot. -/
theorem c105_zero_case : initPmem sortNodes [⟨0, 0x80000000, 0⟩] [⟨0, 2048, true⟩] = .panic := by
  decide +kernel

end NRK.Mem.Pmem
