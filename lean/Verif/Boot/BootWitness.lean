import Verif.Boot.BootProps

/-!
# A kernel and a machine for C80
-/

namespace NRK.Boot

open NRK.VSpace (PML4)
open NRK.Load (Reloc)
open Spec

/-- A kernel with code, constants and variables that need a relocation. -/
def sampleKernel : List Seg :=
  [⟨0, 4096, 4096, true, false, true, [0x90, 0xc3]⟩,
   ⟨4096 + 16, 100, 4096, true, false, false, [1, 2, 3]⟩,
   ⟨8192, 5000, 2097152, true, true, false, [7]⟩]

def sampleRelocs : List Reloc := [⟨8192 + 8, true, 4096 + 16⟩]

/-- UEFI's answers and its memory map: usable memory at 1 MiB, the image at 16 MiB, the stack, a module. -/
def sampleMap : List Entry :=
  [⟨.conventional, 0x100000, 0x100⟩, ⟨.kernelElf, 0x1001000, 0x205⟩, ⟨.kernelStack, 0x2000000, 1024⟩,
   ⟨.module, 0x3000000, 16⟩, ⟨.conventional, 0xfed00000, 0x100⟩, ⟨.reserved, 0xfef00000, 1⟩]

theorem sample_top : topPage sampleKernel = 4 ∧ topAlign sampleKernel = 2097152 := by decide +kernel

theorem sample_place : placeOf sampleKernel 0x1001000 = 0x1200000 := by decide +kernel

theorem sampleKernel_good : GoodKernel sampleKernel sampleRelocs where
  readable := by decide +kernel
  filled := by decide +kernel
  apart := by decide +kernel
  from_zero := by decide +kernel
  aligned := by
    intro h hh
    right
    simp only [sampleKernel, List.mem_cons, List.not_mem_nil, or_false] at hh
    rcases hh with rfl | rfl | rfl
    · exact ⟨12, by decide, rfl⟩
    · exact ⟨12, by decide, rfl⟩
    · exact ⟨21, by decide, rfl⟩
  page_aligned := by decide +kernel
  relative := by decide +kernel
  inside := by decide +kernel

theorem sampleMachine_good : GoodMachine sampleKernel 0x1001000 0x2000000 sampleMap where
  raw_page := rfl
  raw_low := by decide +kernel
  stack_page := rfl
  stack_low := by decide +kernel
  stack_apart := by unfold Apart; decide +kernel
  entry := by decide +kernel
  entries_apart := by unfold Apart; decide +kernel
  not_image := by unfold Apart; decide +kernel

/-- What the theorem says about this machine: the relocated pointer, the code and a byte of the module. -/
example (m : NRK.Load.Mem) : ∃ k, boot true sampleKernel sampleRelocs 0x1001000 0x2000000 sampleMap m = .ok k ∧
    k.pbase = 0x1200000 ∧
    view k.t (2 ^ 46 + 0x1200000) = some ⟨0x1200000, false, true⟩ ∧
    k.mem 0x1200001 = 0xc3 ∧
    (List.range 8).map (fun i => k.mem (0x1202008 + i)) = [0x10, 0x10, 0x20, 0x01, 0x00, 0x40, 0, 0] ∧
    view k.t (2 ^ 46 + 0x3000005) = some ⟨0x3000005, false, false⟩ ∧
    view k.t 0xfed00000 = none := by
  obtain ⟨k, h1, h2, _, _, _, h3, h4, _, _⟩ := c80_boot_partial true sampleKernel sampleRelocs 0x1001000
    0x2000000 sampleMap m sampleKernel_good sampleMachine_good
  rw [sample_place] at h2
  refine ⟨k, h1, h2, ?_, ?_, ?_, ?_, ?_⟩
  · rw [h3 _ (by decide)]; decide +kernel
  · have := (h4 ⟨0, 4096, 4096, true, false, true, [0x90, 0xc3]⟩ (by decide +kernel) 1 (by decide) (by decide)).2
    rw [h2] at this
    rw [this]; decide +kernel
  · have key : ∀ i, i < 8 → k.mem (0x1202008 + i) =
        image (2 ^ 46 + 0x1200000) sampleKernel sampleRelocs (0x2008 + i) := by
      intro i hi
      have := (h4 ⟨8192, 5000, 2097152, true, true, false, [7]⟩ (by decide +kernel) (0x2008 + i)
        (Nat.le_trans (by decide) (Nat.le_add_right _ _))
        (Nat.lt_trans (Nat.add_lt_add_left hi _) (by decide))).2
      rw [h2, ← Nat.add_assoc] at this
      exact this
    have e : (List.range 8).map (fun i => k.mem (0x1202008 + i)) =
        (List.range 8).map fun i => image (2 ^ 46 + 0x1200000) sampleKernel sampleRelocs (0x2008 + i) := by
      apply List.map_congr_left
      intro i hi
      exact key i (List.mem_range.1 hi)
    rw [e]; decide +kernel
  · rw [h3 _ (by decide)]; decide +kernel
  · rw [h3 _ (by decide)]; decide +kernel

/-- `c80_left_out` on the region below the APIC. -/
example (m : NRK.Load.Mem) : ∃ k, boot true sampleKernel sampleRelocs 0x1001000 0x2000000 sampleMap m = .ok k ∧
    view k.t 0xfed00010 = none := by
  obtain ⟨k, h1, h2⟩ := c80_left_out true sampleKernel sampleRelocs 0x1001000 0x2000000 sampleMap m
    sampleKernel_good sampleMachine_good ⟨.conventional, 0xfed00000, 0x100⟩ (by decide +kernel)
    (Or.inr ⟨by decide, by decide⟩)
  exact ⟨k, h1, h2 _ (by decide) (by decide)⟩

/-- Two segments on one page, as linkers make them. -/
example (m : NRK.Load.Mem) : boot false
    [⟨0, 0x1800, 4096, true, false, true, []⟩, ⟨0x1800, 0x800, 4096, true, true, false, []⟩] []
    0x1000000 0x2000000 [] m = .panic :=
  c80_shared_page_panics _ _ _ _ _ _ _ _ rfl (by decide) (by decide) rfl rfl (by decide +kernel)
    (by decide +kernel) rfl (by decide +kernel)

/-- A second mapping over a part of the first one is not refused: only the first slot is looked at, and the
mapping of the others is replaced (the comment in the code promises a panic). -/
def overwritten : Outcome (Option View × Option View) :=
  (mapRange PML4.empty 2097152 0x40000000 2097152 .readKernel).bind fun t =>
    (mapRange t 0 0x80000000 4194304 .readWriteKernel).map fun t' => (view t 2097152, view t' 2097152)

theorem c80_overwrites :
    overwritten = .ok (some ⟨0x40000000, false, false⟩, some ⟨0x80200000, true, false⟩) := by decide +kernel

end NRK.Boot
