import Verif.VSpace.OplogProps

/-!
# C81: a sequence that meets the hypotheses, and the calls on which page tables and list differ
-/

namespace NRK.VSpace

open NRK.Mem (Frame)

/-- The right to read and write from user level. -/
def rw81 : MapAction := { MapAction.user with write := true }

/-- Base pages and large pages mapped, mapped again, in conflict, changed, looked up and unmapped. -/
def sample81 : List Action :=
  [.map 0x200000 ⟨0x1000, 4096, 0⟩ rw81, .map 0x200000 ⟨0x1000, 4096, 0⟩ rw81,
   .map 0x400000 ⟨0x600000, 2097152, 0⟩ MapAction.user, .map 0x401000 ⟨0x3000, 4096, 0⟩ rw81,
   .map 0x200000 ⟨0x800000, 2097152, 0⟩ rw81, .map 0x400000 ⟨0x600000, 4096, 0⟩ MapAction.user,
   .resolve 0x412345, .adjust 0x412000 rw81, .adjust 0x412345 rw81, .resolve 0x412345, .unmap 0x413000,
   .resolve 0x412345, .unmap 0x413000, .resolve 0x200fff, .resolve 0x201000]

theorem sample81_fits : ∀ o ∈ sample81, o.Fits := by
  intro o ho
  simp only [sample81, List.mem_cons, List.not_mem_nil, or_false] at ho
  rcases ho with rfl | rfl | rfl | rfl | rfl | rfl | rfl | rfl | rfl | rfl | rfl | rfl | rfl | rfl | rfl <;>
    simp [Action.Fits, PageSize, userTop, rw81, MapAction.user]

theorem sample81_noGrowth : NoGrowth [] sample81 := by
  simp only [sample81, NoGrowth, Action.Grows]
  decide +kernel

/-- The results of the sample: three kinds of success, a conflict, an address not mapped. -/
theorem sample81_results : (hwRun ⟨false, fun _ => false⟩ ⟨[], PML4.empty⟩ sample81) =
    [.map (.ok ()), .map (.ok ()), .map (.ok ()), .map (.err (.alreadyMapped 0x400000)),
     .map (.err (.alreadyMapped 0x200000)), .map (.err (.alreadyMapped 0x400000)),
     .resolve (.ok (0x612345, MapAction.user)), .adjust (.ok (0x400000, 2097152)), .adjust (.err .invalidBase),
     .resolve (.ok (0x612345, rw81)), .unmap (.ok ⟨0x400000, 0x600000, 2097152, rw81⟩),
     .resolve (.err .notMapped), .unmap (.err .notMapped), .resolve (.ok (0x1fff, rw81)),
     .resolve (.err .notMapped)] := by
  decide +kernel

example : (hwRun ⟨false, fun _ => false⟩ ⟨[], PML4.empty⟩ sample81).map Res.blur =
    (logRun [] sample81).map Res.blur :=
  c81_same_results_partial _ rfl _ (fun _ _ => rfl) _ sample81_fits sample81_noGrowth

/-- **C81** Witness: a growing request.  Both say `Ok`; the page behind is mapped in the list only. -/
theorem c81_growth :
    let os : List Action := [.map 0x200000 ⟨0x200000, 4096, 0⟩ rw81, .map 0x200000 ⟨0x200000, 2097152, 0⟩ rw81,
      .resolve 0x201000]
    hwRun ⟨false, fun _ => false⟩ ⟨[], PML4.empty⟩ os =
      [.map (.ok ()), .map (.ok ()), .resolve (.err .notMapped)] ∧
    logRun [] os = [.map (.ok ()), .map (.ok ()), .resolve (.ok (0x201000, rw81))] := by
  decide +kernel

/-- **C81** Witness: unmapping an address within a page that is not mapped is `NotMapped` if a mapping begins
below and `InvalidBase` in the list. -/
theorem c81_unaligned_unmap :
    let os : List Action := [.map 0x200000 ⟨0x200000, 4096, 0⟩ rw81, .unmap 0x300001]
    hwRun ⟨false, fun _ => false⟩ ⟨[], PML4.empty⟩ os = [.map (.ok ()), .unmap (.err .notMapped)] ∧
    logRun [] os = [.map (.ok ()), .unmap (.err .invalidBase)] := by
  decide +kernel

/-- **C81** Witness: rights that say "not present" or "not cached" are not kept by the page tables. -/
theorem c81_rights :
    let os : List Action := [.map 0x200000 ⟨0x200000, 4096, 0⟩ MapAction.none, .resolve 0x200000,
      .map 0x400000 ⟨0x200000, 4096, 0⟩ { rw81 with notCached := true }, .resolve 0x400000]
    hwRun ⟨false, fun _ => false⟩ ⟨[], PML4.empty⟩ os =
      [.map (.ok ()), .resolve (.ok (0x200000, MapAction.user)), .map (.ok ()), .resolve (.ok (0x200000, rw81))] ∧
    logRun [] os =
      [.map (.ok ()), .resolve (.ok (0x200000, MapAction.none)), .map (.ok ()),
       .resolve (.ok (0x200000, { rw81 with notCached := true }))] := by
  decide +kernel

/-- **C81** Witness: a frame of two pages is unmapped page by page. -/
theorem c81_other_sizes :
    let os : List Action := [.map 0x200000 ⟨0x200000, 8192, 0⟩ rw81, .unmap 0x200000, .resolve 0x201000]
    hwRun ⟨false, fun _ => false⟩ ⟨[], PML4.empty⟩ os =
      [.map (.ok ()), .unmap (.ok ⟨0x200000, 0x200000, 4096, rw81⟩), .resolve (.ok (0x201000, rw81))] ∧
    logRun [] os =
      [.map (.ok ()), .unmap (.ok ⟨0x200000, 0x200000, 8192, rw81⟩), .resolve (.err .notMapped)] := by
  decide +kernel

/-- The hypotheses of `c81_growth_always_differs` and of `c81_conflict_addresses` are met after the first action of
the samples. -/
example : (Action.map 0x200000 ⟨0x200000, 2097152, 0⟩ rw81).Grows
    (logAfter [] [.map 0x200000 ⟨0x200000, 4096, 0⟩ rw81]) ∧
    (logStep (logAfter [] [.map 0x200000 ⟨0x200000, 4096, 0⟩ rw81])
      (.map 0x200000 ⟨0x200000, 2097152, 0⟩ rw81)).2 = .map (.ok ()) ∧
    (hwStep ⟨false, fun _ => false⟩ (hwAfter ⟨false, fun _ => false⟩ ⟨[], PML4.empty⟩
      [.map 0x200000 ⟨0x200000, 4096, 0⟩ rw81]) (.map 0x200000 ⟨0x1000, 4096, 0⟩ rw81)).2 =
      .map (.err (.alreadyMapped 0x200000)) := by
  unfold Action.Grows
  decide +kernel

end NRK.VSpace
