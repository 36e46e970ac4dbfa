import Verif.Start.Props

/-! # C91: cases that meet the hypotheses, and what the code does not do -/

namespace NRK.Start

/-- Process 1 with thread-local storage, `initargs=4`. -/
def info1 : Info := ⟨1, true, 0x20_0000_5000, 64, 128, 16, [52], [45, 45, 120, 61, 49]⟩

theorem info1_ok : info1.Ok := by constructor <;> decide

theorem info1_told : processInfo true info1 = .ok info1 ∧ infoSize info1 = 103 :=
  ⟨c91_info_partial true info1 info1_ok (by decide), by decide +kernel⟩

/-- A command line of 169 bytes ends the program. -/
theorem info_long : processInfo false { info1 with appCmdline := List.replicate 168 97 } = .panic :=
  c91_long_cmdline false _ (by constructor <;> decide +kernel) (by decide +kernel)

/-- Two threads of machine 3. -/
def hw2 : List HwThread := [⟨0, some 0, 0, 0, 0⟩, ⟨1, none, 0, 1, 0⟩]

theorem hw2_told : threads true 0x7000 2 3 hw2
    = .ok [⟨3 * 2 ^ 32, 0, 0, 0, 0⟩, ⟨3 * 2 ^ 32 + 1, 0, 0, 1, 0⟩] := by
  rw [c91_threads_partial true _ _ 3 hw2 (by
    intro h hm
    simp only [hw2, List.mem_cons, List.not_mem_nil, or_false] at hm
    rcases hm with rfl | rfl <;> constructor <;> decide) (by decide)]
  decide

theorem rack2_told : rackThreads false 0x7000 2 (hw2.map (HwThread.told 1) ++ hw2.map (HwThread.told 2))
    = .ok (.ok [⟨2 ^ 32, 0, 0, 0, 0⟩, ⟨2 ^ 32 + 1, 0, 0, 1, 0⟩, ⟨2 * 2 ^ 32, 0, 0, 0, 0⟩, ⟨2 * 2 ^ 32 + 1, 0, 0, 1, 0⟩]) := by
  rw [c91_rack_partial false _ _ _ (by
    intro t hm
    simp only [hw2, List.map_cons, List.map_nil, List.cons_append, List.nil_append, List.mem_cons, List.not_mem_nil,
      or_false] at hm
    rcases hm with rfl | rfl | rfl | rfl <;> constructor <;> decide) (by decide)]
  decide

/-- 12 is written `1 2`. -/
theorem twelve : IsDecimal 12 [49, 50] := by
  refine ⟨by simp, ?_, by decide⟩
  intro b hb
  simp only [List.mem_cons, List.not_mem_nil, or_false] at hb
  rcases hb with rfl | rfl <;> decide

/-- `initargs=2` on a machine with four threads, started on thread 1. -/
theorem cores2 : startCores (fun t => some t) 1 [0, 1, 2, 3] [50] = .ok [1, 0] := by decide +kernel

theorem cores2_hyp : IsDecimal 2 [50] ∧ (1 : Nat) ∈ [0, 1, 2, 3] ∧ [0, 1, 2, 3].Nodup :=
  ⟨⟨by simp, by intro b hb; simp only [List.mem_cons, List.not_mem_nil, or_false] at hb; subst hb; decide, by decide⟩,
    by decide, by decide⟩

/-- More cores than there are: the program ends. -/
theorem cores9 : startCores (fun t => some t) 1 [0, 1, 2, 3] [57] = .panic := by decide +kernel

/-- The benchmark's `appcmd='create dbfarm'` arrives as `dbfarm create`. -/
theorem c91_args_reversed :
    startArgs [99, 114, 101, 97, 116, 101, 32, 100, 98, 102, 97, 114, 109]
      = .ok [binName, [100, 98, 102, 97, 114, 109], [99, 114, 101, 97, 116, 101]]
    ∧ words [99, 114, 101, 97, 116, 101, 32, 100, 98, 102, 97, 114, 109]
      = [[99, 114, 101, 97, 116, 101], [100, 98, 102, 97, 114, 109]] := by
  decide +kernel

/-- Without arguments the program gets one, which is empty. -/
theorem c91_no_args : startArgs [] = .ok [binName, []] := by decide

end NRK.Start
