import Verif.Rump.VcpuProps

/-!
# Cases that meet the hypotheses of C101
-/

namespace NRK.Rump.Vcpu
open Spec

/-- The mutex of a condition variable in the rump kernel. -/
def mtx : Mutex := Mutex.init 7 3

/-- A thread with the big lock three times and two mutexes waits on a condition variable, spins twice for the mutex, and
has all of it back. -/
example : ∃ l, (Call.cvWait mtx false 2).acts = .ok l ∧
    (⟨some 3, 0, [5, 7]⟩ : Th).acts l = .ok ⟨some 3, 3, [7, 5]⟩ ∧
    (.block, ⟨none, 3, [5]⟩) ∈ (⟨some 3, 0, [5, 7]⟩ : Th).trace l := ⟨_, rfl, by decide, by decide⟩

/-- The hypotheses of `c101_back`, `c101_gives_up`, `c101_cv`. -/
example : Allowed [5, 7] (.cvWait mtx true 4) ∧ ∃ l, (Call.cvWait mtx true 4).acts = .ok l :=
  ⟨by show 7 ∈ [5, 7]; decide, _, rfl⟩

/-- A writer that has to wait for both mutexes of a reader-writer lock. -/
example : ∃ l, (Call.rwEnter 1 2 true true true).acts = .ok l ∧
    (⟨some 1, 9, []⟩ : Th).acts l = .ok ⟨some 1, 1, [2]⟩ ∧
    ((⟨some 1, 9, []⟩ : Th).trace l).countP (fun p => p.1 = .block) = 2 := ⟨_, rfl, by decide, by decide⟩

/-- Three interrupts. -/
example : ((⟨none, 0, []⟩ : Th).trace (irqThread 3)).countP (fun p => p.1 = .handler ∧ p.2.cpu = some 1) = 3 := by decide

/-- One virtual CPU, two threads: thread 1 waits for the virtual CPU that thread 0 has ... -/
def busy : Sys where
  free := 0
  th := upd (upd (upd (fun _ => ⟨none, 0, []⟩) 0 ⟨none, 0, []⟩) 0 ⟨some 0, 0, []⟩) 1 ⟨none, 0, []⟩
  todo := upd (upd (upd (upd (upd (fun _ => []) 0 [.setRid 0, .sched none]) 0 [.sched none]) 0 []) 1
    [.setRid 0, .sched none]) 1 [.sched none]

theorem busy_reach : Reach 2 1 busy := by
  have h0 : Reach 2 1 (Sys.init 1) := .init
  have h1 := Reach.step h0 (.enter _ 0 (by omega) rfl rfl)
  have h2 := Reach.step h1 (.act _ 0 (.setRid 0) [.sched none] ⟨none, 0, []⟩ (by omega) rfl rfl (fun i h => by cases h))
  have h3 := Reach.step h2 (.act _ 0 (.sched none) [] ⟨some 0, 0, []⟩ (by omega) rfl rfl (fun _ _ => Nat.one_pos))
  have h4 := Reach.step h3 (.enter _ 1 (by omega) rfl rfl)
  have h5 := Reach.step h4 (.act _ 1 (.setRid 0) [.sched none] ⟨none, 0, []⟩ (by omega) rfl rfl (fun i h => by cases h))
  exact h5

/-- ... which is the case of `c101_some_runs`. -/
theorem c101_busy : Reach 2 1 busy ∧ busy.free = 0 ∧ busy.todo 1 = [.sched none] ∧ running busy 2 = 1 :=
  ⟨busy_reach, rfl, rfl, by decide⟩

/-- ... and goes on when thread 0 sleeps. -/
theorem c101_sleep_lets_run : ∃ s, Reach 2 1 s ∧ s.todo 0 = [.sleep, .sched none] ∧ (s.th 0).cpu = none ∧
    (s.th 1).cpu = some 0 := by
  have h1 := Reach.step busy_reach (.call _ 0 (.clockSleep false false) _ (by omega) rfl (by decide) rfl)
  have h2 := Reach.step h1 (.act _ 0 (.setRid 0) [.unsched 0 none, .sleep, .sched none] ⟨some 0, 0, []⟩ (by omega) rfl rfl
    (fun i h => by cases h))
  have h3 := Reach.step h2 (.act _ 0 (.unsched 0 none) [.sleep, .sched none] ⟨none, 0, []⟩ (by omega) rfl rfl
    (fun i h => by cases h))
  have h4 := Reach.step h3 (.act _ 1 (.sched none) [] ⟨some 0, 0, []⟩ (by omega) rfl rfl (fun _ _ => Nat.one_pos))
  exact ⟨_, h4, rfl, rfl, rfl⟩

end NRK.Rump.Vcpu
