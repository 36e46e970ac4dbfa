import Verif.Proc.DispatchProps
import Verif.Proc.ProcWitness

/-!
# Concrete executions for C100: where the code falls short, and cases that meet the hypotheses
-/

namespace NRK.Proc

open NRK.VSpace NRK.Mem NRK.Mem.Spec NRK.Proc.Spec

/-- A sequence of actions; `none` if one stops the kernel. -/
def acts (g : DCfg) : List Act → Sys → Option Sys
  | [], s => some s
  | a :: l, s => if (s.act g a).2 = .panic then none else acts g l (s.act g a).1

theorem acts_run {g : DCfg} : ∀ (l : List Act) (h : DHist) (s s' : Sys), DRun g h s → acts g l s = some s' →
    ∃ h', DRun g h' s' ∧ DLater g s s' := by
  intro l
  induction l with
  | nil => intro h s s' r e; cases e; exact ⟨h, r, DLater.refl _⟩
  | cons a l ih =>
    intro h s s' r e
    unfold acts at e
    split at e
    · cases e
    · rename_i ho
      obtain ⟨h', r', l'⟩ := ih _ _ s' (r.act a rfl ho) e
      refine ⟨h', r', ?_⟩
      clear ih e r'
      induction l' with
      | refl => exact DLater.act a (DLater.refl _) rfl ho
      | act b l2 hs ho' ih => exact DLater.act b (ih) hs ho'

/-- One core on node 0 and the others on node 1. -/
def exD (n : Nat) : DCfg where
  env := exEnv
  ncores := n + 1
  nodeOf := fun c => if c = 0 then 0 else 1
  main := fun c => decide (c ≤ 1)
  root := fun pid n => 0x100000 * (pid + 1) + 0x1000 * n
  elf := fun pid => 0x400000 + pid

def exBoot : Sys := Sys.boot (fun _ => PML4.empty) (fun _ => 0x2100000000) (fun _ => 0)

/-- The kernel starts a program on core 0, whose scheduler makes executors and runs it. -/
def exSpawn : List Act :=
  [.spawn 0 false false, .step 0 none false, .step 0 none false, .step 0 (some 0x800000) false,
   .step 0 none false, .step 0 none false]

/-- A core looks for work and gets to user mode, with an executor made before. -/
def exJoin (c : Nat) : List Act := [.step c none false, .step c none false]

/-- The first program asks for core 1, which makes executors and runs at the address it was told. -/
def exGrow : List Act := exSpawn ++ [.request 0 1 0x5000 false, .step 1 none false, .step 1 none false,
  .step 1 (some 0xa00000) false, .step 1 none false, .step 1 none false]

theorem acts_reach {g : DCfg} (l : List Act) (P : Sys → Bool) (h : ((acts g l exBoot).any P) = true) :
    ∃ hist s, DRun g hist s ∧ P s = true := by
  cases e : acts g l exBoot with
  | none => rw [e] at h; cases h
  | some s =>
    rw [e] at h
    obtain ⟨h', r, _⟩ := acts_run l [] exBoot s (DRun.boot _ _ _) e
    exact ⟨h', s, r, h⟩

/-- The two cores of the program run it, with what they should start with. -/
example : (acts (exD 2) exGrow exBoot).map (fun s => (s.cores 0, s.cores 1, (s.cores 2).at_)) =
    some (⟨.user, some (0, Executor.new 9 0x9b9000 0x21001b9000 0), 0x100000,
        some ⟨0x400000, 0x21001d0ff8, (0, 0, 0)⟩⟩,
      ⟨.user, some (0, Executor.new 19 0xbb9000 0x21003b9000 1), 0x101000,
        some ⟨0x5000, 0x21003d0ff8, (0x21003e9000, 0x99, 1)⟩⟩, .sched) := by decide +kernel

/-- `c100_starts`, `c100_schedules_partial` and `c100_making` have cases: cores that were told what to run,
with and without executors for their node, and that make executors. -/
example : ∃ h s, DRun (exD 2) h s ∧ (s.cores 2).at_ = .found ⟨0, 0x6000⟩ ∧
    (((s.procs 0).cache 1).getD []).length = 9 ∧ (nodeCores (exD 2) 1).length = 2 := by
  obtain ⟨h, s, r, q⟩ := acts_reach (g := exD 2) (exGrow ++ [.request 1 2 0x6000 false, .step 2 none false])
    (fun s => decide ((s.cores 2).at_ = .found ⟨0, 0x6000⟩) &&
      decide ((((s.procs 0).cache 1).getD []).length = 9)) (by decide +kernel)
  rw [Bool.and_eq_true] at q
  exact ⟨h, s, r, of_decide_eq_true q.1, of_decide_eq_true q.2, by decide +kernel⟩

example : ∃ h s, DRun (exD 2) h s ∧ (s.cores 0).at_ = .alloc ⟨0, INVALID_START⟩ 0 := by
  obtain ⟨h, s, r, q⟩ := acts_reach (g := exD 2) (exSpawn.take 3)
    (fun s => decide ((s.cores 0).at_ = .alloc ⟨0, INVALID_START⟩ 0)) (by decide +kernel)
  exact ⟨h, s, r, of_decide_eq_true q⟩

/-! ## What goes wrong -/

/-- **C100** A process releases a core; the table has no entry for it, but the core goes on running the
process. -/
theorem c100_released_runs : ∃ h s e, DRun (exD 2) h s ∧ s.node.sched 1 = none ∧
    (s.cores 1).at_ = .user ∧ (s.cores 1).cur = some (0, e) := by
  obtain ⟨h, s, r, q⟩ := acts_reach (g := exD 2) (exGrow ++ [.release 0 1])
    (fun s => decide (s.node.sched 1 = none) && decide ((s.cores 1).at_ = .user) &&
      decide ((s.cores 1).cur = some (0, Executor.new 19 0xbb9000 0x21003b9000 1))) (by decide +kernel)
  rw [Bool.and_eq_true, Bool.and_eq_true] at q
  exact ⟨h, s, _, r, of_decide_eq_true q.1.1, of_decide_eq_true q.1.2, of_decide_eq_true q.2⟩

/-- **C100** Then another process asks for the core and is told that it has it; the core runs the first
process for ever. -/
theorem c100_other_never_runs : ∃ h s, DRun (exD 2) h s ∧ s.node.sched 1 = some ⟨1, 0x7000⟩ ∧
    ∀ s', DLater (exD 2) s s' → (s'.cores 1).at_ = .user ∧ ∃ e, (s'.cores 1).cur = some (0, e) := by
  obtain ⟨h, s, r, q⟩ := acts_reach (g := exD 2) (exGrow ++ [.spawn 2 false false, .step 2 none false,
      .step 2 none false, .step 2 (some 0xc00000) false, .step 2 none false, .step 2 none false,
      .release 0 1, .request 2 1 0x7000 false])
    (fun s => decide (s.node.sched 1 = some ⟨1, 0x7000⟩) && decide ((s.cores 1).at_ = .user) &&
      decide ((s.cores 1).cur = some (0, Executor.new 19 0xbb9000 0x21003b9000 1))) (by decide +kernel)
  rw [Bool.and_eq_true, Bool.and_eq_true] at q
  refine ⟨h, s, r, of_decide_eq_true q.1.1, ?_⟩
  intro s' l
  obtain ⟨h1, h2, _⟩ := c100_release r 1 0 _ (of_decide_eq_true q.1.2) (of_decide_eq_true q.2) l
  exact ⟨h1, _, h2⟩

/-- **C100** On a node with 12 cores, one core makes the first 10 executors, 10 others take them, and the
next one that asks stops the kernel, before the first one made more. -/
theorem c100_exhausted : (nodeCores (exD 12) 1).length = 12 ∧
    ∃ h s, DRun (exD 12) h s ∧ (s.cores 12).at_ = .found ⟨0, 0x5000⟩ ∧
      (s.cores 1).at_ = .alloc ⟨0, 0x5000⟩ 10 ∧ (s.act (exD 12) (.step 12 none false)).2 = .panic := by
  refine ⟨by decide +kernel, ?_⟩
  obtain ⟨h, s, r, q⟩ := acts_reach (g := exD 12) (exSpawn ++
      ([1, 2, 3, 4, 5, 6, 7, 8, 9, 10, 11, 12].map fun t => .request 0 (BitVec.ofNat 64 t) 0x5000 false) ++
      [.step 1 none false, .step 1 none false, .step 1 (some 0xa00000) false] ++
      ([2, 3, 4, 5, 6, 7, 8, 9, 10, 11].flatMap exJoin) ++ [.step 12 none false])
    (fun s => decide ((s.cores 12).at_ = .found ⟨0, 0x5000⟩) &&
      decide ((s.cores 1).at_ = .alloc ⟨0, 0x5000⟩ 10) &&
      decide ((s.act (exD 12) (.step 12 none false)).2 = .panic)) (by decide +kernel)
  rw [Bool.and_eq_true, Bool.and_eq_true] at q
  exact ⟨h, s, r, of_decide_eq_true q.1.1, of_decide_eq_true q.1.2, of_decide_eq_true q.2⟩

/-- **C100** A core that is requested with the address `0xdeadffff` does not start there, but at the entry
point of the program. -/
theorem c100_magic_address : ∃ h s l, DRun (exD 2) h s ∧ Granted h 1 0 0xdeadffff ∧
    (∃ e, (s.cores 1).cur = some (0, e)) ∧ (s.cores 1).launch = some l ∧ l.entry = 0x400000 := by
  obtain ⟨h, s, r, q⟩ := acts_reach (g := exD 2) (exSpawn ++ [.request 0 1 0xdeadffff false,
      .step 1 none false, .step 1 none false, .step 1 (some 0xa00000) false, .step 1 none false,
      .step 1 none false])
    (fun s => decide ((s.cores 1).launch = some ⟨0x400000, 0x21003d0ff8, (0, 0, 0)⟩) &&
      decide ((s.cores 1).cur = some (0, Executor.new 19 0xbb9000 0x21003b9000 1)) &&
      decide (s.node.sched 1 = some ⟨0, 0xdeadffff⟩)) (by decide +kernel)
  rw [Bool.and_eq_true, Bool.and_eq_true] at q
  exact ⟨h, s, _, r, r.inv.table 1 _ (of_decide_eq_true q.2), ⟨_, of_decide_eq_true q.1.2⟩,
    of_decide_eq_true q.1.1, rfl⟩

/-- **C100** A system call with a core number that has the machine's part set is accepted by the check for
the topology, and stops the kernel. -/
theorem c100_machine_part : ∃ h s, DRun (exD 2) h s ∧ (s.cores 0).at_ = .user ∧
    (s.act (exD 2) (.request 0 (newGtid 1 1) 0x5000 false)).2 = .panic ∧
    (s.act (exD 2) (.release 0 (newGtid 1 1))).2 = .panic := by
  obtain ⟨h, s, r, q⟩ := acts_reach (g := exD 2) exSpawn
    (fun s => decide ((s.cores 0).at_ = .user) &&
      decide ((s.act (exD 2) (.request 0 (newGtid 1 1) 0x5000 false)).2 = .panic) &&
      decide ((s.act (exD 2) (.release 0 (newGtid 1 1))).2 = .panic)) (by decide +kernel)
  rw [Bool.and_eq_true, Bool.and_eq_true] at q
  exact ⟨h, s, r, of_decide_eq_true q.1.1, of_decide_eq_true q.1.2, of_decide_eq_true q.2⟩

/-- **C100** A process that maps memory of its own where the kernel will put the next executors, and then
asks for a core on another node, stops the kernel. -/
theorem c100_place_taken : ∃ h s, DRun (exD 2) h s ∧ (s.cores 1).at_ = .alloc ⟨0, 0x5000⟩ 0 ∧
    ∀ oom, (s.act (exD 2) (.step 1 (some 0xa00000) oom)).2 = .panic := by
  obtain ⟨h, s, r, q⟩ := acts_reach (g := exD 2) (exSpawn ++ [.other 0 (.allocFrame ⟨0xe00000, 2097152, 0⟩),
      .other 0 (.mapFrameId 0x2100200000 0 idRights false false), .request 0 1 0x5000 false,
      .step 1 none false, .step 1 none false])
    (fun s => decide ((s.cores 1).at_ = .alloc ⟨0, 0x5000⟩ 0) &&
      decide ((s.act (exD 2) (.step 1 (some 0xa00000) false)).2 = .panic) &&
      decide ((s.act (exD 2) (.step 1 (some 0xa00000) true)).2 = .panic)) (by decide +kernel)
  rw [Bool.and_eq_true, Bool.and_eq_true] at q
  refine ⟨h, s, r, of_decide_eq_true q.1.1, ?_⟩
  intro oom
  cases oom
  · exact of_decide_eq_true q.1.2
  · exact of_decide_eq_true q.2

/-- **C100** An idle core that is asked for progress of the file system's replicas is lost: a process that
then requests it is told that it has it, but it never runs there. -/
theorem c100_idle_core_lost : ∃ h s, DRun (exD 2) h s ∧ s.node.sched 2 = some ⟨0, 0x6000⟩ ∧
    ∀ s', DLater (exD 2) s s' → (s'.cores 2).at_ = .gc := by
  obtain ⟨h, s, r, q⟩ := acts_reach (g := exD 2) (exSpawn ++ [.step 2 none false, .gcInit 2,
      .request 0 2 0x6000 false])
    (fun s => decide (s.node.sched 2 = some ⟨0, 0x6000⟩) && decide ((s.cores 2).at_ = .gc))
    (by decide +kernel)
  rw [Bool.and_eq_true] at q
  exact ⟨h, s, r, of_decide_eq_true q.1, fun s' l => c100_lost l 2 (of_decide_eq_true q.2)⟩

end NRK.Proc
