import Verif.Coreboot.Props

/-!
# C92: a machine with four hardware threads on two NUMA nodes

The hypotheses of the theorems hold for it, a run boots it, and what goes wrong elsewhere is shown with
small changes to it.
-/

namespace NRK.Coreboot

open Spec (Thread Replica Ipi Entry Args)

def t0 : Thread := ⟨0, 0, some 0⟩
def t1 : Thread := ⟨1, 2, some 0⟩
def t2 : Thread := ⟨2, 4, some 1⟩
def t3 : Thread := ⟨3, 6, none⟩

/-- Four threads; a page table root below 4 GiB, two processes. -/
def cfg : Cfg where
  threads := [t0, t1, t2, t3]
  bsp := t0
  numNodes := 2
  pmemNodes := 2
  codeLen := 139
  image := fun x => x % 251
  startAppCore := 0xffff_8000_0010_0040
  pml4 := 0x7000_1000
  flagAddr := 0xffff_8000_0030_0100
  maxThreads := 4
  maxProc := 2
  procs := true
  fs := true

def pages : Nat → List Nat
  | 0 => [0x200000, 0x400000, 0x600000, 0x800000]
  | 1 => [0x40000000, 0x40200000]
  | _ => []

def pmem : Nat → List Nat
  | 0 => [0x100000000, 0x100200000]
  | 1 => [0x140000000]
  | _ => []

theorem machine_sample : Machine cfg pages where
  start := by decide
  flag := by decide
  page := by
    intro n p hp
    rw [STACK_SIZE_eq]
    match n with
    | 0 => simp only [pages, List.mem_cons, List.not_mem_nil, or_false] at hp; omega
    | 1 => simp only [pages, List.mem_cons, List.not_mem_nil, or_false] at hp; omega
    | n + 2 => simp [pages] at hp
  apics := by decide
  pages := by
    intro n
    match n with
    | 0 => decide
    | 1 => decide
    | n + 2 => exact List.nodup_nil
  nodes := by
    intro n m p h1 h2
    match n, m with
    | 0, 0 => rfl
    | 1, 1 => rfl
    | 0, 1 => simp only [pages, List.mem_cons, List.not_mem_nil, or_false] at h1 h2; omega
    | 1, 0 => simp only [pages, List.mem_cons, List.not_mem_nil, or_false] at h1 h2; omega
    | n + 2, _ => simp [pages] at h1
    | 0, m + 2 => simp [pages] at h2
    | 1, m + 2 => simp [pages] at h2

theorem enough_sample : Enough cfg pages pmem where
  node := by decide
  page := by
    intro n
    match n with
    | 0 => decide
    | 1 => decide
    | n + 2 =>
      have : cfg.toBoot.countP (·.home == n + 2) = 0 := by
        rw [List.countP_eq_zero]; intro t ht
        have : ∀ t ∈ cfg.toBoot, t.home < 2 := by decide
        have := this t ht
        simp; omega
      omega
  pm := by
    intro _ n
    match n with
    | 0 => decide
    | 1 => decide
    | n + 2 =>
      have : cfg.toBoot.countP (·.home == n + 2) = 0 := by
        rw [List.countP_eq_zero]; intro t ht
        have : ∀ t ∈ cfg.toBoot, t.home < 2 := by decide
        have := this t ht
        simp; omega
      omega
  cores := by
    intro n
    match n with
    | 0 => decide
    | 1 => decide
    | n + 2 =>
      have : cfg.toBoot.countP (·.home == n + 2) = 0 := by
        rw [List.countP_eq_zero]; intro t ht
        have : ∀ t ∈ cfg.toBoot, t.home < 2 := by decide
        have := this t ht
        simp; omega
      have e : cfg.maxThreads = 4 := rfl
      rw [this, e]; simp

/-- The state in which `boot_app_cores` starts: low memory is full of rubbish, the persistent memory of the first
core comes from node 0. -/
def start (c : Cfg) : St := St.init c (fun x => (x * 7 + 3) % 256) pages pmem 0

/-- The steps of the first core for a core whose arguments are put at `p`, up to the wait. -/
def prep (p : Nat) : List Act := List.replicate 8 (.bsp p 1)

/-- Those of the core `a`: five loads, four registrations, the flag. -/
def boot (a : Nat) : List Act := List.replicate 10 (.core a)

/-- The whole run; then the first core is done. -/
def bootAll : List Act :=
  prep 0x9000 ++ boot 2 ++ [.bsp 0 0] ++ prep 0xa000 ++ boot 4 ++ [.bsp 0 0] ++ prep 0xb000 ++ boot 6 ++ [.bsp 0 0, .bsp 0 0]

theorem c92_run : (run cfg (start cfg) bootAll).map (fun s => (s.pc, s.halt, s.aff)) = some (.done, none, 0) := by
  decide +kernel

/-- What each core found. -/
theorem c92_run_cores : (run cfg (start cfg) bootAll).map (fun s => [s.core 0, s.core 2, s.core 4, s.core 6]) =
    some [.off, .up ⟨cfg.startAppCore, cfg.pml4, 0x400000, 0x9000, cfg.flagAddr⟩,
      .up ⟨cfg.startAppCore, cfg.pml4, 0x40200000, 0xa000, cfg.flagAddr⟩,
      .up ⟨cfg.startAppCore, cfg.pml4, 0x800000, 0xb000, cfg.flagAddr⟩] := by
  decide +kernel

theorem c92_run_args : (run cfg (start cfg) bootAll).map (fun s => [s.objs 0x9000, s.objs 0xa000, s.objs 0xb000]) =
    some [some ⟨1, 0, 0x400000, some 0x100000000, .kernel 0, some (.fs 0)⟩,
      some ⟨2, 1, 0x40200000, some 0x140000000, .kernel 1, some (.fs 1)⟩,
      some ⟨3, 0, 0x800000, some 0x100200000, .kernel 0, some (.fs 0)⟩] := by
  decide +kernel

theorem c92_run_calm : ∀ x ∈ bootAll, Calm x := by
  intro x hx
  simp only [bootAll, prep, boot, List.mem_append, List.mem_replicate, List.mem_cons, List.not_mem_nil, or_false] at hx
  rcases hx with ((((((((⟨_, rfl⟩ | ⟨_, rfl⟩) | rfl) | ⟨_, rfl⟩) | ⟨_, rfl⟩) | rfl) | ⟨_, rfl⟩) | ⟨_, rfl⟩) | (rfl | rfl)) <;>
    simp [Calm]

/-- The registrations: numbers 2 and 3 at node 0, where the first core has number 1; 1 at node 1. -/
theorem c92_run_toks : (run cfg (start cfg) bootAll).map (·.toks) =
    some [(2, .kernel 0, 2), (2, .proc 0 0, 2), (2, .proc 0 1, 2), (2, .fs 0, 2),
      (4, .kernel 1, 1), (4, .proc 1 0, 1), (4, .proc 1 1, 1), (4, .fs 1, 1),
      (6, .kernel 0, 3), (6, .proc 0 0, 3), (6, .proc 0 1, 3), (6, .fs 0, 3)] := by
  decide +kernel

/-- **The affinity for persistent memory is not put back**: after `boot_app_cores`, the persistent memory of
the first core comes from the node of the last core that was started (here with a machine whose last core is on
node 1), while its other memory comes from node 0 again. -/
theorem c92_pmem_affinity_kept :
    let c := { cfg with threads := [t0, t1, t2] }
    (run c (start c) (prep 0x9000 ++ boot 2 ++ [.bsp 0 0] ++ prep 0xa000 ++ boot 4 ++ [.bsp 0 0, .bsp 0 0])).map
      (fun s => (s.pc, s.aff, s.paff)) = some (.done, 0, 1) := by
  decide +kernel

/-- **A page table root above 4 GiB**: the first core to be started gets another one. -/
theorem c92_root_cut_run :
    let c := { cfg with pml4 := 0x1_7000_1000 }
    (run c (start c) (prep 0x9000 ++ boot 2)).map (fun s => s.core 2) =
      some (.up ⟨cfg.startAppCore, 0x7000_1000, 0x400000, 0x9000, cfg.flagAddr⟩) := by
  decide +kernel

/-- **Numbering of nodes with a gap** (nodes 0 and 2): a panic at the first core of node 2. -/
theorem c92_node_gap_run :
    let c := { cfg with threads := [t0, ⟨1, 2, some 2⟩] }
    (run c (start c) [.bsp 0x9000 0]).map (·.halt) = some (some .panic) := by
  decide +kernel

/-- **The delay**: STARTUP goes out 0 ms after INIT, which is not long enough; when 11 ms have passed, the
first core hangs. -/
theorem c92_delay_run :
    ¬ Spec.longEnough 0 ∧ Spec.longEnough 11 ∧
    (run cfg (start cfg) (List.replicate 7 (.bsp 0x9000 0) ++ [.bsp 0 0])).map (fun s => (s.sent, s.halt)) =
      some ([(2, .init), (2, .startup 6)], none) ∧
    (run cfg (start cfg) (List.replicate 7 (.bsp 0x9000 0) ++ [.bsp 0 11])).map (fun s => (s.sent, s.halt)) =
      some ([(2, .init)], some .hang) := by
  refine ⟨by simp [Spec.longEnough], by simp [Spec.longEnough], by decide +kernel, by decide +kernel⟩

/-- **A core that is slow**: the machine panics although nothing is wrong with the core. -/
theorem c92_slow_core :
    (run cfg (start cfg) (prep 0x9000 ++ List.replicate 9 (.core 2) ++ [.timeout])).map (·.halt) = some (some .panic) := by
  decide +kernel

end NRK.Coreboot
