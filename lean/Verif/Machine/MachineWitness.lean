import Verif.Machine.MachineProps
import Verif.Proc.ProcWitness

/-!
# Concrete histories for C61: a run with two processes, and where the code does not separate them
-/

namespace NRK.Machine

open NRK.Mem NRK.Mem.Spec NRK.VSpace NRK.Proc

/-- Two base pages and a large page on node 0, one page used by the kernel; the caches of the cores have
room for one page of each size. -/
def w0 : Machine where
  node n := if n = 0 then ⟨4, 4, 0, [0x1000, 0x2000], [0x200000]⟩ else MCache.new 4 4 n
  tc ka := MCache.new 1 1 ka.2
  cur _ := 0
  pc _ := .idle
  kern := [⟨0, 4096, 0⟩]
  proc _ := none
  mem _ := 7

unseal BASE LARGE in
theorem w0_boot : Boot w0 := by
  refine ⟨fun _ => rfl, fun _ => rfl, ?_, ?_, ?_, ?_⟩
  · intro n
    by_cases h : n = 0
    · subst h
      refine ⟨⟨by decide, by decide, ?_, ?_⟩, rfl⟩
      · show ∀ a ∈ [0x1000, 0x2000], a % BASE = 0
        decide
      · show ∀ a ∈ [0x200000], a % LARGE = 0
        decide
    · simp only [w0, if_neg h]
      exact ⟨⟨Nat.zero_le _, Nat.zero_le _, (fun a ha => by cases ha), (fun a ha => by cases ha)⟩, rfl⟩
  · intro k a
    exact ⟨⟨Nat.zero_le _, Nat.zero_le _, (fun a ha => by cases ha), (fun a ha => by cases ha)⟩, rfl⟩
  · intro o
    cases o with
    | node n =>
      by_cases h : n = 0
      · subst h
        show List.Pairwise Disjoint [⟨0x1000, BASE⟩, ⟨0x2000, BASE⟩, ⟨0x200000, LARGE⟩]
        simp only [List.pairwise_cons, List.mem_cons, List.not_mem_nil, or_false, forall_eq_or_imp, forall_eq]
        refine ⟨⟨disjoint_of_le (by decide), disjoint_of_le (by decide)⟩, disjoint_of_le (by decide), ?_⟩
        exact ⟨fun _ h => (nomatch h), List.Pairwise.nil⟩
      · show AllDisjoint (w0.node n).held
        simp only [w0, if_neg h]
        exact List.Pairwise.nil
    | core k a => exact List.Pairwise.nil
    | hand k => exact List.Pairwise.nil
    | kern => exact List.pairwise_singleton _ _
    | proc pid => exact List.Pairwise.nil
  · have hn : ∀ n b, b ∈ (w0.node n).held → n = 0 ∧ 4096 ≤ b.start := by
      intro n b hb
      by_cases h : n = 0
      · subst h
        refine ⟨rfl, ?_⟩
        change b ∈ [⟨0x1000, BASE⟩, ⟨0x2000, BASE⟩, ⟨0x200000, LARGE⟩] at hb
        simp only [List.mem_cons, List.not_mem_nil, or_false] at hb
        rcases hb with rfl | rfl | rfl <;> decide
      · simp only [w0, if_neg h] at hb
        cases hb
    have hkern : ∀ b, b ∈ memoryOf w0 .kern → b = ⟨0, 4096⟩ := fun b hb => List.mem_singleton.1 hb
    intro o o' hne b hb b' hb'
    cases o with
    | node n =>
      cases o' with
      | node n' =>
        have := (hn n b hb).1
        have := (hn n' b' hb').1
        subst_vars
        exact absurd rfl hne
      | kern => rw [hkern b' hb']; exact disjoint_of_ge (hn n b hb).2
      | core k a => cases hb'
      | hand k => cases hb'
      | proc pid => cases hb'
    | kern =>
      cases o' with
      | node n' => rw [hkern b hb]; exact disjoint_of_le (hn n' b' hb').2
      | kern => exact absurd rfl hne
      | core k a => cases hb'
      | hand k => cases hb'
      | proc pid => cases hb'
    | core k a => cases hb
    | hand k => cases hb
    | proc pid => cases hb

/-- The page the first process gets. -/
def wf : Frame := ⟨0x1000, 4096, 0⟩
def p0 : Proc := Proc.new PML4.empty 0x2100000000
def p1 : Proc := (p0.step exCfg (.allocFrame wf)).1
def p2 : Proc := (p1.step exCfg (.mapFrameId 0x10000 0 idRights false false)).1
def p3 : Proc := (p2.step exCfg (.unmap 0x10000)).1
def p4 : Proc := (p3.step exCfg (.releaseFrame 0)).1

/-- Two processes. -/
def w1 : Machine := { w0 with proc := upd w0.proc 1 (some p0) }
def w2 : Machine := { w1 with proc := upd w1.proc 2 (some p0) }
/-- Process 1 allocates a page, … -/
def w3 : Machine := { w2 with
  node := upd w2.node 0 ⟨4, 4, 0, [0x2000], [0x200000]⟩, tc := upd w2.tc (0, 0) (MCache.new 1 1 0),
  pc := upd w2.pc 0 (.allocated 1 wf) }
def w4 : Machine := { w3 with proc := upd w3.proc 1 (some p1), pc := upd w3.pc 0 .idle }
/-- … maps it, … -/
def w5 : Machine := { w4 with proc := upd w4.proc 1 (some p2) }
/-- … writes 42, … -/
def w6 : Machine := { w5 with mem := upd w5.mem 0x1005 42 }
/-- … unmaps it and releases it. -/
def w7 : Machine := { w6 with proc := upd w6.proc 1 (some p3) }
def w8 : Machine := { w7 with proc := upd w7.proc 1 (some p4), pc := upd w7.pc 0 (.released wf) }
def w9 : Machine := { w8 with
  tc := upd w8.tc (0, 0) ⟨1, 1, 0, [0x1000], []⟩, pc := upd w8.pc 0 .idle }
/-- Process 2 allocates a page and maps it. -/
def w10 : Machine := { w9 with
  node := upd w9.node 0 ⟨4, 4, 0, [0x2000], [0x200000]⟩, tc := upd w9.tc (0, 0) (MCache.new 1 1 0),
  pc := upd w9.pc 0 (.allocated 2 wf) }
def w11 : Machine := { w10 with proc := upd w10.proc 2 (some p1), pc := upd w10.pc 0 .idle }
def w12 : Machine := { w11 with proc := upd w11.proc 2 (some p2) }

theorem w5_reach : Reach exCfg w5 := by
  have h1 : Reach exCfg w1 := .step (.boot w0_boot) (.spawn w0 1 _ _ rfl (fun _ _ => rfl))
  have h2 : Reach exCfg w2 := .step h1 (.spawn w1 2 _ _ rfl (fun _ _ => rfl))
  have h3 : Reach exCfg w3 := .step h2 (.allocate w2 0 1 false (.ok wf) _ _ rfl (by decide +kernel) (fun e => by cases e))
  have h4 : Reach exCfg w4 := .step h3 (.register w3 0 1 wf p0 p1 (.ok (.frameId 0)) rfl rfl
    (Prod.ext rfl (by decide +kernel)) (fun e => by cases e))
  refine .step h4 (.mapFrameId w4 1 0x10000 0 p1 p2 false false (.ok (.mappedFrameId 0x1000 4096)) rfl
    (Prod.ext rfl (by decide +kernel)) (fun e => by cases e) ?_)
  intro f n h
  have : p1.frames.get 0 = .ok (wf, 0) := by decide +kernel
  rw [this] at h
  cases h
  decide

theorem w12_reach : Reach exCfg w12 := by
  have h6 : Reach exCfg w6 := .step w5_reach (.write w5 1 0x10005 0x1005 idRights.canon 42 p2 rfl (by decide)
    (by decide +kernel))
  have h7 : Reach exCfg w7 := .step h6 (.unmap w6 1 0x10000 p2 p3 (p2.step exCfg (.unmap 0x10000)).2 rfl rfl
    (by
      have : ((p2.step exCfg (.unmap 0x10000)).2 != .panic) = true := by decide +kernel
      intro h; rw [h] at this; cases this) (by decide))
  have h8 : Reach exCfg w8 := .step h7 (.release w7 0 1 0 p3 p4 (.ok (.frame wf)) rfl rfl
    (Prod.ext rfl (by decide +kernel)) (fun e => by cases e))
  have h9 : Reach exCfg w9 := .step h8 (.giveCore w8 0 wf (.ok ()) _ rfl (by decide +kernel) (fun e => by cases e))
  have h10 : Reach exCfg w10 := .step h9 (.allocate w9 0 2 false (.ok wf) _ _ rfl (by decide +kernel)
    (fun e => by cases e))
  have h11 : Reach exCfg w11 := .step h10 (.register w10 0 2 wf p0 p1 (.ok (.frameId 0)) rfl rfl
    (Prod.ext rfl (by decide +kernel)) (fun e => by cases e))
  refine .step h11 (.mapFrameId w11 2 0x10000 0 p1 p2 false false (.ok (.mappedFrameId 0x1000 4096)) rfl
    (Prod.ext rfl (by decide +kernel)) (fun e => by cases e) ?_)
  intro f n h
  have : p1.frames.get 0 = .ok (wf, 0) := by decide +kernel
  rw [this] at h
  cases h
  decide

/-- **C61**, what goes wrong: a page that is allocated as a frame is not cleared.  Process 2 reads what
process 1 left in it. -/
theorem c61_allocated_not_cleared :
    ∃ m, Reach exCfg m ∧ Reaches m 2 0x10005 0x1005 ∧ m.mem 0x1005 = 42 :=
  ⟨w12, w12_reach, ⟨by decide, p2, idRights.canon, rfl, by decide +kernel⟩, rfl⟩

/-- Before, process 1 reached that byte, and only it could: the hypotheses of the theorems are met. -/
theorem w5_reaches : Reaches w5 1 0x10005 0x1005 := ⟨by decide, p2, idRights.canon, rfl, by decide +kernel⟩

example (y b : Nat) (h : Reaches w5 2 y b) : (0x1005 : Nat) ≠ b :=
  c61_no_sharing_partial (c := exCfg) rfl w5_reach w5_reaches h (by decide)

example := c61_not_kernel_partial (c := exCfg) rfl w5_reach w5_reaches

/-- The kernel writing to its own page does not change it. -/
example := (c61_contents_partial (c := exCfg) rfl w5_reach (p := 1)
  (MStep.kernelWrite w5 ⟨0, 4096, 0⟩ 7 1 List.mem_cons_self ⟨by decide, by decide⟩)
  (fun e => by cases e)).2 _ _ w5_reaches

/-- The two ways to reach a frame that is mapped twice. -/
def p2' : Proc := (p2.step exCfg (.mapFrameId 0x20000 0 idRights false false)).1

example : p2'.vs.resolve 0x10005 = .ok (0x1005, idRights.canon) ∧
    p2'.vs.resolve 0x20005 = .ok (0x1005, idRights.canon) := by decide +kernel

/-- **C61**, what goes wrong: a process that maps device memory reaches any page, here the one of process
1, and the system call does not ask whose it is. -/
theorem c61_device_memory : ∃ P' : Proc,
    p0.step exCfg (.mapDevice wf MapAction.writable false) = (P', .ok .ok) ∧
    P'.vs.resolve 0x1005 = .ok (0x1005, MapAction.writable) ∧ Reaches w5 1 0x10005 0x1005 :=
  ⟨_, Prod.ext rfl (by decide +kernel), by decide +kernel, w5_reaches⟩

/-- **C61**, what goes wrong: the page of a process can be released only on a core that allocates from the
page's node.  On any other core the kernel crashes. -/
theorem c61_release_elsewhere_panics (tc : MCache) (f : Frame) (h : f.aff ≠ tc.node) :
    (giveBack tc f).1 = .panic := by
  unfold giveBack
  split
  · unfold MCache.releaseBase
    rw [if_neg (fun e => h e.2.2)]
  · split
    · unfold MCache.releaseLarge
      rw [if_neg (fun e => h e.2.2)]
    · rfl

/-- Process 1 asks for a page of fresh memory; it is taken and zeroed, but not mapped yet. -/
def v3 : Machine := { w2 with
  node := upd w2.node 0 ⟨4, 4, 0, [0x2000], [0x200000]⟩, tc := upd w2.tc (0, 0) (MCache.new 1 1 0),
  pc := upd w2.pc 0 (.mapping 1 0x400000 [wf]), mem := [wf].foldl Machine.zero w2.mem }

theorem v3_reach : Reach exCfg v3 := by
  have h1 : Reach exCfg w1 := .step (.boot w0_boot) (.spawn w0 1 _ _ rfl (fun _ _ => rfl))
  have h2 : Reach exCfg w2 := .step h1 (.spawn w1 2 _ _ rfl (fun _ _ => rfl))
  exact .step h2 (.mapStart w2 0 1 0x400000 4000 (.ok [wf]) _ _ rfl (by decide +kernel)
    (fun e => by cases e))

example : w2.mem 0x1005 = 7 ∧ v3.mem 0x1005 = 0 := by decide +kernel

example := c61_fresh_zero_partial (c := exCfg) rfl v3_reach (k := 0) (pid := 1) (base := 0x400000) (f := wf)
  (fs := []) (P := p0) (refill := false) (oom := false) (res := .ok)
  (P' := (p0.step exCfg (.map 0x400000 wf MapAction.writable false false)).1) rfl rfl
  (Prod.ext rfl (by decide +kernel)) (by decide) (x := 0x400123) (by decide) (by decide)

end NRK.Machine
