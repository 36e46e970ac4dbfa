import Verif.Proc.ExecProps

/-!
# Concrete histories for C38-C40: where the code falls short, and cases that meet the hypotheses
-/

namespace NRK.Proc

open NRK.VSpace NRK.Mem NRK.Mem.Spec

/-- A run of operations: the last state and all results. -/
def runOps (c : Cfg) : Proc → List ProcOp → Proc × List (Outcome ProcResult)
  | s, [] => (s, [])
  | s, op :: ops =>
    let r := s.step c op
    let q := runOps c r.1 ops
    (q.1, r.2 :: q.2)

def exEnv : Env := ⟨false, fun _ => false⟩
/-- Two machines, this is machine 1. -/
def exCfg : Cfg := ⟨exEnv, false, 2, 1⟩
def exProc : Proc := Proc.new PML4.empty 0x2100000000
def exFrame : Frame := ⟨0x800000, 2097152, 0⟩

/-! ## C38: what goes wrong -/

/-- Mapping a registered frame at an address that is not aligned fails, but the frame counts as mapped
from then on: nothing is mapped and it cannot be released. -/
theorem c38_failed_map_leaks :
    (runOps exCfg exProc [.allocFrame exFrame, .mapFrameId 0x1000 0 idRights false false,
      .releaseFrame 0]).2 =
      [.ok (.frameId 0), .err .invalidBase, .err .frameStillMapped] ∧
    (runOps exCfg exProc [.allocFrame exFrame, .mapFrameId 0x1000 0 idRights false false]).1.vs.maps
      = [] := by decide +kernel

/-- Mapping a registered frame twice at the same place succeeds twice, takes one unmap to undo, and the
frame cannot be released afterwards. -/
theorem c38_remap_leaks :
    (runOps exCfg exProc [.allocFrame exFrame, .mapFrameId 0x400000 0 idRights false false,
      .mapFrameId 0x400000 0 idRights false false, .unmap 0x400000, .unmap 0x400000,
      .releaseFrame 0]).2.map (fun o => o.map (fun _ => ())) =
      [.ok (), .ok (), .ok (), .ok (), .err .notMapped, .err .frameStillMapped] := by decide +kernel

/-- A registered frame that is also mapped as device memory (any physical address may be) can be released
while it is mapped. -/
theorem c38_device_not_counted :
    (runOps exCfg exProc [.allocFrame exFrame, .mapDevice exFrame MapAction.writable false,
      .releaseFrame 0]).2 = [.ok (.frameId 0), .ok .ok, .ok (.frame exFrame)] ∧
    (runOps exCfg exProc [.allocFrame exFrame, .mapDevice exFrame MapAction.writable false,
      .releaseFrame 0]).1.vs.resolve 0x800000 = .ok (0x800000, MapAction.writable) := by decide +kernel

/-- With the build option `pages-4k`, unmapping one small page of a large registered frame makes the frame
releasable although the rest of it is still mapped. -/
theorem c38_pages_4k :
    (runOps ⟨⟨true, fun _ => false⟩, false, 2, 1⟩ exProc [.allocFrame exFrame,
      .mapFrameId 0x400000 0 idRights false false, .unmap 0x400000, .releaseFrame 0]).2.map
      (fun o => o.map (fun _ => ())) = [.ok (), .ok (), .ok (), .ok ()] ∧
    (runOps ⟨⟨true, fun _ => false⟩, false, 2, 1⟩ exProc [.allocFrame exFrame,
      .mapFrameId 0x400000 0 idRights false false, .unmap 0x400000, .releaseFrame 0]).1.vs.resolve
      0x401000 = .ok (0x801000, idRights.canon) := by decide +kernel

/-! ## C40: what goes wrong -/

/-- With rack-scale support, memory for another machine is not mapped here; if making its executors stops
half way for lack of memory, the next donation uses the same addresses again. -/
theorem c40_overlap :
    ∃ s h e e', HRun ⟨exEnv, true, 2, 1⟩ false h s ∧ given h = [e, e'] ∧
      ¬ Disjoint e.region e'.region := by
  let c : Cfg := ⟨exEnv, true, 2, 1⟩
  let o1 : ProcOp := .dispatchers ⟨0x800000, 2097152, 0⟩ 0 false (fun n => n == 8)
  let o2 : ProcOp := .dispatchers ⟨0xa00000, 2097152, 1⟩ 0 false (fun n => n == 8)
  let s1 := (exProc.step c o1).1
  let s2 := (s1.step c o2).1
  let s3 := (s2.step c (.assign 0 0 false)).1
  let e1 := Executor.new 0 0x800000 0x2100000000 0
  let e2 := Executor.new 1 0xa00000 0x2100000000 1
  have h1 : exProc.step c o1 = (s1, .err .outOfMemory) := Prod.ext rfl (by decide +kernel)
  have h2 : s1.step c o2 = (s2, .err .outOfMemory) := Prod.ext rfl (by decide +kernel)
  have h3 : s2.step c (.assign 0 0 false) = (s3, .ok (.executor e1)) := Prod.ext rfl (by decide +kernel)
  have h4 : s3.step c (.assign 1 1 false) = ((s3.step c (.assign 1 1 false)).1, .ok (.executor e2)) :=
    Prod.ext rfl (by decide +kernel)
  refine ⟨_, _, e1, e2, HRun.step _ (HRun.step _ (HRun.step _ (HRun.step _ (HRun.new PML4.empty
    0x2100000000) h1 (fun e => by cases e) (fun e => by cases e)) h2 (fun e => by cases e)
    (fun e => by cases e)) h3 (fun e => by cases e) (fun e => by cases e)) h4 (fun e => by cases e)
    (fun e => by cases e), rfl, ?_⟩
  intro hd
  refine hd 0x2100000000 ⟨⟨?_, ?_⟩, ⟨?_, ?_⟩⟩ <;> decide +kernel

/-! ## Cases that meet the hypotheses -/

/-- Register, map, unmap, release: the states of the run. -/
def exS1 : Proc := (exProc.step exCfg (.allocFrame exFrame)).1
def exS2 : Proc := (exS1.step exCfg (.mapFrameId 0x400000 0 idRights false false)).1
def exS3 : Proc := (exS2.step exCfg (.unmap 0x400000)).1

theorem exS1_run : SRun exCfg true exS1 := by
  refine SRun.step (s := exProc) (o := .ok (.frameId 0)) _ (SRun.new _ _ (fun x _ => rfl))
    (Prod.ext rfl (by decide +kernel)) (fun e => by cases e) ⟨Or.inr rfl, rfl, ?_, ?_⟩ (fun _ => trivial)
  · intro fid f n h
    have h := get_ok.1 h
    unfold Frames.At at h
    change (List.replicate MAX_FRAMES ((none : Option Frame), 0))[fid]? = _ at h
    rw [List.getElem?_replicate] at h
    split at h <;> cases h
  · intro x p r _ h
    change (Outcome.err KError.notMapped : Outcome (Nat × MapAction)) = _ at h
    cases h

theorem exS1_get : exS1.frames.get 0 = .ok (exFrame, 0) := by decide +kernel

theorem exS2_run : SRun exCfg true exS2 := by
  refine SRun.step (s := exS1) (o := .ok (.mappedFrameId 0x800000 2097152)) _ exS1_run
    (Prod.ext rfl (by decide +kernel)) (fun e => by cases e) ⟨rfl, ?_⟩ (fun _ => ⟨rfl, rfl, ?_⟩)
  · intro f n h
    rw [exS1_get] at h
    cases h
    decide
  · intro f n h
    rw [exS1_get] at h
    cases h
    exact ⟨by decide, fun x _ _ => rfl⟩

theorem exS3_run : SRun exCfg true exS3 := by
  refine SRun.step (s := exS2) (o := (exS2.step exCfg (.unmap 0x400000)).2) (.unmap 0x400000) exS2_run rfl ?_ ?_
    (fun _ => trivial)
  · intro h
    have : ((exS2.step exCfg (.unmap 0x400000)).2 != .panic) = true := by decide +kernel
    rw [h] at this
    cases this
  · unfold Sane; decide

/-- While it is mapped the frame cannot be released, after the unmap it can: the hypotheses of
`c38_release_unmapped` and `c38_release_succeeds_partial` are met. -/
example : (exS2.step exCfg (.releaseFrame 0)).2 = .err .frameStillMapped ∧
    exS2.vs.resolve 0x412345 = .ok (0x812345, idRights.canon) ∧
    (exS3.step exCfg (.releaseFrame 0)).2 = .ok (.frame exFrame) ∧
    exS3.vs.maps = [] := by decide +kernel

example := c38_release_unmapped (c := exCfg) rfl exS3_run 0 exFrame
  (s' := (exS3.step exCfg (.releaseFrame 0)).1) (Prod.ext rfl (by decide +kernel))

/-- Memory for ten executors on node 0, two of them given out, on two machines; the unmap of the memory
names one core of each. -/
def exOps : List ProcOp :=
  [.dispatchers ⟨0x800000, 2097152, 0⟩ 1 false (fun _ => false), .assign (newGtid 3 0) 0 false,
    .assign (newGtid 140 1) 0 false]

theorem HRun.ofOps (c : Cfg) (clean : Bool) : ∀ (ops : List ProcOp) (h : List Event) (s : Proc),
    HRun c clean h s → ((runOps c s ops).2.all (fun o => o != .panic)) = true →
    (clean = true → ∀ op ∈ ops, NoOom op) →
    HRun c clean (h ++ ops.zip (runOps c s ops).2) (runOps c s ops).1 := by
  intro ops
  induction ops with
  | nil => intro h s r _ _; simpa [runOps] using r
  | cons op ops ih =>
    intro h s r hp hc
    simp only [runOps, List.all_cons, Bool.and_eq_true, bne_iff_ne] at hp
    have := ih _ _ (HRun.step op r rfl hp.1 (fun e => hc e op List.mem_cons_self)) hp.2
      (fun e o ho => hc e o (List.mem_cons_of_mem _ ho))
    simp only [runOps, List.zip_cons_cons]
    rw [List.append_assoc] at this
    exact this

theorem exOps_run : HRun exCfg true ([] ++ exOps.zip (runOps exCfg exProc exOps).2)
    (runOps exCfg exProc exOps).1 := by
  refine HRun.ofOps exCfg true exOps [] exProc (HRun.new _ _) (by decide +kernel) (fun _ op h => ?_)
  simp only [exOps, List.mem_cons, List.not_mem_nil, or_false] at h
  rcases h with rfl | rfl | rfl
  · exact ⟨rfl, fun _ => rfl⟩
  · trivial
  · trivial

example : (given (exOps.zip (runOps exCfg exProc exOps).2)).map (fun e => (e.eid, e.stackBase)) =
      [(9, 0x2100000000 + 9 * 200704), (8, 0x2100000000 + 8 * 200704)] := by decide +kernel

example := c40_disjoint_partial exOps_run

/-- The handles of the unmap. -/
def exHandles : List Handle :=
  [⟨⟨0x2100000000, 0x800000, 2097152, execRights⟩, ⟨8, 0⟩⟩,
    ⟨⟨0x2100000000, 0x800000, 2097152, execRights⟩, ⟨0, 1 <<< 12⟩⟩]

example := c39_shootdown exOps_run 0x2100000000 exHandles
  (s' := ((runOps exCfg exProc exOps).1.step exCfg (.unmap 0x2100000000)).1)
  (Prod.ext rfl (by decide +kernel))

example := c40_donation (c := exCfg) rfl (SRun.new (clean := true) PML4.empty 0x2000000000 (fun x _ => rfl))
  (s' := ((Proc.new PML4.empty 0x2000000000).step exCfg
    (.dispatchers ⟨0x800000, 2097152, 3⟩ 1 false (fun _ => false))).1)
  ⟨0x800000, 2097152, 3⟩ 1 false (fun _ => false) (Or.inr rfl) (by decide) (Or.inl rfl)
  (fun _ _ _ => rfl) 3 rfl (.executorsCreated 10) (Prod.ext rfl (by decide +kernel))

end NRK.Proc
