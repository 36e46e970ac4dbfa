import Verif.Machine.CacheLemmas
import Verif.Proc.FramesProps

/-!
# The memory a process owns, and how its operations change it
-/

namespace NRK.Machine

open NRK.Mem NRK.Mem.Spec NRK.VSpace NRK.Proc

/-- The blocks of the registered frames. -/
def regBlocks (fs : Frames) : List Block := fs.filterMap fun e => e.1.map Frame.block

/-- The blocks of the mappings that are not aliases of registered frames. -/
def mapBlocks (l : List (Nat × MappingInfo)) : List Block :=
  (l.filter fun q => !q.2.rights.aliased).map fun q => q.2.frame.block

/-- The memory of a process. -/
def owned (P : Proc) : List Block := regBlocks P.frames ++ mapBlocks P.vs.maps

theorem mem_regBlocks {fs : Frames} {fid n : Nat} {f : Frame} (h : fs.At fid f n) :
    f.block ∈ regBlocks fs :=
  List.mem_filterMap.2 ⟨_, List.mem_of_getElem? h, rfl⟩

theorem mem_mapBlocks {l : List (Nat × MappingInfo)} {q : Nat × MappingInfo} (h : q ∈ l)
    (ha : q.2.rights.aliased = false) : q.2.frame.block ∈ mapBlocks l :=
  List.mem_map.2 ⟨q, List.mem_filter.2 ⟨h, by simp [ha]⟩, rfl⟩

/-- What a process can reach is in its memory. -/
theorem reach_owned {clean : Bool} {P : Proc} (h : PInv clean P.vs P.frames) {x p : Nat} {r : MapAction}
    (hu : x < userTop) (hx : P.vs.resolve x = .ok (p, r)) : ∃ b ∈ owned P, b.Has p := by
  obtain ⟨q, hq, hc⟩ := h.vinv.exists_cov hu (by rw [hx]; intro e; cases e)
  have := h.vinv.resolve_cov hq hc
  rw [hx] at this
  cases this
  have hb : q.2.frame.block.Has (q.2.frame.base + (x - q.1)) := by
    unfold Covers at hc
    exact ⟨Nat.le_add_right _ _, by show _ < q.2.frame.base + q.2.frame.size; omega⟩
  cases ha : q.2.rights.aliased with
  | false => exact ⟨_, List.mem_append_right _ (mem_mapBlocks hq ha), hb⟩
  | true =>
    obtain ⟨fid, n, hf⟩ := h.al q hq ha
    exact ⟨_, List.mem_append_left _ (mem_regBlocks hf), hb⟩

theorem regBlocks_set_none {fs : Frames} {fid n m : Nat} {f : Frame} (h : fs[fid]? = some (none, n)) :
    (regBlocks (fs.set fid (some f, m))).Perm (f.block :: regBlocks fs) := by
  induction fs generalizing fid with
  | nil => simp at h
  | cons e rest ih =>
    cases fid with
    | zero =>
      simp at h
      subst h
      exact List.Perm.refl _
    | succ k =>
      have h' : rest[k]? = some (none, n) := by simpa using h
      have := ih h'
      obtain ⟨of, c⟩ := e
      cases of with
      | none => exact this
      | some g => exact (this.cons g.block).trans (List.Perm.swap _ _ _)

theorem regBlocks_set_some {fs : Frames} {fid n m : Nat} {f : Frame} (h : fs.At fid f n) :
    regBlocks (fs.set fid (some f, m)) = regBlocks fs := by
  unfold Frames.At at h
  induction fs generalizing fid with
  | nil => simp at h
  | cons e rest ih =>
    cases fid with
    | zero =>
      simp at h
      subst h
      rfl
    | succ k =>
      have h' : rest[k]? = some (some f, n) := by simpa using h
      have := ih h'
      unfold regBlocks at this ⊢
      rw [List.set_cons_succ, List.filterMap_cons, List.filterMap_cons, this]

theorem regBlocks_remove {fs : Frames} {fid n m : Nat} {f : Frame} (h : fs.At fid f n) :
    (f.block :: regBlocks (fs.set fid (none, m))).Perm (regBlocks fs) := by
  unfold Frames.At at h
  induction fs generalizing fid with
  | nil => simp at h
  | cons e rest ih =>
    cases fid with
    | zero =>
      simp at h
      subst h
      exact List.Perm.refl _
    | succ k =>
      have h' : rest[k]? = some (some f, n) := by simpa using h
      have := ih h'
      obtain ⟨of, c⟩ := e
      cases of with
      | none => exact this
      | some g => exact (List.Perm.swap _ _ _).trans (this.cons g.block)

theorem regBlocks_removeMapping (pa : Nat) : ∀ fs : Frames,
    regBlocks (fs.removeMapping pa).1 = regBlocks fs := by
  intro fs
  induction fs with
  | nil => rfl
  | cons e rest ih =>
    obtain ⟨of, n⟩ := e
    cases of with
    | none => exact ih
    | some f =>
      unfold Frames.removeMapping
      by_cases h1 : f.base = pa ∧ n > 0
      · rw [if_pos h1]; rfl
      · rw [if_neg h1]
        by_cases h2 : f.base = pa
        · rw [if_pos h2]
        · rw [if_neg h2]
          unfold regBlocks at ih ⊢
          rw [List.filterMap_cons, List.filterMap_cons, ih]

theorem insertMap_perm (b : Nat) (i : MappingInfo) : ∀ l, (insertMap b i l).Perm ((b, i) :: l) := by
  intro l
  induction l with
  | nil => exact List.Perm.refl _
  | cons q rest ih =>
    unfold insertMap
    split
    · exact List.Perm.refl _
    · exact (ih.cons q).trans (List.Perm.swap _ _ _)

theorem mapBlocks_insert (b : Nat) (i : MappingInfo) (l : List (Nat × MappingInfo)) :
    (mapBlocks (insertMap b i l)).Perm
      ((if i.rights.aliased then [] else [i.frame.block]) ++ mapBlocks l) := by
  have := ((insertMap_perm b i l).filter (fun q => !q.2.rights.aliased)).map (fun q => q.2.frame.block)
  unfold mapBlocks
  refine this.trans ?_
  rw [List.filter_cons]
  cases h : i.rights.aliased <;> simp

/-- Mapping a page. -/
theorem mapFrame_owned (env : Env) (hk : env.pages4k = false) (oom : Bool) {s : VSpace} (h : VInv s)
    (base : Nat) (f : Frame) (a : MapAction) (hn : PageSize f.size) (hu : base + f.size ≤ userTop) :
    ∃ lost, (mapBlocks (mapFrame env oom s base f a).1.maps ++ lost).Perm
      (mapBlocks s.maps ++ if a.aliased then [] else [f.block]) := by
  have keep : ∃ lost, (mapBlocks s.maps ++ lost).Perm
      (mapBlocks s.maps ++ if a.aliased then [] else [f.block]) := ⟨_, List.Perm.refl _⟩
  rcases mapFrame_cases env hk oom h base f a hn hu with ⟨e, he, _⟩ | ⟨_, _, q, hq, _, _, _, hc⟩ |
    ⟨hb, hv', hall, hc⟩
  · rw [he]; exact keep
  · rcases hc with ⟨_, _, _, _, he⟩ | ⟨_, he⟩ <;> rw [he] <;> exact keep
  · rcases hc with ⟨_, he⟩ | ⟨_, t', he, _⟩
    · rw [he]; exact keep
    · rw [he]
      refine ⟨[], ?_⟩
      rw [List.append_nil]
      exact (mapBlocks_insert base ⟨f, a⟩ s.maps).trans List.perm_append_comm

/-- The memory an operation brings to the process. -/
def gives : ProcOp → List Block
  | .dispatchers f _ _ _ => [f.block]
  | .map _ f _ _ _ => [f.block]
  | .mapDevice f _ _ => [f.block]
  | .allocFrame f => [f.block]
  | _ => []

/-- The memory an operation takes from the process. -/
def takes : Outcome ProcResult → List Block
  | .ok (.frame f) => [f.block]
  | _ => []

theorem takes_map (o : Outcome Unit) (r : ProcResult) (h : ∀ f, r ≠ .frame f) :
    takes (o.map fun _ => r) = [] := by
  cases o with
  | ok u => cases r <;> first | rfl | exact absurd rfl (h _)
  | err e => rfl
  | panic => rfl

/-- An operation takes memory from nowhere else. -/
theorem step_owned {c : Cfg} (hk : c.env.pages4k = false) {P P' : Proc} {op : ProcOp}
    {o : Outcome ProcResult} (h : PInv false P.vs P.frames) (sane : Sane P op)
    (hs : P.step c op = (P', o)) :
    ∃ lost, (owned P' ++ takes o ++ lost).Perm (owned P ++ gives op) := by
  have vs' : ∀ (g : Frame) (vs' : VSpace), (∃ lost, (mapBlocks vs'.maps ++ lost).Perm
      (mapBlocks P.vs.maps ++ [g.block])) → ∃ lost, (regBlocks P.frames ++ mapBlocks vs'.maps ++ [] ++
        lost).Perm (owned P ++ [g.block]) := by
    rintro g vs' ⟨lost, hl⟩
    refine ⟨lost, ?_⟩
    unfold owned
    rw [List.append_nil, List.append_assoc, List.append_assoc]
    exact hl.append_left _
  cases op with
  | dispatchers g mid mapOom ooms =>
    obtain ⟨h1, h2, _⟩ := sane
    obtain ⟨k1, k2, _⟩ := allocateExecutors_keeps c mapOom ooms P g mid
    unfold Proc.step at hs
    simp only at hs
    cases hs
    have ht : takes ((P.allocateExecutors c mapOom ooms g mid).2.map .executorsCreated) = [] := by
      cases (P.allocateExecutors c mapOom ooms g mid).2 <;> rfl
    rw [ht]
    have ho : owned (P.allocateExecutors c mapOom ooms g mid).1 =
        regBlocks P.frames ++ mapBlocks (P.allocateExecutors c mapOom ooms g mid).1.vs.maps := by
      rw [owned, k2]
    rw [ho]
    refine vs' g _ ?_
    rcases k1 with k1 | k1 <;> rw [k1]
    · exact ⟨_, List.Perm.refl _⟩
    · exact mapFrame_owned c.env hk mapOom h.vinv P.execOff g execRights h1 h2
  | map base g a refill oom =>
    obtain ⟨h1, h2, h3, _⟩ := sane
    unfold Proc.step at hs
    simp only at hs
    split at hs
    · cases hs
      exact vs' g P.vs ⟨_, List.Perm.refl _⟩
    · cases hs
      rw [takes_map _ _ (fun f e => by cases e)]
      refine vs' g _ ?_
      have := mapFrame_owned c.env hk oom h.vinv base g a h1 h2
      rw [h3] at this
      exact this
  | mapDevice g a oom =>
    obtain ⟨h1, h2, h3, _⟩ := sane
    unfold Proc.step at hs
    simp only at hs
    cases hs
    rw [takes_map _ _ (fun f e => by cases e)]
    refine vs' g _ ?_
    have := mapFrame_owned c.env hk oom h.vinv g.base g a h1 h2
    rw [h3] at this
    exact this
  | mapFrameId base fid a refill oom =>
    obtain ⟨rfl, h2⟩ := sane
    unfold Proc.step at hs
    simp only at hs
    have same : ∀ o', takes o' = [] → ∃ lost, (owned P ++ takes o' ++ lost).Perm (owned P ++ []) :=
      fun o' ho' => ⟨[], by rw [ho', List.append_nil]⟩
    cases hg : P.frames.get fid with
    | err e => rw [hg] at hs; cases hs; exact same _ rfl
    | panic => rw [hg] at hs; cases hs; exact same _ rfl
    | ok fn =>
      obtain ⟨g, n⟩ := fn
      have hat := get_ok.1 hg
      have hadd : P.frames.addMapping fid = (P.frames.set fid (some g, n + 1), .ok ()) := by
        unfold Frames.addMapping
        unfold Frames.At at hat
        rw [hat]
      rw [hg] at hs
      simp only [hadd] at hs
      by_cases hr : refill = true
      · rw [if_pos hr] at hs
        cases hs
        refine ⟨[], ?_⟩
        show (regBlocks _ ++ mapBlocks _ ++ [] ++ []).Perm _
        rw [regBlocks_set_some hat, List.append_nil]
        exact List.Perm.refl _
      · rw [if_neg hr] at hs
        cases hs
        rw [takes_map _ _ (fun f e => by cases e)]
        obtain ⟨lost, hl⟩ := mapFrame_owned c.env hk oom h.vinv base g Proc.idRights (h.reg _ _ _ hat).1
          (h2 g n hg)
        refine ⟨lost, ?_⟩
        show (regBlocks _ ++ mapBlocks _ ++ [] ++ lost).Perm (owned P ++ [])
        rw [regBlocks_set_some hat, List.append_nil, List.append_nil, List.append_assoc]
        refine (hl.append_left _).trans ?_
        show (_ ++ (_ ++ [])).Perm _
        rw [List.append_nil]
        exact List.Perm.refl _
  | unmap base =>
    unfold Proc.step at hs
    simp only at hs
    have hm : ∃ lost, (mapBlocks (NRK.VSpace.unmap P.vs base).1.maps ++ lost).Perm
        (mapBlocks P.vs.maps) := by
      rcases unmap_cases h.vinv base sane with ⟨h1, _⟩ | ⟨h1, _⟩ | ⟨q, hq, hc, hx, t', h1, hl⟩
      · rw [h1]; exact ⟨[], by rw [List.append_nil]⟩
      · rw [h1]; exact ⟨[], by rw [List.append_nil]⟩
      · rw [h1]
        refine ⟨mapBlocks (P.vs.maps.filter fun p => !decide (p.1 ≠ q.1)), ?_⟩
        unfold mapBlocks
        rw [← List.map_append, ← List.filter_append]
        exact ((List.filter_append_perm _ _).filter _).map _
    have key : ∀ fs' : Frames, regBlocks fs' = regBlocks P.frames → ∀ o', takes o' = [] →
        ∃ lost, (owned { P with vs := (NRK.VSpace.unmap P.vs base).1, frames := fs' } ++ takes o' ++
          lost).Perm (owned P ++ []) := by
      intro fs' hfs o' ho'
      obtain ⟨lost, hl⟩ := hm
      refine ⟨lost, ?_⟩
      rw [ho', List.append_nil, List.append_nil]
      unfold owned
      dsimp only
      rw [hfs, List.append_assoc]
      exact hl.append_left _
    cases hun : NRK.VSpace.unmap P.vs base with
    | mk vs1 o1 =>
    rw [hun] at hs key
    cases o1 with
    | err e => cases hs; exact key P.frames rfl _ rfl
    | panic => cases hs; exact key P.frames rfl _ rfl
    | ok hd =>
      simp only at hs
      have hfr : regBlocks (if hd.flags.aliased then P.frames.removeMapping hd.paddr
          else (P.frames, .ok ())).1 = regBlocks P.frames := by
        split
        · exact regBlocks_removeMapping _ _
        · rfl
      generalize (if hd.flags.aliased then P.frames.removeMapping hd.paddr
          else (P.frames, .ok ())) = fr at hs hfr
      obtain ⟨fs', o2⟩ := fr
      cases o2 with
      | ok u =>
        cases hs
        refine key fs' hfr _ ?_
        cases addActive (List.replicate c.numMachines ⟨hd, CoreBitMap.empty⟩) P.active <;> rfl
      | err e => cases hs; exact key fs' hfr _ rfl
      | panic => cases hs; exact key fs' hfr _ rfl
  | assign gtid region oom =>
    unfold Proc.step at hs
    simp only at hs
    have hk := getExecutor_keeps c P region (midFromGtid gtid).toNat
    have key : ∀ P1 : Proc, P1.vs = P.vs → P1.frames = P.frames → ∀ o', takes o' = [] →
        ∃ lost, (owned P1 ++ takes o' ++ lost).Perm (owned P ++ []) := by
      intro P1 e1 e2 o' ho'
      refine ⟨[], ?_⟩
      rw [ho']
      unfold owned
      rw [e1, e2]
      simp
    cases hge : P.getExecutor c region (midFromGtid gtid).toNat with
    | mk s1 o1 =>
    rw [hge] at hs hk
    cases o1 with
    | err e => cases hs; exact key _ hk.1 hk.2.1 _ rfl
    | panic => cases hs; exact key _ hk.1 hk.2.1 _ rfl
    | ok ex =>
      simp only at hs
      split at hs
      · cases hs; exact key _ hk.1 hk.2.1 _ rfl
      · cases hs; exact key _ hk.1 hk.2.1 _ rfl
  | allocFrame g =>
    unfold Proc.step at hs
    simp only at hs
    rcases add_spec P.frames g with ⟨fid, n, h1, h2⟩ | ⟨_, h2⟩
    · rw [h2] at hs
      cases hs
      refine ⟨[], ?_⟩
      show (regBlocks _ ++ mapBlocks _ ++ [] ++ []).Perm (regBlocks _ ++ mapBlocks _ ++ [g.block])
      rw [List.append_nil, List.append_nil]
      refine ((regBlocks_set_none h1).append_right _).trans ?_
      rw [List.cons_append]
      exact (List.perm_append_comm (l₂ := [g.block])).symm
    · rw [h2] at hs
      cases hs
      exact ⟨[g.block], by
        show (owned P ++ [] ++ [g.block]).Perm _
        rw [List.append_nil]; exact List.Perm.refl _⟩
  | releaseFrame fid =>
    unfold Proc.step Frames.dealloc at hs
    simp only at hs
    cases hf : P.frames[fid]? with
    | none => rw [hf] at hs; cases hs; exact ⟨[], by simp [takes, gives, Outcome.map, owned]⟩
    | some e =>
      obtain ⟨of, n⟩ := e
      rw [hf] at hs
      simp only at hs
      split at hs
      · cases of with
        | none => cases hs; exact ⟨[], by simp [takes, gives, Outcome.map, owned]⟩
        | some f =>
          cases hs
          refine ⟨[], ?_⟩
          show (regBlocks _ ++ mapBlocks _ ++ [f.block] ++ []).Perm (regBlocks _ ++ mapBlocks _ ++ [])
          rw [List.append_nil, List.append_nil]
          refine List.perm_append_comm.trans ?_
          exact (regBlocks_remove (m := n) hf).append_right _
      · cases hs; exact ⟨[], by simp [takes, gives, Outcome.map, owned]⟩

end NRK.Machine
