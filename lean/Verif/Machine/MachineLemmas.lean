import Verif.Machine.SepLemmas
import Verif.Machine.OwnLemmas

/-!
# The invariant of machines
-/

namespace NRK.Machine

open NRK.Mem NRK.Mem.Spec NRK.VSpace NRK.Proc

/-- Who can own memory. -/
inductive Owner where
  | node (n : Nat)
  | core (k a : Nat)
  | hand (k : Nat)
  | kern
  | proc (pid : Nat)
deriving DecidableEq

/-- The memory of a process, if there is one with that number. -/
def ownedBy : Option Proc → List Block
  | some P => owned P
  | none => []

/-- The memory of an owner. -/
def memoryOf (m : Machine) : Owner → List Block
  | .node n => (m.node n).held
  | .core k a => (m.tc (k, a)).held
  | .hand k => (m.pc k).hand.map Frame.block
  | .kern => m.kern.map Frame.block
  | .proc pid => ownedBy (m.proc pid)

/-- The machine after booting: no processes; every cache has pages of its own node, and no page is in two
caches or used by the kernel and in a cache. -/
structure Boot (m : Machine) : Prop where
  noProc : ∀ pid, m.proc pid = none
  idle : ∀ k, m.pc k = .idle
  node : ∀ n, (m.node n).Wf ∧ (m.node n).node = n
  core : ∀ k a, (m.tc (k, a)).Wf ∧ (m.tc (k, a)).node = a
  sep : Sep (memoryOf m)

/-- Machines after any history. -/
inductive Reach (c : Cfg) : Machine → Prop
  | boot {m : Machine} (h : Boot m) : Reach c m
  | step {m m' : Machine} {act : Option Nat} (r : Reach c m) (s : MStep c m act m') : Reach c m'

/-- The invariant. -/
structure Inv (c : Cfg) (m : Machine) : Prop where
  node : ∀ n, (m.node n).Wf ∧ (m.node n).node = n
  core : ∀ k a, (m.tc (k, a)).Wf ∧ (m.tc (k, a)).node = a
  hand : ∀ k, ∀ f ∈ (m.pc k).hand, PageOk f
  run : ∀ pid P, m.proc pid = some P → SRun c false P
  sep : Sep (memoryOf m)
  zero : ∀ k pid base fs, m.pc k = .mapping pid base fs → ∀ f ∈ fs, ∀ p, f.block.Has p → m.mem p = 0

/-- At most one of each kind of owner is involved in a step. -/
theorem sep_upd {m m' : Machine} (h : Sep (memoryOf m)) (n k a pid : Nat)
    (hn : ∀ n', n' ≠ n → m'.node n' = m.node n') (hc : ∀ ka, ka ≠ (k, a) → m'.tc ka = m.tc ka)
    (hp : ∀ k', k' ≠ k → m'.pc k' = m.pc k') (hq : ∀ p, p ≠ pid → m'.proc p = m.proc p)
    (lost : List Block)
    (perm : ((m'.node n).held ++ ((m'.tc (k, a)).held ++ ((m'.pc k).hand.map Frame.block ++
      (m'.kern.map Frame.block ++ ownedBy (m'.proc pid)))) ++ lost).Perm
      ((m.node n).held ++ ((m.tc (k, a)).held ++ ((m.pc k).hand.map Frame.block ++
      (m.kern.map Frame.block ++ ownedBy (m.proc pid)))))) : Sep (memoryOf m') := by
  refine h.move [.node n, .core k a, .hand k, .kern, .proc pid] (by simp) ?_ lost ?_
  · intro o ho
    simp only [List.mem_cons, List.not_mem_nil, or_false, not_or] at ho
    obtain ⟨h1, h2, h3, h4, h5⟩ := ho
    cases o with
    | node n' => exact congrArg MCache.held (hn n' (fun e => h1 (e ▸ rfl)))
    | core k' a' =>
      refine congrArg MCache.held (hc (k', a') (fun e => h2 ?_))
      cases e; rfl
    | hand k' => show (m'.pc k').hand.map _ = _; rw [hp k' (fun e => h3 (e ▸ rfl))]; rfl
    | kern => exact absurd rfl h4
    | proc p => show ownedBy (m'.proc p) = _; rw [hq p (fun e => h5 (e ▸ rfl))]; rfl
  · simpa [memoryOf] using perm

/-- Memory changes only where nobody is about to map it as fresh memory. -/
theorem zero_keep {c : Cfg} {m : Machine} (h : Inv c m) {mem' : Nat → UInt8}
    (hm : ∀ p, mem' p = m.mem p ∨ mem' p = 0 ∨ ∃ o b, b ∈ memoryOf m o ∧ b.Has p ∧
      ∀ k pid base fs, m.pc k = .mapping pid base fs → o ≠ .hand k) :
    ∀ k pid base fs, m.pc k = .mapping pid base fs → ∀ f ∈ fs, ∀ p, f.block.Has p → mem' p = 0 := by
  intro k pid base fs hpc f hf p hp
  have h0 := h.zero k pid base fs hpc f hf p hp
  rcases hm p with e | e | ⟨o, b, hb, hbp, ho⟩
  · rw [e, h0]
  · exact e
  · exfalso
    refine ho k pid base fs hpc ?_
    refine h.sep.unique hb (o' := .hand k) (b' := f.block) ?_ hbp hp
    show f.block ∈ (m.pc k).hand.map Frame.block
    rw [hpc]
    exact List.mem_map_of_mem hf

theorem Boot.inv {c : Cfg} {m : Machine} (h : Boot m) : Inv c m := by
  refine ⟨h.node, h.core, ?_, ?_, h.sep, ?_⟩
  · intro k f hf; rw [h.idle k] at hf; cases hf
  · intro pid P hP; rw [h.noProc pid] at hP; cases hP
  · intro k pid base fs hpc; rw [h.idle k] at hpc; cases hpc

theorem zero_apply (mem : Nat → UInt8) (f : Frame) (p : Nat) :
    (f.block.Has p → zero mem f p = 0) ∧ (¬ f.block.Has p → zero mem f p = mem p) := by
  unfold zero
  exact ⟨fun h => if_pos h, fun h => if_neg h⟩

/-- Zeroing pages. -/
theorem foldl_zero (fs : List Frame) : ∀ (mem : Nat → UInt8) (p : Nat),
    ((∃ f ∈ fs, f.block.Has p) → fs.foldl zero mem p = 0) ∧
    ((∀ f ∈ fs, ¬ f.block.Has p) → fs.foldl zero mem p = mem p) := by
  induction fs with
  | nil => intro mem p; exact ⟨fun ⟨f, hf, _⟩ => (by cases hf), fun _ => rfl⟩
  | cons g gs ih =>
    intro mem p
    obtain ⟨i1, i2⟩ := ih (zero mem g) p
    obtain ⟨z1, z2⟩ := zero_apply mem g p
    rw [List.foldl_cons]
    constructor
    · rintro ⟨f, hf, hp⟩
      by_cases hg : ∃ f ∈ gs, f.block.Has p
      · exact i1 hg
      · rw [i2 (fun f hf hp => hg ⟨f, hf, hp⟩)]
        rcases List.mem_cons.1 hf with rfl | hf
        · exact z1 hp
        · exact absurd ⟨f, hf, hp⟩ hg
    · intro h
      rw [i2 (fun f hf => h f (List.mem_cons_of_mem _ hf)), z2 (h g List.mem_cons_self)]

theorem foldl_zero_or (fs : List Frame) (mem : Nat → UInt8) (p : Nat) :
    fs.foldl zero mem p = mem p ∨ fs.foldl zero mem p = 0 := by
  by_cases h : ∃ f ∈ fs, f.block.Has p
  · exact Or.inr ((foldl_zero fs mem p).1 h)
  · exact Or.inl ((foldl_zero fs mem p).2 (fun f hf hp => h ⟨f, hf, hp⟩))

section
variable {c : Cfg} {m : Machine}

/-- What a process can reach is its own memory. -/
theorem Inv.reach (hk : c.env.pages4k = false) (h : Inv c m) {pid : Nat} {P : Proc}
    (hP : m.proc pid = some P) {x p : Nat} {r : MapAction} (hu : x < userTop)
    (hx : P.vs.resolve x = .ok (p, r)) : ∃ b ∈ memoryOf m (.proc pid), b.Has p := by
  have := reach_owned ((h.run pid P hP).inv hk) hu hx
  show ∃ b ∈ ownedBy (m.proc pid), b.Has p
  rw [hP]
  exact this

/-- A page in a core's hands is nobody else's. -/
theorem Inv.hand_disj (h : Inv c m) {k pid : Nat} {P : Proc} {f : Frame} (hf : f ∈ (m.pc k).hand)
    (hP : m.proc pid = some P) {fid n : Nat} {g : Frame} (hg : P.frames.get fid = .ok (g, n)) :
    Disjoint g.block f.block := by
  refine h.sep.other (.proc pid) (.hand k) (by simp) _ ?_ _ (List.mem_map_of_mem hf)
  show g.block ∈ ownedBy (m.proc pid)
  rw [hP]
  exact List.mem_append_left _ (mem_regBlocks (get_ok.1 hg))

/-- A step of a process, with the memory going from and to a core's hands. -/
theorem Inv.procStep (hk : c.env.pages4k = false) (h : Inv c m) (k pid : Nat) {P P' : Proc} {op : ProcOp}
    {o : Outcome ProcResult} (pc' : Pc) (hP : m.proc pid = some P) (hs : P.step c op = (P', o))
    (ho : o ≠ .panic) (sane : Sane P op)
    (hh : ∃ lost, (pc'.hand.map Frame.block ++ (gives op ++ lost)).Perm
      ((m.pc k).hand.map Frame.block ++ takes o))
    (hok : ∀ f ∈ pc'.hand, PageOk f)
    (hz : ∀ p b fs, pc' = .mapping p b fs → ∃ p' b' fs', m.pc k = .mapping p' b' fs' ∧ ∀ f ∈ fs, f ∈ fs') :
    Inv c { m with proc := upd m.proc pid (some P'), pc := upd m.pc k pc' } := by
  have hinv := (h.run pid P hP).inv hk
  refine ⟨h.node, h.core, ?_, ?_, ?_, ?_⟩
  · intro k' f hf
    by_cases e : k' = k
    · subst e; simp only [upd_same] at hf; exact hok f hf
    · simp only [upd_other _ _ e] at hf; exact h.hand k' f hf
  · intro pid' P1 hP1
    by_cases e : pid' = pid
    · subst e; simp only [upd_same] at hP1; cases hP1
      exact SRun.step op (h.run _ P hP) hs ho sane (fun e => by cases e)
    · simp only [upd_other _ _ e] at hP1; exact h.run pid' P1 hP1
  · obtain ⟨l1, hl1⟩ := step_owned hk hinv sane hs
    obtain ⟨l2, hl2⟩ := hh
    refine sep_upd h.sep 0 k 0 pid (fun _ _ => rfl) (fun _ _ => rfl)
      (fun k' e => upd_other _ _ e) (fun p e => upd_other _ _ e) (l1 ++ l2) ?_
    rw [List.perm_iff_count]
    intro b
    have h1 := hl1.count_eq b
    have h2 := hl2.count_eq b
    simp only [upd_same, hP, ownedBy, List.count_append] at h1 h2 ⊢
    omega
  · intro k' pid' base fs hpc f hf p hp
    by_cases e : k' = k
    · subst e; simp only [upd_same] at hpc
      obtain ⟨p', b', fs', h1, h2⟩ := hz _ _ _ hpc
      exact h.zero _ _ _ _ h1 f (h2 f hf) p hp
    · simp only [upd_other _ _ e] at hpc; exact h.zero k' pid' base fs hpc f hf p hp

/-- A step that moves memory between caches, a core's hands and the kernel. -/
theorem Inv.cacheStep (h : Inv c m) (n k a : Nat) {nc tc : MCache} (pc' : Pc) (kern' : List Frame)
    (mem' : Nat → UInt8)
    (hnc : nc.Wf ∧ nc.node = n) (htc : tc.Wf ∧ tc.node = a)
    (hp : ∃ lost, (nc.held ++ (tc.held ++ (pc'.hand.map Frame.block ++ (kern'.map Frame.block ++ lost)))).Perm
      ((m.node n).held ++ ((m.tc (k, a)).held ++ ((m.pc k).hand.map Frame.block ++ m.kern.map Frame.block))))
    (hok : ∀ f ∈ pc'.hand, PageOk f)
    (hm : ∀ p, mem' p = m.mem p ∨ mem' p = 0)
    (hz : ∀ p b fs, pc' = .mapping p b fs → (∀ f ∈ fs, ∀ q, f.block.Has q → mem' q = 0)) :
    Inv c { m with
      node := upd m.node n nc, tc := upd m.tc (k, a) tc, pc := upd m.pc k pc', kern := kern',
      mem := mem' } := by
  refine ⟨?_, ?_, ?_, h.run, ?_, ?_⟩
  · intro n'
    by_cases e : n' = n
    · subst e; simp only [upd_same]; exact hnc
    · simp only [upd_other _ _ e]; exact h.node n'
  · intro k' a'
    by_cases e : (k', a') = (k, a)
    · cases e; simp only [upd_same]; exact htc
    · simp only [upd_other _ _ e]; exact h.core k' a'
  · intro k' f hf
    by_cases e : k' = k
    · subst e; simp only [upd_same] at hf; exact hok f hf
    · simp only [upd_other _ _ e] at hf; exact h.hand k' f hf
  · obtain ⟨lost, hl⟩ := hp
    refine sep_upd h.sep n k a 0 (fun _ e => upd_other _ _ e) (fun _ e => upd_other _ _ e)
      (fun k' e => upd_other _ _ e) (fun p e => rfl) lost ?_
    rw [List.perm_iff_count]
    intro b
    have h1 := hl.count_eq b
    simp only [upd_same, List.count_append] at h1 ⊢
    omega
  · intro k' pid' base fs hpc f hf p hfp
    by_cases e : k' = k
    · subst e; simp only [upd_same] at hpc; exact hz _ _ _ hpc f hf p hfp
    · simp only [upd_other _ _ e] at hpc
      have := h.zero k' pid' base fs hpc f hf p hfp
      rcases hm p with e | e
      · exact e.trans this
      · exact e

/-- A write to memory of somebody who is not about to map it as fresh memory. -/
theorem Inv.write (h : Inv c m) {p : Nat} {v : UInt8} {o : Owner} {b : Block} (hb : b ∈ memoryOf m o)
    (hp : b.Has p) (ho : ∀ k pid base fs, m.pc k = .mapping pid base fs → o ≠ .hand k) :
    Inv c { m with mem := upd m.mem p v } := by
  refine ⟨h.node, h.core, h.hand, h.run, h.sep, ?_⟩
  refine zero_keep h (fun q => ?_)
  by_cases e : q = p
  · subst e; exact Or.inr (Or.inr ⟨o, b, hb, hp, ho⟩)
  · exact Or.inl (upd_other _ _ e)

end

/-- Every step keeps the invariant. -/
theorem Inv.step {c : Cfg} (hk : c.env.pages4k = false) {m m' : Machine} {act : Option Nat} (h : Inv c m)
    (s : MStep c m act m') : Inv c m' := by
  have same : ∀ k, (m.node (m.cur k)).node = (m.cache k).node := fun k =>
    (h.node _).2.trans (h.core _ _).2.symm
  cases s with
  | spawn pid pt off hn hpt =>
    refine ⟨h.node, h.core, h.hand, ?_, ?_, h.zero⟩
    · intro pid' P1 hP1
      by_cases e : pid' = pid
      · subst e; simp only [upd_same] at hP1; cases hP1
        exact SRun.new pt off hpt
      · simp only [upd_other _ _ e] at hP1; exact h.run pid' P1 hP1
    · refine h.sep.congr (fun o => ?_)
      cases o with
      | proc p =>
        show ownedBy (upd m.proc pid _ p) = ownedBy (m.proc p)
        by_cases e : p = pid
        · subst e
          rw [upd_same, hn]
          rfl
        · rw [upd_other _ _ e]
      | _ => rfl
  | affinity k a => exact ⟨h.node, h.core, h.hand, h.run, h.sep.congr (fun o => by cases o <;> rfl), h.zero⟩
  | refill k needB needL o nc tc hr ho =>
    obtain ⟨a1, a2, a3, a4, a5⟩ := refill_spec (h.node _).1 (h.core _ _).1 (same k) hr
    have := h.cacheStep (m.cur k) k (m.cur k) (nc := nc) (tc := tc) (m.pc k) m.kern m.mem
      ⟨a1, a3.trans (h.node _).2⟩ ⟨a2, a4.trans (h.core _ _).2⟩ ⟨[], ?_⟩ (h.hand k) (fun _ => Or.inl rfl)
      (fun p b fs e => h.zero k p b fs e)
    · simpa using this
    · rw [List.perm_iff_count]
      intro b
      have h1 := a5.count_eq b
      simp only [List.count_append, Machine.cache, List.count_nil] at h1 ⊢
      omega
  | allocate k pid large o nc tc hpc hr ho =>
    obtain ⟨a1, a2, a3, a4, a5⟩ := refillTake_spec (h.node _).1 (h.core _ _).1 (same k) hr
    refine h.cacheStep (m.cur k) k (m.cur k) (nc := nc) (tc := tc) (afterTake pid o) m.kern m.mem
      ⟨a1, a3.trans (h.node _).2⟩ ⟨a2, a4.trans (h.core _ _).2⟩ ⟨[], ?_⟩ ?_ (fun _ => Or.inl rfl) ?_
    · rw [List.perm_iff_count]
      intro b
      rcases a5 with ⟨f, rfl, _, hp⟩ | ⟨hf, hp⟩
      · have h1 := hp.count_eq b
        simp only [List.count_append, Machine.cache, List.count_nil, afterTake, Pc.hand, hpc,
          List.map_cons, List.map_nil] at h1 ⊢
        omega
      · have h1 := hp.count_eq b
        have e : afterTake pid o = .idle := by
          cases o with
          | ok f => exact absurd rfl (hf f)
          | err e => rfl
          | panic => rfl
        simp only [List.count_append, Machine.cache, List.count_nil, e, Pc.hand, hpc,
          List.map_nil] at h1 ⊢
        omega
    · intro f hf
      cases o with
      | ok g =>
        rcases a5 with ⟨f', e, hp, _⟩ | ⟨hf', _⟩
        · cases e
          rw [List.mem_singleton.1 hf]; exact hp
        · exact absurd rfl (hf' g)
      | err e => cases hf
      | panic => cases hf
    · intro p b fs e
      cases o <;> cases e
  | register k pid f P P' o hpc hP hs ho =>
    have hf : f ∈ (m.pc k).hand := by rw [hpc]; exact List.mem_singleton.2 rfl
    have hok := h.hand k f hf
    refine h.procStep hk k pid .idle hP hs ho ?_ ⟨takes o, ?_⟩ (fun f hf => by cases hf) (fun _ _ _ e => by cases e)
    · refine ⟨hok.1, hok.2, fun fid g n hg => h.hand_disj hf hP hg, ?_⟩
      intro x p r hu hx hp
      obtain ⟨b, hb, hbp⟩ := h.reach hk hP hu hx
      exact h.sep.other (.proc pid) (.hand k) (by simp) b hb f.block (List.mem_map_of_mem hf) p ⟨hbp, hp⟩
    · rw [hpc]
      exact List.Perm.refl _
  | release k pid fid P P' o hpc hP hs ho =>
    have hinv := (h.run pid P hP).inv hk
    have hcase : (∃ f, o = .ok (.frame f) ∧ PageOk f) ∨ (afterRelease o = .idle ∧ takes o = []) := by
      unfold Proc.step Frames.dealloc at hs
      simp only at hs
      cases hf : P.frames[fid]? with
      | none => rw [hf] at hs; cases hs; exact Or.inr ⟨rfl, rfl⟩
      | some e =>
        obtain ⟨of, n⟩ := e
        rw [hf] at hs
        simp only at hs
        split at hs
        · cases of with
          | none => cases hs; exact Or.inr ⟨rfl, rfl⟩
          | some f => cases hs; exact Or.inl ⟨f, rfl, hinv.reg fid f n hf⟩
        · cases hs; exact Or.inr ⟨rfl, rfl⟩
    refine h.procStep hk k pid (afterRelease o) hP hs ho trivial ⟨[], ?_⟩ ?_ ?_
    · rcases hcase with ⟨f, rfl, _⟩ | ⟨e1, e2⟩
      · rw [hpc]; exact List.Perm.refl _
      · rw [hpc, e1, e2]; exact List.Perm.refl _
    · rcases hcase with ⟨f, rfl, hp⟩ | ⟨e1, e2⟩
      · intro g hg; rw [List.mem_singleton.1 hg]; exact hp
      · rw [e1]; intro g hg; cases hg
    · rcases hcase with ⟨f, rfl, hp⟩ | ⟨e1, e2⟩
      · intro p b fs e; cases e
      · rw [e1]; intro p b fs e; cases e
  | giveCore k f o tc hpc hg ho =>
    have hf : f ∈ (m.pc k).hand := by rw [hpc]; exact List.mem_singleton.2 rfl
    obtain ⟨b1, b2, b3⟩ := giveBack_spec (h.core _ _).1 hg ho
    have := h.cacheStep 0 k (m.cur k) (nc := m.node 0) (tc := tc) (afterGive f o) m.kern m.mem (h.node 0)
      ⟨b1, b2.trans (h.core _ _).2⟩ ⟨[], ?_⟩ ?_ (fun _ => Or.inl rfl) ?_
    · simpa using this
    · rw [List.perm_iff_count]
      intro b
      rcases b3 with ⟨rfl, hp⟩ | ⟨rfl, rfl⟩
      · have h1 := hp.count_eq b
        rw [show f.block :: (m.tc (k, m.cur k)).held = [f.block] ++ (m.tc (k, m.cur k)).held from rfl] at h1
        simp only [List.count_append, Machine.cache, List.count_nil, afterGive, Pc.hand, hpc,
          List.map_cons, List.map_nil] at h1 ⊢
        omega
      · simp only [List.count_append, Machine.cache, List.count_nil, afterGive, Pc.hand, hpc,
          List.map_cons, List.map_nil]
        omega
    · rcases b3 with ⟨rfl, hp⟩ | ⟨rfl, rfl⟩
      · intro g hg; cases hg
      · intro g hg; rw [List.mem_singleton.1 hg]; exact h.hand k f hf
    · rcases b3 with ⟨rfl, hp⟩ | ⟨rfl, rfl⟩ <;> intro p b fs e <;> cases e
  | giveNode k f nc hpc hg =>
    obtain ⟨b1, b2, b3⟩ := giveBack_spec (h.node _).1 hg (fun e => by cases e)
    have := h.cacheStep f.aff k 0 (nc := nc) (tc := m.tc (k, 0)) .idle m.kern m.mem
      ⟨b1, b2.trans (h.node _).2⟩ (h.core k 0) ⟨[], ?_⟩ (fun f hf => by cases hf) (fun _ => Or.inl rfl)
      (fun _ _ _ e => by cases e)
    · simpa using this
    · rw [List.perm_iff_count]
      intro b
      rcases b3 with ⟨_, hp⟩ | ⟨e, _⟩
      · have h1 := hp.count_eq b
        rw [show f.block :: (m.node f.aff).held = [f.block] ++ (m.node f.aff).held from rfl] at h1
        simp only [List.count_append, List.count_nil, Pc.hand, hpc,
          List.map_cons, List.map_nil] at h1 ⊢
        omega
      · cases e
  | mapStart k pid base size o nc tc hpc hr ho =>
    obtain ⟨a1, a2, a3, a4, a5, a6⟩ := takePages_spec (h.node _).1 (h.core _ _).1 (same k) hr ho
    have hand : (afterPages pid base o).hand = pagesOf o := by cases o <;> rfl
    refine h.cacheStep (m.cur k) k (m.cur k) (nc := nc) (tc := tc) (afterPages pid base o) m.kern
      ((pagesOf o).foldl Machine.zero m.mem)
      ⟨a1, a3.trans (h.node _).2⟩ ⟨a2, a4.trans (h.core _ _).2⟩ ⟨[], ?_⟩ ?_ ?_ ?_
    · rw [List.perm_iff_count]
      intro b
      have h1 := a6.count_eq b
      rw [hand, hpc]
      simp only [List.count_append, Machine.cache, List.count_nil, Pc.hand,
          List.map_nil] at h1 ⊢
      omega
    · rw [hand]; exact a5
    · intro p
      exact foldl_zero_or _ _ _
    · intro p b fs e f hf q hq
      have : pagesOf o = fs := by rw [← hand, e]; rfl
      rw [this]
      exact (foldl_zero fs m.mem q).1 ⟨f, hf, hq⟩
  | mapNext k pid base f fs P P' refill oom r hpc hP hs hu =>
    have hf : f ∈ (m.pc k).hand := by rw [hpc]; exact List.mem_cons_self
    have hok := h.hand k f hf
    refine h.procStep hk k pid (.mapping pid (base + f.size) fs) hP hs (fun e => by cases e) ?_ ⟨takes (.ok r), ?_⟩ ?_ ?_
    · exact ⟨hok.1, hu, rfl, fun fid g n hg => h.hand_disj hf hP hg⟩
    · rw [hpc]
      rw [List.perm_iff_count]
      intro b
      show List.count b (fs.map Frame.block ++ ([f.block] ++ _)) = List.count b ([f.block] ++ fs.map Frame.block ++ _)
      simp only [List.count_append]
      omega
    · intro g hg
      refine h.hand k g ?_
      rw [hpc]; exact List.mem_cons_of_mem _ hg
    · intro p b fs' e
      cases e
      exact ⟨_, _, _, hpc, fun g hg => List.mem_cons_of_mem _ hg⟩
  | mapDone k pid base hpc =>
    have := h.cacheStep 0 k 0 (nc := m.node 0) (tc := m.tc (k, 0)) .idle m.kern m.mem (h.node 0)
      (h.core k 0) ⟨[], ?_⟩ (fun f hf => by cases hf) (fun _ => Or.inl rfl) (fun _ _ _ e => by cases e)
    · simpa using this
    · rw [hpc]
      simp [Pc.hand]
  | execTake k pid aff f nc hpc hr =>
    obtain ⟨b1, b2, b3⟩ := takeOne_spec (large := true) (h.node aff).1 hr
    have := h.cacheStep aff k 0 (nc := nc) (tc := m.tc (k, 0)) (.executors pid f) m.kern (Machine.zero m.mem f)
      ⟨b1, b2.trans (h.node _).2⟩ (h.core k 0) ⟨[], ?_⟩ ?_ ?_ (fun _ _ _ e => by cases e)
    · simpa using this
    · rcases b3 with ⟨g, e, _, hp⟩ | ⟨e, _⟩
      · cases e
        rw [List.perm_iff_count]
        intro b
        have h1 := hp.count_eq b
        simp only [List.count_append, List.count_nil, Pc.hand, hpc, List.map_cons, List.map_nil] at h1 ⊢
        omega
      · cases e
    · rcases b3 with ⟨g, e, hp, _⟩ | ⟨e, _⟩
      · cases e
        intro g hg; rw [List.mem_singleton.1 hg]; exact hp
      · cases e
    · intro p
      exact foldl_zero_or [f] m.mem p
  | execGive k pid f P P' mid mapOom ooms o hpc hP hs ho hu =>
    have hf : f ∈ (m.pc k).hand := by rw [hpc]; exact List.mem_singleton.2 rfl
    have hok := h.hand k f hf
    refine h.procStep hk k pid .idle hP hs ho ?_ ⟨takes o, ?_⟩ (fun f hf => by cases hf) (fun _ _ _ e => by cases e)
    · exact ⟨hok.1, hu, fun fid g n hg => h.hand_disj hf hP hg⟩
    · rw [hpc]
      exact List.Perm.refl _
  | loadTake k pid base large a f tc hpc hr ha =>
    obtain ⟨b1, b2, b3⟩ := takeOne_spec (h.core _ _).1 hr
    have := h.cacheStep 0 k (m.cur k) (nc := m.node 0) (tc := tc) (.loading pid base f a) m.kern m.mem
      (h.node 0) ⟨b1, b2.trans (h.core _ _).2⟩ ⟨[], ?_⟩ ?_ (fun _ => Or.inl rfl) (fun _ _ _ e => by cases e)
    · simpa using this
    · rcases b3 with ⟨g, e, _, hp⟩ | ⟨e, _⟩
      · cases e
        rw [List.perm_iff_count]
        intro b
        have h1 := hp.count_eq b
        simp only [List.count_append, Machine.cache, List.count_nil, Pc.hand, hpc, List.map_cons, List.map_nil] at h1 ⊢
        omega
      · cases e
    · rcases b3 with ⟨g, e, hp, _⟩ | ⟨e, _⟩
      · cases e
        intro g hg; rw [List.mem_singleton.1 hg]; exact hp
      · cases e
  | loadWrite k pid base f a p v hpc hin =>
    refine h.write (o := .hand k) (b := f.block) ?_ hin ?_
    · show f.block ∈ (m.pc k).hand.map Frame.block
      rw [hpc]
      exact List.mem_singleton.2 rfl
    · intro k' pid' base' fs' e e'
      cases e'
      rw [hpc] at e
      cases e
  | loadMap k pid base f a P P' refill oom o hpc ha hP hs ho hu =>
    have hf : f ∈ (m.pc k).hand := by rw [hpc]; exact List.mem_singleton.2 rfl
    have hok := h.hand k f hf
    refine h.procStep hk k pid .idle hP hs ho ?_ ⟨takes o, ?_⟩ (fun f hf => by cases hf) (fun _ _ _ e => by cases e)
    · exact ⟨hok.1, hu, ha, fun fid g n hg => h.hand_disj hf hP hg⟩
    · rw [hpc]
      exact List.Perm.refl _
  | mapFrameId pid base fid P P' refill oom o hP hs ho hu =>
    have := h.procStep hk 0 pid (m.pc 0) hP hs ho ⟨rfl, hu⟩ ⟨takes o, List.Perm.refl _⟩ (h.hand 0)
      (fun p b fs e => ⟨p, b, fs, e, fun _ hf => hf⟩)
    simpa using this
  | unmap pid base P P' o hP hs ho hu =>
    have := h.procStep hk 0 pid (m.pc 0) hP hs ho hu ⟨takes o, List.Perm.refl _⟩ (h.hand 0)
      (fun p b fs e => ⟨p, b, fs, e, fun _ hf => hf⟩)
    simpa using this
  | assign pid gtid region oom P P' o hP hs ho =>
    have := h.procStep hk 0 pid (m.pc 0) hP hs ho trivial ⟨takes o, List.Perm.refl _⟩ (h.hand 0)
      (fun p b fs e => ⟨p, b, fs, e, fun _ hf => hf⟩)
    simpa using this
  | write pid x p r v P hP hx hr =>
    obtain ⟨b, hb, hbp⟩ := h.reach hk hP hx hr
    exact h.write hb hbp (fun _ _ _ _ _ e => by cases e)
  | kernelTake k large f tc hr =>
    obtain ⟨b1, b2, b3⟩ := takeOne_spec (h.core _ _).1 hr
    have := h.cacheStep 0 k (m.cur k) (nc := m.node 0) (tc := tc) (m.pc k) (f :: m.kern) m.mem
      (h.node 0) ⟨b1, b2.trans (h.core _ _).2⟩ ⟨[], ?_⟩ (h.hand k) (fun _ => Or.inl rfl)
      (fun p b fs e => h.zero k p b fs e)
    · simpa using this
    · rcases b3 with ⟨g, e, _, hp⟩ | ⟨e, _⟩
      · cases e
        rw [List.perm_iff_count]
        intro b
        have h1 := hp.count_eq b
        rw [show (f :: m.kern).map Frame.block = [f.block] ++ m.kern.map Frame.block from rfl]
        simp only [List.count_append, Machine.cache, List.count_nil] at h1 ⊢
        omega
      · cases e
  | kernelGive k f tc hf hg =>
    obtain ⟨b1, b2, b3⟩ := giveBack_spec (h.core _ _).1 hg (fun e => by cases e)
    have := h.cacheStep 0 k (m.cur k) (nc := m.node 0) (tc := tc) (m.pc k) (m.kern.erase f) m.mem
      (h.node 0) ⟨b1, b2.trans (h.core _ _).2⟩ ⟨[], ?_⟩ (h.hand k) (fun _ => Or.inl rfl)
      (fun p b fs e => h.zero k p b fs e)
    · simpa using this
    · rcases b3 with ⟨_, hp⟩ | ⟨e, _⟩
      · rw [List.perm_iff_count]
        intro b
        have h1 := hp.count_eq b
        have h2 := ((List.perm_cons_erase hf).map Frame.block).count_eq b
        rw [show f.block :: (m.tc (k, m.cur k)).held = [f.block] ++ (m.tc (k, m.cur k)).held from rfl] at h1
        rw [show (f :: m.kern.erase f).map Frame.block = [f.block] ++ (m.kern.erase f).map Frame.block from rfl] at h2
        simp only [List.count_append, Machine.cache, List.count_nil] at h1 h2 ⊢
        omega
      · cases e
  | kernelWrite f p v hf hin =>
    exact h.write (o := .kern) (b := f.block) (List.mem_map_of_mem hf) hin (fun _ _ _ _ _ e => by cases e)

theorem Reach.inv {c : Cfg} (hk : c.env.pages4k = false) {m : Machine} (r : Reach c m) : Inv c m := by
  induction r with
  | boot h => exact h.inv
  | step r s ih => exact ih.step hk s

end NRK.Machine
