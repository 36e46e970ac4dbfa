import Verif.Machine.MachineLemmas

/-!
# C61: processes do not share memory

For machines after any history of the steps of `MStep`, with any number of cores, nodes and processes and
any interleaving.
-/

namespace NRK.Machine

open NRK.Mem NRK.Mem.Spec NRK.VSpace NRK.Proc

/-- Process `pid` reaches physical address `a` through its virtual address `x`. -/
def Reaches (m : Machine) (pid x a : Nat) : Prop :=
  x < userTop ∧ ∃ P r, m.proc pid = some P ∧ P.vs.resolve x = .ok (a, r)

/-- **C61** Two processes never reach the same byte of memory. -/
theorem c61_no_sharing_partial {c : Cfg} (hk : c.env.pages4k = false) {m : Machine} (r : Reach c m)
    {p q x y a b : Nat} (hp : Reaches m p x a) (hq : Reaches m q y b) (hne : p ≠ q) : a ≠ b := by
  obtain ⟨hx, P, r1, hP, hxa⟩ := hp
  obtain ⟨hy, Q, r2, hQ, hyb⟩ := hq
  have inv := r.inv hk
  obtain ⟨b1, h1, h2⟩ := inv.reach hk hP hx hxa
  obtain ⟨b2, h3, h4⟩ := inv.reach hk hQ hy hyb
  intro e
  subst e
  have := inv.sep.unique h1 h3 h2 h4
  cases this
  exact hne rfl

/-- **C61** No process reaches memory of the kernel, a page that a cache will hand out, or a page that a
core is about to give to somebody. -/
theorem c61_not_kernel_partial {c : Cfg} (hk : c.env.pages4k = false) {m : Machine} (r : Reach c m)
    {p x a : Nat} (hp : Reaches m p x a) :
    (∀ f ∈ m.kern, ¬ f.block.Has a) ∧ (∀ n, ∀ b ∈ (m.node n).held, ¬ b.Has a) ∧
    (∀ ka, ∀ b ∈ (m.tc ka).held, ¬ b.Has a) ∧ (∀ k, ∀ f ∈ (m.pc k).hand, ¬ f.block.Has a) := by
  obtain ⟨hx, P, r1, hP, hxa⟩ := hp
  have inv := r.inv hk
  obtain ⟨b1, h1, h2⟩ := inv.reach hk hP hx hxa
  have key : ∀ o b, b ∈ memoryOf m o → o ≠ .proc p → ¬ b.Has a := by
    intro o b hb ho hba
    exact ho (inv.sep.unique hb h1 hba h2)
  refine ⟨fun f hf => ?_, fun n b hb => ?_, fun ka b hb => ?_, fun k f hf => ?_⟩
  · exact key .kern _ (List.mem_map_of_mem hf) (fun e => by cases e)
  · exact key (.node n) b hb (fun e => by cases e)
  · exact key (.core ka.1 ka.2) b hb (fun e => by cases e)
  · exact key (.hand k) _ (List.mem_map_of_mem hf) (fun e => by cases e)

/-- **C61** Within a process, two addresses reach the same byte only if both are mapped from a registered
frame. -/
theorem c61_own_aliases_partial {c : Cfg} (hk : c.env.pages4k = false) {m : Machine} (r : Reach c m)
    {p : Nat} {P : Proc} (hP : m.proc p = some P) {x y a : Nat} {rx ry : MapAction} (hx : x < userTop)
    (hy : y < userTop) (hxa : P.vs.resolve x = .ok (a, rx)) (hya : P.vs.resolve y = .ok (a, ry))
    (hne : x ≠ y) : rx.aliased = true ∧ ry.aliased = true := by
  have inv := r.inv hk
  have pi := (inv.run p P hP).inv hk
  obtain ⟨q, hq, hc⟩ := pi.vinv.exists_cov hx (by rw [hxa]; intro e; cases e)
  obtain ⟨q', hq', hc'⟩ := pi.vinv.exists_cov hy (by rw [hya]; intro e; cases e)
  have e1 := pi.vinv.resolve_cov hq hc
  have e2 := pi.vinv.resolve_cov hq' hc'
  rw [hxa] at e1
  rw [hya] at e2
  have ea : a = q.2.frame.base + (x - q.1) := by cases e1; rfl
  have ea' : a = q'.2.frame.base + (y - q'.1) := by cases e2; rfl
  have er : rx.aliased = q.2.rights.aliased := by cases e1; rfl
  have er' : ry.aliased = q'.2.rights.aliased := by cases e2; rfl
  have hb : q.2.frame.block.Has a := by
    unfold Covers at hc
    exact ⟨by show q.2.frame.base ≤ a; omega, by show a < q.2.frame.base + q.2.frame.size; omega⟩
  have hb' : q'.2.frame.block.Has a := by
    unfold Covers at hc'
    exact ⟨by show q'.2.frame.base ≤ a; omega, by show a < q'.2.frame.base + q'.2.frame.size; omega⟩
  have hqq : q ≠ q' := by
    intro e
    subst e
    unfold Covers at hc hc'
    omega
  rw [er, er']
  cases ha : q.2.rights.aliased <;> cases ha' : q'.2.rights.aliased
  · exfalso
    have hs := inv.sep.self (.proc p)
    have hs : AllDisjoint (owned P) := by
      have : memoryOf m (.proc p) = owned P := by show ownedBy (m.proc p) = _; rw [hP]; rfl
      rw [← this]; exact hs
    unfold AllDisjoint owned at hs
    rw [List.pairwise_append] at hs
    have h2 := hs.2.1
    unfold mapBlocks at h2
    rw [List.pairwise_map] at h2
    exact pairwise_all (R := fun q q' : Nat × MappingInfo => Disjoint q.2.frame.block q'.2.frame.block)
      (fun a b h => h.symm) h2 q (List.mem_filter.2 ⟨hq, by simp [ha]⟩) q'
      (List.mem_filter.2 ⟨hq', by simp [ha']⟩) hqq a ⟨hb, hb'⟩
  · exfalso
    obtain ⟨fid, n, hf⟩ := pi.al q' hq' ha'
    exact pi.nal q hq ha fid _ n hf a ⟨hb', hb⟩
  · exfalso
    obtain ⟨fid, n, hf⟩ := pi.al q hq ha
    exact pi.nal q' hq' ha' fid _ n hf a ⟨hb, hb'⟩
  · exact ⟨rfl, rfl⟩

/-- **C61** What one process does, and what the kernel does for it or for itself, changes neither the
translations of another process nor any byte that it reaches. -/
theorem c61_contents_partial {c : Cfg} (hk : c.env.pages4k = false) {m m' : Machine} (r : Reach c m)
    {act : Option Nat} (s : MStep c m act m') {p : Nat} (hact : act ≠ some p) :
    m'.proc p = m.proc p ∧ ∀ x a, Reaches m p x a → m'.mem a = m.mem a := by
  have inv := r.inv hk
  have key : ∀ o b a, b ∈ memoryOf m o → b.Has a → o ≠ .proc p → ∀ x, ¬ Reaches m p x a := by
    rintro o b a hb hba ho x ⟨hx, P, r1, hP, hxa⟩
    obtain ⟨b1, h1, h2⟩ := inv.reach hk hP hx hxa
    exact ho (inv.sep.unique hb h1 hba h2)
  have wr : ∀ o b a v, b ∈ memoryOf m o → b.Has a → o ≠ .proc p →
      ∀ x a', Reaches m p x a' → upd m.mem a v a' = m.mem a' := by
    intro o b a v hb hba ho x a' hr
    refine upd_other _ _ (fun e => ?_)
    subst e
    exact key o b _ hb hba ho x hr
  have other : ∀ {pid : Nat} (P' : Option Proc), some pid ≠ some p → upd m.proc pid P' p = m.proc p :=
    fun P' h => upd_other _ _ (fun e => h (e ▸ rfl))
  cases s with
  | mapStart k pid base size o nc tc hpc hr ho =>
    refine ⟨rfl, fun x a hx => ?_⟩
    refine (foldl_zero (pagesOf o) m.mem a).2 (fun f hf hfa => ?_)
    obtain ⟨_, _, _, _, _, a6⟩ := takePages_spec (inv.node _).1 (inv.core _ _).1
      ((inv.node _).2.trans (inv.core _ _).2.symm) hr ho
    have : f.block ∈ (m.node (m.cur k)).held ++ (m.tc (k, m.cur k)).held :=
      a6.subset (List.mem_append_right _ (List.mem_map_of_mem hf))
    rcases List.mem_append.1 this with h | h
    · exact key (.node (m.cur k)) _ a h hfa (fun e => by cases e) x hx
    · exact key (.core k (m.cur k)) _ a h hfa (fun e => by cases e) x hx
  | execTake k pid aff f nc hpc hr =>
    refine ⟨rfl, fun x a hx => (zero_apply m.mem f a).2 (fun hfa => ?_)⟩
    obtain ⟨_, _, b3⟩ := takeOne_spec (large := true) (inv.node aff).1 hr
    rcases b3 with ⟨g, e, _, hp⟩ | ⟨e, _⟩
    · cases e
      have : f.block ∈ (m.node aff).held := hp.subset (List.mem_append_right _ (List.mem_singleton.2 rfl))
      exact key (.node aff) _ a this hfa (fun e => by cases e) x hx
    · cases e
  | loadWrite k pid base f a p' v hpc hin =>
    refine ⟨rfl, wr (.hand k) f.block p' v ?_ hin (fun e => by cases e)⟩
    show f.block ∈ (m.pc k).hand.map Frame.block
    rw [hpc]
    exact List.mem_singleton.2 rfl
  | write pid x p' r' v P hP hx hr =>
    obtain ⟨b, hb, hbp⟩ := inv.reach hk hP hx hr
    refine ⟨rfl, wr (.proc pid) b p' v hb hbp (fun e => ?_)⟩
    cases e
    exact hact rfl
  | kernelWrite f p' v hf hin =>
    exact ⟨rfl, wr .kern f.block p' v (List.mem_map_of_mem hf) hin (fun e => by cases e)⟩
  | _ => first
    | exact ⟨rfl, fun _ _ _ => rfl⟩
    | exact ⟨other _ hact, fun _ _ _ => rfl⟩

/-- **C61** Memory that the system call for fresh memory maps is all zero at the time it becomes
accessible, whatever other cores do in the meantime. -/
theorem c61_fresh_zero_partial {c : Cfg} (hk : c.env.pages4k = false) {m : Machine} (r : Reach c m)
    {k pid base : Nat} {f : Frame} {fs : List Frame} {P P' : Proc} {refill oom : Bool} {res : ProcResult}
    (hpc : m.pc k = .mapping pid base (f :: fs)) (hP : m.proc pid = some P)
    (hs : P.step c (.map base f MapAction.writable refill oom) = (P', .ok res))
    (hu : base + f.size ≤ userTop) {x : Nat} (h1 : base ≤ x) (h2 : x < base + f.size) :
    P.vs.resolve x = .err .notMapped ∧
    ∃ a rights, P'.vs.resolve x = .ok (a, rights) ∧ m.mem a = 0 := by
  have inv := r.inv hk
  have pi := (inv.run pid P hP).inv hk
  have hf : f ∈ (m.pc k).hand := by rw [hpc]; exact List.mem_cons_self
  have hok := inv.hand k f hf
  have hpos : 0 < f.size := by rcases hok.1 with e | e <;> omega
  unfold Proc.step at hs
  simp only at hs
  split at hs
  · cases hs
  · have e1 : P' = { P with vs := (mapFrame c.env oom P.vs base f MapAction.writable).1 } :=
      (congrArg Prod.fst hs).symm
    have e2 : (mapFrame c.env oom P.vs base f MapAction.writable).2.map (fun _ => ProcResult.ok) = .ok res :=
      congrArg Prod.snd hs
    rcases mapFrame_cases c.env hk oom pi.vinv base f MapAction.writable hok.1 hu with ⟨e, he, _⟩ |
      ⟨_, _, q, hq, hq1, hq2, _, hc⟩ | ⟨hb, hv', hall, hc⟩
    · rw [he] at e2; cases e2
    · rcases hc with ⟨i1, i2, i3, i4, he⟩ | ⟨_, he⟩
      · exfalso
        have hqp := pageSize_pos (pi.vinv.page q hq).1
        have hqa : q.2.rights.aliased = false := by rw [i4]; rfl
        have hm : q.2.frame.block ∈ memoryOf m (.proc pid) := by
          show _ ∈ ownedBy (m.proc pid)
          rw [hP]
          exact List.mem_append_right _ (mem_mapBlocks hq hqa)
        refine inv.sep.other (.proc pid) (.hand k) (by simp) _ hm f.block (List.mem_map_of_mem hf) f.base
          ⟨⟨?_, ?_⟩, ⟨?_, ?_⟩⟩
        · show q.2.frame.base ≤ f.base; omega
        · show f.base < q.2.frame.base + q.2.frame.size; omega
        · exact Nat.le_refl _
        · show f.base < f.base + f.size; omega
      · rw [he] at e2; cases e2
    · refine ⟨pi.vinv.resolve_unc (by omega) (fun q hq hcov => ?_), ?_⟩
      · have := hall q hq
        unfold Covers at hcov
        omega
      rcases hc with ⟨_, he⟩ | ⟨_, t', he, hl⟩
      · rw [he] at e2; cases e2
      · have hv := pi.vinv.mapFrame c.env hk oom base f MapAction.writable hok.1 hu
        rw [he] at hv e1
        have hmem : (base, ⟨f, MapAction.writable⟩) ∈ insertMap base ⟨f, MapAction.writable⟩ P.vs.maps :=
          (mem_insertMap _ _ _ _).2 (Or.inl rfl)
        have := hv.resolve_cov hmem (x := x) ⟨h1, h2⟩
        subst e1
        refine ⟨_, _, this, ?_⟩
        refine inv.zero k pid base (f :: fs) hpc f List.mem_cons_self _ ⟨?_, ?_⟩
        · exact Nat.le_add_right _ _
        · show f.base + (x - base) < f.base + f.size; omega

end NRK.Machine
