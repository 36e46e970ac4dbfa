import Verif.Proc.FramesProps
import Verif.Proc.CoreSetProps

/-!
# Properties of shootdown sets (C39) and executors (C40)
-/

namespace NRK.Proc

open NRK.VSpace NRK.Mem NRK.Mem.Spec

/-! ## Histories -/

/-- An operation with its result. -/
abbrev Event := ProcOp × Outcome ProcResult

/-- All allocations of the operation succeed. -/
def NoOom : ProcOp → Prop
  | .dispatchers _ _ mapOom ooms => mapOom = false ∧ ∀ n, ooms n = false
  | _ => True

/-- Processes with their history.  A panic stops the kernel.  If `clean`, memory did not run out while
executors were made. -/
inductive HRun (c : Cfg) (clean : Bool) : List Event → Proc → Prop where
  | new (pt : PML4) (off : Nat) : HRun c clean [] (Proc.new pt off)
  | step {h : List Event} {s s' : Proc} {o} (op : ProcOp) (r : HRun c clean h s)
      (hs : s.step c op = (s', o)) (ho : o ≠ .panic) (good : clean = true → NoOom op) :
      HRun c clean (h ++ [(op, o)]) s'

/-- Spec: the process was given an executor on the hardware thread `g`. -/
def GivenExecutor (h : List Event) (g : BitVec 64) : Prop :=
  ∃ region oom e, ((.assign g region oom, .ok (.executor e)) : Event) ∈ h

/-! ## C39 -/

theorem mem_setBit {m m' : CoreBitMap} {c : Nat} (h : m.setBit c true = .ok m') :
    c < 256 ∧ ∀ d, m'.Mem d ↔ d = c ∨ m.Mem d := by
  by_cases hc : c < 256
  · refine ⟨hc, ?_⟩
    obtain ⟨m2, h2, h3⟩ := c33_set m c true hc
    rw [h] at h2
    cases h2
    intro d
    rw [h3 d]
    by_cases e : d = c <;> simp [e]
  · rw [c33_set_out_of_range m c true (by omega)] at h
    cases h

theorem addActive_spec : ∀ (act : List (BitVec 64 × Nat)) (hs hs' : List Handle),
    addActive hs act = .ok hs' →
    hs'.length = hs.length ∧ ∀ (i : Nat) (h h' : Handle), hs[i]? = some h → hs'[i]? = some h' →
      h'.range = h.range ∧ ∀ t, h'.cores.Mem t ↔ h.cores.Mem t ∨
        ∃ a ∈ act, (midFromGtid a.1).toNat = i ∧ (mtidFromGtid a.1).toNat = t := by
  intro act
  induction act with
  | nil =>
    intro hs hs' h
    cases h
    refine ⟨rfl, ?_⟩
    intro i h h' h1 h2
    rw [h1] at h2
    cases h2
    exact ⟨rfl, fun t => by simp⟩
  | cons a rest ih =>
    obtain ⟨g, eid⟩ := a
    intro hs hs' h
    unfold addActive at h
    split at h
    · cases h
    · rename_i hd hhd
      cases hb : hd.cores.setBit (mtidFromGtid g).toNat true with
      | err e => rw [hb] at h; cases h
      | panic => rw [hb] at h; cases h
      | ok cm =>
        rw [hb] at h
        have h : addActive (hs.set (midFromGtid g).toNat { hd with cores := cm }) rest = .ok hs' := h
        obtain ⟨h1, h2⟩ := ih _ _ h
        obtain ⟨b1, b2⟩ := mem_setBit hb
        have hlt : (midFromGtid g).toNat < hs.length := (List.getElem?_eq_some_iff.1 hhd).1
        refine ⟨by rw [h1, List.length_set], ?_⟩
        intro i x x' hx hx'
        by_cases e : i = (midFromGtid g).toNat
        · subst e
          rw [hhd] at hx
          cases hx
          obtain ⟨r1, r2⟩ := h2 _ { hd with cores := cm } x' (by rw [List.getElem?_set, if_pos rfl, if_pos hlt]) hx'
          refine ⟨r1, ?_⟩
          intro t
          rw [r2 t, b2 t]
          constructor
          · rintro ((h | h) | ⟨a, ha, h⟩)
            · exact Or.inr ⟨_, List.mem_cons_self, rfl, h.symm⟩
            · exact Or.inl h
            · exact Or.inr ⟨a, List.mem_cons_of_mem _ ha, h⟩
          · rintro (h | ⟨a, ha, h⟩)
            · exact Or.inl (Or.inr h)
            · rcases List.mem_cons.1 ha with e | ha
              · subst e; exact Or.inl (Or.inl h.2.symm)
              · exact Or.inr ⟨a, ha, h⟩
        · obtain ⟨r1, r2⟩ := h2 i x x' (by rw [List.getElem?_set, if_neg (fun q => e q.symm)]; exact hx) hx'
          refine ⟨r1, ?_⟩
          intro t
          rw [r2 t]
          constructor
          · rintro (h | ⟨a, ha, h⟩)
            · exact Or.inl h
            · exact Or.inr ⟨a, List.mem_cons_of_mem _ ha, h⟩
          · rintro (h | ⟨a, ha, h⟩)
            · exact Or.inl h
            · rcases List.mem_cons.1 ha with e' | ha
              · subst e'; exact absurd h.1.symm e
              · exact Or.inr ⟨a, ha, h⟩

theorem addActive_ok : ∀ (act : List (BitVec 64 × Nat)) (hs : List Handle),
    (∀ a ∈ act, (midFromGtid a.1).toNat < hs.length ∧ (mtidFromGtid a.1).toNat < 256) →
    ∃ hs', addActive hs act = .ok hs' := by
  intro act
  induction act with
  | nil => intro hs _; exact ⟨hs, rfl⟩
  | cons a rest ih =>
    obtain ⟨g, eid⟩ := a
    intro hs h
    obtain ⟨h1, h2⟩ := h _ List.mem_cons_self
    obtain ⟨cm, hcm, _⟩ := c33_set ((hs[(midFromGtid g).toNat]'h1).cores) (mtidFromGtid g).toNat true h2
    unfold addActive
    simp only [List.getElem?_eq_getElem h1, hcm]
    exact ih _ (fun a ha => by rw [List.length_set]; exact h a (List.mem_cons_of_mem _ ha))

/-- The entry an operation adds to the active cores. -/
def newActive : Event → List (BitVec 64 × Nat)
  | (.assign g _ _, .ok (.executor e)) => [(g, e.eid)]
  | _ => []

/-- What an operation does to the active cores. -/
theorem step_active (c : Cfg) (s s' : Proc) (op : ProcOp) (o : Outcome ProcResult)
    (hs : s.step c op = (s', o)) : s'.active = s.active ++ newActive (op, o) := by
  cases op with
  | dispatchers m mid mapOom ooms =>
    unfold Proc.step at hs
    cases hs
    rw [(allocateExecutors_keeps c mapOom ooms s m mid).2.2]
    simp [newActive]
  | map base g a refill oom =>
    unfold Proc.step at hs
    dsimp only at hs
    split at hs <;> cases hs <;> simp [newActive]
  | mapDevice g a oom => unfold Proc.step at hs; cases hs; simp [newActive]
  | mapFrameId base fid a refill oom =>
    unfold Proc.step at hs
    dsimp only at hs
    repeat' split at hs
    all_goals (cases hs; simp [newActive])
  | unmap base =>
    unfold Proc.step at hs
    dsimp only at hs
    generalize NRK.VSpace.unmap s.vs base = r at hs
    obtain ⟨vs', o'⟩ := r
    cases o' with
    | ok hd =>
      dsimp only at hs
      generalize (if hd.flags.aliased = true then s.frames.removeMapping hd.paddr
        else (s.frames, .ok ())) = fr at hs
      obtain ⟨fs', o2⟩ := fr
      cases o2 <;> cases hs <;> simp [newActive]
    | err e => cases hs; simp [newActive]
    | panic => cases hs; simp [newActive]
  | assign gtid region oom =>
    have k := (getExecutor_keeps c s region (midFromGtid gtid).toNat).2.2
    unfold Proc.step at hs
    dsimp only at hs
    split at hs <;> rename_i he <;> rw [he] at k <;> dsimp only at k
    · split at hs <;> cases hs <;> simp [k, newActive]
    · cases hs; simp [k, newActive]
    · cases hs; simp [k, newActive]
  | allocFrame g => unfold Proc.step at hs; cases hs; simp [newActive]
  | releaseFrame fid => unfold Proc.step at hs; cases hs; simp [newActive]

theorem HRun.active {c : Cfg} {clean : Bool} {h : List Event} {s : Proc} (r : HRun c clean h s) :
    ∀ g, (∃ eid, (g, eid) ∈ s.active) ↔ GivenExecutor h g := by
  induction r with
  | new pt off =>
    intro g
    constructor
    · rintro ⟨_, h⟩; cases h
    · rintro ⟨_, _, _, h⟩; cases h
  | @step h s s' o op r hs ho good ih =>
    intro g
    rw [step_active c s s' op o hs]
    constructor
    · rintro ⟨eid, he⟩
      rcases List.mem_append.1 he with he | hn
      · obtain ⟨a, b, e, hm⟩ := (ih g).1 ⟨eid, he⟩
        exact ⟨a, b, e, List.mem_append_left _ hm⟩
      · clear he
        unfold newActive at hn
        split at hn
        · rename_i g' rg om e hx
          cases hx
          have he := List.mem_singleton.1 hn
          cases he
          exact ⟨_, _, e, List.mem_append_right _ List.mem_cons_self⟩
        · cases hn
    · rintro ⟨a, b, e, hm⟩
      rcases List.mem_append.1 hm with hm | hm
      · obtain ⟨eid, he⟩ := (ih g).2 ⟨a, b, e, hm⟩
        exact ⟨eid, List.mem_append_left _ he⟩
      · have := List.mem_singleton.1 hm
        cases this
        exact ⟨e.eid, List.mem_append_right _ List.mem_cons_self⟩

/-- **C39** The result of a successful unmap has one entry per machine, all of them for the range that
was removed from the page table, and the cores of the entry for a machine are exactly the hardware
threads of that machine on which the process was given an executor. -/
theorem c39_shootdown {c : Cfg} {clean : Bool} {h : List Event} {s s' : Proc} (r : HRun c clean h s)
    (base : Nat) (hs : List Handle) (hu : s.step c (.unmap base) = (s', .ok (.unmapped hs))) :
    hs.length = c.numMachines ∧
    (∃ fh, NRK.VSpace.unmap s.vs base = (s'.vs, .ok fh) ∧ ∀ x ∈ hs, x.range = fh) ∧
    ∀ (mid : Nat) (x : Handle), hs[mid]? = some x → ∀ t,
      x.cores.Mem t ↔ ∃ g, GivenExecutor h g ∧ (midFromGtid g).toNat = mid ∧
        (mtidFromGtid g).toNat = t := by
  unfold Proc.step at hu
  dsimp only at hu
  cases hv : NRK.VSpace.unmap s.vs base with
  | mk vs' ov =>
    rw [hv] at hu
    cases ov with
    | err e => cases hu
    | panic => cases hu
    | ok hd =>
      dsimp only at hu
      generalize (if hd.flags.aliased = true then s.frames.removeMapping hd.paddr
        else (s.frames, .ok ())) = fr at hu
      obtain ⟨fs', o2⟩ := fr
      cases o2 with
      | err e => cases hu
      | panic => cases hu
      | ok u =>
        dsimp only at hu
        cases ha : addActive (List.replicate c.numMachines ⟨hd, CoreBitMap.empty⟩) s.active with
        | err e => rw [ha] at hu; cases hu
        | panic => rw [ha] at hu; cases hu
        | ok hs2 =>
          rw [ha] at hu
          cases hu
          obtain ⟨h1, h2⟩ := addActive_spec _ _ _ ha
          rw [List.length_replicate] at h1
          have hrep : ∀ (i : Nat) (x : Handle), hs[i]? = some x →
              (List.replicate c.numMachines (⟨hd, CoreBitMap.empty⟩ : Handle))[i]? =
                some ⟨hd, CoreBitMap.empty⟩ := by
            intro i x hx
            have := (List.getElem?_eq_some_iff.1 hx).1
            rw [List.getElem?_replicate, if_pos (by omega)]
          refine ⟨h1, ⟨hd, rfl, ?_⟩, ?_⟩
          · intro x hx
            obtain ⟨i, hi⟩ := List.mem_iff_getElem?.1 hx
            exact (h2 i _ x (hrep i x hi) hi).1
          · intro mid x hx t
            rw [(h2 mid _ x (hrep mid x hx) hx).2 t]
            constructor
            · rintro (h | ⟨a, ha, h⟩)
              · exact absurd h (c33_empty t)
              · exact ⟨a.1, (r.active a.1).1 ⟨a.2, ha⟩, h⟩
            · rintro ⟨g, hg, h⟩
              obtain ⟨eid, he⟩ := (r.active g).2 hg
              exact Or.inr ⟨_, he, h⟩

/-- **C39** (no crash) If the executors were all given out on threads that exist (machine below the
number of machines, at most 256 threads per machine), an unmap of a mapping that is not an alias
succeeds whenever the page table operation does. -/
theorem c39_unmap_ok {c : Cfg} {clean : Bool} {h : List Event} {s : Proc} (r : HRun c clean h s)
    (hg : ∀ g, GivenExecutor h g →
      (midFromGtid g).toNat < c.numMachines ∧ (mtidFromGtid g).toNat < 256)
    (base : Nat) (fh : FlushHandle) (hu : (NRK.VSpace.unmap s.vs base).2 = .ok fh)
    (hal : fh.flags.aliased = false) :
    ∃ s' hs, s.step c (.unmap base) = (s', .ok (.unmapped hs)) := by
  cases hv : NRK.VSpace.unmap s.vs base with
  | mk vs' ov =>
    rw [hv] at hu
    cases hu
    obtain ⟨hs, ha⟩ := addActive_ok s.active
      (List.replicate c.numMachines ⟨fh, CoreBitMap.empty⟩)
      (fun a ha => by
        rw [List.length_replicate]
        exact hg a.1 ((r.active a.1).1 ⟨a.2, ha⟩))
    refine ⟨{ s with vs := vs' }, hs, ?_⟩
    unfold Proc.step
    dsimp only
    rw [hv]
    simp only [hal, ha]
    rfl

/-! ## C40 -/

/-- Spec: the executor an operation gave to the process. -/
def givenBy : Event → Option Executor
  | (.assign _ _ _, .ok (.executor e)) => some e
  | _ => none

/-- Spec: the executors a process was given, in order. -/
def given (h : List Event) : List Executor := h.filterMap givenBy

/-- Spec: the memory of an executor: its stacks and its control area. -/
def Executor.region (e : Executor) : Block := ⟨e.stackBase, EXEC_SPACE⟩

/-- Spec: the executor was cut from memory donated for a node: the `k`-th piece. -/
def FromDonation (h : List Event) (e : Executor) : Prop :=
  ∃ m mid mo oo o k, ((.dispatchers m mid mo oo, o) : Event) ∈ h ∧ (k + 1) * EXEC_SPACE ≤ m.size ∧
    e.affinity = m.aff ∧ e.vcpuCtlPaddr = m.base + k * EXEC_SPACE + 2 * STACK

theorem FromDonation.mono {h : List Event} {e : Executor} (x : Event) (d : FromDonation h e) :
    FromDonation (h ++ [x]) e := by
  obtain ⟨m, mid, mo, oo, o, k, h1, h2⟩ := d
  exact ⟨m, mid, mo, oo, o, k, List.mem_append_left _ h1, h2⟩

/-- All executors: given out or kept. -/
def Known (l : List Executor) (cache : Nat → Option (List Executor)) (e : Executor) : Prop :=
  e ∈ l ∨ ∃ i k, cache i = some k ∧ e ∈ k

structure EInv (clean : Bool) (D : Executor → Prop) (l : List Executor)
    (cache : Nat → Option (List Executor)) (cur bound : Nat) : Prop where
  lt : ∀ e, Known l cache e → e.eid < cur
  gu : l.Pairwise (fun a b => a.eid ≠ b.eid)
  cu : ∀ i k, cache i = some k → k.Pairwise (fun a b => a.eid ≠ b.eid)
  cc : ∀ i j k k', cache i = some k → cache j = some k' → i ≠ j → ∀ a ∈ k, ∀ b ∈ k', a.eid ≠ b.eid
  gc : ∀ i k, cache i = some k → ∀ a ∈ l, ∀ b ∈ k, a.eid ≠ b.eid
  mono : clean = true → ∀ a b, Known l cache a → Known l cache b → a.eid < b.eid →
    a.stackBase + EXEC_SPACE ≤ b.stackBase
  below : clean = true → ∀ a, Known l cache a → a.stackBase + EXEC_SPACE ≤ bound
  don : ∀ a, Known l cache a → D a

theorem EInv.push {clean : Bool} {D : Executor → Prop} {l : List Executor}
    {cache : Nat → Option (List Executor)} {cur bound : Nat} (h : EInv clean D l cache cur bound)
    (i pa va aff : Nat) (hv : bound ≤ va) (hD : D (Executor.new cur pa va aff)) :
    EInv clean D l (pushExec cache i (Executor.new cur pa va aff)) (cur + 1) (va + EXEC_SPACE) := by
  have hk : ∀ e, Known l (pushExec cache i (Executor.new cur pa va aff)) e →
      e = Executor.new cur pa va aff ∨ Known l cache e := by
    rintro e (he | ⟨j, k, hj, he⟩)
    · exact Or.inr (Or.inl he)
    · unfold pushExec at hj
      rw [upd_apply] at hj
      split at hj
      · cases hj
        rcases List.mem_cons.1 he with e1 | e1
        · exact Or.inl e1
        · cases hc : cache i with
          | none => rw [hc] at e1; cases e1
          | some k' => rw [hc] at e1; exact Or.inr (Or.inr ⟨i, k', hc, e1⟩)
      · exact Or.inr (Or.inr ⟨j, k, hj, he⟩)
  have hold : ∀ j k, pushExec cache i (Executor.new cur pa va aff) j = some k →
      ∀ e ∈ k, e = Executor.new cur pa va aff ∧ j = i ∨ ∃ k', cache j = some k' ∧ e ∈ k' := by
    intro j k hj e he
    unfold pushExec at hj
    rw [upd_apply] at hj
    split at hj
    · rename_i eij
      cases hj
      rcases List.mem_cons.1 he with e1 | e1
      · exact Or.inl ⟨e1, eij⟩
      · cases hc : cache i with
        | none => rw [hc] at e1; cases e1
        | some k' => rw [hc] at e1; exact Or.inr ⟨k', by rw [eij]; exact hc, e1⟩
    · exact Or.inr ⟨k, hj, he⟩
  have hnew : (Executor.new cur pa va aff).eid = cur := rfl
  refine ⟨?_, h.gu, ?_, ?_, ?_, ?_, ?_, ?_⟩
  · intro e he
    rcases hk e he with e1 | e1
    · rw [e1, hnew]; exact Nat.lt_succ_self _
    · have := h.lt e e1; omega
  · intro j k hj
    unfold pushExec at hj
    rw [upd_apply] at hj
    split at hj
    · cases hj
      cases hc : cache i with
      | none => simp
      | some k' =>
        refine List.pairwise_cons.2 ⟨?_, h.cu i k' hc⟩
        intro b hb
        have := h.lt b (Or.inr ⟨i, k', hc, hb⟩)
        rw [hnew]; omega
    · exact h.cu j k hj
  · intro j j' k k' hj hj' hne a ha b hb
    rcases hold j k hj a ha with ⟨e1, e2⟩ | ⟨k1, e1, e2⟩
    · rcases hold j' k' hj' b hb with ⟨e3, e4⟩ | ⟨k2, e3, e4⟩
      · exact absurd (e2.trans e4.symm) hne
      · have := h.lt b (Or.inr ⟨_, _, e3, e4⟩)
        rw [e1, hnew]; omega
    · rcases hold j' k' hj' b hb with ⟨e3, e4⟩ | ⟨k2, e3, e4⟩
      · have := h.lt a (Or.inr ⟨_, _, e1, e2⟩)
        rw [e3, hnew]; omega
      · exact h.cc j j' k1 k2 e1 e3 hne a e2 b e4
  · intro j k hj a ha b hb
    rcases hold j k hj b hb with ⟨e1, e2⟩ | ⟨k1, e1, e2⟩
    · have := h.lt a (Or.inl ha)
      rw [e1, hnew]; omega
    · exact h.gc j k1 e1 a ha b e2
  · intro hc a b ha hb hab
    rcases hk a ha with e1 | e1
    · rcases hk b hb with e2 | e2
      · rw [e1, e2] at hab; exact absurd hab (Nat.lt_irrefl _)
      · have := h.lt b e2
        rw [e1, hnew] at hab; omega
    · rcases hk b hb with e2 | e2
      · have := h.below hc a e1
        rw [e2]
        show _ ≤ va
        omega
      · exact h.mono hc a b e1 e2 hab
  · intro hc a ha
    rcases hk a ha with e1 | e1
    · rw [e1]; exact Nat.le_refl _
    · have := h.below hc a e1; omega
  · intro a ha
    rcases hk a ha with e1 | e1
    · rw [e1]; exact hD
    · exact h.don a e1

theorem EInv.weaken {clean : Bool} {D D' : Executor → Prop} {l : List Executor}
    {cache : Nat → Option (List Executor)} {cur bound bound' : Nat}
    (h : EInv clean D l cache cur bound) (hb : clean = true → bound ≤ bound') (hD : ∀ e, D e → D' e) :
    EInv clean D' l cache cur bound' :=
  ⟨h.lt, h.gu, h.cu, h.cc, h.gc, h.mono,
    fun hc a ha => Nat.le_trans (h.below hc a ha) (hb hc), fun a ha => hD a (h.don a ha)⟩

/-- `EInv` does not use the bound if memory may run out. -/
theorem EInv.rebound {D : Executor → Prop} {l : List Executor}
    {cache : Nat → Option (List Executor)} {cur bound : Nat} (bound' : Nat)
    (h : EInv false D l cache cur bound) : EInv false D l cache cur bound' :=
  ⟨h.lt, h.gu, h.cu, h.cc, h.gc, (fun hc => by cases hc), (fun hc => by cases hc), h.don⟩

theorem makeExecs_inv (c : Cfg) (clean : Bool) (D : Executor → Prop) (l : List Executor) (m : Frame)
    (mid : Nat) (ooms : Nat → Bool) (N : Nat) (off : Nat)
    (hD : ∀ eid k, k < N →
      D (Executor.new eid (m.base + k * EXEC_SPACE) (off + k * EXEC_SPACE) m.aff)) :
    ∀ n s k, n + k = N → EInv clean D l s.cache s.curEid (off + k * EXEC_SPACE) →
      ∃ k', k' ≤ N ∧ EInv clean D l
        (makeExecs c m.aff mid n ooms s (m.base + k * EXEC_SPACE) (off + k * EXEC_SPACE)).1.cache
        (makeExecs c m.aff mid n ooms s (m.base + k * EXEC_SPACE) (off + k * EXEC_SPACE)).1.curEid
        (off + k' * EXEC_SPACE) := by
  intro n
  induction n with
  | zero => intro s k hk h; exact ⟨k, by omega, h⟩
  | succ n ih =>
    intro s k hk h
    unfold makeExecs
    split
    · exact ⟨k, by omega, h⟩
    · split
      · exact ⟨k, by omega, h⟩
      · rename_i i hi
        have hp := h.push i (m.base + k * EXEC_SPACE) (off + k * EXEC_SPACE) m.aff (Nat.le_refl _)
          (hD _ k (by omega))
        have e1 : off + k * EXEC_SPACE + EXEC_SPACE = off + (k + 1) * EXEC_SPACE := by
          rw [Nat.add_mul]; omega
        have e2 : m.base + k * EXEC_SPACE + EXEC_SPACE = m.base + (k + 1) * EXEC_SPACE := by
          rw [Nat.add_mul]; omega
        rw [e1] at hp
        rw [e1, e2]
        exact ih { s with cache := pushExec s.cache i (Executor.new s.curEid (m.base + k * EXEC_SPACE) (off + k * EXEC_SPACE) m.aff), curEid := s.curEid + 1 } (k + 1) (by omega) hp

theorem makeExecs_clean (c : Cfg) (aff mid : Nat) (ooms : Nat → Bool) (ho : ∀ n, ooms n = false) :
    ∀ n s pa va, (makeExecs c aff mid n ooms s pa va).2 = .ok () ∨
      (makeExecs c aff mid n ooms s pa va).2 = .panic := by
  intro n
  induction n with
  | zero => intro s pa va; exact Or.inl rfl
  | succ n ih =>
    intro s pa va
    unfold makeExecs
    rw [ho n]
    simp only [Bool.false_eq_true, if_false]
    split
    · exact Or.inr rfl
    · exact ih _ _ _

theorem given_append (h : List Event) (x : Event) :
    given (h ++ [x]) = given h ++ (givenBy x).toList := by
  unfold given
  rw [List.filterMap_append]
  cases hx : givenBy x <;> simp [hx]

/-- Operations other than the two about executors. -/
theorem step_other (c : Cfg) (s s' : Proc) (op : ProcOp) (o : Outcome ProcResult)
    (hs : s.step c op = (s', o)) (h1 : ∀ m mid mo oo, op ≠ .dispatchers m mid mo oo)
    (h2 : ∀ g r oom, op ≠ .assign g r oom) :
    s'.cache = s.cache ∧ s'.curEid = s.curEid ∧ s'.execOff = s.execOff := by
  cases op with
  | dispatchers m mid mapOom ooms => exact absurd rfl (h1 _ _ _ _)
  | assign gtid region oom => exact absurd rfl (h2 _ _ _)
  | map base g a refill oom =>
    unfold Proc.step at hs
    dsimp only at hs
    split at hs <;> cases hs <;> exact ⟨rfl, rfl, rfl⟩
  | mapDevice g a oom => unfold Proc.step at hs; cases hs; exact ⟨rfl, rfl, rfl⟩
  | mapFrameId base fid a refill oom =>
    unfold Proc.step at hs
    dsimp only at hs
    repeat' split at hs
    all_goals (cases hs; exact ⟨rfl, rfl, rfl⟩)
  | unmap base =>
    unfold Proc.step at hs
    dsimp only at hs
    generalize NRK.VSpace.unmap s.vs base = r at hs
    obtain ⟨vs', o'⟩ := r
    cases o' with
    | ok hd =>
      dsimp only at hs
      generalize (if hd.flags.aliased = true then s.frames.removeMapping hd.paddr
        else (s.frames, .ok ())) = fr at hs
      obtain ⟨fs', o2⟩ := fr
      cases o2 <;> cases hs <;> exact ⟨rfl, rfl, rfl⟩
    | err e => cases hs; exact ⟨rfl, rfl, rfl⟩
    | panic => cases hs; exact ⟨rfl, rfl, rfl⟩
  | allocFrame g => unfold Proc.step at hs; cases hs; exact ⟨rfl, rfl, rfl⟩
  | releaseFrame fid => unfold Proc.step at hs; cases hs; exact ⟨rfl, rfl, rfl⟩

/-- What the two results of `allocateExecutors` that do not stop the kernel come from. -/
theorem allocateExecutors_from (c : Cfg) (mapOom : Bool) (ooms : Nat → Bool) (s s' : Proc) (m : Frame)
    (mid : Nat) (o : Outcome Nat) (h : s.allocateExecutors c mapOom ooms m mid = (s', o))
    (ho : o ≠ .panic) : ∃ vs', 
    s'.cache = (makeExecs c m.aff mid (m.size / EXEC_SPACE) ooms { s with vs := vs' } m.base s.execOff).1.cache ∧
    s'.curEid = (makeExecs c m.aff mid (m.size / EXEC_SPACE) ooms { s with vs := vs' } m.base s.execOff).1.curEid ∧
    ((makeExecs c m.aff mid (m.size / EXEC_SPACE) ooms { s with vs := vs' } m.base s.execOff).2 = .ok () ∧
        o = .ok (m.size / EXEC_SPACE) ∧ s'.execOff = s.execOff + m.size ∨
      ∃ e, (makeExecs c m.aff mid (m.size / EXEC_SPACE) ooms { s with vs := vs' } m.base s.execOff).2 = .err e ∧
        o = .err e ∧ s'.execOff = s.execOff) := by
  unfold Proc.allocateExecutors at h
  dsimp only at h
  generalize hq : (if c.rack = true ∧ mid ≠ c.machine then (s.vs, Outcome.ok ())
    else mapFrame c.env mapOom s.vs s.execOff m execRights) = mp at h
  obtain ⟨vs', om⟩ := mp
  cases om with
  | err e => cases h; exact absurd rfl ho
  | panic => cases h; exact absurd rfl ho
  | ok u =>
    dsimp only at h
    refine ⟨vs', ?_⟩
    have hk := (makeExecs_keeps c m.aff mid ooms (m.size / EXEC_SPACE) { s with vs := vs' } m.base
      s.execOff).2.2.2
    generalize makeExecs c m.aff mid (m.size / EXEC_SPACE) ooms { s with vs := vs' } m.base s.execOff
      = r at h hk
    obtain ⟨s2, o2⟩ := r
    dsimp only at hk
    cases o2 with
    | ok u => cases h; exact ⟨rfl, rfl, Or.inl ⟨rfl, rfl, by rw [hk]⟩⟩
    | err e => cases h; exact ⟨rfl, rfl, Or.inr ⟨e, rfl, rfl, hk⟩⟩
    | panic => cases h; exact absurd rfl ho

theorem HRun.einv {c : Cfg} {clean : Bool} {h : List Event} {s : Proc} (r : HRun c clean h s) :
    EInv clean (FromDonation h) (given h) s.cache s.curEid s.execOff := by
  induction r with
  | new pt off =>
    have hk : ∀ e, ¬ Known (given []) (fun _ => none) e := by
      rintro e (h | ⟨_, _, h, _⟩)
      · cases h
      · cases h
    exact ⟨fun e he => absurd he (hk e), List.Pairwise.nil, (fun _ _ h => by cases h),
      (fun _ _ _ _ h => by cases h), (fun _ _ h => by cases h), fun _ a _ ha => absurd ha (hk a),
      fun _ a ha => absurd ha (hk a), fun a ha => absurd ha (hk a)⟩
  | @step h s s' o op r hs ho good ih =>
    have ih' := ih.weaken (D' := FromDonation (h ++ [(op, o)])) (fun _ => Nat.le_refl s.execOff)
      (fun e d => d.mono (op, o))
    by_cases hd : ∃ m mid mo oo, op = .dispatchers m mid mo oo
    · obtain ⟨m, mid, mo, oo, rfl⟩ := hd
      unfold Proc.step at hs
      dsimp only at hs
      cases hq : s.allocateExecutors c mo oo m mid with
      | mk s2 o2 =>
        rw [hq] at hs
        have hg : given (h ++ [(ProcOp.dispatchers m mid mo oo, o)]) = given h := by
          rw [given_append]; simp [givenBy]
        rw [hg]
        cases hs
        have ho2 : o2 ≠ .panic := fun e => ho (by rw [e]; rfl)
        obtain ⟨vs', e1, e2, e3⟩ := allocateExecutors_from c mo oo s _ m mid o2 hq ho2
        have hD : ∀ eid k, k < m.size / EXEC_SPACE →
            FromDonation (h ++ [(ProcOp.dispatchers m mid mo oo, o2.map ProcResult.executorsCreated)])
              (Executor.new eid (m.base + k * EXEC_SPACE) (s.execOff + k * EXEC_SPACE) m.aff) := by
          intro eid k hk
          refine ⟨m, mid, mo, oo, _, k, List.mem_append_right _ List.mem_cons_self, ?_, rfl, ?_⟩
          · have := Nat.div_mul_le_self m.size EXEC_SPACE
            have := Nat.mul_le_mul_right EXEC_SPACE (show k + 1 ≤ m.size / EXEC_SPACE from hk)
            omega
          · show m.base + k * EXEC_SPACE + STACK + STACK = _
            omega
        obtain ⟨k', hk', hi⟩ := makeExecs_inv c clean _ (given h) m mid oo (m.size / EXEC_SPACE)
          s.execOff hD (m.size / EXEC_SPACE) { s with vs := vs' } 0 rfl (by simpa using ih')
        simp only [Nat.zero_mul, Nat.add_zero] at hi
        rw [← e1, ← e2] at hi
        cases hc : clean with
        | false => rw [hc] at hi; exact hi.rebound _
        | true =>
          rw [hc] at hi
          obtain ⟨g1, g2⟩ := good hc
          rcases e3 with ⟨_, _, e3⟩ | ⟨e, e3, _, _⟩
          · rw [e3]
            refine hi.weaken (fun _ => ?_) (fun e d => d)
            have := Nat.div_mul_le_self m.size EXEC_SPACE
            have := Nat.mul_le_mul_right EXEC_SPACE hk'
            omega
          · rcases makeExecs_clean c m.aff mid oo g2 (m.size / EXEC_SPACE) { s with vs := vs' } m.base
              s.execOff with h' | h' <;> rw [h'] at e3 <;> cases e3
    · by_cases ha : ∃ g rg oom, op = .assign g rg oom
      · obtain ⟨g, rg, oom, rfl⟩ := ha
        unfold Proc.step at hs
        dsimp only at hs
        unfold Proc.getExecutor at hs
        split at hs
        · rename_i s2 e he
          split at he
          · cases he
          · rename_i i hi
            split at he
            · rename_i e0 rest hcache
              cases he
              have hkr : ∀ x, Known (given h) (upd s.cache i (some rest)) x → Known (given h) s.cache x := by
                rintro x (hx | ⟨j, k, hj, hx⟩)
                · exact Or.inl hx
                · rw [upd_apply] at hj
                  split at hj
                  · cases hj; exact Or.inr ⟨i, _, hcache, List.mem_cons_of_mem _ hx⟩
                  · exact Or.inr ⟨j, k, hj, hx⟩
              have hsub : ∀ j k, upd s.cache i (some rest) j = some k →
                  ∃ k', s.cache j = some k' ∧ k.Sublist k' ∧ (j = i → k' = e :: k) := by
                intro j k hj
                rw [upd_apply] at hj
                split at hj
                · rename_i eij
                  cases hj
                  subst eij
                  exact ⟨_, hcache, List.sublist_cons_self _ _, fun _ => rfl⟩
                · rename_i hne
                  exact ⟨k, hj, List.Sublist.refl _, fun e => absurd e hne⟩
              have hke : Known (given h) s.cache e := Or.inr ⟨i, _, hcache, List.mem_cons_self⟩
              have base : EInv clean (FromDonation (h ++ [(ProcOp.assign g rg oom, o)])) (given h)
                  (upd s.cache i (some rest)) s.curEid s.execOff := by
                refine ⟨fun x hx => ih'.lt x (hkr x hx), ih'.gu, ?_, ?_, ?_,
                  fun hc a b ha hb => ih'.mono hc a b (hkr a ha) (hkr b hb),
                  fun hc a ha => ih'.below hc a (hkr a ha), fun a ha => ih'.don a (hkr a ha)⟩
                · intro j k hj
                  obtain ⟨k', q1, q2, _⟩ := hsub j k hj
                  exact (ih'.cu j k' q1).sublist q2
                · intro j j' k k2 hj hj' hne a ha b hb
                  obtain ⟨k', q1, q2, _⟩ := hsub j k hj
                  obtain ⟨k3, q3, q4, _⟩ := hsub j' k2 hj'
                  exact ih'.cc j j' k' k3 q1 q3 hne a (q2.subset ha) b (q4.subset hb)
                · intro j k hj a ha b hb
                  obtain ⟨k', q1, q2, _⟩ := hsub j k hj
                  exact ih'.gc j k' q1 a ha b (q2.subset hb)
              have hec : ∀ j k, upd s.cache i (some rest) j = some k → ∀ b ∈ k, e.eid ≠ b.eid := by
                intro j k hj b hb
                obtain ⟨k', q1, q2, q3⟩ := hsub j k hj
                by_cases eij : j = i
                · have := ih'.cu j k' q1
                  rw [q3 eij] at this
                  exact (List.pairwise_cons.1 this).1 b hb
                · exact ih'.cc i j _ k' hcache q1 (fun q => eij q.symm) e List.mem_cons_self b
                    (q2.subset hb)
              split at hs
              · cases hs
                rw [given_append]
                simp only [givenBy, Option.toList_none, List.append_nil]
                exact base
              · cases hs
                rw [given_append]
                simp only [givenBy, Option.toList_some]
                have hk2 : ∀ x, Known (given h ++ [e]) (upd s.cache i (some rest)) x →
                    Known (given h) s.cache x := by
                  rintro x (hx | hx)
                  · rcases List.mem_append.1 hx with hx | hx
                    · exact Or.inl hx
                    · rw [List.mem_singleton.1 hx]; exact hke
                  · exact hkr x (Or.inr hx)
                refine ⟨fun x hx => ih'.lt x (hk2 x hx), ?_, base.cu, base.cc, ?_,
                  fun hc a b ha hb => ih'.mono hc a b (hk2 a ha) (hk2 b hb),
                  fun hc a ha => ih'.below hc a (hk2 a ha), fun a ha => ih'.don a (hk2 a ha)⟩
                · refine List.pairwise_append.2 ⟨ih'.gu, List.pairwise_singleton _ _, ?_⟩
                  intro a ha b hb
                  rw [List.mem_singleton.1 hb]
                  exact ih'.gc i _ hcache a ha e List.mem_cons_self
                · intro j k hj a ha b hb
                  rcases List.mem_append.1 ha with ha | ha
                  · exact base.gc j k hj a ha b hb
                  · rw [List.mem_singleton.1 ha]; exact hec j k hj b hb
            · cases he
            · cases he
        · rename_i s2 e he
          have : s2 = s := by
            split at he
            · cases he
            · split at he <;> cases he <;> rfl
          cases hs
          rw [this, given_append]
          simp only [givenBy, Option.toList_none, List.append_nil]
          exact ih'
        · cases hs; exact absurd rfl ho
      · obtain ⟨k1, k2, k3⟩ := step_other c s s' op o hs (fun m mid mo oo e => hd ⟨m, mid, mo, oo, e⟩)
          (fun g rg oom e => ha ⟨g, rg, oom, e⟩)
        have : givenBy (op, o) = none := by
          cases op <;> first | rfl | exact absurd ⟨_, _, _, rfl⟩ ha
        rw [k1, k2, k3, given_append, this, Option.toList_none, List.append_nil]
        exact ih'

/-- **C40** No two executors a process was ever given have the same identifier, whether or not memory
ran out on the way. -/
theorem c40_unique_ids {c : Cfg} {clean : Bool} {h : List Event} {s : Proc} (r : HRun c clean h s) :
    (given h).Pairwise (fun a b => a.eid ≠ b.eid) := r.einv.gu

/-- **C40** Every executor was cut from memory that was donated to the process: the physical page of its
control area lies inside, and it carries the node of that memory. -/
theorem c40_inside_donation {c : Cfg} {clean : Bool} {h : List Event} {s : Proc} (r : HRun c clean h s)
    (e : Executor) (he : e ∈ given h) : FromDonation h e := r.einv.don e (Or.inl he)

/-- **C40** Partial: if memory does not run out while executors are made, the executors a process was
given use pairwise disjoint regions of its address space.  Otherwise they may overlap, see
`c40_overlap`. -/
theorem c40_disjoint_partial {c : Cfg} {h : List Event} {s : Proc} (r : HRun c true h s) :
    (given h).Pairwise (fun a b => Disjoint a.region b.region) := by
  have inv := r.einv
  have : ∀ l : List Executor, (∀ e ∈ l, Known (given h) s.cache e) →
      l.Pairwise (fun a b => a.eid ≠ b.eid) → l.Pairwise (fun a b => Disjoint a.region b.region) := by
    intro l hl hp
    refine List.Pairwise.imp_of_mem ?_ hp
    intro a b ha hb hne x ⟨h1, h2⟩
    unfold Block.Has Executor.region at h1 h2
    dsimp only at h1 h2
    rcases Nat.lt_or_gt_of_ne hne with q | q
    · have := inv.mono rfl a b (hl a ha) (hl b hb) q
      omega
    · have := inv.mono rfl b a (hl b hb) (hl a ha) q
      omega
  exact this _ (fun e he => Or.inl he) inv.gu

/-- Inside its region, an executor's upcall stack follows its stack and the control area follows the
upcall stack. -/
theorem c40_layout (eid pa va aff : Nat) :
    (Executor.new eid pa va aff).upcallStackBase = va + STACK ∧
    (Executor.new eid pa va aff).vcpuCtl = va + 2 * STACK ∧
    (Executor.new eid pa va aff).vcpuCtl + 4096 = va + EXEC_SPACE := by
  have h1 : STACK = 98304 := rfl
  have h2 : EXEC_SPACE = 200704 := rfl
  unfold Executor.new
  dsimp only
  omega

/-! ### What a donation of memory gives -/

theorem makeExecs_new (c : Cfg) (aff mid : Nat) (ooms : Nat → Bool) : ∀ n s pa va,
    ∀ i e k, (makeExecs c aff mid n ooms s pa va).1.cache i = some k → e ∈ k →
      (∃ k', s.cache i = some k' ∧ e ∈ k') ∨ execIndex c aff mid = some i ∧
        ∃ j eid, j < n ∧ e = Executor.new eid (pa + j * EXEC_SPACE) (va + j * EXEC_SPACE) aff := by
  intro n
  induction n with
  | zero => intro s pa va i e k h1 h2; exact Or.inl ⟨k, h1, h2⟩
  | succ n ih =>
    intro s pa va i e k h1 h2
    unfold makeExecs at h1
    split at h1
    · exact Or.inl ⟨k, h1, h2⟩
    · split at h1
      · exact Or.inl ⟨k, h1, h2⟩
      · rename_i i0 hi0
        rcases ih _ _ _ i e k h1 h2 with ⟨k', q1, q2⟩ | ⟨q0, j, eid, q1, q2⟩
        · dsimp only at q1
          unfold pushExec at q1
          rw [upd_apply] at q1
          split at q1
          · rename_i eii
            cases q1
            rcases List.mem_cons.1 q2 with e1 | e1
            · exact Or.inr ⟨by rw [hi0, eii], 0, s.curEid, by omega, by simpa using e1⟩
            · cases hc : s.cache i0 with
              | none => rw [hc] at e1; cases e1
              | some k' => rw [hc] at e1; exact Or.inl ⟨k', by rw [eii]; exact hc, e1⟩
          · exact Or.inl ⟨k', q1, q2⟩
        · refine Or.inr ⟨q0, j + 1, eid, by omega, ?_⟩
          rw [q2]
          congr 1 <;> rw [Nat.add_mul] <;> omega

theorem makeExecs_count (c : Cfg) (aff mid : Nat) (ooms : Nat → Bool) : ∀ n s pa va i,
    execIndex c aff mid = some i → (makeExecs c aff mid n ooms s pa va).2 = .ok () →
      (((makeExecs c aff mid n ooms s pa va).1.cache i).getD []).length =
        ((s.cache i).getD []).length + n := by
  intro n
  induction n with
  | zero => intro s pa va i _ _; rfl
  | succ n ih =>
    intro s pa va i hi h
    unfold makeExecs at h ⊢
    split at h
    · cases h
    · rename_i ho
      rw [if_neg ho]
      rw [hi] at h ⊢
      dsimp only at h ⊢
      rw [ih _ _ _ i hi h]
      unfold pushExec
      dsimp only
      rw [upd_same]
      simp
      omega

/-- **C40** Donating a page of memory for a node creates as many executors as fit, kept for that node;
each of them has its stacks and its control area in the donated memory: every address of its region
translates to the matching physical address. -/
theorem c40_donation {c : Cfg} (hk : c.env.pages4k = false) {clean : Bool} {s s' : Proc}
    (r : SRun c clean s) (m : Frame) (mid : Nat) (mo : Bool) (oo : Nat → Bool)
    (hm : PageSize m.size) (hu : s.execOff + m.size ≤ userTop) (hl : c.rack = false ∨ mid = c.machine)
    (hfree : ∀ x, s.execOff ≤ x → x < s.execOff + m.size → s.vs.resolve x = .err .notMapped)
    (i : Nat) (hi : execIndex c m.aff mid = some i) (res : ProcResult)
    (h : s.step c (.dispatchers m mid mo oo) = (s', .ok res)) :
    res = .executorsCreated (m.size / EXEC_SPACE) ∧
    ((s'.cache i).getD []).length = ((s.cache i).getD []).length + m.size / EXEC_SPACE ∧
    ∀ j k e, s'.cache j = some k → e ∈ k → (∃ k', s.cache j = some k' ∧ e ∈ k') ∨
      j = i ∧ e.affinity = m.aff ∧ Inside e.region ⟨s.execOff, m.size⟩ ∧
      ∀ y, y < EXEC_SPACE → ∃ p, s'.vs.resolve (e.stackBase + y) = .ok (p, execRights) ∧
        m.block.Has p ∧ p + 2 * STACK = e.vcpuCtlPaddr + y := by
  have inv := r.inv hk
  have hpos := pageSize_pos hm
  unfold Proc.step at h
  dsimp only at h
  unfold Proc.allocateExecutors at h
  dsimp only at h
  rw [if_neg (by rintro ⟨h1, h2⟩; rcases hl with e | e
                 · rw [e] at h1; cases h1
                 · exact h2 e)] at h
  have hcont : ∀ q ∈ s.vs.maps, q.1 < s.execOff + m.size → s.execOff < q.1 + q.2.frame.size → False := by
    intro q hq h1 h2
    have hp := pageSize_pos (inv.vinv.page q hq).1
    have hcov : Covers q (max q.1 s.execOff) := by unfold Covers; omega
    have := inv.vinv.resolve_cov hq hcov
    rw [hfree _ (by omega) (by omega)] at this
    cases this
  have hvi := inv.vinv.mapFrame c.env hk mo s.execOff m execRights hm hu
  rcases mapFrame_cases c.env hk mo inv.vinv s.execOff m execRights hm hu with ⟨e, he, _⟩ |
    ⟨_, _, q, hq, q1, q2, _, _⟩ | ⟨_, _, _, ⟨_, he⟩ | ⟨_, t', he, _⟩⟩
  · rw [he] at h; cases h
  · exact absurd (hcont q hq q1 q2) id
  · rw [he] at h; cases h
  · rw [he] at h hvi
    dsimp only at h hvi
    have hcnt := makeExecs_count c m.aff mid oo (m.size / EXEC_SPACE)
      { s with vs := ⟨insertMap s.execOff ⟨m, execRights⟩ s.vs.maps, t'⟩ } m.base s.execOff i hi
    have hnew := makeExecs_new c m.aff mid oo (m.size / EXEC_SPACE)
      { s with vs := ⟨insertMap s.execOff ⟨m, execRights⟩ s.vs.maps, t'⟩ } m.base s.execOff
    have hkeep := (makeExecs_keeps c m.aff mid oo (m.size / EXEC_SPACE)
      { s with vs := ⟨insertMap s.execOff ⟨m, execRights⟩ s.vs.maps, t'⟩ } m.base s.execOff).1
    generalize makeExecs c m.aff mid (m.size / EXEC_SPACE) oo
      { s with vs := ⟨insertMap s.execOff ⟨m, execRights⟩ s.vs.maps, t'⟩ } m.base s.execOff
      = rr at h hcnt hnew hkeep
    obtain ⟨s2, o2⟩ := rr
    cases o2 with
    | err e => cases h
    | panic => cases h
    | ok u =>
      cases h
      refine ⟨rfl, hcnt rfl, ?_⟩
      intro j k e hj he
      rcases hnew j e k hj he with h1 | ⟨h1, jj, eid, h2, h3⟩
      · exact Or.inl h1
      · right
        rw [hi] at h1
        cases h1
        have d1 := Nat.div_mul_le_self m.size EXEC_SPACE
        have d2 := Nat.mul_le_mul_right EXEC_SPACE (show jj + 1 ≤ m.size / EXEC_SPACE from h2)
        rw [Nat.add_mul, Nat.one_mul] at d2
        refine ⟨rfl, by rw [h3]; rfl, ?_, ?_⟩
        · intro x hx
          rw [h3] at hx
          unfold Block.Has Executor.region Executor.new at hx
          unfold Block.Has
          dsimp only at hx ⊢
          omega
        · intro y hy
          have hmem : (s.execOff, (⟨m, execRights⟩ : MappingInfo)) ∈
              insertMap s.execOff ⟨m, execRights⟩ s.vs.maps := by
            rw [mem_insertMap]; exact Or.inl rfl
          have hst : e.stackBase = s.execOff + jj * EXEC_SPACE := by rw [h3]; rfl
          have hct : e.vcpuCtlPaddr = m.base + jj * EXEC_SPACE + STACK + STACK := by rw [h3]; rfl
          have hc : Covers (s.execOff, (⟨m, execRights⟩ : MappingInfo)) (e.stackBase + y) := by
            unfold Covers; dsimp only; omega
          have hres := hvi.resolve_cov hmem hc
          dsimp only at hkeep hres
          refine ⟨m.base + (e.stackBase + y - s.execOff), ?_, ?_, ?_⟩
          · show s2.vs.resolve _ = _
            rw [hkeep, hres]
            rfl
          · unfold Block.Has Frame.block; dsimp only; omega
          · omega

/-! ### The node an executor is for -/

theorem HRun.index {c : Cfg} {clean : Bool} {h : List Event} {s : Proc} (r : HRun c clean h s) :
    ∀ i k e, s.cache i = some k → e ∈ k → ∃ mid, execIndex c e.affinity mid = some i := by
  induction r with
  | new pt off => intro i k e h; cases h
  | @step h s s' o op r hs ho good ih =>
    by_cases hd : ∃ m mid mo oo, op = .dispatchers m mid mo oo
    · obtain ⟨m, mid, mo, oo, rfl⟩ := hd
      unfold Proc.step at hs
      dsimp only at hs
      cases hq : s.allocateExecutors c mo oo m mid with
      | mk s2 o2 =>
        rw [hq] at hs
        cases hs
        have ho2 : o2 ≠ .panic := fun e => ho (by rw [e]; rfl)
        obtain ⟨vs', e1, _, _⟩ := allocateExecutors_from c mo oo s _ m mid o2 hq ho2
        intro i k e h1 h2
        dsimp only at h1
        rw [e1] at h1
        rcases makeExecs_new c m.aff mid oo _ _ _ _ i e k h1 h2 with ⟨k', q1, q2⟩ | ⟨q1, j, eid, _, q3⟩
        · exact ih i k' e q1 q2
        · exact ⟨mid, by rw [q3]; exact q1⟩
    · by_cases ha : ∃ g rg oom, op = .assign g rg oom
      · obtain ⟨g, rg, oom, rfl⟩ := ha
        have hsub : ∀ i k e, s'.cache i = some k → e ∈ k → ∃ k', s.cache i = some k' ∧ e ∈ k' := by
          unfold Proc.step at hs
          dsimp only at hs
          unfold Proc.getExecutor at hs
          split at hs
          · rename_i s2 e0 he
            have hc : s'.cache = s2.cache := by split at hs <;> cases hs <;> rfl
            rw [hc]
            split at he
            · cases he
            · rename_i i0 hi0
              split at he
              · rename_i e1 rest hcache
                cases he
                intro i k e h1 h2
                dsimp only at h1
                rw [upd_apply] at h1
                split at h1
                · rename_i eii
                  cases h1
                  exact ⟨_, by rw [eii]; exact hcache, List.mem_cons_of_mem _ h2⟩
                · exact ⟨k, h1, h2⟩
              · cases he
              · cases he
          · rename_i s2 e he
            have : s2 = s := by
              split at he
              · cases he
              · split at he <;> cases he <;> rfl
            cases hs
            rw [this]
            intro i k e h1 h2
            exact ⟨k, h1, h2⟩
          · cases hs; exact absurd rfl ho
        intro i k e h1 h2
        obtain ⟨k', q1, q2⟩ := hsub i k e h1 h2
        exact ih i k' e q1 q2
      · obtain ⟨k1, _, _⟩ := step_other c s s' op o hs (fun m mid mo oo e => hd ⟨m, mid, mo, oo, e⟩)
          (fun g rg oom e => ha ⟨g, rg, oom, e⟩)
        rw [k1]; exact ih

/-- **C40** Without rack-scale support, asking for an executor on a node gives one whose memory was
donated for that node. -/
theorem c40_affinity {c : Cfg} (hr : c.rack = false) {clean : Bool} {h : List Event} {s s' : Proc}
    (r : HRun c clean h s) (g : BitVec 64) (node : Nat) (oom : Bool) (e : Executor)
    (ha : s.step c (.assign g node oom) = (s', .ok (.executor e))) : e.affinity = node := by
  unfold Proc.step at ha
  dsimp only at ha
  unfold Proc.getExecutor at ha
  have idx : ∀ a mid i, execIndex c a mid = some i → a = i := by
    intro a mid i h
    unfold execIndex at h
    rw [hr] at h
    simp only [Bool.false_eq_true, if_false] at h
    split at h <;> cases h
    rfl
  split at ha
  · rename_i s2 e0 he
    split at he
    · cases he
    · rename_i i hi
      split at he
      · rename_i e1 rest hcache
        cases he
        split at ha
        · cases ha
        · cases ha
          obtain ⟨mid, h1⟩ := r.index i _ e hcache List.mem_cons_self
          rw [idx _ _ _ h1, idx _ _ _ hi]
      · cases he
      · cases he
  · cases ha
  · cases ha

/-- **C40** Asking for an executor on any of the 12 nodes (and, with rack-scale support, 16 machines)
is answered, never a panic; on any other node without rack-scale support it is one. -/
theorem c40_nodes (c : Cfg) (s : Proc) (g : BitVec 64) (node : Nat) (oom : Bool) :
    (node < 12 → (c.rack = true → (midFromGtid g).toNat < 16) →
      (s.step c (.assign g node oom)).2 ≠ .panic) ∧
    (12 ≤ node → c.rack = false → (s.step c (.assign g node oom)).2 = .panic) ∧
    (c.rack = true → 16 ≤ (midFromGtid g).toNat →
      (s.step c (.assign g node oom)).2 = .panic) := by
  have get : ∀ i, execIndex c node (midFromGtid g).toNat = some i →
      (s.step c (.assign g node oom)).2 ≠ .panic := by
    intro i hi
    unfold Proc.step Proc.getExecutor
    dsimp only
    rw [hi]
    cases hc : s.cache i with
    | none => simp [hc]
    | some k =>
      cases k with
      | nil => simp [hc]
      | cons e k => simp only [hc]; split <;> simp
  have none' : execIndex c node (midFromGtid g).toNat = none →
      (s.step c (.assign g node oom)).2 = .panic := by
    intro hi
    unfold Proc.step Proc.getExecutor
    dsimp only
    rw [hi]
  refine ⟨?_, ?_, ?_⟩
  · intro hn hm
    unfold execIndex MAX_NUMA_NODES MAX_MACHINES at get
    cases hr : c.rack with
    | true =>
      have := hm hr
      rw [hr] at get
      exact get _ (by rw [if_pos rfl, if_pos (by omega)])
    | false =>
      rw [hr] at get
      exact get _ (by simp only [Bool.false_eq_true, if_false]; rw [if_pos hn])
  · intro hn hr
    apply none'
    unfold execIndex MAX_NUMA_NODES
    rw [hr]
    simp only [Bool.false_eq_true, if_false]
    rw [if_neg (by omega)]
  · intro hr hm
    apply none'
    unfold execIndex MAX_NUMA_NODES MAX_MACHINES
    rw [hr, if_pos rfl, if_neg (by omega)]

/-- **C40** With rack-scale support, two nodes of the rack never share their executors: nor do two
machines. -/
theorem c40_apart (c : Cfg) {a b m n i : Nat} (ha : a < 12) (hb : b < 12)
    (h1 : execIndex c a m = some i) (h2 : execIndex c b n = some i) :
    a = b ∧ (c.rack = true → m = n) := by
  unfold execIndex MAX_NUMA_NODES at h1 h2
  cases hr : c.rack with
  | true =>
    rw [hr, if_pos rfl] at h1 h2
    split at h1
    · split at h2
      · simp only [Option.some.injEq] at h1 h2
        exact ⟨by omega, fun _ => by omega⟩
      · cases h2
    · cases h1
  | false =>
    rw [hr] at h1 h2
    simp only [Bool.false_eq_true, if_false] at h1 h2
    rw [if_pos ha] at h1
    rw [if_pos hb] at h2
    simp only [Option.some.injEq] at h1 h2
    exact ⟨h1.trans h2.symm, fun h => by cases h⟩

end NRK.Proc
