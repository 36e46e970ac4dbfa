import Verif.Mem.DetModel

/-!
# C25: deterministic allocation
-/

namespace NRK.Mem.Det

/-- No allocation has failed so far. -/
def St.NoFailure (s : St) : Prop := ∀ f ∈ s.fills, ∀ p ∈ f.2, p ≠ 0

/-- A round is being distributed and has not reached the queue of `r` (it never reaches the queue of
the replica that distributes it). -/
def St.Pending (s : St) (r : Nat) : Prop :=
  ∃ x ok a i, s.pc x = .pushing ok a i ∧ (r = x ∨ i ≤ r)

/-- The invariant while no allocation has failed. -/
structure DInv (n : Nat) (L : Nat → Nat) (s : St) : Prop where
  lockPc : ∀ r, s.lock = some r ↔ (s.pc r = .locked ∨ ∃ ok a i, s.pc r = .pushing ok a i)
  lt : ∀ r, s.pc r ≠ .idle → r < n
  layout : ∀ k f, s.fills[k]? = some f → f.1 = L k ∧ f.2.length = n
  push : ∀ r ok a i, s.pc r = .pushing ok a i → ok = true ∧ i ≤ n ∧
    s.fills.length = (s.res r).length + 1 ∧
    s.fills[(s.res r).length]? = some (L (s.res r).length, a) ∧ s.q r = []
  queue : ∀ r, r < n → ∃ F : List (Nat × List Nat), F <+: s.fills ∧
    (s.Pending r → F.length + 1 = s.fills.length) ∧ (¬ s.Pending r → F = s.fills) ∧
    (s.res r).length ≤ F.length ∧
    s.q r = (F.drop (s.res r).length).map (fun f => (f.1, f.2.getD r 0))
  res : ∀ r, r < n → s.res r = (s.fills.take (s.res r).length).map (fun f => f.2.getD r 0)
  ok : s.misfit = false
  freed : s.freed = []

theorem lock_unique {n : Nat} {L : Nat → Nat} {s : St} (h : DInv n L s) {r x : Nat}
    (hr : s.lock = some r) (hx : ∃ ok a i, s.pc x = .pushing ok a i) : x = r := by
  have := (h.lockPc x).2 (.inr hx)
  rw [hr] at this
  exact (Option.some.inj this).symm

/-- Taking the front of a queue keeps the invariant. -/
theorem take_inv {n : Nat} {L : Nat → Nat} {s : St} (h : DInv n L s) {r : Nat} (hr : r < n)
    (hpc : s.pc r = .idle ∨ s.pc r = .locked) {x : Nat × Nat} {rest : List (Nat × Nat)}
    (hq : s.q r = x :: rest) : DInv n L (s.take r (L (s.res r).length) x rest) := by
  have hnp : ∀ ok a i, s.pc r ≠ .pushing ok a i := by
    intro ok a i q
    rcases hpc with h' | h' <;> rw [q] at h' <;> cases h'
  have hpend : ∀ r', (s.take r (L (s.res r).length) x rest).Pending r' ↔ s.Pending r' := by
    intro r'
    simp only [St.Pending, St.take]
    constructor
    · rintro ⟨y, ok, a, i, h1, h2⟩
      by_cases hy : y = r
      · subst hy; rw [upd_same] at h1; cases h1
      · rw [upd_other _ _ hy] at h1
        exact ⟨y, ok, a, i, h1, h2⟩
    · rintro ⟨y, ok, a, i, h1, h2⟩
      by_cases hy : y = r
      · subst hy; exact absurd h1 (hnp ok a i)
      · exact ⟨y, ok, a, i, by rw [upd_other _ _ hy]; exact h1, h2⟩
  obtain ⟨F, f1, f2, f3, f4, f5⟩ := h.queue r hr
  have hlen : (s.res r).length < F.length := by
    apply Classical.byContradiction
    intro q
    rw [List.drop_eq_nil_of_le (by omega), hq] at f5
    cases f5
  rw [hq, List.drop_eq_getElem_cons hlen] at f5
  simp only [List.map_cons, List.cons.injEq] at f5
  obtain ⟨hx, hrest⟩ := f5
  have hget : s.fills[(s.res r).length]? = some (F[(s.res r).length]) := by
    obtain ⟨t, ht⟩ := f1
    rw [← ht, List.getElem?_append_left hlen, List.getElem?_eq_getElem hlen]
  have hlay := (h.layout _ _ hget).1
  constructor
  · intro r'
    simp only [St.take]
    by_cases hr' : r' = r
    · subst hr'
      rw [upd_same]
      simp only [reduceCtorEq, exists_false, or_self, iff_false]
      rcases hpc with hp | hp
      · rw [hp]
        simp only [reduceCtorEq, if_false]
        intro q
        rcases (h.lockPc r').1 q with q | ⟨ok, a, i, q⟩ <;> rw [hp] at q <;> cases q
      · rw [hp]; simp
    · rw [upd_other _ _ hr', ← h.lockPc r']
      rcases hpc with hp | hp
      · rw [hp]; simp
      · rw [hp]
        simp only [if_true, reduceCtorEq, false_iff]
        intro q
        have := (h.lockPc r).2 (.inl hp)
        rw [q] at this
        exact hr' (Option.some.inj this)
  · intro r' q
    simp only [St.take] at q
    by_cases hr' : r' = r
    · subst hr'; exact hr
    · rw [upd_other _ _ hr'] at q; exact h.lt r' q
  · exact h.layout
  · intro r' ok a i q
    simp only [St.take] at q ⊢
    by_cases hr' : r' = r
    · subst hr'; rw [upd_same] at q; cases q
    · rw [upd_other _ _ hr'] at q
      rw [upd_other _ _ hr', upd_other _ _ hr']
      exact h.push r' ok a i q
  · intro r' hr2
    by_cases hr' : r' = r
    · subst hr'
      refine ⟨F, f1, fun q => f2 ((hpend _).1 q), fun q => f3 (fun q' => q ((hpend _).2 q')), ?_, ?_⟩
      · simp only [St.take, upd_same, List.length_append, List.length_singleton]; omega
      · simp only [St.take, upd_same, List.length_append, List.length_singleton]; exact hrest
    · obtain ⟨G, g1, g2, g3, g4, g5⟩ := h.queue r' hr2
      refine ⟨G, g1, fun q => g2 ((hpend _).1 q), fun q => g3 (fun q' => q ((hpend _).2 q')), ?_, ?_⟩
      · simp only [St.take]; rw [upd_other _ _ hr']; exact g4
      · simp only [St.take]; rw [upd_other _ _ hr', upd_other _ _ hr']; exact g5
  · intro r' hr2
    by_cases hr' : r' = r
    · subst hr'
      simp only [St.take, upd_same, List.length_append, List.length_singleton]
      have hl : (s.res r').length < s.fills.length := by
        have := f1.length_le; omega
      have e := List.take_succ (l := s.fills) (i := (s.res r').length)
      rw [e, List.map_append, ← h.res r' hr2, hget, hx]
      rfl
    · simp only [St.take]; rw [upd_other _ _ hr']; exact h.res r' hr2
  · simp only [St.take, h.ok, hx, hlay]
    simp
  · exact h.freed

theorem init_inv (n : Nat) (L : Nat → Nat) : DInv n L St.init := by
  constructor
  · intro r; simp [St.init]
  · intro r q; exact absurd rfl q
  · intro k f q; simp [St.init] at q
  · intro r ok a i q; simp [St.init] at q
  · intro r _
    exact ⟨[], by simp [St.init], fun ⟨x, ok, a, i, q, _⟩ => by simp [St.init] at q, fun _ => rfl,
      by simp [St.init], by simp [St.init]⟩
  · intro r _; simp [St.init]
  · rfl
  · rfl

theorem fills_mono {n cap : Nat} {L : Nat → Nat} {s s' : St} (h : Step n cap L s s') :
    s.fills <+: s'.fills := by
  cases h <;> first | exact List.prefix_refl _ | exact List.prefix_append _ _

theorem step_inv {n cap : Nat} {L : Nat → Nat} {s s' : St} (h : DInv n L s)
    (hs : Step n cap L s s') (hok : s'.NoFailure) : DInv n L s' := by
  cases hs with
  | fast hr hp hq => exact take_inv h hr (.inl hp) hq
  | again hr hp hq => exact take_inv h hr (.inr hp) hq
  | @slow r hr hp hq =>
    have hpend : ∀ r', St.Pending { s with pc := upd s.pc r .wantLock } r' ↔ s.Pending r' := by
      intro r'
      simp only [St.Pending]
      constructor
      · rintro ⟨y, ok, a, i, h1, h2⟩
        by_cases hy : y = r
        · subst hy; rw [upd_same] at h1; cases h1
        · rw [upd_other _ _ hy] at h1
          exact ⟨y, ok, a, i, h1, h2⟩
      · rintro ⟨y, ok, a, i, h1, h2⟩
        by_cases hy : y = r
        · subst hy; rw [hp] at h1; cases h1
        · exact ⟨y, ok, a, i, by rw [upd_other _ _ hy]; exact h1, h2⟩
    refine ⟨?_, ?_, h.layout, ?_, ?_, h.res, h.ok, h.freed⟩
    · intro r'
      rw [h.lockPc r']
      by_cases hr' : r' = r
      · subst hr'; simp [hp]
      · simp only [upd_other _ _ hr']
    · intro r' q
      by_cases hr' : r' = r
      · subst hr'; exact hr
      · simp only [upd_other _ _ hr'] at q; exact h.lt r' q
    · intro r' ok a i q
      by_cases hr' : r' = r
      · subst hr'; simp at q
      · simp only [upd_other _ _ hr'] at q; exact h.push r' ok a i q
    · intro r' hr2
      obtain ⟨G, g1, g2, g3, g4⟩ := h.queue r' hr2
      exact ⟨G, g1, fun q => g2 ((hpend _).1 q), fun q => g3 (fun q' => q ((hpend _).2 q')), g4⟩
  | @acquire r hr hp hl =>
    have hpend : ∀ r', St.Pending { s with pc := upd s.pc r .locked, lock := some r } r' ↔
        s.Pending r' := by
      intro r'
      simp only [St.Pending]
      constructor
      · rintro ⟨y, ok, a, i, h1, h2⟩
        by_cases hy : y = r
        · subst hy; rw [upd_same] at h1; cases h1
        · rw [upd_other _ _ hy] at h1
          exact ⟨y, ok, a, i, h1, h2⟩
      · rintro ⟨y, ok, a, i, h1, h2⟩
        by_cases hy : y = r
        · subst hy; rw [hp] at h1; cases h1
        · exact ⟨y, ok, a, i, by rw [upd_other _ _ hy]; exact h1, h2⟩
    refine ⟨?_, ?_, h.layout, ?_, ?_, h.res, h.ok, h.freed⟩
    · intro r'
      by_cases hr' : r' = r
      · subst hr'; simp
      · simp only [upd_other _ _ hr']
        rw [← h.lockPc r', hl]
        simp only [Option.some.injEq, reduceCtorEq, iff_false]
        exact fun q => hr' q.symm
    · intro r' q
      by_cases hr' : r' = r
      · subst hr'; exact hr
      · simp only [upd_other _ _ hr'] at q; exact h.lt r' q
    · intro r' ok a i q
      by_cases hr' : r' = r
      · subst hr'; simp at q
      · simp only [upd_other _ _ hr'] at q; exact h.push r' ok a i q
    · intro r' hr2
      obtain ⟨G, g1, g2, g3, g4⟩ := h.queue r' hr2
      exact ⟨G, g1, fun q => g2 ((hpend _).1 q), fun q => g3 (fun q' => q ((hpend _).2 q')), g4⟩
  | @alloc r allocs hr hp hq hlen =>
    have hl := (h.lockPc r).2 (.inl hp)
    have hno : ∀ r', ¬ s.Pending r' := by
      rintro r' ⟨y, ok, a, i, h1, h2⟩
      have := lock_unique h hl ⟨ok, a, i, h1⟩
      subst this
      rw [hp] at h1; cases h1
    have hfull : (s.res r).length = s.fills.length := by
      obtain ⟨F, f1, f2, f3, f4, f5⟩ := h.queue r hr
      have hF := f3 (hno r)
      subst hF
      rw [hq] at f5
      have e := congrArg List.length f5
      simp only [List.length_nil, List.length_map, List.length_drop] at e
      omega
    refine ⟨?_, ?_, ?_, ?_, ?_, ?_, h.ok, h.freed⟩
    · intro r'
      by_cases hr' : r' = r
      · subst hr'; simp [hl]
      · simp only [upd_other _ _ hr']; exact h.lockPc r'
    · intro r' q
      by_cases hr' : r' = r
      · subst hr'; exact hr
      · simp only [upd_other _ _ hr'] at q; exact h.lt r' q
    · intro k f q
      simp only at q
      by_cases hk : k < s.fills.length
      · rw [List.getElem?_append_left hk] at q; exact h.layout k f q
      · rw [List.getElem?_append_right (by omega)] at q
        have hk0 : k = s.fills.length := by
          apply Classical.byContradiction
          intro hne
          rw [List.getElem?_eq_none (by simp only [List.length_singleton]; omega)] at q
          cases q
        subst hk0
        simp only [Nat.sub_self, List.getElem?_cons_zero, Option.some.injEq] at q
        subst q
        exact ⟨by rw [hfull], hlen⟩
    · intro r' ok a i q
      by_cases hr' : r' = r
      · subst hr'
        simp only [upd_same, PC.pushing.injEq] at q
        obtain ⟨q1, q2, q3⟩ := q
        subst q2; subst q3
        refine ⟨?_, Nat.zero_le _, by simp [hfull], ?_, hq⟩
        · rw [← q1]
          rw [List.all_eq_true]
          intro p hp'
          have := hok (L (s.res r').length, allocs) (by simp) p hp'
          simpa using this
        · simp only
          rw [hfull, List.getElem?_append_right (Nat.le_refl _)]
          simp
      · simp only [upd_other _ _ hr'] at q
        have := lock_unique h hl ⟨ok, a, i, q⟩
        exact absurd this hr'
    · intro r' hr2
      obtain ⟨G, g1, g2, g3, g4, g5⟩ := h.queue r' hr2
      have hG := g3 (hno r')
      subst hG
      refine ⟨s.fills, List.prefix_append _ _, fun _ => by simp, fun q => ?_, g4, g5⟩
      exact absurd ⟨r, _, _, 0, upd_same _ _ _, .inr (Nat.zero_le _)⟩ q
    · intro r' hr2
      have e := h.res r' hr2
      obtain ⟨G, g1, g2, g3, g4, g5⟩ := h.queue r' hr2
      have := g1.length_le
      simp only
      rw [List.take_append_of_le_length (by omega)]
      exact e
  | @push r i allocs hp hi hne =>
    obtain ⟨_, p2, p3, p4, p5⟩ := h.push r true allocs i hp
    have hl := (h.lockPc r).2 (.inr ⟨true, allocs, i, hp⟩)
    have hpend : ∀ r', s.Pending r' ↔ (r' = r ∨ i ≤ r') := by
      intro r'
      constructor
      · rintro ⟨y, ok, a, j, h1, h2⟩
        have := lock_unique h hl ⟨ok, a, j, h1⟩
        subst this
        rw [hp] at h1; cases h1
        exact h2
      · intro q; exact ⟨r, _, _, _, hp, q⟩
    refine ⟨?_, ?_, h.layout, ?_, ?_, h.res, h.ok, h.freed⟩
    · intro r'
      by_cases hr' : r' = r
      · subst hr'; simp [hl]
      · simp only [upd_other _ _ hr']; exact h.lockPc r'
    · intro r' q
      by_cases hr' : r' = r
      · subst hr'; exact h.lt r' (by rw [hp]; simp)
      · simp only [upd_other _ _ hr'] at q; exact h.lt r' q
    · intro r' ok a j q
      by_cases hr' : r' = r
      · subst hr'
        simp only [upd_same, PC.pushing.injEq] at q
        obtain ⟨rfl, rfl, rfl⟩ := q
        refine ⟨rfl, by omega, p3, p4, ?_⟩
        simp only [upd_other _ _ (Ne.symm hne)]
        exact p5
      · simp only [upd_other _ _ hr'] at q
        exact absurd (lock_unique h hl ⟨ok, a, j, q⟩) hr'
    · intro r' hr2
      have hpend' : St.Pending { s with
          pc := upd s.pc r (.pushing true allocs (i + 1))
          q := upd s.q i (s.q i ++ [(L (s.res r).length, allocs.getD i 0)])
          overflow := s.overflow || decide (cap ≤ (s.q i).length) } r' ↔ (r' = r ∨ i + 1 ≤ r') := by
        constructor
        · rintro ⟨y, ok, a, j, h1, h2⟩
          by_cases hy : y = r
          · subst hy
            simp only [upd_same, PC.pushing.injEq] at h1
            obtain ⟨_, _, rfl⟩ := h1
            exact h2
          · simp only [upd_other _ _ hy] at h1
            exact absurd (lock_unique h hl ⟨ok, a, j, h1⟩) hy
        · intro q; exact ⟨r, _, _, _, upd_same _ _ _, q⟩
      obtain ⟨G, g1, g2, g3, g4, g5⟩ := h.queue r' hr2
      by_cases hri : r' = i
      · subst hri
        have hGl := g2 ((hpend r').2 (.inr (Nat.le_refl _)))
        refine ⟨s.fills, List.prefix_refl _, fun q => ?_, fun _ => rfl, by simp only; omega, ?_⟩
        · rcases hpend'.1 q with q | q
          · exact absurd q hne
          · omega
        · have hG : s.fills = G ++ [(L (s.res r).length, allocs)] := by
            obtain ⟨t, ht⟩ := g1
            have htl : t.length = 1 := by
              have := congrArg List.length ht
              simp only [List.length_append] at this; omega
            obtain ⟨z, rfl⟩ := List.length_eq_one_iff.1 htl
            rw [← ht] at p4 ⊢
            rw [List.getElem?_append_right (by omega)] at p4
            have : (s.res r).length - G.length = 0 := by omega
            rw [this] at p4
            simp only [List.getElem?_cons_zero, Option.some.injEq] at p4
            rw [p4]
          simp only [upd_same]
          rw [hG, List.drop_append_of_le_length g4, List.map_append, ← g5]
          rfl
      · refine ⟨G, g1, fun q => g2 ((hpend _).2 ?_), fun q => g3 (fun q' => q (hpend'.2 ?_)), g4, ?_⟩
        · rcases hpend'.1 q with q | q
          · exact .inl q
          · exact .inr (by omega)
        · rcases (hpend _).1 q' with q | q
          · exact .inl q
          · exact .inr (by omega)
        · simp only [upd_other _ _ hri]; exact g5
  | @skip r allocs hp hr =>
    obtain ⟨_, p2, p3, p4, p5⟩ := h.push r true allocs r hp
    have hl := (h.lockPc r).2 (.inr ⟨true, allocs, r, hp⟩)
    have hpend : ∀ r', s.Pending r' ↔ (r ≤ r') := by
      intro r'
      constructor
      · rintro ⟨y, ok, a, j, h1, h2⟩
        have := lock_unique h hl ⟨ok, a, j, h1⟩
        subst this
        rw [hp] at h1; cases h1
        omega
      · intro q; exact ⟨r, _, _, _, hp, .inr q⟩
    have hpend' : ∀ r', St.Pending { s with pc := upd s.pc r (.pushing true allocs (r + 1)) } r' ↔
        (r ≤ r') := by
      intro r'
      constructor
      · rintro ⟨y, ok, a, j, h1, h2⟩
        by_cases hy : y = r
        · subst hy
          simp only [upd_same, PC.pushing.injEq] at h1
          obtain ⟨_, _, rfl⟩ := h1
          omega
        · simp only [upd_other _ _ hy] at h1
          exact absurd (lock_unique h hl ⟨ok, a, j, h1⟩) hy
      · intro q
        exact ⟨r, _, _, _, upd_same _ _ _, by omega⟩
    refine ⟨?_, ?_, h.layout, ?_, ?_, h.res, h.ok, h.freed⟩
    · intro r'
      by_cases hr' : r' = r
      · subst hr'; simp [hl]
      · simp only [upd_other _ _ hr']; exact h.lockPc r'
    · intro r' q
      by_cases hr' : r' = r
      · subst hr'; exact hr
      · simp only [upd_other _ _ hr'] at q; exact h.lt r' q
    · intro r' ok a j q
      by_cases hr' : r' = r
      · subst hr'
        simp only [upd_same, PC.pushing.injEq] at q
        obtain ⟨rfl, rfl, rfl⟩ := q
        exact ⟨rfl, by omega, p3, p4, p5⟩
      · simp only [upd_other _ _ hr'] at q
        exact absurd (lock_unique h hl ⟨ok, a, j, q⟩) hr'
    · intro r' hr2
      obtain ⟨G, g1, g2, g3, g4⟩ := h.queue r' hr2
      exact ⟨G, g1, fun q => g2 ((hpend _).2 ((hpend' _).1 q)),
        fun q => g3 (fun q' => q ((hpend' _).2 ((hpend _).1 q'))), g4⟩
  | @pushNull r i allocs hp hi =>
    have := (h.push r false allocs i hp).1
    cases this
  | @finish r ok allocs hp =>
    obtain ⟨_, p2, p3, p4, p5⟩ := h.push r ok allocs n hp
    have hl := (h.lockPc r).2 (.inr ⟨ok, allocs, n, hp⟩)
    have hr : r < n := h.lt r (by rw [hp]; simp)
    have hpend : ∀ r', r' < n → (s.Pending r' ↔ r' = r) := by
      intro r' hr'
      constructor
      · rintro ⟨y, ok', a, j, h1, h2⟩
        have := lock_unique h hl ⟨ok', a, j, h1⟩
        subst this
        rw [hp] at h1; cases h1
        omega
      · intro q; exact ⟨r, _, _, _, hp, .inl q⟩
    have hnp : ∀ r', ¬ St.Pending { s with
        pc := upd s.pc r .idle, lock := none,
        res := upd s.res r (s.res r ++ [allocs.getD r 0]) } r' := by
      rintro r' ⟨y, ok', a, j, h1, h2⟩
      by_cases hy : y = r
      · subst hy; simp at h1
      · simp only [upd_other _ _ hy] at h1
        exact absurd (lock_unique h hl ⟨ok', a, j, h1⟩) hy
    refine ⟨?_, ?_, h.layout, ?_, ?_, ?_, h.ok, h.freed⟩
    · intro r'
      by_cases hr' : r' = r
      · subst hr'; simp
      · simp only [upd_other _ _ hr', ← h.lockPc r', hl]
        simp only [reduceCtorEq, Option.some.injEq, false_iff]
        exact fun q => hr' q.symm
    · intro r' q
      by_cases hr' : r' = r
      · subst hr'; exact hr
      · simp only [upd_other _ _ hr'] at q; exact h.lt r' q
    · intro r' ok' a j q
      by_cases hr' : r' = r
      · subst hr'; simp at q
      · simp only [upd_other _ _ hr'] at q
        exact absurd (lock_unique h hl ⟨ok', a, j, q⟩) hr'
    · intro r' hr2
      by_cases hr' : r' = r
      · subst hr'
        refine ⟨s.fills, List.prefix_refl _, fun q => absurd q (hnp _), fun _ => rfl, ?_, ?_⟩
        · simp only [upd_same, List.length_append, List.length_singleton]; omega
        · simp only [upd_same, List.length_append, List.length_singleton]
          rw [List.drop_eq_nil_of_le (by omega), p5]
          rfl
      · obtain ⟨G, g1, g2, g3, g4, g5⟩ := h.queue r' hr2
        refine ⟨G, g1, fun q => absurd q (hnp _), fun _ => g3 (fun q => hr' ((hpend r' hr2).1 q)), ?_, ?_⟩
        · simp only [upd_other _ _ hr']; exact g4
        · simp only [upd_other _ _ hr']; exact g5
    · intro r' hr2
      by_cases hr' : r' = r
      · subst hr'
        simp only [upd_same, List.length_append, List.length_singleton]
        have e := List.take_succ (l := s.fills) (i := (s.res r').length)
        rw [e, List.map_append, ← h.res r' hr2, p4]
        rfl
      · simp only [upd_other _ _ hr']; exact h.res r' hr2

theorem reach_inv {n cap : Nat} {L : Nat → Nat} {s : St} (h : Reach n cap L s)
    (hok : s.NoFailure) : DInv n L s := by
  induction h with
  | init => exact init_inv n L
  | step _ hs ih =>
    refine step_inv (ih ?_) hs hok
    intro f hf
    exact hok f ((fills_mono hs).subset hf)

/-- **C25** (partial: as long as no underlying allocation fails) However the replicas are
interleaved: the `k`-th request of a replica gets what round `k` allocated on the replica's own
node, so all replicas get memory (never null) for it, none of it has been given back, and the
layout check never fails. -/
theorem c25_same_outcome_partial {n cap : Nat} {L : Nat → Nat} {s : St} (h : Reach n cap L s)
    (hok : s.NoFailure) :
    s.misfit = false ∧ s.freed = [] ∧
    (∀ r k p, r < n → (s.res r)[k]? = some p → p ≠ 0 ∧
      ∃ allocs, s.fills[k]? = some (L k, allocs) ∧ allocs[r]? = some p) := by
  have hi := reach_inv h hok
  refine ⟨hi.ok, hi.freed, ?_⟩
  intro r k p hr hk
  have e := hi.res r hr
  rw [e, List.getElem?_map] at hk
  cases hf : (s.fills.take (s.res r).length)[k]? with
  | none => rw [hf] at hk; cases hk
  | some f =>
    rw [hf] at hk
    simp only [Option.map_some, Option.some.injEq] at hk
    have hf' : s.fills[k]? = some f := by
      rw [List.getElem?_take] at hf
      split at hf
      · exact hf
      · cases hf
    obtain ⟨l1, l2⟩ := hi.layout k f hf'
    have hg : f.2[r]? = some (f.2[r]'(by omega)) := List.getElem?_eq_getElem (by omega)
    have hp : p = f.2[r]'(by omega) := by rw [← hk, List.getD, hg]; rfl
    refine ⟨?_, f.2, by rw [hf', ← l1], by rw [hg, hp]⟩
    rw [hp]
    exact hok f (List.mem_of_getElem? hf') _ (List.getElem_mem _)

/-- The queue of a replica is full only if the replica is that many requests behind. -/
theorem c25_queue_length_partial {n cap : Nat} {L : Nat → Nat} {s : St} (h : Reach n cap L s)
    (hok : s.NoFailure) (r : Nat) (hr : r < n) :
    (s.q r).length + (s.res r).length ≤ s.fills.length := by
  obtain ⟨F, f1, _, _, f4, f5⟩ := (reach_inv h hok).queue r hr
  have := f1.length_le
  rw [f5, List.length_map, List.length_drop]
  omega

/-- The push fails (and panics) only if the replica is more requests behind than a queue has
places. -/
theorem c25_overflow_step_partial {n cap : Nat} {L : Nat → Nat} {s s' : St} (h : Reach n cap L s)
    (hs : Step n cap L s s') (hok : s'.NoFailure) (h0 : s.overflow = false)
    (h1 : s'.overflow = true) : ∃ i, i < n ∧ cap + (s.res i).length < s.fills.length := by
  have hok' : s.NoFailure := fun f hf => hok f ((fills_mono hs).subset hf)
  have hi := reach_inv h hok'
  have key : ∀ {r i : Nat} {ok : Bool} {a : List Nat}, s.pc r = .pushing ok a i → i < n →
      (s.overflow || decide (cap ≤ (s.q i).length)) = true →
      ∃ i, i < n ∧ cap + (s.res i).length < s.fills.length := by
    intro r i ok a hp hin hov
    rw [h0, Bool.false_or, decide_eq_true_eq] at hov
    obtain ⟨F, _, f2, _, f4, f5⟩ := hi.queue i hin
    have := f2 ⟨r, ok, a, i, hp, .inr (Nat.le_refl _)⟩
    rw [f5, List.length_map, List.length_drop] at hov
    exact ⟨i, hin, by omega⟩
  cases hs with
  | fast a b c => exact absurd (h0.symm.trans h1) (by simp)
  | slow a b c => exact absurd (h0.symm.trans h1) (by simp)
  | acquire a b c => exact absurd (h0.symm.trans h1) (by simp)
  | again a b c => exact absurd (h0.symm.trans h1) (by simp)
  | alloc allocs a b c d => exact absurd (h0.symm.trans h1) (by simp)
  | push a b c => exact key a b h1
  | skip a b => exact absurd (h0.symm.trans h1) (by simp)
  | pushNull a b => exact key a b h1
  | finish a => exact absurd (h0.symm.trans h1) (by simp)

/-- No push fails before there have been more rounds than a queue has places. -/
theorem c25_overflow_partial {n cap : Nat} {L : Nat → Nat} {s : St} (h : Reach n cap L s)
    (hok : s.NoFailure) (h1 : s.overflow = true) : cap < s.fills.length := by
  induction h with
  | init => exact absurd h1 (by simp [St.init])
  | @step s s' h hs ih =>
    have hok' : s.NoFailure := fun f hf => hok f ((fills_mono hs).subset hf)
    have hm := (fills_mono hs).length_le
    cases h0 : s.overflow with
    | true => exact Nat.lt_of_lt_of_le (ih hok' h0) hm
    | false =>
      obtain ⟨i, _, hl⟩ := c25_overflow_step_partial h hs hok h0 h1
      omega

/-- Finding: a replica that makes no request while the other makes one more than a queue has places
ends the kernel. -/
theorem c25_lag_panics (cap : Nat) (L : Nat → Nat) :
    ∃ s, Reach 2 cap L s ∧ s.NoFailure ∧ s.overflow = true ∧ s.res 1 = [] := by
  have round : ∀ k, ∃ s, Reach 2 cap L s ∧ s.NoFailure ∧ s.pc 0 = .idle ∧ s.lock = none ∧
      s.q 0 = [] ∧ (s.q 1).length = k ∧ s.res 1 = [] ∧ (cap < k → s.overflow = true) := by
    intro k
    induction k with
    | zero =>
      exact ⟨_, .init, fun f hf => by simp [St.init] at hf, rfl, rfl, rfl, rfl, rfl,
        fun h => absurd h (by omega)⟩
    | succ k ih =>
      obtain ⟨s, h, h1, h2, h3, h4, h5, h6, h7⟩ := ih
      have a1 := Reach.step h (.slow (r := 0) (by omega) h2 h4)
      have a2 := Reach.step a1 (.acquire (r := 0) (by omega) (by simp [upd_same]) h3)
      have a3 := Reach.step a2 (.alloc (r := 0) [7, 8] (by omega) (by simp [upd_same]) h4 rfl)
      have a4 := Reach.step a3 (.skip (r := 0) (allocs := [7, 8]) (by simp [upd_same]) (by omega))
      have a5 := Reach.step a4 (.push (r := 0) (i := 1) (allocs := [7, 8]) (by simp [upd_same])
        (by omega) (by omega))
      have a6 := Reach.step a5 (.finish (r := 0) (ok := true) (allocs := [7, 8]) (by simp [upd_same]))
      refine ⟨_, a6, ?_, ?_, rfl, ?_, ?_, ?_, ?_⟩
      · intro f hf p hp
        simp only [List.mem_append, List.mem_singleton] at hf
        rcases hf with hf | rfl
        · exact h1 f hf p hp
        · simp only [List.mem_cons, List.not_mem_nil, or_false] at hp
          omega
      · simp [upd_same]
      · simp [upd_apply, h4]
      · simp [upd_apply, h5]
      · simp [upd_apply, h6]
      · intro hk
        show (s.overflow || decide (cap ≤ (s.q 1).length)) = true
        rw [Bool.or_eq_true, decide_eq_true_eq, h5]
        exact .inr (by omega)
  obtain ⟨s, h, h1, _, _, _, _, h6, h7⟩ := round (cap + 1)
  exact ⟨s, h, h1, h7 (by omega), h6⟩

/-- Finding: when the allocation fails on another node, the replica that runs first keeps the
address it has just given back, while the other replica gets null for the same request. -/
theorem c25_failure_diverges (cap : Nat) (L : Nat → Nat) :
    ∃ s, Reach 2 cap L s ∧ s.res 0 = [7] ∧ s.res 1 = [0] ∧ 7 ∈ s.freed := by
  refine ⟨_, .step (.step (.step (.step (.step (.step (.step .init (.slow (r := 0) (by omega) rfl rfl))
    (.acquire (r := 0) (by omega) rfl rfl)) (.alloc (r := 0) [7, 0] (by omega) rfl rfl rfl))
    (.pushNull (r := 0) (i := 0) (allocs := [7, 0]) rfl (by omega)))
    (.pushNull (r := 0) (i := 1) (allocs := [7, 0]) rfl (by omega)))
    (.finish (r := 0) (ok := false) (allocs := [7, 0]) rfl))
    (.fast (r := 1) (x := (L 0, 0)) (rest := []) (by omega) rfl rfl), rfl, rfl, ?_⟩
  simp [St.take]

/-- Finding: a failed round also leaves a null pointer in the queue of the replica that ran it, so
its next request is answered with it: even with a single node, a request with another layout
crashes, and one with the same layout fails although memory may be available again. -/
theorem c25_failure_desynchronises (cap : Nat) (L : Nat → Nat) :
    ∃ s, Reach 1 cap L s ∧ s.res 0 = [0, 0] ∧ s.fills.length = 1 ∧ s.misfit = decide (L 0 ≠ L 1) := by
  refine ⟨_, .step (.step (.step (.step (.step (.step .init (.slow (r := 0) (by omega) rfl rfl))
    (.acquire (r := 0) (by omega) rfl rfl)) (.alloc (r := 0) [0] (by omega) rfl rfl rfl))
    (.pushNull (r := 0) (i := 0) (allocs := [0]) rfl (by omega)))
    (.finish (r := 0) (ok := false) (allocs := [0]) rfl))
    (.fast (r := 0) (x := (L 0, 0)) (rest := []) (by omega) rfl rfl), rfl, rfl, ?_⟩
  simp [St.take, St.init]

/-- Non-vacuity: two replicas get memory for the same request, no failure. -/
example (cap : Nat) (L : Nat → Nat) :
    ∃ s, Reach 2 cap L s ∧ s.NoFailure ∧ s.res 0 = [7] ∧ s.res 1 = [8] := by
  refine ⟨_, .step (.step (.step (.step (.step (.step (.step .init (.slow (r := 0) (by omega) rfl rfl))
    (.acquire (r := 0) (by omega) rfl rfl)) (.alloc (r := 0) [7, 8] (by omega) rfl rfl rfl))
    (.skip (r := 0) (allocs := [7, 8]) rfl (by omega)))
    (.push (r := 0) (i := 1) (allocs := [7, 8]) rfl (by omega) (by omega)))
    (.finish (r := 0) (ok := true) (allocs := [7, 8]) rfl))
    (.fast (r := 1) (x := (L 0, 8)) (rest := []) (by omega) rfl rfl), ?_, rfl, rfl⟩
  intro f hf p hp
  simp [St.take, St.init] at hf
  subst hf
  simp at hp
  omega

end NRK.Mem.Det
