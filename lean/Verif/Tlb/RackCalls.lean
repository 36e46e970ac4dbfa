import Verif.Tlb.RackInv

/-! # The unmap calls under way, the numbers of mappings, and what TLB entries came from -/

namespace NRK.Tlb.Rack

/-- The range and the place in the log of the unmap a core is in. -/
def Base.call : Base → Option (Rng × Nat)
  | .user => none
  | .rem r k _ _ _ => some (r, k)
  | .wait r k _ => some (r, k)

/-- How a step changes the log and the calls under way. -/
theorem Step.effect {g : Cfg} {s s' : St} (h : Step g s s') :
    (s'.log = s.log ∧ ∀ i x, (s'.cpu i).base.call = some x → (s.cpu i).base.call = some x) ∨
    (∃ r, s'.log = s.log ++ [.map r s.log.length] ∧ s'.cpu = s.cpu) ∨
    (∃ i r hs todo w, s'.log = s.log ++ [.unmap r] ∧ s.cpu i = Cpu.user ∧
      (∀ p, r.Has p → ptAt s.log p = some w) ∧
      s'.cpu = upd s.cpu i { Cpu.user with base := .rem r s.log.length hs todo [] }) := by
  have same : ∀ (i : Nat) (u u' : Cpu), s.cpu i = u → (∀ x, u'.base.call = some x → u.base.call = some x) →
      ∀ j x, (upd s.cpu i u' j).base.call = some x → (s.cpu j).base.call = some x := by
    intro i u u' hu hc j x hx
    rw [upd_apply] at hx
    split at hx
    · next e => rw [e, hu]; exact hc x hx
    · exact hx
  cases h with
  | activate | fill | sync => exact .inl ⟨rfl, fun _ _ h => h⟩
  | map i r => exact .inr (.inl ⟨r, rfl, rfl⟩)
  | unmap i r w hs hp _ hm _ => exact .inr (.inr ⟨i, r, hs, _, w, rfl, hp, hm, rfl⟩)
  | finish i r k hp => exact .inl ⟨rfl, same i _ _ hp (fun _ h => (nomatch h))⟩
  | _ =>
    refine .inl ⟨rfl, same _ _ _ rfl (fun x h => ?_)⟩
    rw [‹s.cpu _ = _›]
    exact h

/-- The log numbers mappings by their places, and no place is unmapped by two calls. -/
structure Inv2 (s : St) : Prop where
  num : ∀ (j : Nat) (r : Rng) (w : Nat), s.log[j]? = some (.map r w) → w = j
  uniq : ∀ i j r r' k, (s.cpu i).base.call = some (r, k) → (s.cpu j).base.call = some (r', k) → i = j
  lt : ∀ i r k, (s.cpu i).base.call = some (r, k) → k < s.log.length
  ent : ∀ c p e, s.tlb c p = some e → e.app ≤ e.len ∧ e.len ≤ s.log.length ∧
    ptAt (s.log.take e.app) p = some e.w
  app : ∀ n, s.applied n ≤ s.log.length

theorem tlb_effect {g : Cfg} {s s' : St} (h : Step g s s') (c p : Nat) (e : Entry)
    (he : s'.tlb c p = some e) : s.tlb c p = some e ∨
      (s'.log = s.log ∧ e = ⟨e.w, s.log.length, s.applied (g.node c)⟩ ∧ s.pt (g.node c) p = some e.w) := by
  cases h with
  | activate c' => exact .inl (all_drop he)
  | fill c' p' w ha hpt =>
    by_cases hc : c = c'
    · subst hc
      have he : upd s.tlb c (upd (s.tlb c) p' (some ⟨w, s.log.length, s.applied (g.node c)⟩)) c p = some e := he
      rw [upd_same] at he
      by_cases hx : p = p'
      · subst hx
        rw [upd_same] at he
        cases he
        exact .inr ⟨rfl, rfl, hpt⟩
      · rw [upd_other _ _ hx] at he
        exact .inl he
    · have he : upd s.tlb c' (upd (s.tlb c') p' (some ⟨w, s.log.length, s.applied (g.node c')⟩)) c p = some e := he
      rw [upd_other _ _ hc] at he
      exact .inl he
  | selfPage i => exact .inl (page_drop he)
  | selfAll i => exact .inl (all_drop he)
  | flushPage i => exact .inl (page_drop he)
  | flushAll i => exact .inl (all_drop he)
  | _ => exact .inl he

theorem applied_effect {g : Cfg} {s s' : St} (h : Step g s s') (hi : ∀ n, s.applied n ≤ s.log.length)
    (n : Nat) : s'.applied n ≤ s'.log.length := by
  cases h with
  | sync m k h1 h2 =>
    show upd s.applied m k n ≤ s.log.length
    rw [upd_apply]
    split
    · exact h2
    · exact hi n
  | map i r | unmap i r =>
    show upd s.applied (g.node i) (s.log.length + 1) n ≤ (s.log ++ [_]).length
    rw [upd_apply, List.length_append, List.length_singleton]
    have := hi n
    split <;> omega
  | _ => exact hi n

theorem Reach.inv2 {g : Cfg} {s : St} (h : Reach g s) : Inv2 s := by
  induction h with
  | init =>
    exact ⟨fun _ _ _ h => (nomatch h), fun _ _ _ _ _ h => (nomatch h), fun _ _ _ h => (nomatch h),
      fun _ _ _ h => (nomatch h), fun _ => Nat.le_refl _⟩
  | @step s s' _ hst h =>
    have happ := applied_effect hst h.app
    have htake : ∀ (x : POp) (a : Nat), a ≤ s.log.length → (s.log ++ [x]).take a = s.log.take a :=
      fun x a ha => List.take_append_of_le_length ha
    have hent : ∀ (s'log : List POp), (s'log = s.log ∨ ∃ x, s'log = s.log ++ [x]) → s'.log = s'log →
        ∀ c p e, s'.tlb c p = some e → e.app ≤ e.len ∧ e.len ≤ s'log.length ∧
          ptAt (s'log.take e.app) p = some e.w := by
      intro lg hlg hl c p e he
      rcases tlb_effect hst c p e he with h1 | ⟨h1, h2, h3⟩
      · obtain ⟨a, b, d⟩ := h.ent c p e h1
        rcases hlg with e' | ⟨x, e'⟩
        · rw [e']; exact ⟨a, b, d⟩
        · rw [e', htake x e.app (by omega)]
          exact ⟨a, by rw [List.length_append, List.length_singleton]; omega, d⟩
      · have e' : lg = s.log := hl.symm.trans h1
        rw [e', h2]
        exact ⟨h.app _, Nat.le_refl _, h3⟩
    rcases hst.effect with ⟨hl, hc⟩ | ⟨r, hl, hc⟩ | ⟨i, r, hs, todo, w, hl, hu, hm, hc⟩
    · refine ⟨by rw [hl]; exact h.num, fun i j r r' k a b => h.uniq i j r r' k (hc _ _ a) (hc _ _ b),
        fun i r k a => by rw [hl]; exact h.lt i r k (hc _ _ a), ?_, happ⟩
      rw [hl]
      exact hent _ (.inl rfl) hl
    · refine ⟨?_, by rw [hc]; exact h.uniq, ?_, ?_, happ⟩
      · intro j r' w hj
        rw [hl] at hj
        by_cases hlt : j < s.log.length
        · rw [List.getElem?_append_left hlt] at hj
          exact h.num j r' w hj
        · have := lt_of_get hj
          rw [List.length_append, List.length_singleton] at this
          have : j = s.log.length := by omega
          subst this
          simp at hj
          exact hj.2.symm
      · intro i r' k a
        rw [hc] at a
        rw [hl, List.length_append]
        have := h.lt i r' k a
        omega
      · rw [hl]
        exact hent _ (.inr ⟨_, rfl⟩) hl
    · have hcase : ∀ j x, (s'.cpu j).base.call = some x →
          (j = i ∧ x = (r, s.log.length)) ∨ (j ≠ i ∧ (s.cpu j).base.call = some x) := by
        intro j x hx
        rw [hc, upd_apply] at hx
        split at hx
        · next e => cases hx; exact .inl ⟨e, rfl⟩
        · next e => exact .inr ⟨e, hx⟩
      refine ⟨?_, ?_, ?_, ?_, happ⟩
      · intro j r' w hj
        rw [hl] at hj
        by_cases hlt : j < s.log.length
        · rw [List.getElem?_append_left hlt] at hj
          exact h.num j r' w hj
        · have := lt_of_get hj
          rw [List.length_append, List.length_singleton] at this
          have : j = s.log.length := by omega
          subst this
          simp at hj
      · intro a b r1 r2 k ha hb
        rcases hcase a _ ha with ⟨e1, e2⟩ | ⟨e1, e2⟩
        · rcases hcase b _ hb with ⟨e3, e4⟩ | ⟨e3, e4⟩
          · exact e1.trans e3.symm
          · cases e2
            have := h.lt b _ _ e4
            omega
        · rcases hcase b _ hb with ⟨e3, e4⟩ | ⟨e3, e4⟩
          · cases e4
            have := h.lt a _ _ e2
            omega
          · exact h.uniq a b r1 r2 k e2 e4
      · intro a r1 k ha
        rw [hl, List.length_append, List.length_singleton]
        rcases hcase a _ ha with ⟨e1, e2⟩ | ⟨e1, e2⟩
        · cases e2; omega
        · have := h.lt a _ _ e2
          omega
      · rw [hl]
        exact hent _ (.inr ⟨_, rfl⟩) hl

/-- No call is under way any more for the unmap at place `k`. -/
def Over (s : St) (k : Nat) : Prop := k < s.log.length ∧ ∀ i r, (s.cpu i).base.call ≠ some (r, k)

theorem Over.step {g : Cfg} {s s' : St} {k : Nat} (h : Over s k) (hs : Step g s s') : Over s' k := by
  obtain ⟨h1, h2⟩ := h
  rcases hs.effect with ⟨hl, hc⟩ | ⟨r, hl, hc⟩ | ⟨i, r, hs, todo, w, hl, hu, hm, hc⟩
  · exact ⟨by rw [hl]; exact h1, fun i r hx => h2 i r (hc _ _ hx)⟩
  · refine ⟨by rw [hl, List.length_append]; omega, fun i r => by rw [hc]; exact h2 i r⟩
  · refine ⟨by rw [hl, List.length_append]; omega, fun j r' hx => ?_⟩
    rw [hc, upd_apply] at hx
    split at hx
    · cases hx; omega
    · exact h2 j r' hx

theorem Over.steps {g : Cfg} {s t : St} {k : Nat} (h : Over s k) (hs : Steps g s t) : Over t k := by
  induction hs with
  | refl => exact h
  | tail _ h2 ih => exact ih.step h2

theorem Steps.reach {g : Cfg} {s t : St} (h : Steps g s t) (hs : Reach g s) : Reach g t := by
  induction h with
  | refl => exact hs
  | tail _ h2 ih => exact .step ih h2

/-- The log is only added to. -/
theorem Step.log_prefix {g : Cfg} {s s' : St} (h : Step g s s') : ∃ l, s'.log = s.log ++ l := by
  rcases h.effect with ⟨hl, _⟩ | ⟨r, hl, _⟩ | ⟨i, r, hs, todo, w, hl, _⟩
  · exact ⟨[], by rw [hl, List.append_nil]⟩
  · exact ⟨_, hl⟩
  · exact ⟨_, hl⟩

theorem Steps.log_prefix {g : Cfg} {s t : St} (h : Steps g s t) : ∃ l, t.log = s.log ++ l := by
  induction h with
  | refl => exact ⟨[], by rw [List.append_nil]⟩
  | tail _ h2 ih =>
    obtain ⟨l, e⟩ := ih
    obtain ⟨l', e'⟩ := h2.log_prefix
    exact ⟨l ++ l', by rw [e', e, List.append_assoc]⟩

/-- A page is mapped by the latest operation on it. -/
theorem ptAt_some (l : List POp) (p w : Nat) (h : ptAt l p = some w) :
    ∃ j r, l[j]? = some (.map r w) ∧ r.Has p ∧ ∀ (j' : Nat) (r' : Rng), j < j' → l[j']? = some (.unmap r') → ¬ r'.Has p := by
  generalize hn : l.length = n
  induction n generalizing l with
  | zero =>
    rw [List.length_eq_zero_iff.1 hn] at h
    cases h
  | succ n ih =>
    have hne : l ≠ [] := fun e => by rw [e] at hn; cases hn
    obtain ⟨l, x, rfl⟩ : ∃ l' x, l = l' ++ [x] := ⟨l.dropLast, l.getLast hne, (List.dropLast_concat_getLast hne).symm⟩
    have ih := fun h => ih l h (by rw [List.length_append, List.length_singleton] at hn; omega)
    rw [ptAt_append] at h
    have old : ptAt l p = some w → (∀ r', x = .unmap r' → ¬ r'.Has p) →
        ∃ j r, (l ++ [x])[j]? = some (.map r w) ∧ r.Has p ∧
          ∀ (j' : Nat) (r' : Rng), j < j' → (l ++ [x])[j']? = some (.unmap r') → ¬ r'.Has p := by
      intro h0 hx
      obtain ⟨j, r, h1, h2, h3⟩ := ih h0
      refine ⟨j, r, by rw [List.getElem?_append_left (lt_of_get h1)]; exact h1, h2, ?_⟩
      intro j' r' hj' hg
      by_cases hlt : j' < l.length
      · rw [List.getElem?_append_left hlt] at hg
        exact h3 j' r' hj' hg
      · have := lt_of_get hg
        rw [List.length_append, List.length_singleton] at this
        have : j' = l.length := by omega
        subst this
        simp at hg
        exact hx r' hg
    cases x with
    | map r v =>
      have h : (if r.Has p then some v else ptAt l p) = some w := h
      split at h
      · next hr =>
        cases h
        refine ⟨l.length, r, by simp, hr, ?_⟩
        intro j' r' hj' hg
        have := lt_of_get hg
        rw [List.length_append, List.length_singleton] at this
        omega
      · exact old h (fun r' e => by cases e)
    | unmap r =>
      have h : (if r.Has p then none else ptAt l p) = some w := h
      split at h
      · cases h
      · next hr => exact old h (fun r' e => by cases e; exact hr)

end NRK.Tlb.Rack
