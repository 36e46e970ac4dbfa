import Verif.Lineup.ParkSpec

/-!
# Invariants of parking
-/

namespace NRK.Lineup.Park

/-- An unpark that the next call of `___lwp_park60` will find in the status word, or has found. -/
def credit (l : Lwp) : Nat :=
  match l.pc with
  | .run | .away | .exited | .early => if l.status = 1 then 1 else 0
  | .woken => 1
  | .swapped | .blocked => 0

/-- What holds of one thread in every history. -/
structure Ok (i : Nat) (l : Lwp) (h : List Ev) : Prop where
  status : l.status = 1 ∨ l.status = 2
  outside : l.pc = .run ∨ l.pc = .away ∨ l.pc = .exited → (l.status = 1 ↔ pending i h = true)
  early : l.pc = .early → l.status = 1 ∧ pending i h = true
  inside : l.pc = .swapped ∨ l.pc = .blocked ∨ l.pc = .woken → l.status = 1
  paid : returns i h + credit l + l.queued + l.inflight ≤ unparks i h + otherWakes i h

/-- Threads and history. -/
structure Inv (s : St) : Prop where
  fresh : ∀ i, s.next ≤ i → s.lwps i = none
  none : ∀ i, s.lwps i = none →
    pending i s.hist = false ∧ returns i s.hist = 0 ∧ unparks i s.hist = 0 ∧ otherWakes i s.hist = 0
  ok : ∀ i l, s.lwps i = some l → Ok i l s.hist

theorem Inv.init : Inv .init where
  fresh := by
    intro i h
    have : i ≠ 1 := by simp only [St.init] at h; omega
    simp [St.init, upd, this]
  none := fun _ _ => ⟨rfl, rfl, rfl, rfl⟩
  ok := by
    intro i l h
    simp only [St.init, upd] at h
    split at h
    · cases h; constructor <;> simp [maskPark, pending, returns, unparks, otherWakes, credit, St.init]
    · cases h

/-- A step of a thread that is recorded as at most one event about that thread. -/
theorem Inv.change {s : St} (I : Inv s) {i : Nat} {l l' : Lwp} (hl : s.lwps i = some l)
    {h' : List Ev}
    (other : ∀ j, j ≠ i → pending j h' = pending j s.hist ∧ returns j h' = returns j s.hist ∧
      unparks j h' = unparks j s.hist ∧ otherWakes j h' = otherWakes j s.hist)
    (ok : Ok i l' h') : Inv { s with lwps := upd s.lwps i (some l'), hist := h' } where
  fresh := by
    intro j hj
    have hj' := I.fresh j hj
    have : j ≠ i := fun e => by subst e; rw [hl] at hj'; cases hj'
    simp [upd, this, hj']
  none := by
    intro j hj
    have : j ≠ i := fun e => by subst e; simp at hj
    simp only [upd, this, if_false] at hj
    obtain ⟨a, b, c, d⟩ := other j this
    simp only [a, b, c, d]
    exact I.none j hj
  ok := by
    intro j m hj
    by_cases e : j = i
    · subst e
      simp at hj; subst hj; exact ok
    · simp only [upd, e, if_false] at hj
      obtain ⟨a, b, c, d⟩ := other j e
      obtain ⟨h1, h2, h3, h4, h5⟩ := I.ok j m hj
      exact ⟨h1, by rw [a]; exact h2, by rw [a]; exact h3, h4, by rw [b, c, d]; exact h5⟩

theorem Inv.change' {s : St} (I : Inv s) {i : Nat} {l l' : Lwp} (hl : s.lwps i = some l)
    (ok : Ok i l' s.hist) : Inv (s.put i l') :=
  I.change hl (h' := s.hist) (fun _ _ => ⟨rfl, rfl, rfl, rfl⟩) ok

theorem other_unpark {i : Nat} {h : List Ev} (j : Nat) (e : j ≠ i) :
    pending j (.unpark i :: h) = pending j h ∧ returns j (.unpark i :: h) = returns j h ∧
    unparks j (.unpark i :: h) = unparks j h ∧ otherWakes j (.unpark i :: h) = otherWakes j h := by
  have := Ne.symm e
  simp [pending, returns, unparks, otherWakes, this]

theorem other_ret {i : Nat} {b : Bool} {h : List Ev} (j : Nat) (e : j ≠ i) :
    pending j (.parkRet i b :: h) = pending j h ∧ returns j (.parkRet i b :: h) = returns j h ∧
    unparks j (.parkRet i b :: h) = unparks j h ∧
    otherWakes j (.parkRet i b :: h) = otherWakes j h := by
  have := Ne.symm e
  simp [pending, returns, unparks, otherWakes, this]

theorem other_wake {i : Nat} {h : List Ev} (j : Nat) (e : j ≠ i) :
    pending j (.otherWake i :: h) = pending j h ∧ returns j (.otherWake i :: h) = returns j h ∧
    unparks j (.otherWake i :: h) = unparks j h ∧
    otherWakes j (.otherWake i :: h) = otherWakes j h := by
  have := Ne.symm e
  simp [pending, returns, unparks, otherWakes, this]

theorem Inv.step {s s' : St} (I : Inv s) {a : Act} (h : s.step a = some (.ok s')) : Inv s' := by
  cases a with
  | make =>
    simp only [St.step] at h
    cases h
    have hn := I.fresh s.next (Nat.le_refl _)
    obtain ⟨n1, n2, n3, n4⟩ := I.none _ hn
    refine ⟨?_, ?_, ?_⟩
    · intro i hi
      have : i ≠ s.next := by simp only at hi; omega
      simp only [upd, this, if_false]
      exact I.fresh i (by simp only at hi; omega)
    · intro i hi
      have : i ≠ s.next := fun e => by subst e; simp at hi
      simp only [upd, this, if_false] at hi
      obtain ⟨a, b, c, d⟩ := other_wake (h := s.hist) i this
      simp only [a, b, c, d]
      exact I.none i hi
    · intro i l hl
      by_cases e : i = s.next
      · subst e
        simp at hl; subst hl
        constructor <;> simp [pending, returns, unparks, otherWakes, n1, n2, n3, n4, credit, maskPark]
      · simp only [upd, e, if_false] at hl
        obtain ⟨a, b, c, d⟩ := other_wake (h := s.hist) i e
        obtain ⟨h1, h2, h3, h4, h5⟩ := I.ok i l hl
        exact ⟨h1, by simp only [a]; exact h2, by simp only [a]; exact h3, h4,
          by simp only [b, c, d]; exact h5⟩
  | assign i =>
    simp only [St.step] at h
    split at h
    · cases h
    · rename_i l hl
      split at h
      · cases h
      · cases h
        obtain ⟨h1, h2, h3, h4, h5⟩ := I.ok i l hl
        exact I.change' hl ⟨h1, h2, h3, h4, h5⟩
  | park i timed =>
    simp only [St.step] at h
    split at h
    · cases h
    · rename_i l hl
      split at h
      · rename_i hp
        obtain ⟨h1, h2, h3, h4, h5⟩ := I.ok i l hl
        have h2' := h2 (.inl hp)
        split at h
        · rename_i l' hl'
          cases h
          simp only [parkSwap] at hl'
          split at hl'
          · rename_i hs
            cases hl'
            refine I.change' hl ⟨.inl rfl, by simp, fun _ => ⟨rfl, h2'.1 hs⟩, by simp, ?_⟩
            simp only [credit, hp, hs, maskUnpark, maskParked, if_true] at h5 ⊢
            omega
          · rename_i hs
            split at hl'
            · cases hl'
            · cases hl'
              refine I.change' hl ⟨.inl rfl, by simp, by simp, fun _ => rfl, ?_⟩
              simp only [credit, hp] at h5 ⊢
              omega
        · cases h
        · cases h
      · cases h
  | early i =>
    simp only [St.step] at h
    split at h
    · cases h
    · rename_i l hl
      split at h
      · rename_i hp
        cases h
        obtain ⟨h1, h2, h3, h4, h5⟩ := I.ok i l hl
        refine I.change hl (h' := .parkRet i true :: s.hist) other_ret ⟨.inr rfl, ?_, by simp, by simp, ?_⟩
        · intro _; simp [pending, maskPark]
        · simp [credit, hp, (h3 hp).1, returns, unparks, otherWakes, maskPark] at h5 ⊢
          omega
      · cases h
  | block i =>
    simp only [St.step] at h
    split at h
    · cases h
    · rename_i l hl
      split at h
      · rename_i hp
        cases h
        obtain ⟨h1, h2, h3, h4, h5⟩ := I.ok i l hl
        refine I.change' hl ⟨h1, by simp, by simp, fun _ => h4 (.inl hp), ?_⟩
        simp only [credit, hp] at h5 ⊢
        omega
      · cases h
  | dispatch i =>
    simp only [St.step] at h
    split at h
    · cases h
    · rename_i l hl
      obtain ⟨h1, h2, h3, h4, h5⟩ := I.ok i l hl
      split at h
      · cases h
      · rename_i hq
        split at h
        · split at h
          · rename_i l' hl'
            cases h
            simp only [resume] at hl'
            split at hl'
            · rename_i hp
              cases hl'
              refine I.change' hl ⟨h1, by simp, by simp, fun _ => h4 (.inr (.inl hp)), ?_⟩
              simp only [credit, hp] at h5 ⊢
              omega
            · rename_i hp
              cases hl'
              refine I.change' hl ⟨h1, fun _ => h2 (.inr (.inl hp)), by simp, by simp, ?_⟩
              simp only [credit, hp] at h5 ⊢
              omega
            · cases hl'
            · rename_i hc x1 x2 x3
              simp_all
          · cases h
          · cases h
        · cases h
  | done i =>
    simp only [St.step] at h
    split at h
    · cases h
    · rename_i l hl
      split at h
      · rename_i hp
        cases h
        obtain ⟨h1, h2, h3, h4, h5⟩ := I.ok i l hl
        refine I.change hl (h' := .parkRet i false :: s.hist) other_ret ⟨.inr rfl, ?_, by simp, by simp, ?_⟩
        · intro _; simp [pending, maskPark]
        · simp [credit, hp, returns, unparks, otherWakes, maskPark] at h5 ⊢
          omega
      · cases h
  | unpark i =>
    simp only [St.step] at h
    split at h
    · cases h
    · rename_i l hl
      cases h
      obtain ⟨h1, h2, h3, h4, h5⟩ := I.ok i l hl
      simp only [unparkSwap]
      by_cases hs : l.status = 1
      · simp only [maskParked, maskUnpark, hs, if_true]
        refine I.change hl (h' := .unpark i :: s.hist) other_unpark ⟨.inl rfl, ?_, ?_, fun _ => rfl, ?_⟩
        · intro _; simp [pending]
        · intro _; simp [pending]
        · simp only [credit, hs, if_true, returns, unparks, otherWakes] at h5 ⊢
          omega
      · simp only [maskParked, maskUnpark, hs, if_false]
        refine I.change hl (h' := .unpark i :: s.hist) other_unpark ⟨.inl rfl, ?_, ?_, fun _ => rfl, ?_⟩
        · intro _; simp [pending]
        · intro _; simp [pending]
        · have : l.pc = .run ∨ l.pc = .away ∨ l.pc = .exited := by
            cases hp : l.pc <;> simp_all
          rcases this with hp | hp | hp <;>
          · simp only [credit, hp, hs, if_true, if_false, returns, unparks, otherWakes] at h5 ⊢
            omega
  | wake i =>
    simp only [St.step] at h
    split at h
    · cases h
    · rename_i l hl
      obtain ⟨h1, h2, h3, h4, h5⟩ := I.ok i l hl
      split at h
      · cases h
      · rename_i hq
        split at h
        · cases h
          refine I.change' hl ⟨h1, h2, h3, h4, ?_⟩
          have : credit { l with inflight := l.inflight - 1, queued := l.queued + 1 } = credit l := rfl
          rw [this]
          simp only
          omega
        · cases h
          refine I.change' hl ⟨h1, h2, h3, h4, ?_⟩
          have : credit { l with inflight := l.inflight - 1 } = credit l := rfl
          rw [this]
          simp only
          omega
  | otherWake i =>
    simp only [St.step] at h
    split at h
    · cases h
    · rename_i l hl
      cases h
      obtain ⟨h1, h2, h3, h4, h5⟩ := I.ok i l hl
      refine I.change hl (h' := .otherWake i :: s.hist) other_wake ⟨h1, h2, h3, h4, ?_⟩
      have : credit { l with queued := l.queued + 1 } = credit l := rfl
      rw [this]
      simp only [returns, unparks, otherWakes, if_true]
      omega
  | leave i =>
    simp only [St.step] at h
    split at h
    · cases h
    · rename_i l hl
      split at h
      · rename_i hp
        cases h
        obtain ⟨h1, h2, h3, h4, h5⟩ := I.ok i l hl
        refine I.change' hl ⟨h1, fun _ => h2 (.inl hp), by simp, by simp, ?_⟩
        simp only [credit, hp] at h5 ⊢
        omega
      · cases h
  | exit i =>
    simp only [St.step] at h
    split at h
    · cases h
    · rename_i l hl
      split at h
      · rename_i hp
        cases h
        obtain ⟨h1, h2, h3, h4, h5⟩ := I.ok i l hl
        refine I.change' hl ⟨h1, fun _ => h2 (.inl hp), by simp, by simp, ?_⟩
        simp only [credit, hp] at h5 ⊢
        omega
      · cases h

theorem Reach.inv {s : St} (r : Reach s) : Inv s := by
  induction r with
  | init => exact .init
  | step a _ h ih => exact ih.step h

theorem KReach.reach {s : St} (r : KReach s) : Reach s := by
  induction r with
  | init => exact .init
  | step a _ _ h ih => exact .step a ih h

theorem OReach.known {s : St} (r : OReach s) : KReach s := by
  induction r with
  | init => exact .init
  | step a _ ho h ih =>
    refine .step a ih ?_ h
    cases a <;> first | exact ho.1 | trivial

end NRK.Lineup.Park
