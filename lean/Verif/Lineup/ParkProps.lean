import Verif.Lineup.ParkLemmas

/-!
# C76: an unpark is not lost

A thread that is unparked while it is parked goes on; a thread that is unparked while it is not
parked returns at once from its next park.  Parks do not return more often than threads are woken.
The code falls short in four ways: an unpark during the creation of the thread goes to thread 0
(`c76_unnamed`), two unparks in a row make a later park return for no reason (`c76_spurious`), a park
with a timeout panics (`c76_timed`), and so does an unpark of an exited thread (`c76_exit`).
-/

namespace NRK.Lineup.Park

/-- In histories in which threads are known before they are unparked. -/
structure KOk (i : Nat) (l : Lwp) (h : List Ev) : Prop where
  named : 0 < l.inflight → l.named = true
  wake : l.pc = .swapped ∨ l.pc = .blocked → pending i h = true → 0 < l.queued + l.inflight

theorem KReach.ok {s : St} (r : KReach s) : ∀ i l, s.lwps i = some l → KOk i l s.hist := by
  induction r with
  | init =>
    intro i l h
    simp only [St.init, upd] at h
    split at h
    · cases h; constructor <;> simp [pending]
    · cases h
  | @step s s' a r hk h ih =>
    have I := r.reach.inv
    intro j m hj
    have other : ∀ i l', s'.lwps = upd s.lwps i (some l') → j ≠ i →
        pending j s'.hist = pending j s.hist → KOk j m s'.hist := by
      intro i l' e ne hp
      rw [e] at hj
      simp only [upd, ne, if_false] at hj
      obtain ⟨h1, h2⟩ := ih j m hj
      exact ⟨h1, by rw [hp]; exact h2⟩
    cases a with
    | make =>
      simp only [St.step] at h
      cases h
      by_cases e : j = s.next
      · subst e
        simp at hj; subst hj
        constructor <;> simp
      · exact other _ _ rfl e rfl
    | assign i =>
      simp only [St.step] at h
      split at h
      · cases h
      · rename_i l hl
        split at h
        · cases h
        · cases h
          by_cases e : j = i
          · subst e
            simp [St.put] at hj; subst hj
            exact ⟨fun _ => rfl, (ih j l hl).wake⟩
          · exact other _ _ rfl e rfl
    | park i timed =>
      simp only [St.step] at h
      split at h
      · cases h
      · rename_i l hl
        split at h
        · rename_i hp
          split at h
          · rename_i l' hl'
            cases h
            by_cases e : j = i
            · subst e
              simp [St.put] at hj; subst hj
              have o := I.ok j l hl
              have k := ih j l hl
              simp only [parkSwap] at hl'
              split at hl'
              · cases hl'; exact ⟨k.named, by simp⟩
              · rename_i hs
                split at hl'
                · cases hl'
                · cases hl'
                  refine ⟨k.named, fun _ hpd => ?_⟩
                  exact absurd ((o.outside (.inl hp)).2 hpd) hs
            · exact other _ _ rfl e rfl
          · cases h
          · cases h
        · cases h
    | early i =>
      simp only [St.step] at h
      split at h
      · cases h
      · rename_i l hl
        split at h
        · cases h
          by_cases e : j = i
          · subst e
            simp [St.put, St.ev] at hj; subst hj
            exact ⟨(ih j l hl).named, by simp⟩
          · exact other _ _ rfl e (other_ret j e).1
        · cases h
    | block i =>
      simp only [St.step] at h
      split at h
      · cases h
      · rename_i l hl
        split at h
        · rename_i hp
          cases h
          by_cases e : j = i
          · subst e
            simp [St.put] at hj; subst hj
            exact ⟨(ih j l hl).named, fun _ hpd => (ih j l hl).wake (.inl hp) hpd⟩
          · exact other _ _ rfl e rfl
        · cases h
    | dispatch i =>
      simp only [St.step] at h
      split at h
      · cases h
      · rename_i l hl
        split at h
        · cases h
        · split at h
          · rename_i hpc
            split at h
            · rename_i l' hl'
              cases h
              by_cases e : j = i
              · subst e
                simp [St.put] at hj; subst hj
                simp only [resume] at hl'
                split at hl'
                · cases hl'; exact ⟨(ih j l hl).named, by simp⟩
                · cases hl'; exact ⟨(ih j l hl).named, by simp⟩
                · cases hl'
                · simp_all
              · exact other _ _ rfl e rfl
            · cases h
            · cases h
          · cases h
    | done i =>
      simp only [St.step] at h
      split at h
      · cases h
      · rename_i l hl
        split at h
        · cases h
          by_cases e : j = i
          · subst e
            simp [St.put, St.ev] at hj; subst hj
            exact ⟨(ih j l hl).named, by simp⟩
          · exact other _ _ rfl e (other_ret j e).1
        · cases h
    | unpark i =>
      simp only [St.step] at h
      split at h
      · cases h
      · rename_i l hl
        cases h
        by_cases e : j = i
        · subst e
          simp [St.put, St.ev] at hj; subst hj
          have hn := hk l hl
          refine ⟨fun _ => ?_, ?_⟩
          · simp only [unparkSwap]; split <;> exact hn
          · intro hp _
            have hp' : l.pc = .swapped ∨ l.pc = .blocked := by
              revert hp; simp only [unparkSwap]; split <;> exact id
            have hs : l.status = maskParked :=
              (I.ok j l hl).inside (hp'.elim .inl (fun h => .inr (.inl h)))
            simp only [unparkSwap, hs, if_true]
            omega
        · exact other _ _ rfl e (other_unpark j e).1
    | wake i =>
      simp only [St.step] at h
      split at h
      · cases h
      · rename_i l hl
        split at h
        · cases h
        · rename_i h0
          split at h
          · cases h
            by_cases e : j = i
            · subst e
              simp [St.put] at hj; subst hj
              exact ⟨fun _ => by assumption, fun _ _ => by simp only; omega⟩
            · exact other _ _ rfl e rfl
          · rename_i hn
            exact absurd ((ih i l hl).named (by omega)) hn
    | otherWake i =>
      simp only [St.step] at h
      split at h
      · cases h
      · rename_i l hl
        cases h
        by_cases e : j = i
        · subst e
          simp [St.put, St.ev] at hj; subst hj
          exact ⟨(ih j l hl).named, fun _ _ => by simp only; omega⟩
        · exact other _ _ rfl e (other_wake j e).1
    | leave i =>
      simp only [St.step] at h
      split at h
      · cases h
      · rename_i l hl
        split at h
        · cases h
          by_cases e : j = i
          · subst e
            simp [St.put] at hj; subst hj
            exact ⟨(ih j l hl).named, by simp⟩
          · exact other _ _ rfl e rfl
        · cases h
    | exit i =>
      simp only [St.step] at h
      split at h
      · cases h
      · rename_i l hl
        split at h
        · cases h
          by_cases e : j = i
          · subst e
            simp [St.put] at hj; subst hj
            exact ⟨(ih j l hl).named, by simp⟩
          · exact other _ _ rfl e rfl
        · cases h

/-- In histories in which a thread is unparked at most once per park. -/
structure OOk (i : Nat) (l : Lwp) (h : List Ev) : Prop where
  out : l.pc ≠ .swapped → l.pc ≠ .blocked → l.inflight = 0
  ins : l.pc = .swapped ∨ l.pc = .blocked →
    l.queued + l.inflight = if pending i h = true then 1 else 0
  woken : l.pc = .woken → pending i h = true

theorem OReach.ok {s : St} (r : OReach s) : ∀ i l, s.lwps i = some l → OOk i l s.hist := by
  induction r with
  | init =>
    intro i l h
    simp only [St.init, upd] at h
    split at h
    · cases h; constructor <;> simp
    · cases h
  | @step s s' a r hk h ih =>
    have I := r.known.reach.inv
    have K := r.known.ok
    intro j m hj
    have other : ∀ i l', s'.lwps = upd s.lwps i (some l') → j ≠ i →
        pending j s'.hist = pending j s.hist → OOk j m s'.hist := by
      intro i l' e ne hp
      rw [e] at hj
      simp only [upd, ne, if_false] at hj
      obtain ⟨h1, h2, h3⟩ := ih j m hj
      exact ⟨h1, by rw [hp]; exact h2, by rw [hp]; exact h3⟩
    cases a with
    | make =>
      simp only [St.step] at h
      cases h
      by_cases e : j = s.next
      · subst e
        simp at hj; subst hj
        constructor <;> simp
      · exact other _ _ rfl e rfl
    | assign i =>
      simp only [St.step] at h
      split at h
      · cases h
      · rename_i l hl
        split at h
        · cases h
        · cases h
          by_cases e : j = i
          · subst e
            simp [St.put] at hj; subst hj
            exact ⟨(ih j l hl).out, (ih j l hl).ins, (ih j l hl).woken⟩
          · exact other _ _ rfl e rfl
    | park i timed =>
      simp only [St.step] at h
      split at h
      · cases h
      · rename_i l hl
        split at h
        · rename_i hp
          split at h
          · rename_i l' hl'
            cases h
            by_cases e : j = i
            · subst e
              simp [St.put] at hj; subst hj
              have o := I.ok j l hl
              have k := (ih j l hl).out (by simp [hp]) (by simp [hp])
              have q : l.queued = 0 := hk l hl
              simp only [parkSwap] at hl'
              split at hl'
              · cases hl'; exact ⟨fun _ _ => k, by simp, by simp⟩
              · rename_i hs
                split at hl'
                · cases hl'
                · cases hl'
                  refine ⟨by simp, fun _ => ?_, by simp⟩
                  have : ¬ pending j s.hist = true := fun hpd => hs ((o.outside (.inl hp)).2 hpd)
                  simp only [k, q, St.put, this]
                  simp
            · exact other _ _ rfl e rfl
          · cases h
          · cases h
        · cases h
    | early i =>
      simp only [St.step] at h
      split at h
      · cases h
      · rename_i l hl
        split at h
        · rename_i hp
          cases h
          by_cases e : j = i
          · subst e
            simp [St.put, St.ev] at hj; subst hj
            exact ⟨fun _ _ => (ih j l hl).out (by simp [hp]) (by simp [hp]), by simp, by simp⟩
          · exact other _ _ rfl e (other_ret j e).1
        · cases h
    | block i =>
      simp only [St.step] at h
      split at h
      · cases h
      · rename_i l hl
        split at h
        · rename_i hp
          cases h
          by_cases e : j = i
          · subst e
            simp [St.put] at hj; subst hj
            exact ⟨by simp, fun _ => (ih j l hl).ins (.inl hp), by simp⟩
          · exact other _ _ rfl e rfl
        · cases h
    | dispatch i =>
      simp only [St.step] at h
      split at h
      · cases h
      · rename_i l hl
        split at h
        · cases h
        · rename_i hq
          split at h
          · rename_i hpc
            split at h
            · rename_i l' hl'
              cases h
              by_cases e : j = i
              · subst e
                simp [St.put] at hj; subst hj
                simp only [resume] at hl'
                split at hl'
                · rename_i hp
                  cases hl'
                  have x := (ih j l hl).ins (.inr hp)
                  refine ⟨fun _ _ => ?_, by simp, fun _ => ?_⟩
                  · show l.inflight = 0
                    split at x <;> omega
                  · show pending j s.hist = true
                    split at x
                    · assumption
                    · omega
                · rename_i hp
                  cases hl'
                  exact ⟨fun _ _ => (ih j l hl).out (by simp [show l.pc = .away from hp])
                    (by simp [show l.pc = .away from hp]), by simp, by simp⟩
                · cases hl'
                · simp_all
              · exact other _ _ rfl e rfl
            · cases h
            · cases h
          · cases h
    | done i =>
      simp only [St.step] at h
      split at h
      · cases h
      · rename_i l hl
        split at h
        · rename_i hp
          cases h
          by_cases e : j = i
          · subst e
            simp [St.put, St.ev] at hj; subst hj
            exact ⟨fun _ _ => (ih j l hl).out (by simp [hp]) (by simp [hp]), by simp, by simp⟩
          · exact other _ _ rfl e (other_ret j e).1
        · cases h
    | unpark i =>
      simp only [St.step] at h
      split at h
      · cases h
      · rename_i l hl
        cases h
        by_cases e : j = i
        · subst e
          simp [St.put, St.ev] at hj; subst hj
          have hp : pending j s.hist = false := hk.2
          have o := I.ok j l hl
          by_cases hin : l.pc = .swapped ∨ l.pc = .blocked
          · have hs : l.status = maskParked := o.inside (hin.elim .inl (fun h => .inr (.inl h)))
            have x := (ih j l hl).ins hin
            simp only [hp] at x
            simp only [unparkSwap, hs, if_true]
            refine ⟨?_, ?_, ?_⟩
            · intro a b; exact absurd hin (by simp only at a b; simp [a, b])
            · intro _
              simp only [pending, St.ev, St.put, if_true]
              simp at x
              omega
            · intro hw; simp only at hw; simp [hw] at hin
          · have h1 : l.pc ≠ .swapped := fun h => hin (.inl h)
            have h2 : l.pc ≠ .blocked := fun h => hin (.inr h)
            have h3 : l.pc ≠ .woken := fun h => by
              have := (ih j l hl).woken h
              rw [hp] at this; cases this
            have h4 : l.pc ≠ .early := fun h => by
              have := (o.early h).2
              rw [hp] at this; cases this
            have hs : ¬ l.status = maskParked := by
              intro hs
              have := (o.outside (by cases hc : l.pc <;> simp_all)).1 hs
              rw [hp] at this; cases this
            simp only [unparkSwap, hs, if_false]
            exact ⟨fun _ _ => (ih j l hl).out h1 h2, fun h => absurd h hin, fun h => absurd h h3⟩
        · exact other _ _ rfl e (other_unpark j e).1
    | wake i =>
      simp only [St.step] at h
      split at h
      · cases h
      · rename_i l hl
        split at h
        · cases h
        · rename_i h0
          split at h
          · cases h
            by_cases e : j = i
            · subst e
              simp [St.put] at hj; subst hj
              refine ⟨fun a b => ?_, fun hp => ?_, (ih j l hl).woken⟩
              · have := (ih j l hl).out a b; simp only; omega
              · have := (ih j l hl).ins hp
                show l.queued + 1 + (l.inflight - 1) = if pending j s.hist = true then 1 else 0
                rw [← this]; omega
            · exact other _ _ rfl e rfl
          · rename_i hn
            exact absurd ((K i l hl).named (by omega)) hn
    | otherWake i =>
      simp only [St.step] at h
      split at h
      · cases h
      · rename_i l hl
        cases h
        by_cases e : j = i
        · subst e
          simp [St.put, St.ev] at hj; subst hj
          obtain ⟨n1, n2⟩ := hk l hl
          exact ⟨fun _ _ => (ih j l hl).out n1 n2, fun h => by simp only [n1, n2] at h; simp at h,
            (ih j l hl).woken⟩
        · exact other _ _ rfl e (other_wake j e).1
    | leave i =>
      simp only [St.step] at h
      split at h
      · cases h
      · rename_i l hl
        split at h
        · rename_i hp
          cases h
          by_cases e : j = i
          · subst e
            simp [St.put] at hj; subst hj
            exact ⟨fun _ _ => (ih j l hl).out (by simp [hp]) (by simp [hp]), by simp, by simp⟩
          · exact other _ _ rfl e rfl
        · cases h
    | exit i =>
      simp only [St.step] at h
      split at h
      · cases h
      · rename_i l hl
        split at h
        · rename_i hp
          cases h
          by_cases e : j = i
          · subst e
            simp [St.put] at hj; subst hj
            exact ⟨fun _ _ => (ih j l hl).out (by simp [hp]) (by simp [hp]), by simp, by simp⟩
          · exact other _ _ rfl e rfl
        · cases h

@[simp] theorem put_lwps (s : St) (i : Nat) (l : Lwp) : (s.put i l).lwps i = some l := by
  simp [St.put]

theorem step_early {s : St} {i : Nat} {l : Lwp} (hl : s.lwps i = some l) (hp : l.pc = .early) :
    s.step (.early i) =
      some (.ok ((s.put i { l with status := maskPark, pc := .run }).ev (.parkRet i true))) := by
  simp only [St.step, hl, hp, if_true]

theorem step_done {s : St} {i : Nat} {l : Lwp} (hl : s.lwps i = some l) (hp : l.pc = .woken) :
    s.step (.done i) =
      some (.ok ((s.put i { l with status := maskPark, pc := .run }).ev (.parkRet i false))) := by
  simp only [St.step, hl, hp, if_true]

theorem step_block {s : St} {i : Nat} {l : Lwp} (hl : s.lwps i = some l) (hp : l.pc = .swapped) :
    s.step (.block i) = some (.ok (s.put i { l with pc := .blocked })) := by
  simp only [St.step, hl, hp, if_true]

/-! ## The property -/

/-- C76: a thread that is blocked in a park, although it has been unparked since its last park
returned, is in the queue of the scheduler or is about to be put there by the thread that unparked
it.  Missing: unparks before `rumprun_makelwp` has returned (`c76_unnamed`). -/
theorem c76_not_lost_partial {s : St} (r : KReach s) {i : Nat} {l : Lwp} (hl : s.lwps i = some l)
    (hb : l.pc = .blocked) (hp : pending i s.hist = true) : 0 < l.queued ∨ 0 < l.inflight := by
  have := (r.ok i l hl).wake (.inr hb) hp
  omega

/-- C76: the thread that unparks can finish, which puts the thread in the queue; a blocked thread in
the queue can go on, and then its park returns 0. -/
theorem c76_resumes {s : St} (r : KReach s) {i : Nat} {l : Lwp} (hl : s.lwps i = some l)
    (hb : l.pc = .blocked) :
    (0 < l.inflight → ∃ s' l', s.step (.wake i) = some (.ok s') ∧ s'.lwps i = some l' ∧
      l'.pc = .blocked ∧ 0 < l'.queued) ∧
    (0 < l.queued → ∃ s' s'', s.step (.dispatch i) = some (.ok s') ∧
      s'.step (.done i) = some (.ok s'') ∧ s''.hist = .parkRet i false :: s.hist) := by
  constructor
  · intro h
    have hn := (r.ok i l hl).named h
    have h0 : ¬ l.inflight = 0 := by omega
    refine ⟨s.put i { l with inflight := l.inflight - 1, queued := l.queued + 1 },
      { l with inflight := l.inflight - 1, queued := l.queued + 1 }, ?_, put_lwps _ _ _, hb, ?_⟩
    · simp only [St.step, hl, h0, if_false, hn, if_true]
    · simp only; omega
  · intro h
    have h0 : ¬ l.queued = 0 := by omega
    refine ⟨s.put i { l with queued := l.queued - 1, pc := .woken }, _, ?_,
      step_done (put_lwps _ _ _) rfl, rfl⟩
    simp only [St.step, hl, h0, if_false, hb, true_or, if_true, resume]

/-- C76: a thread that has been unparked since its last park returned does not block in its next
park, with or without a timeout: it returns −1 (`EALREADY`).  Otherwise it blocks. -/
theorem c76_immediate {s : St} (r : Reach s) {i : Nat} {l : Lwp} (hl : s.lwps i = some l)
    (hr : l.pc = .run) :
    (pending i s.hist = true → ∀ timed, ∃ s' s'', s.step (.park i timed) = some (.ok s') ∧
      s'.step (.early i) = some (.ok s'') ∧ s''.hist = .parkRet i true :: s.hist) ∧
    (pending i s.hist = false → ∃ s' s'' l', s.step (.park i false) = some (.ok s') ∧
      s'.step (.block i) = some (.ok s'') ∧ s''.lwps i = some l' ∧ l'.pc = .blocked ∧
      s''.hist = s.hist) := by
  have o := (r.inv.ok i l hl).outside (.inl hr)
  constructor
  · intro hp timed
    have hs : l.status = maskUnpark := o.2 hp
    refine ⟨s.put i { l with status := maskParked, pc := .early }, _, ?_,
      step_early (put_lwps _ _ _) rfl, rfl⟩
    simp only [St.step, hl, hr, if_true, parkSwap, hs]
  · intro hp
    have hs : ¬ l.status = maskUnpark := fun h => by rw [o.1 h] at hp; cases hp
    refine ⟨s.put i { l with status := maskParked, pc := .swapped }, _,
      { l with status := maskParked, pc := .blocked }, ?_, step_block (put_lwps _ _ _) rfl,
      put_lwps _ _ _, rfl, rfl⟩
    simp only [St.step, hl, hr, if_true, parkSwap, hs, if_false, Bool.false_eq_true]

/-- C76: every return of a park is paid for by an unpark or another wake-up of the thread. -/
theorem c76_paid {s : St} (r : Reach s) (i : Nat) :
    returns i s.hist ≤ unparks i s.hist + otherWakes i s.hist := by
  cases hl : s.lwps i with
  | none => have := r.inv.none i hl; omega
  | some l => have := (r.inv.ok i l hl).paid; omega

/-- C76: a park returns only if the thread has been unparked since the previous one returned.
Missing: histories in which a thread is unparked twice, or is woken by something else while it is
parked (`c76_spurious`). -/
theorem c76_only_unparked_partial {s s' : St} (r : OReach s) {a : Act} {i : Nat} {b : Bool}
    (h : s.step a = some (.ok s')) (hh : s'.hist = .parkRet i b :: s.hist) :
    pending i s.hist = true := by
  have I := r.known.reach.inv
  have ne : ∀ (e : Ev) (l : List Ev), l ≠ e :: l := fun e l h => by
    have := congrArg List.length h; simp at this
  cases a <;> simp only [St.step] at h
  case early j =>
    split at h
    · cases h
    · rename_i l hl
      split at h
      · rename_i hp
        cases h
        simp only [St.ev, St.put] at hh
        injection hh with h1 _
        injection h1 with h1 _
        subst h1
        exact ((I.ok j l hl).early hp).2
      · cases h
  case done j =>
    split at h
    · cases h
    · rename_i l hl
      split at h
      · rename_i hp
        cases h
        simp only [St.ev, St.put] at hh
        injection hh with h1 _
        injection h1 with h1 _
        subst h1
        exact (r.ok j l hl).woken hp
      · cases h
  all_goals
    (repeat' split at h) <;>
    first
    | (cases h; done)
    | (cases h; simp only [St.ev, St.put] at hh; first | (exact absurd hh (ne _ _)) | (injection hh with h1 _; cases h1))

/-- C76: exactly three things make the process panic: a park with a timeout that would have to wait,
an unpark of an unknown thread, and an exited thread that is resumed. -/
theorem c76_panic_iff {s : St} (r : Reach s) (a : Act) :
    s.step a = some .panic ↔
      (∃ i l, a = .park i true ∧ s.lwps i = some l ∧ l.pc = .run ∧ pending i s.hist = false) ∨
      (∃ i, a = .unpark i ∧ s.lwps i = none) ∨
      (∃ i l, a = .dispatch i ∧ s.lwps i = some l ∧ l.pc = .exited ∧ 0 < l.queued) := by
  have I := r.inv
  cases a with
  | park i timed =>
    simp only [St.step]
    cases hl : s.lwps i with
    | none => simp [hl]
    | some l =>
      have o := (I.ok i l hl).outside
      simp only
      by_cases hp : l.pc = .run
      · simp only [hp, if_true, parkSwap]
        have o' := o (.inl hp)
        by_cases hs : l.status = maskUnpark
        · have := o'.1 hs
          simp [hs, hl, this]
        · have hf : pending i s.hist = false := by
            cases hc : pending i s.hist with
            | false => rfl
            | true => exact absurd (o'.2 hc) hs
          cases timed <;> simp [hs, hl, hp, hf]
      · simp [hp, hl]
  | unpark i =>
    simp only [St.step]
    cases hl : s.lwps i <;> simp [hl]
  | dispatch i =>
    simp only [St.step]
    cases hl : s.lwps i with
    | none => simp [hl]
    | some l =>
      by_cases hq : l.queued = 0
      · simp [hq, hl]
      · have : 0 < l.queued := by omega
        cases hp : l.pc <;> simp [hq, hl, hp, resume, this]
  | make => simp [St.step]
  | assign i => simp only [St.step]; cases hl : s.lwps i <;> simp
  | early i => simp only [St.step]; cases hl : s.lwps i <;> simp
  | block i => simp only [St.step]; cases hl : s.lwps i <;> simp
  | done i => simp only [St.step]; cases hl : s.lwps i <;> simp
  | wake i => simp only [St.step]; cases hl : s.lwps i <;> simp; (repeat' split) <;> simp
  | otherWake i => simp only [St.step]; cases hl : s.lwps i <;> simp
  | leave i => simp only [St.step]; cases hl : s.lwps i <;> simp
  | exit i => simp only [St.step]; cases hl : s.lwps i <;> simp

/-- C76: `_lwp_unpark_all` on an array of known threads unparks each, and returns their number. -/
theorem c76_all (l : List Nat) (s : St) (h : ∀ i, i ∈ l → s.lwps i ≠ none) :
    ∃ s', s.unparkAll (some l) = .ok (s', l.length) ∧
      s'.hist = (l.map Ev.unpark).reverse ++ s.hist := by
  induction l generalizing s with
  | nil => exact ⟨s, by simp [St.unparkAll], rfl⟩
  | cons i l ih =>
    cases hl : s.lwps i with
    | none => exact absurd hl (h i (by simp))
    | some x =>
      obtain ⟨s', h1, h2⟩ := ih ((s.put i (unparkSwap x)).ev (.unpark i)) (by
        intro j hj
        simp only [St.put, St.ev, upd]
        split
        · simp
        · exact h j (by simp [hj]))
      refine ⟨s', ?_, ?_⟩
      · simp only [St.unparkAll, St.step, hl, h1, List.length_cons]
      · rw [h2]; simp [St.ev, St.put]

/-! ## Concrete cases -/

theorem reach_run {s s' : St} (r : Reach s) {l : List Act} (h : s.run l = some (.ok s')) :
    Reach s' := by
  induction l generalizing s with
  | nil => cases h; exact r
  | cons a l ih =>
    simp only [St.run] at h
    split at h
    · rename_i s1 h1; exact ih (.step a r h1) h
    · rename_i h1; exact absurd h (h1 s')

/-- A test for `Once`. -/
def St.once (s : St) : Act → Bool
  | .unpark i =>
    (match s.lwps i with | some l => l.named | none => true) && !pending i s.hist
  | .park i _ => match s.lwps i with | some l => l.queued == 0 | none => true
  | .otherWake _ => false
  | _ => true

def St.onceRun (s : St) : List Act → Option St
  | [] => some s
  | a :: l =>
    if s.once a then
      match s.step a with
      | some (.ok s) => s.onceRun l
      | _ => none
    else none

theorem once_run {s s' : St} (r : OReach s) {l : List Act} (h : s.onceRun l = some s') :
    OReach s' := by
  induction l generalizing s with
  | nil => cases h; exact r
  | cons a l ih =>
    simp only [St.onceRun] at h
    split at h
    · rename_i ho
      split at h
      · rename_i s1 h1
        refine ih (.step a r ?_ h1) h
        cases a <;> simp only [St.once, Bool.and_eq_true] at ho <;> first
          | trivial
          | (refine ⟨fun l hl => ?_, by simpa using ho.2⟩; have := ho.1; rw [hl] at this; exact this)
          | (intro l hl; rw [hl] at ho; simpa using ho)
          | cases ho
      · cases h
    · cases h

/-- Thread 1 creates thread 2, which parks; thread 1 unparks it, and parks after thread 2 has
unparked it. -/
def sample : List Act :=
  [.make, .assign 2, .dispatch 2, .park 2 false, .block 2, .unpark 2, .wake 2, .dispatch 2,
   .unpark 1, .done 2, .park 1 false, .early 1, .park 2 false, .unpark 2, .block 2]

/-- The part of a state that can be shown. -/
def St.show (s : St) : Option Lwp × Option Lwp × List Ev := (s.lwps 1, s.lwps 2, s.hist)

/-- The history is one of those `c76_only_unparked_partial` speaks of; both parks returned, and thread
2 is about to be woken from its second one. -/
theorem c76_sample : ∃ s, OReach s ∧
    s.show = (some ⟨2, .run, 0, 0, true⟩, some ⟨1, .blocked, 0, 1, true⟩,
      [.unpark 2, .parkRet 1 true, .parkRet 2 false, .unpark 1, .unpark 2, .otherWake 2]) ∧
    pending 2 s.hist = true := by
  have h : (St.init.onceRun sample).isSome = true := by decide +kernel
  obtain ⟨s, hs⟩ := Option.isSome_iff_exists.1 h
  refine ⟨s, once_run .init hs, ?_⟩
  have e : (St.init.onceRun sample).map St.show = some (some ⟨2, .run, 0, 0, true⟩,
      some ⟨1, .blocked, 0, 1, true⟩,
      [.unpark 2, .parkRet 1 true, .parkRet 2 false, .unpark 1, .unpark 2, .otherWake 2]) := by
    decide +kernel
  rw [hs] at e
  simp only [Option.map_some, Option.some.injEq] at e
  refine ⟨e, ?_⟩
  have : s.hist = s.show.2.2 := rfl
  rw [this, e]
  rfl

/-- What a run shows at its end. -/
def showRun (l : List Act) : Option (Outcome (Option Lwp × Option Lwp × List Ev)) :=
  (St.init.run l).map (Outcome.map St.show)

/-- The main thread is unparked twice before it parks.  Its first park returns at once; its second
park blocks and returns too, although nobody has unparked it in between. -/
theorem c76_spurious : showRun [.unpark 1, .unpark 1, .wake 1, .park 1 false, .early 1,
      .park 1 false, .block 1, .dispatch 1, .done 1] =
    some (.ok (some ⟨2, .run, 0, 0, true⟩, none,
      [.parkRet 1 false, .parkRet 1 true, .unpark 1, .unpark 1])) := by decide +kernel

/-- Thread 2 is unparked while it is created, after it has blocked in a park: thread 0 is woken in its
place, and thread 2 stays blocked, out of the queue. -/
theorem c76_unnamed : showRun [.make, .dispatch 2, .park 2 false, .block 2, .unpark 2, .wake 2,
      .assign 2] =
    some (.ok (some ⟨2, .run, 0, 0, true⟩, some ⟨1, .blocked, 0, 0, true⟩,
      [.unpark 2, .otherWake 2])) ∧
    pending 2 [.unpark 2, .otherWake 2] = true := by decide +kernel

/-- A park with a timeout panics. -/
theorem c76_timed : showRun [.park 1 true] = some .panic := by decide +kernel

/-- Two unparks of a thread that has exited make the process panic. -/
theorem c76_exit : showRun [.make, .assign 2, .dispatch 2, .exit 2, .unpark 2, .unpark 2, .wake 2,
      .dispatch 2] = some .panic := by decide +kernel

/-- An unpark of an id that was never given out panics (line 126), where −1 is promised. -/
theorem c76_unknown : showRun [.unpark 7] = some .panic := by decide +kernel

end NRK.Lineup.Park
