import Verif.Rump.LwpLemmas

/-!
# Invariant of the identity of C threads
-/

namespace NRK.Lineup.Sched

/-- The parts that wake-ups leave alone. -/
structure SameRun (σ σ' : St) : Prop where
  running : σ'.running = σ.running
  nextTid : σ'.nextTid = σ.nextTid

namespace SameRun

theorem rfl' {σ : St} : SameRun σ σ := ⟨rfl, rfl⟩

theorem trans {σ τ ρ : St} (h : SameRun σ τ) (k : SameRun τ ρ) : SameRun σ ρ :=
  ⟨k.running.trans h.running, k.nextTid.trans h.nextTid⟩

theorem waitInsert {σ σ' : St} {u d k : Nat} (hs : σ.waitInsert u d k = .ok σ') : SameRun σ σ' := by
  unfold St.waitInsert at hs
  cases h1 : insertDesc (k, u) (σ.waiting d) with
  | none => rw [h1] at hs; exact absurd hs (by simp)
  | some l =>
    rw [h1] at hs
    simp only [Outcome.ok.injEq] at hs
    subst hs
    exact ⟨rfl, rfl⟩

theorem wake {σ σ' : St} {r : Nat} (hs : σ.wake r = .ok σ') : SameRun σ σ' := by
  unfold St.wake at hs
  cases h1 : σ.threads r with
  | none => rw [h1] at hs; exact absurd hs (by simp)
  | some th =>
    rw [h1] at hs
    simp only [Outcome.ok.injEq] at hs
    subst hs
    exact ⟨rfl, rfl⟩

theorem wakeAll : ∀ {l : List Nat} {σ σ' : St}, σ.wakeAll l = .ok σ' → SameRun σ σ'
  | [], σ, σ', hs => by
    simp only [St.wakeAll, Outcome.ok.injEq] at hs
    exact hs ▸ rfl'
  | r :: l, σ, σ', hs => by
    unfold St.wakeAll at hs
    cases h1 : σ.wake r with
    | ok τ => rw [h1] at hs; exact (wake h1).trans (wakeAll hs)
    | err e => rw [h1] at hs; exact absurd hs (by simp)
    | panic => rw [h1] at hs; exact absurd hs (by simp)

theorem wakeJoiners : ∀ {l : List (Nat × Nat)} {σ : St}, SameRun σ (σ.wakeJoiners l)
  | [], σ => rfl'
  | (u, d) :: l, σ => by
    unfold St.wakeJoiners
    have h := wakeJoiners (l := l) (σ := σ.markRunnable u d)
    exact ⟨h.running, h.nextTid⟩

theorem checkLoop {d : Nat} {clock : Nat → Nat} : ∀ (f i : Nat) {σ : St},
    SameRun σ (St.checkLoop d clock i f σ)
  | 0, i, σ => by unfold St.checkLoop; exact rfl'
  | f + 1, i, σ => by
    unfold St.checkLoop
    split
    · exact rfl'
    · split
      · next k u _ _ =>
        have h := checkLoop (d := d) (clock := clock) f (i + 1)
          (σ := { σ with waiting := upd σ.waiting d (σ.waiting d).dropLast }.markRunnable u d)
        exact ⟨h.running, h.nextTid⟩
      · exact rfl'

end SameRun

open Home in
theorem handle_same_run {σ σ' : St} {u : Nat} {r : Option Req} {z : Resume}
    (hs : σ.handle u r = .ok (σ', z)) :
    σ'.running = σ.running ∧
      σ'.nextTid = (match r with | some (.spawn _ _) => σ.nextTid + 1 | _ => σ.nextTid) := by
  unfold St.handle at hs
  cases h1 : σ.threads u with
  | none => rw [h1] at hs; exact absurd hs (by simp)
  | some th =>
    rw [h1] at hs
    cases r with
    | none =>
      simp only [Outcome.ok.injEq, Prod.mk.injEq] at hs
      obtain ⟨rfl, _⟩ := hs
      have := SameRun.wakeJoiners (l := th.joinlist) (σ := { σ.markUnrunnable u th.affinity with
        threads := upd (σ.markUnrunnable u th.affinity).threads u none,
        count := (σ.markUnrunnable u th.affinity).count - 1 })
      exact ⟨this.running, this.nextTid⟩
    | some r =>
      cases r with
      | none =>
        simp only [Outcome.ok.injEq, Prod.mk.injEq] at hs
        obtain ⟨rfl, _⟩ := hs
        exact ⟨rfl, rfl⟩
      | timeout k =>
        simp only at hs
        cases h2 : σ.waitInsert u th.affinity k with
        | ok τ =>
          rw [h2] at hs
          simp only [Outcome.ok.injEq, Prod.mk.injEq] at hs
          obtain ⟨rfl, _⟩ := hs
          exact ⟨(SameRun.waitInsert h2).running, (SameRun.waitInsert h2).nextTid⟩
        | err e => rw [h2] at hs; exact absurd hs (by simp)
        | panic => rw [h2] at hs; exact absurd hs (by simp)
      | runnable w =>
        simp only at hs
        cases h2 : σ.wake w with
        | ok τ =>
          rw [h2] at hs
          simp only [Outcome.ok.injEq, Prod.mk.injEq] at hs
          obtain ⟨rfl, _⟩ := hs
          exact ⟨(SameRun.wake h2).running, (SameRun.wake h2).nextTid⟩
        | err e => rw [h2] at hs; exact absurd hs (by simp)
        | panic => rw [h2] at hs; exact absurd hs (by simp)
      | unrunnable w =>
        simp only at hs
        cases h2 : σ.threads w with
        | none => rw [h2] at hs; exact absurd hs (by simp)
        | some wth =>
          rw [h2] at hs
          simp only at hs
          by_cases h3 : w = u
          · rw [if_pos h3] at hs
            simp only [Outcome.ok.injEq, Prod.mk.injEq] at hs
            obtain ⟨rfl, _⟩ := hs
            exact ⟨rfl, rfl⟩
          · rw [if_neg h3] at hs
            simp only [Outcome.ok.injEq, Prod.mk.injEq] at hs
            obtain ⟨rfl, _⟩ := hs
            exact ⟨rfl, rfl⟩
      | runnableList l =>
        simp only at hs
        cases h2 : σ.wakeAll l with
        | ok τ =>
          rw [h2] at hs
          simp only [Outcome.ok.injEq, Prod.mk.injEq] at hs
          obtain ⟨rfl, _⟩ := hs
          exact ⟨(SameRun.wakeAll h2).running, (SameRun.wakeAll h2).nextTid⟩
        | err e => rw [h2] at hs; exact absurd hs (by simp)
        | panic => rw [h2] at hs; exact absurd hs (by simp)
      | joinOn w =>
        simp only at hs
        cases h2 : σ.threads w with
        | none =>
          rw [h2] at hs
          simp only [Outcome.ok.injEq, Prod.mk.injEq] at hs
          obtain ⟨rfl, _⟩ := hs
          exact ⟨rfl, rfl⟩
        | some wth =>
          rw [h2] at hs
          simp only [Outcome.ok.injEq, Prod.mk.injEq] at hs
          obtain ⟨rfl, _⟩ := hs
          exact ⟨rfl, rfl⟩
      | spawn e irq =>
        simp only at hs
        cases h2 : σ.spawn e irq with
        | ok p =>
          obtain ⟨τ, r⟩ := p
          rw [h2] at hs
          cases r with
          | none => exact absurd hs (by simp)
          | some w =>
            simp only [Outcome.ok.injEq, Prod.mk.injEq] at hs
            obtain ⟨rfl, _⟩ := hs
            obtain ⟨_, h3, h4 | h4⟩ := spawn_eq h2
            · exact absurd h4.1 (by simp)
            · exact ⟨h4.2.2.1, h3⟩
        | err e => rw [h2] at hs; exact absurd hs (by simp)
        | panic => rw [h2] at hs; exact absurd hs (by simp)

/-- Which core an action takes a thread for. -/
def Act.takes : Act → Option Nat
  | .dispatch c => some c
  | _ => none

/-- What an action does to the thread that runs on a core, and to the number of threads. -/
theorem act_same_run {σ σ' : St} {a : Act} (hs : σ.act a = .ok σ') :
    (∀ d, a.takes ≠ some d → σ'.running d = σ.running d ∨ σ'.running d = none) ∧
    (∀ d, a.takes = some d → σ.running d ≠ none → σ' = σ) ∧
    (∀ d, a.takes = some d → ∀ e, e ≠ d → σ'.running e = σ.running e) ∧
    σ'.nextTid = (match Home.starts σ a with | none => σ.nextTid | some _ => σ.nextTid + 1) := by
  cases a with
  | start d irq =>
    simp only [St.act] at hs
    cases h2 : σ.spawn d irq with
    | ok p =>
      obtain ⟨τ, r⟩ := p
      rw [h2] at hs
      simp only [Outcome.ok.injEq] at hs
      subst hs
      obtain ⟨_, h3, h4⟩ := Home.spawn_eq h2
      refine ⟨fun e _ => .inl ?_, ?_, ?_, h3⟩
      · rcases h4 with h4 | h4
        · rw [h4.2.2]
        · rw [h4.2.2.1]
      · intro e he; exact absurd he (by simp [Act.takes])
      · intro e he; exact absurd he (by simp [Act.takes])
    | err e => rw [h2] at hs; exact absurd hs (by simp)
    | panic => rw [h2] at hs; exact absurd hs (by simp)
  | interrupt d v =>
    simp only [St.act, Outcome.ok.injEq] at hs
    subst hs
    unfold St.interrupt
    refine ⟨fun e _ => .inl ?_, ?_, ?_, ?_⟩
    · cases σ.irqs v <;> rfl
    · intro e he; exact absurd he (by simp [Act.takes])
    · intro e he; exact absurd he (by simp [Act.takes])
    · cases σ.irqs v <;> rfl
  | check d clock =>
    simp only [St.act, Outcome.ok.injEq] at hs
    subst hs
    have := SameRun.checkLoop (d := d) (clock := clock) (σ.waiting d).length 0 (σ := σ)
    refine ⟨fun e _ => .inl (congrFun this.running e), ?_, ?_, this.nextTid⟩
    · intro e he; exact absurd he (by simp [Act.takes])
    · intro e he; exact absurd he (by simp [Act.takes])
  | dispatch d =>
    simp only [St.act] at hs
    unfold St.dispatch at hs
    cases h1 : σ.running d with
    | some u =>
      rw [h1] at hs
      simp only [Outcome.ok.injEq] at hs
      subst hs
      exact ⟨fun _ _ => .inl rfl, fun _ _ _ => rfl, fun _ _ _ _ => rfl, rfl⟩
    | none =>
      rw [h1] at hs
      cases h2 : σ.queue d with
      | nil =>
        rw [h2] at hs
        simp only [Outcome.ok.injEq] at hs
        subst hs
        exact ⟨fun _ _ => .inl rfl, fun _ _ _ => rfl, fun _ _ _ _ => rfl, rfl⟩
      | cons u q =>
        rw [h2] at hs
        simp only at hs
        split at hs
        · simp only [Outcome.ok.injEq] at hs
          subst hs
          refine ⟨?_, ?_, ?_, rfl⟩
          · intro e he
            have : e ≠ d := fun h => he (by rw [h]; rfl)
            exact .inl (by simp only [upd_apply]; rw [if_neg this])
          · intro e he hr
            simp only [Act.takes, Option.some.injEq] at he
            subst he
            exact absurd h1 hr
          · intro e he f hf
            simp only [Act.takes, Option.some.injEq] at he
            subst he
            simp only [upd_apply]
            rw [if_neg hf]
        · exact absurd hs (by simp)
  | yield d r =>
    refine ⟨?_, ?_, ?_, ?_⟩
    rotate_left 1
    · intro e he; exact absurd he (by simp [Act.takes])
    · intro e he; exact absurd he (by simp [Act.takes])
    all_goals
      simp only [St.act] at hs
      unfold St.yield at hs
      cases h1 : σ.running d with
      | none =>
        rw [h1] at hs
        simp only [Outcome.ok.injEq] at hs
        subst hs
        first
          | exact fun _ _ => .inl rfl
          | (unfold Home.starts
             rcases r with _ | r
             · rfl
             · cases r <;> simp [h1])
      | some u =>
        rw [h1] at hs
        simp only at hs
        cases h2 : σ.handle u r with
        | err e => rw [h2] at hs; exact absurd hs (by simp)
        | panic => rw [h2] at hs; exact absurd hs (by simp)
        | ok p =>
          obtain ⟨τ, z⟩ := p
          rw [h2] at hs
          obtain ⟨h3, h4⟩ := handle_same_run h2
          have key : σ'.nextTid = τ.nextTid ∧
              (σ'.running = τ.running ∨ σ'.running = upd τ.running d none) := by
            cases z with
            | interrupted =>
              simp only at hs
              cases h5 : τ.threads u with
              | none => rw [h5] at hs; exact absurd hs (by simp)
              | some th =>
                rw [h5] at hs
                simp only [Outcome.ok.injEq] at hs
                subst hs
                exact ⟨rfl, .inr rfl⟩
            | doNotResume =>
              simp only [Outcome.ok.injEq] at hs
              subst hs
              exact ⟨rfl, .inr rfl⟩
            | completed =>
              simp only [Outcome.ok.injEq] at hs
              subst hs
              exact ⟨rfl, .inl rfl⟩
            | spawned w =>
              simp only [Outcome.ok.injEq] at hs
              subst hs
              exact ⟨rfl, .inl rfl⟩
          first
            | (intro e _
               rcases key.2 with h5 | h5
               · exact .inl (by rw [h5, h3])
               · rw [h5, h3]
                 simp only [upd_apply]
                 split
                 · exact .inr rfl
                 · exact .inl rfl)
            | (rw [key.1, h4]
               unfold Home.starts
               rcases r with _ | r
               · rfl
               · cases r <;> simp [h1])

end NRK.Lineup.Sched
