import Verif.Rump.LwpModel

/-!
# Lemmas about the identity of C threads

`Home σ t c`: thread `t` is on core `c` wherever the scheduler has it.
-/

namespace NRK.Lineup.Sched

structure Home (σ : St) (t c : Nat) : Prop where
  queue : ∀ d, t ∈ σ.queue d → d = c
  waiting : ∀ d e, e ∈ σ.waiting d → e.2 = t → d = c
  running : ∀ d, σ.running d = some t → d = c
  thread : ∀ th, σ.threads t = some th → th.affinity = c
  join : ∀ u th d, σ.threads u = some th → (t, d) ∈ th.joinlist → d = c
  irq : ∀ v, σ.irqs v ≠ some t

namespace Home

variable {σ : St} {t c : Nat}

theorem init : Home .init t c := by
  constructor <;> simp [St.init]

theorem markRunnable (H : Home σ t c) {u d : Nat} (h : u = t → d = c) :
    Home (σ.markRunnable u d) t c := by
  refine ⟨?_, H.waiting, H.running, H.thread, H.join, H.irq⟩
  intro e he
  unfold St.markRunnable at he
  simp only [upd_apply] at he
  split at he
  · next h1 =>
    rcases List.mem_append.1 he with h2 | h2
    · rw [h1]; exact H.queue d h2
    · rw [h1]; exact h (List.mem_singleton.1 h2).symm
  · exact H.queue e he

theorem markUnrunnable (H : Home σ t c) (u d : Nat) : Home (σ.markUnrunnable u d) t c := by
  refine ⟨?_, H.waiting, H.running, H.thread, H.join, H.irq⟩
  intro e he
  unfold St.markUnrunnable at he
  simp only [upd_apply] at he
  split at he
  · next h1 => rw [h1]; exact H.queue d (List.mem_filter.1 he).1
  · exact H.queue e he

theorem waitRemove (H : Home σ t c) (u d : Nat) : Home (σ.waitRemove u d) t c := by
  refine ⟨H.queue, ?_, H.running, H.thread, H.join, H.irq⟩
  intro e x he
  unfold St.waitRemove at he
  simp only [upd_apply] at he
  split at he
  · next h1 => rw [h1]; exact H.waiting d x (List.mem_filter.1 he).1
  · exact H.waiting e x he

theorem insertDesc_mem {x : Nat × Nat} :
    ∀ {l l' : List (Nat × Nat)}, insertDesc x l = some l' → ∀ e ∈ l', e = x ∨ e ∈ l
  | [], l', h, e, he => by
    simp only [insertDesc, Option.some.injEq] at h
    subst h
    exact .inl (List.mem_singleton.1 he)
  | y :: l, l', h, e, he => by
    unfold insertDesc at h
    by_cases h1 : x = y
    · rw [if_pos h1] at h; exact absurd h (by simp)
    · rw [if_neg h1] at h
      by_cases h2 : later x y
      · rw [if_pos h2] at h
        simp only [Option.some.injEq] at h
        subst h
        rcases List.mem_cons.1 he with h3 | h3
        · exact .inl h3
        · exact .inr h3
      · rw [if_neg h2] at h
        cases h4 : insertDesc x l with
        | none => rw [h4] at h; exact absurd h (by simp)
        | some l2 =>
          rw [h4] at h
          simp only [Option.some.injEq] at h
          subst h
          rcases List.mem_cons.1 he with h3 | h3
          · exact .inr (List.mem_cons.2 (.inl h3))
          · rcases insertDesc_mem h4 e h3 with h5 | h5
            · exact .inl h5
            · exact .inr (List.mem_cons.2 (.inr h5))

theorem waitInsert (H : Home σ t c) {u d k : Nat} {σ' : St} (h : u = t → d = c)
    (hs : σ.waitInsert u d k = .ok σ') : Home σ' t c := by
  unfold St.waitInsert at hs
  cases h1 : insertDesc (k, u) (σ.waiting d) with
  | none => rw [h1] at hs; exact absurd hs (by simp)
  | some l =>
    rw [h1] at hs
    simp only [Outcome.ok.injEq] at hs
    subst hs
    refine ⟨H.queue, ?_, H.running, H.thread, H.join, H.irq⟩
    intro e x he hx
    simp only [upd_apply] at he
    split at he
    · next h2 =>
      rcases insertDesc_mem h1 x he with h3 | h3
      · subst h3; rw [h2]; exact h hx
      · rw [h2]; exact H.waiting d x h3 hx
    · exact H.waiting e x he hx

theorem wake (H : Home σ t c) {r : Nat} {σ' : St} (hs : σ.wake r = .ok σ') : Home σ' t c := by
  unfold St.wake at hs
  cases h1 : σ.threads r with
  | none => rw [h1] at hs; exact absurd hs (by simp)
  | some th =>
    rw [h1] at hs
    simp only [Outcome.ok.injEq] at hs
    subst hs
    exact (H.waitRemove _ _).markRunnable (fun e => H.thread th (e ▸ h1))

theorem wakeAll : ∀ {l : List Nat} {σ σ' : St}, Home σ t c → σ.wakeAll l = .ok σ' → Home σ' t c
  | [], σ, σ', H, hs => by
    simp only [St.wakeAll, Outcome.ok.injEq] at hs
    exact hs ▸ H
  | r :: l, σ, σ', H, hs => by
    unfold St.wakeAll at hs
    cases h1 : σ.wake r with
    | ok τ => rw [h1] at hs; exact wakeAll (H.wake h1) hs
    | err e => rw [h1] at hs; exact absurd hs (by simp)
    | panic => rw [h1] at hs; exact absurd hs (by simp)

theorem wakeJoiners : ∀ {l : List (Nat × Nat)} {σ : St}, Home σ t c → (∀ d, (t, d) ∈ l → d = c) →
    Home (σ.wakeJoiners l) t c
  | [], σ, H, _ => H
  | (u, d) :: l, σ, H, hl => by
    unfold St.wakeJoiners
    refine wakeJoiners (H.markRunnable ?_) (fun e he => hl e (List.mem_cons.2 (.inr he)))
    intro e
    subst e
    exact hl d (List.mem_cons.2 (.inl rfl))

/-- What starting a thread does. -/
theorem spawn_eq {d : Nat} {irq : Option Nat} {σ' : St} {r : Option Nat}
    (hs : σ.spawn d irq = .ok (σ', r)) :
    σ.threads σ.nextTid = none ∧ σ'.nextTid = σ.nextTid + 1 ∧
      ((r = none ∧ ¬ σ.count ≤ maxThreads ∧ σ' = { σ with nextTid := σ.nextTid + 1 }) ∨
       (r = some σ.nextTid ∧ σ.count ≤ maxThreads ∧
        σ'.running = σ.running ∧ σ'.waiting = σ.waiting ∧
        σ'.threads = upd σ.threads σ.nextTid (some ⟨d, []⟩) ∧
        σ'.queue = upd σ.queue d (σ.queue d ++ [σ.nextTid]) ∧
        σ'.irqs = match irq with
          | none => σ.irqs
          | some v => upd σ.irqs v (some σ.nextTid))) := by
  unfold St.spawn at hs
  simp only at hs
  cases h1 : σ.threads σ.nextTid with
  | some th => rw [h1] at hs; exact absurd hs (by simp)
  | none =>
    rw [h1] at hs
    simp only at hs
    by_cases h2 : σ.count ≤ maxThreads
    · rw [if_pos h2] at hs
      cases irq with
      | none =>
        simp only [Outcome.ok.injEq, Prod.mk.injEq] at hs
        obtain ⟨rfl, rfl⟩ := hs
        exact ⟨rfl, rfl, .inr ⟨rfl, h2, rfl, rfl, rfl, rfl, rfl⟩⟩
      | some v =>
        simp only [Outcome.ok.injEq, Prod.mk.injEq] at hs
        obtain ⟨rfl, rfl⟩ := hs
        exact ⟨rfl, rfl, .inr ⟨rfl, h2, rfl, rfl, rfl, rfl, rfl⟩⟩
    · rw [if_neg h2] at hs
      simp only [Outcome.ok.injEq, Prod.mk.injEq] at hs
      obtain ⟨rfl, rfl⟩ := hs
      exact ⟨rfl, rfl, .inl ⟨rfl, h2, rfl⟩⟩

/-- Starting a thread: `t` stays where it is, and if `t` is the new one and serves no interrupt, it
is on the core that was asked for. -/
theorem spawn (H : Home σ t c) {d : Nat} {irq : Option Nat} {σ' : St} {r : Option Nat}
    (hs : σ.spawn d irq = .ok (σ', r)) (h : t = σ.nextTid → d = c ∧ irq = none) :
    Home σ' t c := by
  obtain ⟨h0, _, h1 | ⟨_, _, hr, hw, ht, hq, hi⟩⟩ := spawn_eq hs
  · obtain ⟨_, _, rfl⟩ := h1
    exact ⟨H.queue, H.waiting, H.running, H.thread, H.join, H.irq⟩
  · refine ⟨?_, ?_, ?_, ?_, ?_, ?_⟩
    · intro e he
      rw [hq] at he
      simp only [upd_apply] at he
      split at he
      · next h2 =>
        rcases List.mem_append.1 he with h3 | h3
        · rw [h2]; exact H.queue d h3
        · rw [h2]; exact (h (List.mem_singleton.1 h3)).1
      · exact H.queue e he
    · rw [hw]; exact H.waiting
    · rw [hr]; exact H.running
    · intro th hth
      rw [ht, upd_apply] at hth
      split at hth
      · next h2 =>
        simp only [Option.some.injEq] at hth
        subst hth
        exact (h h2).1
      · exact H.thread th hth
    · intro u th e hu he
      rw [ht, upd_apply] at hu
      split at hu
      · simp only [Option.some.injEq] at hu
        subst hu
        exact absurd he (by simp)
      · exact H.join u th e hu he
    · intro v hv
      rw [hi] at hv
      cases irq with
      | none => exact H.irq v hv
      | some w =>
        simp only [upd_apply] at hv
        split at hv
        · simp only [Option.some.injEq] at hv
          exact absurd (h hv.symm).2 (by simp)
        · exact H.irq v hv

theorem checkLoop {d : Nat} {clock : Nat → Nat} : ∀ (f i : Nat) {σ : St}, Home σ t c →
    Home (St.checkLoop d clock i f σ) t c
  | 0, i, σ, H => by unfold St.checkLoop; exact H
  | f + 1, i, σ, H => by
    unfold St.checkLoop
    split
    · exact H
    · next k u hl =>
      split
      · refine checkLoop f (i + 1) (markRunnable ?_ ?_)
        · refine ⟨H.queue, ?_, H.running, H.thread, H.join, H.irq⟩
          intro e x he
          simp only [upd_apply] at he
          split at he
          · next h1 => rw [h1]; exact H.waiting d x (List.dropLast_subset _ he)
          · exact H.waiting e x he
        · intro e
          exact H.waiting d (k, u) (List.mem_of_getLast? hl) e
      · exact H

theorem dispatch (H : Home σ t c) {d : Nat} {σ' : St} (hs : σ.dispatch d = .ok σ') :
    Home σ' t c := by
  unfold St.dispatch at hs
  cases h1 : σ.running d with
  | some u =>
    rw [h1] at hs
    simp only [Outcome.ok.injEq] at hs
    exact hs ▸ H
  | none =>
    rw [h1] at hs
    cases h2 : σ.queue d with
    | nil =>
      rw [h2] at hs
      simp only [Outcome.ok.injEq] at hs
      exact hs ▸ H
    | cons u q =>
      rw [h2] at hs
      simp only at hs
      split at hs
      · simp only [Outcome.ok.injEq] at hs
        subst hs
        refine ⟨?_, H.waiting, ?_, H.thread, H.join, H.irq⟩
        · intro e he
          simp only [upd_apply] at he
          split at he
          · next h3 => rw [h3]; exact H.queue d (by rw [h2]; exact List.mem_cons.2 (.inr he))
          · exact H.queue e he
        · intro e he
          simp only [upd_apply] at he
          split at he
          · next h3 =>
            simp only [Option.some.injEq] at he
            subst he
            rw [h3]
            exact H.queue d (by rw [h2]; exact List.mem_cons.2 (.inl rfl))
          · exact H.running e he
      · exact absurd hs (by simp)

/-- The request of the thread `u` that runs on core `d`. -/
theorem handle (H : Home σ t c) {u : Nat} {r : Option Req} {σ' : St}
    {z : Resume} (hs : σ.handle u r = .ok (σ', z))
    (h : ∀ e irq, r = some (.spawn e irq) → t = σ.nextTid → e = c ∧ irq = none) :
    Home σ' t c := by
  unfold St.handle at hs
  cases h1 : σ.threads u with
  | none => rw [h1] at hs; exact absurd hs (by simp)
  | some th =>
    rw [h1] at hs
    have hut : u = t → th.affinity = c := fun e => H.thread th (e ▸ h1)
    cases r with
    | none =>
      simp only [Outcome.ok.injEq, Prod.mk.injEq] at hs
      obtain ⟨rfl, _⟩ := hs
      refine wakeJoiners ?_ (fun e he => H.join u th e h1 he)
      have H1 := H.markUnrunnable u th.affinity
      refine ⟨H1.queue, H1.waiting, H1.running, ?_, ?_, H1.irq⟩
      · intro th' hth
        simp only [upd_apply] at hth
        split at hth
        · exact absurd hth (by simp)
        · exact H1.thread th' hth
      · intro w th' e hw he
        simp only [upd_apply] at hw
        split at hw
        · exact absurd hw (by simp)
        · exact H1.join w th' e hw he
    | some r =>
      cases r with
      | none =>
        simp only [Outcome.ok.injEq, Prod.mk.injEq] at hs
        obtain ⟨rfl, _⟩ := hs
        exact H.markRunnable hut
      | timeout k =>
        simp only at hs
        cases h2 : σ.waitInsert u th.affinity k with
        | ok τ =>
          rw [h2] at hs
          simp only [Outcome.ok.injEq, Prod.mk.injEq] at hs
          obtain ⟨rfl, _⟩ := hs
          exact H.waitInsert hut h2
        | err e => rw [h2] at hs; exact absurd hs (by simp)
        | panic => rw [h2] at hs; exact absurd hs (by simp)
      | runnable w =>
        simp only at hs
        cases h2 : σ.wake w with
        | ok τ =>
          rw [h2] at hs
          simp only [Outcome.ok.injEq, Prod.mk.injEq] at hs
          obtain ⟨rfl, _⟩ := hs
          exact H.wake h2
        | err e => rw [h2] at hs; exact absurd hs (by simp)
        | panic => rw [h2] at hs; exact absurd hs (by simp)
      | unrunnable w =>
        simp only at hs
        cases h2 : σ.threads w with
        | none => rw [h2] at hs; exact absurd hs (by simp)
        | some wth =>
          rw [h2] at hs
          simp only at hs
          by_cases h3 : w = u
          · rw [if_pos h3] at hs
            simp only [Outcome.ok.injEq, Prod.mk.injEq] at hs
            exact hs.1 ▸ H
          · rw [if_neg h3] at hs
            simp only [Outcome.ok.injEq, Prod.mk.injEq] at hs
            exact hs.1 ▸ H.markUnrunnable w wth.affinity
      | runnableList l =>
        simp only at hs
        cases h2 : σ.wakeAll l with
        | ok τ =>
          rw [h2] at hs
          simp only [Outcome.ok.injEq, Prod.mk.injEq] at hs
          obtain ⟨rfl, _⟩ := hs
          exact wakeAll H h2
        | err e => rw [h2] at hs; exact absurd hs (by simp)
        | panic => rw [h2] at hs; exact absurd hs (by simp)
      | joinOn w =>
        simp only at hs
        cases h2 : σ.threads w with
        | none =>
          rw [h2] at hs
          simp only [Outcome.ok.injEq, Prod.mk.injEq] at hs
          exact hs.1 ▸ H
        | some wth =>
          rw [h2] at hs
          simp only [Outcome.ok.injEq, Prod.mk.injEq] at hs
          obtain ⟨rfl, _⟩ := hs
          refine ⟨H.queue, H.waiting, H.running, ?_, ?_, H.irq⟩
          · intro th' hth
            simp only [upd_apply] at hth
            split at hth
            · next h3 =>
              simp only [Option.some.injEq] at hth
              subst hth
              exact H.thread wth (h3 ▸ h2)
            · exact H.thread th' hth
          · intro v th' e hv he
            simp only [upd_apply] at hv
            split at hv
            · simp only [Option.some.injEq] at hv
              subst hv
              rcases List.mem_append.1 he with h3 | h3
              · exact H.join w wth e h2 h3
              · simp only [List.mem_singleton, Prod.mk.injEq] at h3
                rw [h3.2]
                exact hut h3.1.symm
            · exact H.join v th' e hv he
      | spawn e irq =>
        simp only at hs
        cases h2 : σ.spawn e irq with
        | ok p =>
          obtain ⟨τ, r⟩ := p
          rw [h2] at hs
          cases r with
          | none => exact absurd hs (by simp)
          | some w =>
            simp only [Outcome.ok.injEq, Prod.mk.injEq] at hs
            obtain ⟨rfl, _⟩ := hs
            exact H.spawn h2 (h e irq rfl)
        | err e => rw [h2] at hs; exact absurd hs (by simp)
        | panic => rw [h2] at hs; exact absurd hs (by simp)

theorem yield (H : Home σ t c) {d : Nat} {r : Option Req} {σ' : St}
    (hs : σ.yield d r = .ok σ')
    (h : ∀ e irq, r = some (.spawn e irq) → t = σ.nextTid → e = c ∧ irq = none) :
    Home σ' t c := by
  unfold St.yield at hs
  cases h1 : σ.running d with
  | none =>
    rw [h1] at hs
    simp only [Outcome.ok.injEq] at hs
    exact hs ▸ H
  | some u =>
    rw [h1] at hs
    simp only at hs
    cases h2 : σ.handle u r with
    | err e => rw [h2] at hs; exact absurd hs (by simp)
    | panic => rw [h2] at hs; exact absurd hs (by simp)
    | ok p =>
      obtain ⟨τ, z⟩ := p
      rw [h2] at hs
      have H2 := H.handle h2 h
      have stop : ∀ g, Home { τ with gens := g, running := upd τ.running d none } t c := by
        intro g
        refine ⟨H2.queue, H2.waiting, ?_, H2.thread, H2.join, H2.irq⟩
        intro e he
        simp only [upd_apply] at he
        split at he
        · exact absurd he (by simp)
        · exact H2.running e he
      cases z with
      | interrupted =>
        simp only at hs
        cases h3 : τ.threads u with
        | none => rw [h3] at hs; exact absurd hs (by simp)
        | some th =>
          rw [h3] at hs
          simp only [Outcome.ok.injEq] at hs
          exact hs ▸ stop _
      | doNotResume =>
        simp only [Outcome.ok.injEq] at hs
        exact hs ▸ stop τ.gens
      | completed =>
        simp only [Outcome.ok.injEq] at hs
        exact hs ▸ H2
      | spawned w =>
        simp only [Outcome.ok.injEq] at hs
        exact hs ▸ H2

/-- The thread that an action of the scheduler starts: on which core, and whether for an
interrupt. -/
def starts (σ : St) : Act → Option (Nat × Option Nat)
  | .start c irq => some (c, irq)
  | .yield c (some (.spawn d irq)) => match σ.running c with
    | none => none
    | some _ => some (d, irq)
  | _ => none

/-- Every action leaves a thread on its core; a new one is on the core that was asked for. -/
theorem act (H : Home σ t c) {a : Act} {σ' : St} (hs : σ.act a = .ok σ')
    (h : ∀ p, starts σ a = some p → t = σ.nextTid → p = (c, none)) :
    Home σ' t c := by
  cases a with
  | start d irq =>
    simp only [St.act] at hs
    cases h2 : σ.spawn d irq with
    | ok p =>
      obtain ⟨τ, r⟩ := p
      rw [h2] at hs
      simp only [Outcome.ok.injEq] at hs
      subst hs
      refine H.spawn h2 (fun e => ?_)
      have := h (d, irq) rfl e
      simp only [Prod.mk.injEq] at this
      exact this
    | err e => rw [h2] at hs; exact absurd hs (by simp)
    | panic => rw [h2] at hs; exact absurd hs (by simp)
  | interrupt d v =>
    simp only [St.act, Outcome.ok.injEq] at hs
    subst hs
    unfold St.interrupt
    cases h2 : σ.irqs v with
    | none => exact H
    | some u => exact H.markRunnable (fun e => absurd (e ▸ h2) (H.irq v))
  | check d clock =>
    simp only [St.act, Outcome.ok.injEq] at hs
    subst hs
    exact checkLoop _ _ H
  | dispatch d => exact H.dispatch hs
  | yield d r =>
    cases h1 : σ.running d with
    | none =>
      simp only [St.act] at hs
      unfold St.yield at hs
      rw [h1] at hs
      simp only [Outcome.ok.injEq] at hs
      exact hs ▸ H
    | some u =>
      refine H.yield hs (fun e irq hr ht => ?_)
      subst hr
      have := h (e, irq) (by unfold starts; simp only; rw [h1]) ht
      simp only [Prod.mk.injEq] at this
      exact this

end Home

end NRK.Lineup.Sched
