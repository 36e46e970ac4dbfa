import Verif.Lineup.SchedProps

/-!
# Witnesses for C53 and C54: the hypotheses are met, and what happens without them
-/

namespace NRK.Lineup.Sched

/-- A history that ends in a panic. -/
def St.panics (s : St) (l : List Act) : Prop := s.acts l = .panic

theorem reach_acts {s s' : St} (r : Reach s) {l : List Act} (h : s.acts l = .ok s') : Reach s' := by
  induction l generalizing s with
  | nil => cases h; exact r
  | cons a l ih =>
    simp only [St.acts] at h
    cases ha : s.act a <;> rw [ha] at h <;> first | cases h | skip
    exact ih (.step a r ha) h

/-- A test for `Calm`, for some actions. -/
def St.calm (s : St) : Act → Bool
  | .start _ _ => decide (s.count ≤ maxThreads)
  | .interrupt _ _ => false
  | .check _ _ => true
  | .dispatch _ => true
  | .yield c r =>
    match s.running c with
    | none => true
    | some t =>
      match r with
      | none | some .none | some (.timeout _) | some (.joinOn _) => decide (t ∉ s.queue c)
      | some (.spawn _ _) => decide (s.count ≤ maxThreads)
      | some (.unrunnable a) => decide (a = t)
      | _ => false

theorem calm_of {s : St} {a : Act} (h : s.calm a = true) : Calm s a := by
  cases a with
  | start c irq => exact (of_decide_eq_true h : s.count ≤ maxThreads)
  | interrupt c v => cases h
  | check c clock => trivial
  | dispatch c => trivial
  | yield c r =>
    intro t ht
    simp only [St.calm, ht] at h
    cases r with
    | none => exact of_decide_eq_true h
    | some r => cases r <;> first | exact of_decide_eq_true h | cases h

/-- A history of tested actions. -/
def St.calmActs (s : St) : List Act → Option St
  | [] => some s
  | a :: l =>
    if s.calm a then
      match s.act a with
      | .ok s => s.calmActs l
      | _ => none
    else none

theorem calmActs_steps {s0 s s' : St} {l : List Act} (q : CSteps s0 s) (h : s.calmActs l = some s') :
    CSteps s0 s' := by
  induction l generalizing s with
  | nil => cases h; exact q
  | cons a l ih =>
    simp only [St.calmActs] at h
    split at h
    · rename_i hc
      cases ha : s.act a <;> rw [ha] at h <;> first | cases h | skip
      exact ih (q.step a (calm_of hc) ha) h
    · cases h

theorem calmActs_reach {s : St} {l : List Act} (h : St.init.calmActs l = some s) : CReach s :=
  (calmActs_steps .refl h).reach .init

/-- Non-vacuity: thread 0 of core 0 spawns thread 1 on core 1, joins it, and is made runnable when
thread 1, which sleeps until 10 first, terminates. -/
example : ∃ s s', CReach s ∧ Joins s 0 1 ∧ Sleeps s 1 1 10 ∧ CSteps s s' ∧ s'.queue 0 = [0] := by
  refine ⟨_, _, calmActs_reach (l := [.start 0 none, .dispatch 0,
    .yield 0 (some (.spawn 1 none)), .yield 0 (some (.joinOn 1)), .dispatch 1,
    .yield 1 (some (.timeout 10))]) rfl, ⟨0, ⟨1, [(0, 0)]⟩, rfl, by decide⟩,
    List.mem_singleton.2 rfl, calmActs_steps (l := [.check 1 (fun _ => 12), .dispatch 1, .yield 1 none]) .refl rfl, rfl⟩

/-- Non-vacuity of `c54_round_robin_partial`: three threads in one queue; one action later the
second is the first. -/
example : ∃ s s', CReach s ∧ s.queue 0 = [0] ++ 1 :: [2] ∧ CSteps s s' ∧ s'.queue 0 = [1, 2] :=
  ⟨_, _, calmActs_reach (l := [.start 0 none, .start 0 none, .start 0 none]) rfl, rfl,
    calmActs_steps (l := [.dispatch 0]) .refl rfl, rfl⟩

/-- Non-vacuity of `c53_check`: of three sleeping threads two are woken, the earlier first. -/
example : ∃ s, Reach s ∧ s.waiting 0 = [(30, 0), (20, 2), (10, 1)] ∧
    (s.check 0 (fun _ => 25)).queue 0 = [1, 2] ∧
    (s.check 0 (fun _ => 25)).waiting 0 = [(30, 0)] := by
  have r := Reach.init
  have r := r.step (.start 0 none) rfl
  have r := r.step (.start 0 none) rfl
  have r := r.step (.start 0 none) rfl
  have r := r.step (.dispatch 0) rfl
  have r := r.step (.yield 0 (some (.timeout 30))) rfl
  have r := r.step (.dispatch 0) rfl
  have r := r.step (.yield 0 (some (.timeout 10))) rfl
  have r := r.step (.dispatch 0) rfl
  have r := r.step (.yield 0 (some (.timeout 20))) rfl
  exact ⟨_, r, rfl, rfl, rfl⟩

/-- Finding.  A thread that is made runnable between its decision to sleep and its sleep (as
`CondVar::signal` does to a thread in `timed_wait` on another core) runs on before its deadline,
although nobody wakes it while it sleeps, and its entry stays in the list of sleeping threads. -/
theorem c53_sleep_cut_short : ∃ s, Reach s ∧ s.running 0 = some 0 ∧ Sleeps s 0 0 100 := by
  have r := Reach.init
  have r := r.step (.start 0 none) rfl
  have r := r.step (.start 1 none) rfl
  have r := r.step (.dispatch 0) rfl
  have r := r.step (.dispatch 1) rfl
  have r := r.step (.yield 1 (some (.runnable 0))) rfl
  have r := r.step (.yield 0 (some (.timeout 100))) rfl
  have r := r.step (.dispatch 0) rfl
  exact ⟨_, r, rfl, List.mem_singleton.2 rfl⟩

/-- Finding.  If that thread terminates before its deadline, the scheduler panics at the deadline:
the entry in the list of sleeping threads is not removed, and the thread is gone when it is taken
from the queue. -/
theorem c54_stale_timer_panics :
    St.init.panics [.start 0 none, .start 1 none, .dispatch 0, .dispatch 1,
      .yield 1 (some (.runnable 0)), .yield 0 (some (.timeout 100)), .dispatch 0,
      .yield 0 none, .check 0 (fun _ => 100), .dispatch 0] := rfl

/-- Finding.  A thread that waits for the end of another can be made runnable by a third; if it
terminates then, the scheduler panics when the joined thread has terminated. -/
theorem c54_woken_joiner_panics :
    St.init.panics [.start 0 none, .start 1 none, .dispatch 0, .dispatch 1,
      .yield 0 (some (.joinOn 1)), .yield 1 (some (.runnable 0)), .dispatch 0, .yield 0 none,
      .yield 1 none, .dispatch 0] := rfl

/-- Finding.  An interrupt makes its thread runnable on the core where it arrives, even if the
thread belongs to another. -/
theorem c54_interrupt_on_other_core : ∃ s, Reach s ∧ On s 0 0 ∧ s.running 1 = some 0 := by
  have r := Reach.init
  have r := r.step (.start 0 (some 7)) rfl
  have r := r.step (.interrupt 1 7) rfl
  have r := r.step (.dispatch 1) rfl
  exact ⟨_, r, ⟨_, rfl, rfl⟩, rfl⟩

/-- Finding.  The thread is in both queues then, and the scheduler of its own core panics. -/
theorem c54_interrupt_panics :
    St.init.panics [.start 0 (some 7), .interrupt 1 7, .dispatch 1, .dispatch 0] := rfl

/-- Finding.  A thread that joins itself waits forever: no action of well-behaved threads ends the
wait. -/
theorem c54_self_join_forever {s s' : St} (r : CReach s) {t : Nat} (hj : Joins s t t)
    (h : CSteps s s') : Joins s' t t := by
  induction h with
  | refl => exact hj
  | @step s1 s2 a q hc h ih =>
    obtain ⟨c, hj'⟩ := ih
    rcases act_join h hj' with h1 | ⟨_, _, b, _, hb⟩
    · exact ⟨c, h1⟩
    · have := (c54_runs_once_partial (q.reach r) hb).2.2 t
      exact absurd ⟨c, hj'⟩ this

/-- ... and it can happen. -/
example : ∃ s, CReach s ∧ Joins s 0 0 :=
  ⟨_, calmActs_reach (l := [.start 0 none, .dispatch 0, .yield 0 (some (.joinOn 0))]) rfl,
    0, ⟨0, [(0, 0)]⟩, rfl, by decide⟩

/-- Finding.  The limit of 2048 threads is off by one: 2049 can be live at once. -/
theorem c54_limit_off_by_one : ∃ s, CReach s ∧ s.count = 2049 ∧
    ∀ t, t < 2049 → Live s t := by
  have key : ∀ n, n ≤ maxThreads + 1 → ∃ s, CReach s ∧ s.count = n ∧ s.nextTid = n ∧
      ∀ t, t < n → Live s t := by
    intro n
    induction n with
    | zero => intro _; exact ⟨_, .init, rfl, rfl, fun t h => by omega⟩
    | succ n ih =>
      intro hn
      obtain ⟨s, r, h1, h2, h3⟩ := ih (by omega)
      have hc : s.count ≤ maxThreads := by omega
      have hf := r.inv.fresh s.nextTid (Nat.le_refl _)
      have ha : s.act (.start 0 none) = .ok ({ s with
          nextTid := s.nextTid + 1
          gens := upd s.gens s.nextTid true
          threads := upd s.threads s.nextTid (some ⟨0, []⟩)
          count := s.count + 1 }.markRunnable s.nextTid 0) := by
        simp only [St.act, St.spawn, hf, if_pos hc]
      refine ⟨_, .step (.start 0 none) r hc ha, ?_, ?_, ?_⟩
      · show s.count + 1 = _; omega
      · show s.nextTid + 1 = _; omega
      · intro t ht
        by_cases e : t = s.nextTid
        · subst e; exact ⟨0, _, upd_same .., rfl⟩
        · obtain ⟨c, th, h4, h5⟩ := h3 t (by omega)
          refine ⟨c, th, ?_, h5⟩
          show upd s.threads _ _ t = _
          rw [upd_other _ _ e]; exact h4
  obtain ⟨s, r, h1, _, h3⟩ := key (maxThreads + 1) (Nat.le_refl _)
  exact ⟨s, r, h1, h3⟩

/-! ## The index of a core -/

/-- C54: cores of different numbers have different run queues, if every machine has at most
`MAX_CORES_PER_MACHINE` hardware threads. -/
theorem c54_core_index {m m' k k' : Nat} (hm : m ≠ 0) (hm' : m' ≠ 0) (hk : k < 24) (hk' : k' < 24)
    (h : coreIndex m k = coreIndex m' k') : m = m' ∧ k = k' := by
  simp only [coreIndex, hm, hm', if_false] at h
  omega

/-- C54: and the run queue exists (`MAX_CORES` is 96) for up to four machines besides the
controller. -/
theorem c54_core_index_bound {m k : Nat} (hm : m ≤ 4) (hk : k < 24) : coreIndex m k < 96 := by
  simp only [coreIndex]
  split <;> omega

/-- Finding.  The machine numbers go up to 15 (`MAX_MACHINES` is 16): from the fifth machine on the
index is out of bounds. -/
theorem c54_core_index_out_of_bounds {m k : Nat} (hm : 5 ≤ m) : 96 ≤ coreIndex m k := by
  simp only [coreIndex]
  split <;> omega

/-- ... and otherwise may share one. -/
theorem c54_core_index_clash : coreIndex 1 24 = coreIndex 2 0 := rfl

end NRK.Lineup.Sched
