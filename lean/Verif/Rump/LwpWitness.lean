import Verif.Rump.LwpProps

/-!
# C99: concrete histories

Non-vacuity of the theorems of `LwpProps.lean`, and the three ways in which the word of a C thread
does not tell where it runs.
-/

namespace NRK.Rump.Lwp

open NRK.Lineup

theorem Reach.acts {gtids : List Nat} {s s' : St} (h : Reach gtids s) {l : List Act}
    (hs : s.acts l = .ok s') : Reach gtids s' := by
  induction l generalizing s with
  | nil => simp only [St.acts, Outcome.ok.injEq] at hs; exact hs ▸ h
  | cons a l ih =>
    unfold St.acts at hs
    cases h1 : s.act a with
    | ok r => rw [h1] at hs; exact ih (.step a h h1) hs
    | err e => rw [h1] at hs; exact absurd hs (by simp)
    | panic => rw [h1] at hs; exact absurd hs (by simp)

/-- The end of a history, and the start if it fails. -/
def St.after (s : St) (l : List Act) : St :=
  match s.acts l with
  | .ok s => s
  | _ => s

/-- Whether a history has an end. -/
def St.good (s : St) (l : List Act) : Bool :=
  match s.acts l with
  | .ok _ => true
  | _ => false

theorem St.after_eq {s : St} {l : List Act} (h : s.good l = true) :
    s.acts l = .ok (s.after l) := by
  unfold St.good at h
  unfold St.after
  cases h1 : s.acts l with
  | ok r => rfl
  | err e => rw [h1] at h; exact absurd h (by simp)
  | panic => rw [h1] at h; exact absurd h (by simp)

theorem reach_after {gtids : List Nat} {l : List Act} (h : (St.init gtids).good l = true) :
    Reach gtids ((St.init gtids).after l) :=
  Reach.init.acts (St.after_eq h)

/-- Cores 5 and 7; the main thread, 0, on core 5; it has the C identity 1. -/
def begins : List Act := [.sched (.start 5 none), .sched (.dispatch 5), .lwpInit 5 2]

/-- It makes one C thread on core 5 and one on core 7. -/
def makes : List Act := begins ++ [.makeBegin 5 0, .makeSpawn 5, .makeBegin 5 0, .makeSpawn 5]

/-- It lets the other one run, gets the core back, and the third runs on core 7. -/
def shares : List Act := makes ++
  [.sched (.yield 5 (some .none)), .sched (.dispatch 5), .sched (.yield 5 (some .none)),
   .sched (.dispatch 5), .sched (.dispatch 7)]

example : (St.init [5, 7]).good shares = true := by decide +kernel

/-- Two threads run, and show it; a third waits, and shows it. -/
example : let s := (St.init [5, 7]).after shares
    Runs s 0 5 ∧ Runs s 2 7 ∧ s.sched.queue 5 = [1] ∧
    Is s 0 1 ∧ Is s 1 2 ∧ Is s 2 3 ∧
    s.ctl 1 = some ⟨5, 1⟩ ∧ s.ctl 2 = some ⟨-1, 1⟩ ∧ s.ctl 3 = some ⟨7, 1⟩ := by
  unfold Runs Is
  decide +kernel

/-- `c99_stopped_partial` applies: from where thread 1 runs to where thread 0 does. -/
example : ∃ l', ((St.init [5, 7]).after shares).ctl 2 = some l' ∧ l'.curcpu = -1 := by
  refine c99_stopped_partial (gtids := [5, 7])
    (s := (St.init [5, 7]).after (shares.take 9)) (t := 1) (u := 0) (c := 5) (l := ⟨5, 1⟩)
    (reach_after (by decide +kernel)) ?_ ?_ ?_ (by decide) (as := shares.drop 9) ?_ ?_ ?_ (by decide)
  · unfold Is; decide +kernel
  · unfold Runs; decide +kernel
  · decide +kernel
  · have h1 : ((St.init [5, 7]).after (shares.take 9)).good (shares.drop 9) = true := by
      decide +kernel
    rw [St.after_eq h1]
    rfl
  · unfold shares makes begins
    simp
  · unfold Runs; decide +kernel

/-- **Not so** when the core has had nothing to do in between: thread 1 runs on core 5, blocks, the
scheduler finds no other thread and returns; an interrupt thread, or one that another core wakes,
runs: thread 1 still shows core 5, although it is blocked and thread 3 runs there. -/
theorem c99_idle_stale : ∃ s, Reach [5, 7] s ∧ Is s 1 2 ∧ s.sched.running 5 = some 3 ∧
    s.sched.queue 5 = [] ∧ s.ctl 2 = some ⟨5, 1⟩ := by
  refine ⟨(St.init [5, 7]).after (makes ++
    [.sched (.yield 5 (some (.unrunnable 0))), .sched (.dispatch 5),
     .sched (.yield 5 (some (.unrunnable 1))), .idle 5, .sched (.start 5 none),
     .sched (.dispatch 5)]), reach_after (by decide +kernel), ?_⟩
  unfold Is
  decide +kernel

/-- The same history without the scheduler's return: the blocked thread shows that it does not run. -/
example : let s := (St.init [5, 7]).after (makes ++
    [.sched (.yield 5 (some (.unrunnable 0))), .sched (.dispatch 5),
     .sched (.yield 5 (some (.unrunnable 1))), .sched (.start 5 none), .sched (.dispatch 5)])
    s.sched.running 5 = some 3 ∧ s.ctl 2 = some ⟨-1, 1⟩ := by
  decide +kernel

/-- **Not so** for a thread that has never run: it shows core 0, which need not even be a core of
the process, instead of −1. -/
theorem c99_new_shows_zero : ∃ s, Reach [5, 7] s ∧ Is s 2 3 ∧ s.sched.queue 7 = [2] ∧
    s.ctl 3 = some ⟨0, 0⟩ := by
  refine ⟨(St.init [5, 7]).after makes, reach_after (by decide +kernel), ?_⟩
  unfold Is
  decide +kernel

/-- **Not so** for the main thread before it has been switched: it runs on core 5 and shows 0. -/
theorem c99_main_shows_zero : ∃ s, Reach [5, 7] s ∧ Is s 0 1 ∧ Runs s 0 5 ∧
    s.ctl 1 = some ⟨0, 0⟩ := by
  refine ⟨(St.init [5, 7]).after begins, reach_after (by decide +kernel), ?_⟩
  unfold Is Runs
  decide +kernel

/-- The number of cores on the command line is not checked against the cores of the process: with a
larger one, some C thread ends the program. -/
theorem c99_too_many_cores : ∃ s, Reach [5] s ∧ s.act (.makeSpawn 5) = .panic := by
  refine ⟨(St.init [5]).after [.sched (.start 5 none), .sched (.dispatch 5), .lwpInit 5 4,
    .makeBegin 5 0], reach_after (by decide +kernel), ?_⟩
  have h : (match ((St.init [5]).after [.sched (.start 5 none), .sched (.dispatch 5), .lwpInit 5 4,
    .makeBegin 5 0]).act (.makeSpawn 5) with | .panic => true | _ => false) = true := by
    decide +kernel
  revert h
  generalize St.act _ _ = o
  cases o <;> simp

/-- `c99_made`, `c99_create`: the new threads. -/
example : let s := (St.init [5, 7]).after makes
    (∃ th, s.sched.threads 1 = some th ∧ th.affinity = 5) ∧
    (∃ th, s.sched.threads 2 = some th ∧ th.affinity = 7) := by
  refine ⟨⟨⟨5, []⟩, ?_, rfl⟩, ⟨⟨7, []⟩, ?_, rfl⟩⟩ <;> decide +kernel

example : let s := (St.init [5, 7]).after (makes ++ [.create 5 1, .create 5 (-1)])
    s.sched.queue 7 = [2, 3] ∧ s.sched.queue 5 = [1, 4] ∧ s.sched.running 5 = some 0 := by
  decide +kernel

/-- `c99_curlwp`: two threads on the same core, each with its own. -/
example : let s := (St.init [5, 7]).after (makes ++ [.curlwpop 5 2 40,
    .sched (.yield 5 (some .none)), .sched (.dispatch 5), .curlwpop 5 2 41])
    s.curlwp 0 = 40 ∧ s.curlwp 1 = 41 ∧ s.curlwp 2 = 0 ∧ s.sched.running 5 = some 1 := by
  decide +kernel

example : let s := (St.init [5, 7]).after (begins ++ [.curlwpop 5 2 40, .curlwpop 5 3 40])
    s.curlwp 0 = 0 ∧ (St.init [5, 7]).good (begins ++ [.curlwpop 5 2 40, .curlwpop 5 3 41]) = false := by
  decide +kernel

/-- `c99_make_fails`: with an error of the rump kernel (12, no memory). -/
example : (((St.init [5, 7]).after begins).makeBegin 5 12).2 = some 12 := by decide +kernel

end NRK.Rump.Lwp
