import Verif.Lineup.LockProps

/-!
# Witnesses for C49 and C52: non-vacuity, and what goes wrong
-/

namespace NRK.Lineup

/-- A blocking mutex (`new_kmutex`), no timed waits; `MAX_CORES` is 96. -/
def kmutex : Cfg := { spin := false, kmutex := true, cap := 96, timed := false }

/-- The same with timed waits. -/
def kmutexTimed : Cfg := { kmutex with timed := true }

/-- Non-vacuity: thread 0 owns the mutex and thread 1 waits on the list; thread 0 leaves and
thread 1 is let in. -/
example : ∃ s, Reach kmutex 2 s ∧ Owns s 0 ∧ Waits s 1 ∧ s.waitlist = [1] := by
  have r := Reach.init (c := kmutex) (n := 2)
  have r := r.step (.enterAdd _ 0 (by decide) rfl rfl rfl)
  have r := r.step (.addFree _ 0 (by decide) rfl rfl)
  have r := r.step (.enterAdd _ 1 (by decide) rfl rfl rfl)
  have r := r.step (.addHeld _ 1 (by decide) rfl (by decide))
  have r := r.step (.own _ 0 .ret (by decide) rfl)
  have r := r.step (.push _ 1 (by decide) rfl (by decide))
  exact ⟨_, r, rfl, .inr ⟨rfl, rfl⟩, rfl⟩

/-- Non-vacuity: a waiter is signalled by the next owner of the mutex and returns owning it. -/
example : ∃ s, Reach kmutex 2 s ∧ s.pc 0 = .cvRemove ∧ s.waiters = [] ∧ s.owner = some 0 := by
  have r := Reach.init (c := kmutex) (n := 2)
  have r := r.step (.enterAdd _ 0 (by decide) rfl rfl rfl)
  have r := r.step (.addFree _ 0 (by decide) rfl rfl)
  have r := r.step (.own _ 0 .ret (by decide) rfl)
  have r := r.step (.wait _ 0 (by decide) rfl)
  have r := r.step (.exitOwner _ 0 .wait (by decide) rfl)
  have r := r.step (.exitLast _ 0 .wait (by decide) rfl rfl)
  have r := r.step (.enterAdd _ 1 (by decide) rfl rfl rfl)
  have r := r.step (.addFree _ 1 (by decide) rfl rfl)
  have r := r.step (.own _ 1 .ret (by decide) rfl)
  have r := r.step (.signal _ 1 (by decide) rfl)
  have r := r.step (.exit _ 1 (by decide) rfl)
  have r := r.step (.exitOwner _ 1 .unlock (by decide) rfl)
  have r := r.step (.exitLast _ 1 .unlock (by decide) rfl rfl)
  have r := r.step (.cvBlock _ 0 (by decide) rfl (by decide))
  have r := r.step (.load _ 0 .cv (by decide) rfl rfl)
  have r := r.step (.casOk _ 0 .cv (by decide) rfl rfl)
  have r := r.step (.own _ 0 .cv (by decide) rfl)
  exact ⟨_, r, rfl, rfl, rfl⟩

/-- Finding.  With timed waits two threads own the mutex at the same time: thread 0's wait times
out, then thread 1 signals, which wakes thread 0 a second time; the left-over entry in the queue of
runnable threads lets thread 0 pass the next time it has to wait for the mutex. -/
theorem c49_timed_wait_two_owners :
    ∃ s, Reach kmutexTimed 2 s ∧ Owns s 0 ∧ Owns s 1 := by
  have r := Reach.init (c := kmutexTimed) (n := 2)
  have r := r.step (.enterAdd _ 0 (by decide) rfl rfl rfl)
  have r := r.step (.addFree _ 0 (by decide) rfl rfl)
  have r := r.step (.own _ 0 .ret (by decide) rfl)
  have r := r.step (.timedWait _ 0 (by decide) rfl rfl)
  have r := r.step (.exitOwner _ 0 .timed (by decide) rfl)
  have r := r.step (.exitLast _ 0 .timed (by decide) rfl rfl)
  have r := r.step (.cvSleep _ 0 (by decide) rfl)
  have r := r.step (.expire _ 0 (by decide) rfl)
  have r := r.step (.enterAdd _ 1 (by decide) rfl rfl rfl)
  have r := r.step (.addFree _ 1 (by decide) rfl rfl)
  have r := r.step (.own _ 1 .ret (by decide) rfl)
  have r := r.step (.signal _ 1 (by decide) rfl)
  have r := r.step (.exit _ 1 (by decide) rfl)
  have r := r.step (.exitOwner _ 1 .unlock (by decide) rfl)
  have r := r.step (.exitLast _ 1 .unlock (by decide) rfl rfl)
  have r := r.step (.cvAwake _ 0 (by decide) rfl (by decide))
  have r := r.step (.load _ 0 .cv (by decide) rfl rfl)
  have r := r.step (.casOk _ 0 .cv (by decide) rfl rfl)
  have r := r.step (.own _ 0 .cv (by decide) rfl)
  have r := r.step (.cvRemove _ 0 (by decide) rfl)
  have r := r.step (.exit _ 0 (by decide) rfl)
  have r := r.step (.exitOwner _ 0 .unlock (by decide) rfl)
  have r := r.step (.exitLast _ 0 .unlock (by decide) rfl rfl)
  have r := r.step (.enterAdd _ 1 (by decide) rfl rfl rfl)
  have r := r.step (.addFree _ 1 (by decide) rfl rfl)
  have r := r.step (.own _ 1 .ret (by decide) rfl)
  have r := r.step (.enterAdd _ 0 (by decide) rfl rfl rfl)
  have r := r.step (.addHeld _ 0 (by decide) rfl (by decide))
  have r := r.step (.push _ 0 (by decide) rfl (by decide))
  have r := r.step (.block _ 0 (by decide) rfl (by decide))
  have r := r.step (.own _ 0 .ret (by decide) rfl)
  exact ⟨_, r, rfl, rfl⟩

/-- Finding.  A signal goes to a thread whose timed wait is already over: thread 1's wait has timed
out, thread 0 is the only one asleep, and the signal of thread 2 does not wake it. -/
theorem c52_timed_wait_takes_signal :
    ∃ s, Reach kmutexTimed 3 s ∧ Owns s 2 ∧
      s.pc 0 = .cvBlock ∧ s.wakes 0 = 0 ∧ s.pc 1 = .load .cv ∧
      s.signal.wakes 0 = 0 ∧ s.signal.pc 0 = .cvBlock ∧ s.signal.waiters = [0] := by
  have r := Reach.init (c := kmutexTimed) (n := 3)
  have r := r.step (.enterAdd _ 0 (by decide) rfl rfl rfl)
  have r := r.step (.addFree _ 0 (by decide) rfl rfl)
  have r := r.step (.own _ 0 .ret (by decide) rfl)
  have r := r.step (.wait _ 0 (by decide) rfl)
  have r := r.step (.exitOwner _ 0 .wait (by decide) rfl)
  have r := r.step (.exitLast _ 0 .wait (by decide) rfl rfl)
  have r := r.step (.enterAdd _ 1 (by decide) rfl rfl rfl)
  have r := r.step (.addFree _ 1 (by decide) rfl rfl)
  have r := r.step (.own _ 1 .ret (by decide) rfl)
  have r := r.step (.timedWait _ 1 (by decide) rfl rfl)
  have r := r.step (.exitOwner _ 1 .timed (by decide) rfl)
  have r := r.step (.exitLast _ 1 .timed (by decide) rfl rfl)
  have r := r.step (.cvSleep _ 1 (by decide) rfl)
  have r := r.step (.expire _ 1 (by decide) rfl)
  have r := r.step (.cvAwake _ 1 (by decide) rfl (by decide))
  have r := r.step (.enterAdd _ 2 (by decide) rfl rfl rfl)
  have r := r.step (.addFree _ 2 (by decide) rfl rfl)
  have r := r.step (.own _ 2 .ret (by decide) rfl)
  exact ⟨_, r, rfl, rfl, rfl, rfl, rfl, rfl, rfl⟩

/-- Finding.  `try_enter` can wait: once it has read the counter as 0 it retries with the value it
read, so it does not return while others have the mutex. -/
theorem c49_try_enter_waits :
    (∀ (c : Cfg) (n : Nat) (s s' : St) (t : Nat), Step c n s s' → s.pc t = .tryCas →
      s.counter ≠ 0 → s'.pc t = .tryCas) ∧
    ∃ s, Reach kmutex 2 s ∧ s.pc 1 = .tryCas ∧ Owns s 0 ∧ s.counter ≠ 0 := by
  constructor
  · intro c n s s' t st h h0
    have hall : ∀ (l : List Nat) (s : St), (s.runnableAll l).pc = s.pc := by
      intro l
      induction l with
      | nil => intro s; rfl
      | cons a l ih => intro s; exact ih (s.runnable a)
    have key : ∀ a p, s.pc a ≠ .tryCas → upd s.pc a p t = .tryCas := by
      intro a p ha
      have e : t ≠ a := by intro e; subst e; exact ha h
      rw [upd_other _ _ e]; exact h
    cases st with
    | tryCas a ha h' h0' => exact absurd h0' h0
    | signal a ha h' =>
      have : s.signal.pc = s.pc := by unfold St.signal; split <;> rfl
      rw [this]; exact h
    | broadcast a ha h' =>
      show (s.runnableAll s.waiters).pc t = _
      rw [hall]; exact h
    | expire a ha h' => exact h
    | enterSpin a ha h' | enterAdd a ha h' | enterPlain a ha h' | addFree a ha h' | addHeld a ha h'
    | push a ha h' | pushFull a ha h' | block a ha h' | nowrap a ha h' | tryEnter a ha h'
    | tryOwner a ha h' | tryOwn a ha h' | tryHeld a ha h' | tryFree a ha h' | exit a ha h'
    | wait a ha h' | cvBlock a ha h' | cvRemove a ha h' | timedWait a ha h' | cvSleep a ha h'
    | cvAwake a ha h' => exact key a _ (by rw [h']; nofun)
    | load a k ha h' | casOk a k ha h' | casFail a k ha h' | own a k ha h' =>
      exact key a _ (by rw [h']; nofun)
    | exitOwner a w ha h' | exitLast a w ha h' | exitMore a w ha h' | exitFree a w ha h' =>
      exact key a _ (by rw [h']; nofun)
    | exitPop a u ts w ha h' => exact key a _ (by rw [h']; nofun)
  · have r := Reach.init (c := kmutex) (n := 2)
    have r := r.step (.tryEnter _ 1 (by decide) rfl)
    have r := r.step (.tryOwner _ 1 (by decide) rfl nofun)
    have r := r.step (.tryFree _ 1 (by decide) rfl rfl)
    have r := r.step (.enterAdd _ 0 (by decide) rfl rfl rfl)
    have r := r.step (.addFree _ 0 (by decide) rfl rfl)
    have r := r.step (.own _ 0 .ret (by decide) rfl)
    exact ⟨_, r, rfl, rfl, by decide⟩

/-- Finding.  `enter` on a mutex made by `Mutex::new` (neither spinning nor a `kmutex`) panics. -/
theorem c49_plain_mutex_panics (cap : Nat) :
    ∃ s, Reach { spin := false, kmutex := false, cap := cap, timed := false } 1 s ∧
      s.pc 0 = .panic :=
  ⟨_, Reach.init.step (.enterPlain _ 0 (by decide) rfl rfl rfl), rfl⟩

/-- One owner and threads `1 .. k` on the list. -/
theorem reach_queue (cap n : Nat) : ∀ k, k ≤ cap → k < n →
    ∃ s, Reach { spin := false, kmutex := true, cap := cap, timed := false } n s ∧ Owns s 0 ∧
      s.waitlist.length = k ∧ s.counter ≠ 0 ∧ ∀ t, k < t → s.pc t = .idle
  | 0, _, hn => by
    have r := Reach.init (c := { spin := false, kmutex := true, cap := cap, timed := false }) (n := n)
    have r := r.step (.enterAdd _ 0 hn rfl rfl rfl)
    have r := r.step (.addFree _ 0 hn rfl rfl)
    have r := r.step (.own _ 0 .ret hn rfl)
    refine ⟨_, r, rfl, rfl, nofun, ?_⟩
    intro t ht
    have ht : t ≠ 0 := by omega
    show upd (upd (upd _ 0 _) 0 _) 0 _ t = _
    rw [upd_other _ _ ht, upd_other _ _ ht, upd_other _ _ ht]; rfl
  | k + 1, hk, hn => by
    obtain ⟨s, r, h1, h2, h3, h4⟩ := reach_queue cap n k (by omega) (by omega)
    have r := r.step (.enterAdd _ (k + 1) hn (h4 _ (by omega)) rfl rfl)
    have r := r.step (.addHeld _ (k + 1) hn (upd_same ..) h3)
    have r := r.step (.push _ (k + 1) hn (upd_same ..) (by show s.waitlist.length < cap; omega))
    refine ⟨_, r, ?_, ?_, ?_, ?_⟩
    · show upd (upd (upd s.pc (k + 1) .add) (k + 1) .push) (k + 1) .block 0 = _
      rw [upd_other _ _ (by omega), upd_other _ _ (by omega), upd_other _ _ (by omega)]; exact h1
    · show (s.waitlist ++ [k + 1]).length = k + 1
      rw [List.length_append, h2]; rfl
    · show s.counter + 1 ≠ 0
      omega
    · intro t ht
      show upd (upd (upd s.pc (k + 1) .add) (k + 1) .push) (k + 1) .block t = _
      rw [upd_other _ _ (by omega), upd_other _ _ (by omega), upd_other _ _ (by omega)]
      exact h4 t (by omega)

/-- Finding.  The wait list has room for `MAX_CORES` threads, not for all threads: with two threads
more than that (one owner and one too many) `enter` panics. -/
theorem c49_list_full (cap : Nat) :
    ∃ s t, Reach { spin := false, kmutex := true, cap := cap, timed := false } (cap + 2) s ∧
      s.pc t = .full := by
  obtain ⟨s, r, _, h2, h3, h4⟩ := reach_queue cap (cap + 2) cap (by omega) (by omega)
  have r := r.step (.enterAdd _ (cap + 1) (by omega) (h4 _ (by omega)) rfl rfl)
  have r := r.step (.addHeld _ (cap + 1) (by omega) (upd_same ..) h3)
  have r := r.step (.pushFull _ (cap + 1) (by omega) (upd_same ..)
    (by show cap ≤ s.waitlist.length; omega))
  exact ⟨_, cap + 1, r, upd_same ..⟩

end NRK.Lineup
