import Verif.Lineup.LockModel
import Verif.Sync.Count

/-!
# The invariant of the user-level mutex and condition variable (without timed waits)
-/

namespace NRK.Lineup

open NRK.Sync

/-- The thread has the mutex: it may be in its critical section, about to enter it or leaving. -/
def Pc.holds : Pc → Bool
  | .got _ | .crit | .exitOwner _ | .exitSub _ | .cvRemove => true
  | _ => false

/-- The thread hands the mutex over. -/
def Pc.hands : Pc → Bool
  | .exitPop _ => true
  | _ => false

/-- The thread is the recorded owner. -/
def Pc.owns : Pc → Bool
  | .crit | .exitOwner _ | .cvRemove => true
  | _ => false

/-- The thread is on its way to sleep in `CondVar::wait`, it still has the mutex or hands it
over. -/
def Pc.leaving : Pc → Bool
  | .exitOwner .wait | .exitSub .wait | .exitPop .wait => true
  | _ => false

/-- The thread counts in the counter, waiting for the mutex. -/
def wantsOf : Pc → Nat → Bool
  | .push, _ | .full, _ | .block, 0 => true
  | _, _ => false

/-- The thread has the mutex, or the mutex has been handed over to it and it has not run yet. -/
def hasOf : Pc → Nat → Bool
  | .block, 1 => true
  | p, _ => p.holds

def St.wants (s : St) (t : Nat) : Bool := wantsOf (s.pc t) (s.wakes t)

def St.has (s : St) (t : Nat) : Bool := hasOf (s.pc t) (s.wakes t)

/-- The program counters that only occur with timed waits. -/
def Pc.isTimed : Pc → Bool
  | .exitOwner .timed | .exitSub .timed | .exitPop .timed | .cvSleep | .cvAsleep => true
  | _ => false

structure Inv (n : Nat) (s : St) : Prop where
  /-- at most one thread has the mutex or hands it over -/
  uniq : ∀ t u, s.has t = true ∨ (s.pc t).hands = true → s.has u = true ∨ (s.pc u).hands = true →
    t = u
  /-- the counter -/
  count : s.counter = cnt n s.wants + cnt n s.has
  /-- somebody is responsible for the threads that wait -/
  resp : ∀ t, s.wants t = true → ∃ u, u < n ∧ (s.has u = true ∨ (s.pc u).hands = true)
  /-- the thread that hands over has somebody to hand over to -/
  handto : ∀ t, (s.pc t).hands = true → 0 < cnt n s.wants
  list : ∀ t, t ∈ s.waitlist ↔ s.pc t = .block ∧ s.wakes t = 0
  listNodup : s.waitlist.Nodup
  owner : ∀ t, s.owner = some t ↔ (s.pc t).owns = true
  one : ∀ t, s.wakes t ≤ 1
  woken : ∀ t, 0 < s.wakes t → s.pc t = .block ∨ s.pc t = .cvBlock
  waiters : ∀ t, t ∈ s.waiters ↔ (s.pc t).leaving = true ∨ (s.pc t = .cvBlock ∧ s.wakes t = 0)
  waitersNodup : s.waiters.Nodup
  timer : ∀ t, s.timer t = false
  untimed : ∀ t, (s.pc t).isTimed = false
  bound : ∀ t, n ≤ t → s.pc t = .idle

theorem Inv.init (n : Nat) : Inv n St.init := by
  constructor <;> simp [St.init, St.has, St.wants, hasOf, wantsOf, Pc.holds, Pc.hands, Pc.owns,
    Pc.leaving, Pc.isTimed]
  rw [cnt_none, cnt_none] <;> intros <;> simp [St.has, St.wants, hasOf, wantsOf, Pc.holds]

/-- A step that changes one thread. -/
theorem Inv.change {n : Nat} {s s' : St} (I : Inv n s) {t : Nat} (p : Pc) (w : Nat) (ht : t < n)
    (hpc : s'.pc = upd s.pc t p) (hwk : s'.wakes = upd s.wakes t w) (htm : s'.timer = s.timer)
    (hu : hasOf p w = true ∨ p.hands = true → (s.has t = true ∨ (s.pc t).hands = true) ∨
      ∀ u, s.has u = false ∧ (s.pc u).hands = false)
    (hc : s'.counter + (if s.wants t then 1 else 0) + (if s.has t then 1 else 0) =
      s.counter + (if wantsOf p w then 1 else 0) + (if hasOf p w then 1 else 0))
    (hr : (hasOf p w = true ∨ p.hands = true) ∨
      ((s.has t = false ∧ (s.pc t).hands = false) ∧
        (wantsOf p w = true → s.counter ≠ 0 ∨ s.wants t = true)) ∨
      (wantsOf p w = false ∧ ∀ u, u ≠ t → s.wants u = false))
    (hh : p.hands = true → s.wants t = false ∧ 0 < cnt n s.wants)
    (hh' : (∀ u, u ≠ t → (s.pc u).hands = false) ∨ (s.wants t = true → wantsOf p w = true))
    (hl : (s'.waitlist = s.waitlist ∧ ((s.pc t = .block ∧ s.wakes t = 0) ↔ (p = .block ∧ w = 0))) ∨
      (s'.waitlist = s.waitlist ++ [t] ∧ s.pc t ≠ .block ∧ (p = .block ∧ w = 0)))
    (ho : (s'.owner = s.owner ∧ (s.pc t).owns = p.owns) ∨
      (s'.owner = some t ∧ p.owns = true ∧ ∀ u, u ≠ t → (s.pc u).owns = false) ∨
      (s'.owner = none ∧ p.owns = false ∧ ∀ u, u ≠ t → (s.pc u).owns = false))
    (h1 : w ≤ 1) (hw : 0 < w → p = .block ∨ p = .cvBlock)
    (hws : (s'.waiters = s.waiters ∧ (((s.pc t).leaving = true ∨ (s.pc t = .cvBlock ∧ s.wakes t = 0)) ↔
        (p.leaving = true ∨ (p = .cvBlock ∧ w = 0)))) ∨
      (s'.waiters = s.waiters ++ [t] ∧
        ¬ ((s.pc t).leaving = true ∨ (s.pc t = .cvBlock ∧ s.wakes t = 0)) ∧ p.leaving = true))
    (hut : p.isTimed = false) : Inv n s' := by
  have hhas : ∀ u, u ≠ t → s'.has u = s.has u := fun u e => by
    simp only [St.has, hpc, hwk, upd_other _ _ e]
  have hwants : ∀ u, u ≠ t → s'.wants u = s.wants u := fun u e => by
    simp only [St.wants, hpc, hwk, upd_other _ _ e]
  have hhast : s'.has t = hasOf p w := by simp only [St.has, hpc, hwk, upd_same]
  have hwantst : s'.wants t = wantsOf p w := by simp only [St.wants, hpc, hwk, upd_same]
  have hpct : s'.pc t = p := by rw [hpc, upd_same]
  have hpco : ∀ u, u ≠ t → s'.pc u = s.pc u := fun u e => by rw [hpc, upd_other _ _ e]
  have hwkt : s'.wakes t = w := by rw [hwk, upd_same]
  have hwko : ∀ u, u ≠ t → s'.wakes u = s.wakes u := fun u e => by rw [hwk, upd_other _ _ e]
  have c1 := cnt_change (n := n) (p := s'.wants) (q := s.wants) t ht hwants
  have c2 := cnt_change (n := n) (p := s'.has) (q := s.has) t ht hhas
  rw [hwantst] at c1
  rw [hhast] at c2
  have hcount := I.count
  constructor
  · -- uniq
    intro a b ha hb
    by_cases ea : a = t
    · subst ea
      by_cases eb : b = a
      · exact eb.symm
      · rw [hhast, hpct] at ha
        rw [hhas b eb, hpco b eb] at hb
        rcases hu ha with h | h
        · exact I.uniq a b h hb
        · rw [(h b).1, (h b).2] at hb; simp at hb
    · rw [hhas a ea, hpco a ea] at ha
      by_cases eb : b = t
      · subst eb
        rw [hhast, hpct] at hb
        rcases hu hb with h | h
        · exact I.uniq a b ha h
        · rw [(h a).1, (h a).2] at ha; simp at ha
      · rw [hhas b eb, hpco b eb] at hb
        exact I.uniq a b ha hb
  · omega
  · -- resp
    intro a ha
    rcases hr with h | ⟨⟨h1, h2⟩, h3⟩ | ⟨h1, h2⟩
    · exact ⟨t, ht, by rw [hhast, hpct]; exact h⟩
    · have : ∃ u, u < n ∧ (s.has u = true ∨ (s.pc u).hands = true) := by
        by_cases e : a = t
        · subst e
          rw [hwantst] at ha
          rcases h3 ha with h | h
          · by_cases hw0 : 0 < cnt n s.has
            · obtain ⟨u, hu1, hu2⟩ := cnt_exists hw0
              exact ⟨u, hu1, .inl hu2⟩
            · obtain ⟨u, _, hu2⟩ := cnt_exists (n := n) (p := s.wants) (by omega)
              exact I.resp u hu2
          · exact I.resp a h
        · rw [hwants a e] at ha; exact I.resp a ha
      obtain ⟨u, hu1, hu2⟩ := this
      have e : u ≠ t := by
        intro e; subst e; rw [h1, h2] at hu2; simp at hu2
      exact ⟨u, hu1, by rw [hhas u e, hpco u e]; exact hu2⟩
    · by_cases e : a = t
      · subst e; rw [hwantst, h1] at ha; cases ha
      · rw [hwants a e, h2 a e] at ha; cases ha
  · -- handto
    intro a ha
    by_cases e : a = t
    · subst e
      rw [hpct] at ha
      obtain ⟨h, h'⟩ := hh ha
      rw [h] at c1
      simp only [Bool.false_eq_true, if_false] at c1
      omega
    · rw [hpco a e] at ha
      have h0 := I.handto a ha
      rcases hh' with h | h
      · rw [h a e] at ha; cases ha
      · by_cases hx : s.wants t = true
        · rw [hx, h hx] at c1; omega
        · simp only [hx] at c1; split at c1 <;> simp_all <;> omega
  · -- list
    intro a
    by_cases e : a = t
    · subst e
      rw [hpct, hwkt]
      rcases hl with ⟨h1, h2⟩ | ⟨h1, h2, h3⟩
      · rw [h1, I.list, h2]
      · rw [h1]; simp [h3]
    · rw [hpco a e, hwko a e]
      rcases hl with ⟨h1, h2⟩ | ⟨h1, h2, h3⟩
      · rw [h1, I.list]
      · rw [h1, List.mem_append, I.list]; simp [e]
  · rcases hl with ⟨h1, h2⟩ | ⟨h1, h2, h3⟩
    · rw [h1]; exact I.listNodup
    · rw [h1, List.nodup_append]
      refine ⟨I.listNodup, by simp, ?_⟩
      intro x hx y hy e
      rw [List.mem_singleton] at hy
      subst hy; subst e
      exact h2 ((I.list x).1 hx).1
  · -- owner
    intro a
    by_cases e : a = t
    · subst e
      rw [hpct]
      rcases ho with ⟨h1, h2⟩ | ⟨h1, h2, h3⟩ | ⟨h1, h2, h3⟩
      · rw [h1, I.owner, h2]
      · simp [h1, h2]
      · simp [h1, h2]
    · rw [hpco a e]
      rcases ho with ⟨h1, h2⟩ | ⟨h1, h2, h3⟩ | ⟨h1, h2, h3⟩
      · rw [h1, I.owner]
      · simp [h1, h3 a e, Ne.symm e]
      · simp [h1, h3 a e]
  · intro a
    by_cases e : a = t
    · subst e; rw [hwkt]; exact h1
    · rw [hwko a e]; exact I.one a
  · intro a
    by_cases e : a = t
    · subst e; rw [hwkt, hpct]; exact hw
    · rw [hwko a e, hpco a e]; exact I.woken a
  · -- waiters
    intro a
    by_cases e : a = t
    · subst e
      rw [hpct, hwkt]
      rcases hws with ⟨h1, h2⟩ | ⟨h1, h2, h3⟩
      · rw [h1, I.waiters, h2]
      · rw [h1]; simp [h3]
    · rw [hpco a e, hwko a e]
      rcases hws with ⟨h1, h2⟩ | ⟨h1, h2, h3⟩
      · rw [h1, I.waiters]
      · rw [h1, List.mem_append, I.waiters]; simp [e]
  · rcases hws with ⟨h1, h2⟩ | ⟨h1, h2, h3⟩
    · rw [h1]; exact I.waitersNodup
    · rw [h1, List.nodup_append]
      refine ⟨I.waitersNodup, by simp, ?_⟩
      intro x hx y hy e
      rw [List.mem_singleton] at hy
      subst hy; subst e
      exact h2 ((I.waiters x).1 hx)
  · rw [htm]; exact I.timer
  · intro a
    by_cases e : a = t
    · subst e; rw [hpct]; exact hut
    · rw [hpco a e]; exact I.untimed a
  · intro a ha
    have : a ≠ t := by omega
    rw [hpco a this]; exact I.bound a ha

theorem Inv.wakes_zero {n : Nat} {s : St} (I : Inv n s) {t : Nat} (h1 : s.pc t ≠ .block)
    (h2 : s.pc t ≠ .cvBlock) : s.wakes t = 0 := by
  rcases Nat.eq_zero_or_pos (s.wakes t) with h | h
  · exact h
  · rcases I.woken t h with h | h
    · exact absurd h h1
    · exact absurd h h2

/-- A step of a thread that is not asleep: the classes are those of the program counters. -/
theorem Inv.change0 {n : Nat} {s s' : St} (I : Inv n s) {t : Nat} (q p : Pc) (ht : t < n)
    (h : s.pc t = q) (hb : q ≠ .block) (hcb : q ≠ .cvBlock)
    (hpc : s'.pc = upd s.pc t p) (hwk : s'.wakes = s.wakes) (htm : s'.timer = s.timer)
    (hu : hasOf p 0 = true ∨ p.hands = true → (hasOf q 0 = true ∨ q.hands = true) ∨
      s.counter = 0)
    (hc : s'.counter + (if wantsOf q 0 then 1 else 0) + (if hasOf q 0 then 1 else 0) =
      s.counter + (if wantsOf p 0 then 1 else 0) + (if hasOf p 0 then 1 else 0))
    (hr : (hasOf p 0 = true ∨ p.hands = true) ∨
      ((hasOf q 0 = false ∧ q.hands = false) ∧
        (wantsOf p 0 = true → s.counter ≠ 0 ∨ wantsOf q 0 = true)) ∨
      (wantsOf p 0 = false ∧ s.counter = 1 ∧ hasOf q 0 = true))
    (hh : p.hands = true → wantsOf q 0 = false ∧ 1 < s.counter ∧ hasOf q 0 = true)
    (hh' : wantsOf q 0 = true → wantsOf p 0 = true)
    (hl : (s'.waitlist = s.waitlist ∧ p ≠ .block) ∨
      (s'.waitlist = s.waitlist ++ [t] ∧ p = .block))
    (ho : (s'.owner = s.owner ∧ q.owns = p.owns) ∨
      (s'.owner = some t ∧ p.owns = true ∧ hasOf q 0 = true) ∨
      (s'.owner = none ∧ p.owns = false ∧ hasOf q 0 = true))
    (hws : (s'.waiters = s.waiters ∧ (q.leaving = true ↔ (p.leaving = true ∨ p = .cvBlock))) ∨
      (s'.waiters = s.waiters ++ [t] ∧ q.leaving = false ∧ p.leaving = true))
    (hut : p.isTimed = false) : Inv n s' := by
  have w0 : s.wakes t = 0 := I.wakes_zero (by rw [h]; exact hb) (by rw [h]; exact hcb)
  have e1 : s.has t = hasOf q 0 := by rw [St.has, h, w0]
  have e2 : s.wants t = wantsOf q 0 := by rw [St.wants, h, w0]
  have hown : ∀ r : Pc, ∀ w, r.owns = true → hasOf r w = true := by
    intro r w; cases r <;> simp [Pc.owns, hasOf, Pc.holds]
  have honly : hasOf q 0 = true → ∀ u, u ≠ t → s.has u = false ∧ (s.pc u).hands = false := by
    intro hq u hut
    have := I.uniq u t
    constructor
    · cases hx : s.has u with
      | false => rfl
      | true => exact absurd (this (.inl hx) (.inl (by rw [e1, hq]))) hut
    · cases hx : (s.pc u).hands with
      | false => rfl
      | true => exact absurd (this (.inr hx) (.inl (by rw [e1, hq]))) hut
  have honce : hasOf q 0 = true → cnt n s.has = 1 := by
    intro hq
    have := cnt_change (n := n) (p := s.has) (q := fun _ => false) t ht
      (fun u e => (honly hq u e).1)
    rw [e1, hq, cnt_none (p := fun _ => false) (fun _ _ => rfl)] at this
    simpa using this
  have hout : ∀ u, n ≤ u → s.has u = false ∧ (s.pc u).hands = false ∧ s.wants u = false := by
    intro u hu
    have hi := I.bound u hu
    have := I.wakes_zero (t := u) (by rw [hi]; nofun) (by rw [hi]; nofun)
    simp [St.has, St.wants, hi, this, hasOf, wantsOf, Pc.holds, Pc.hands]
  have hcount := I.count
  refine I.change p 0 ht hpc ?_ htm ?_ ?_ ?_ ?_ ?_ ?_ ?_ ?_ ?_ ?_ hut
  · rw [hwk]; funext u; by_cases e : u = t
    · subst e; rw [upd_same, w0]
    · rw [upd_other _ _ e]
  · intro hp
    rcases hu hp with hq | h0
    · left; rw [e1, h]; exact hq
    · right; intro u
      by_cases hun : u < n
      · have hz : s.has u = false := cnt_eq_zero (p := s.has) (by omega) hun
        refine ⟨hz, ?_⟩
        cases hx : (s.pc u).hands with
        | false => rfl
        | true => have := I.handto u hx; omega
      · exact ⟨(hout u (by omega)).1, (hout u (by omega)).2.1⟩
  · rw [e1, e2]; exact hc
  · rw [e1, e2, h]
    rcases hr with h | h | ⟨h1, h2, h3⟩
    · exact .inl h
    · exact .inr (.inl h)
    · refine .inr (.inr ⟨h1, ?_⟩)
      intro u hut
      have := honce h3
      by_cases hun : u < n
      · exact cnt_eq_zero (p := s.wants) (by omega) hun
      · exact (hout u (by omega)).2.2
  · intro hp
    obtain ⟨h1, h2, h3⟩ := hh hp
    have := honce h3
    exact ⟨by rw [e2]; exact h1, by omega⟩
  · rw [e2]; exact .inr hh'
  · rw [h, w0]
    rcases hl with ⟨h1, h2⟩ | ⟨h1, h2⟩
    · left; exact ⟨h1, ⟨fun x => absurd x.1 hb, fun x => absurd x.1 h2⟩⟩
    · right; exact ⟨h1, hb, h2, rfl⟩
  · rw [h]
    rcases ho with h1 | ⟨h1, h2, h3⟩ | ⟨h1, h2, h3⟩
    · exact .inl h1
    · refine .inr (.inl ⟨h1, h2, fun u e => ?_⟩)
      cases hx : (s.pc u).owns with
      | false => rfl
      | true =>
        have hz := (honly h3 u e).1
        rw [St.has, hown _ _ hx] at hz; cases hz
    · refine .inr (.inr ⟨h1, h2, fun u e => ?_⟩)
      cases hx : (s.pc u).owns with
      | false => rfl
      | true =>
        have hz := (honly h3 u e).1
        rw [St.has, hown _ _ hx] at hz; cases hz
  · omega
  · intro; omega
  · rw [h, w0]
    rcases hws with ⟨h1, h2⟩ | ⟨h1, h2, h3⟩
    · left; refine ⟨h1, ?_⟩; simp [hcb, h2]
    · right; refine ⟨h1, ?_, h3⟩; simp [hcb, h2]

/-- Giving a queue entry to sleeping threads of the condition variable. -/
theorem Inv.wake_waiter {n : Nat} {s : St} (I : Inv n s) (us ts : List Nat) (u : Nat)
    (hl : s.waiters = us ++ u :: ts) (hn : ∀ t, (s.pc t).leaving = false) :
    Inv n { s.runnable u with waiters := us ++ ts } := by
  have hmem : u ∈ s.waiters := by rw [hl]; simp
  have hub : s.pc u = .cvBlock ∧ s.wakes u = 0 := by
    rcases (I.waiters u).1 hmem with h | h
    · rw [hn u] at h; cases h
    · exact h
  have hun : u < n := by
    rcases Nat.lt_or_ge u n with h | h
    · exact h
    · rw [I.bound u h] at hub; simp at hub
  have hnd := I.waitersNodup
  rw [hl, List.nodup_append, List.nodup_cons] at hnd
  have hun' : u ∉ us ++ ts := by
    rw [List.mem_append]; rintro (h | h)
    · exact hnd.2.2 u h u (by simp) rfl
    · exact hnd.2.1.1 h
  have hmem' : ∀ a, a ∈ us ++ ts ↔ a ∈ s.waiters ∧ a ≠ u := by
    intro a
    rw [hl]
    constructor
    · intro h
      refine ⟨?_, fun e => hun' (e ▸ h)⟩
      simp only [List.mem_append, List.mem_cons] at h ⊢
      rcases h with h | h
      · exact .inl h
      · exact .inr (.inr h)
    · rintro ⟨h, e⟩
      simp only [List.mem_append, List.mem_cons] at h ⊢
      rcases h with h | h | h
      · exact .inl h
      · exact absurd h e
      · exact .inr h
  have hhas : ∀ a, St.has { s.runnable u with waiters := us ++ ts } a = s.has a := by
    intro a
    by_cases e : a = u
    · subst e
      show hasOf (s.pc a) (upd s.wakes a (s.wakes a + 1) a) = hasOf (s.pc a) (s.wakes a)
      rw [hub.1]; rfl
    · show hasOf (s.pc a) (upd s.wakes u (s.wakes u + 1) a) = hasOf (s.pc a) (s.wakes a)
      rw [upd_other _ _ e]
  have hwants : ∀ a, St.wants { s.runnable u with waiters := us ++ ts } a = s.wants a := by
    intro a
    by_cases e : a = u
    · subst e
      show wantsOf (s.pc a) (upd s.wakes a (s.wakes a + 1) a) = wantsOf (s.pc a) (s.wakes a)
      rw [hub.1]; rfl
    · show wantsOf (s.pc a) (upd s.wakes u (s.wakes u + 1) a) = wantsOf (s.pc a) (s.wakes a)
      rw [upd_other _ _ e]
  constructor
  · intro a b; rw [hhas, hhas]; exact I.uniq a b
  · rw [cnt_congr (q := s.wants) fun a _ => hwants a, cnt_congr (q := s.has) fun a _ => hhas a]
    exact I.count
  · intro a ha; rw [hwants] at ha
    obtain ⟨b, h1, h2⟩ := I.resp a ha
    exact ⟨b, h1, by rw [hhas]; exact h2⟩
  · intro a ha
    rw [cnt_congr (q := s.wants) fun a _ => hwants a]
    exact I.handto a ha
  · intro a
    show a ∈ s.waitlist ↔ s.pc a = .block ∧ upd s.wakes u (s.wakes u + 1) a = 0
    by_cases e : a = u
    · subst e; rw [I.list, hub.1]; simp
    · rw [upd_other _ _ e]; exact I.list a
  · exact I.listNodup
  · exact I.owner
  · intro a
    show upd s.wakes u (s.wakes u + 1) a ≤ 1
    by_cases e : a = u
    · subst e; rw [upd_same, hub.2]; omega
    · rw [upd_other _ _ e]; exact I.one a
  · intro a
    show 0 < upd s.wakes u (s.wakes u + 1) a → _
    by_cases e : a = u
    · subst e; exact fun _ => .inr hub.1
    · rw [upd_other _ _ e]; exact I.woken a
  · intro a
    show a ∈ us ++ ts ↔ (s.pc a).leaving = true ∨
      (s.pc a = .cvBlock ∧ upd s.wakes u (s.wakes u + 1) a = 0)
    rw [hmem', I.waiters]
    by_cases e : a = u
    · subst e; rw [upd_same, hub.1]; simp [Pc.leaving]
    · rw [upd_other _ _ e]; simp [e]
  · show (us ++ ts).Nodup
    rw [List.nodup_append]
    exact ⟨hnd.1, hnd.2.1.2, fun x hx y hy => hnd.2.2 x hx y (List.mem_cons_of_mem _ hy)⟩
  · intro a
    show upd s.timer u false a = false
    by_cases e : a = u
    · subst e; rw [upd_same]
    · rw [upd_other _ _ e]; exact I.timer a
  · exact I.untimed
  · exact I.bound

theorem Inv.wake_all {n : Nat} : ∀ (ts : List Nat) {s : St}, Inv n s → s.waiters = ts →
    (∀ t, (s.pc t).leaving = false) → Inv n { s.runnableAll ts with waiters := [] }
  | [], s, I, hl, _ => by
    have : { s.runnableAll [] with waiters := [] } = s := by
      cases s; simp only at hl; subst hl; rfl
    rw [this]; exact I
  | u :: ts, s, I, hl, hn => by
    have h1 := I.wake_waiter [] ts u hl hn
    have h2 := Inv.wake_all ts h1 rfl hn
    have e : ∀ (l : List Nat) (s : St) (w : List Nat),
        ({ s with waiters := w } : St).runnableAll l = { s.runnableAll l with waiters := w } := by
      intro l
      induction l with
      | nil => intro s w; rfl
      | cons a l ih => intro s w; exact ih (s.runnable a) w
    rw [e] at h2
    exact h2

/-- `signal` when there are waiters. -/
theorem St.signal_snoc {s : St} {us : List Nat} {u : Nat} (h : s.waiters = us ++ [u]) :
    s.signal = { s.runnable u with waiters := us } := by
  simp [St.signal, h]

theorem St.signal_nil {s : St} (h : s.waiters = []) : s.signal = s := by
  simp [St.signal, h]

theorem Inv.signal {n : Nat} {s : St} (I : Inv n s) (hn : ∀ t, (s.pc t).leaving = false) :
    Inv n s.signal := by
  rcases List.eq_nil_or_concat s.waiters with h | ⟨us, u, h⟩
  · rw [St.signal_nil h]; exact I
  · rw [List.concat_eq_append] at h
    have := I.wake_waiter us [] u h hn
    rw [List.append_nil] at this
    rw [St.signal_snoc h]
    exact this

/-- While a thread owns the mutex no other is on its way to sleep in `CondVar::wait`. -/
theorem Inv.none_leaving {n : Nat} {s : St} (I : Inv n s) {t : Nat} (ht : t < n)
    (h : s.pc t = .crit) (u : Nat) : (s.pc u).leaving = false := by
  cases hx : (s.pc u).leaving with
  | false => rfl
  | true =>
    have hh : s.has u = true ∨ (s.pc u).hands = true := by
      cases hp : s.pc u <;> rw [hp] at hx <;> simp_all [St.has, hasOf, Pc.leaving, Pc.holds, Pc.hands]
    have := I.uniq t u (.inl (by simp [St.has, h, hasOf, Pc.holds])) hh
    subst this; rw [h] at hx; cases hx

/-- The mutex is handed over. -/
theorem Inv.pop {n : Nat} {s : St} (I : Inv n s) {t u : Nat} {ts : List Nat} (w : Why)
    (ht : t < n) (h : s.pc t = .exitPop w) (hl : s.waitlist = u :: ts) :
    Inv n { s.runnable u with waitlist := ts, pc := upd s.pc t w.next } := by
  have hu : s.pc u = .block ∧ s.wakes u = 0 := (I.list u).1 (by rw [hl]; simp)
  have hun : u < n := by
    rcases Nat.lt_or_ge u n with h | h
    · exact h
    · rw [I.bound u h] at hu; simp at hu
  have hut : u ≠ t := by intro e; rw [e, h] at hu; simp at hu
  have hwt : s.wakes t = 0 := I.wakes_zero (by rw [h]; nofun) (by rw [h]; nofun)
  have hwd : w ≠ .timed := by
    intro e; have := I.untimed t; rw [h, e] at this; cases this
  have hno : ∀ a, s.has a = false := by
    intro a
    cases hx : s.has a with
    | false => rfl
    | true =>
      have := I.uniq a t (.inl hx) (.inr (by rw [h]; rfl))
      subst this
      rw [St.has, h] at hx; cases hx
  have hnh : ∀ a, a ≠ t → (s.pc a).hands = false := by
    intro a e
    cases hx : (s.pc a).hands with
    | false => rfl
    | true => exact absurd (I.uniq a t (.inr hx) (.inr (by rw [h]; rfl))) e
  have hnd := I.listNodup
  rw [hl, List.nodup_cons] at hnd
  generalize hs' : ({ s.runnable u with waitlist := ts, pc := upd s.pc t w.next } : St) = s'
  have hpct : s'.pc t = w.next := by rw [← hs']; exact upd_same ..
  have hpco : ∀ a, a ≠ t → s'.pc a = s.pc a := fun a e => by rw [← hs']; exact upd_other _ _ e
  have hwku : s'.wakes u = 1 := by
    rw [← hs']; show upd s.wakes u (s.wakes u + 1) u = 1; rw [upd_same, hu.2]
  have hwko : ∀ a, a ≠ u → s'.wakes a = s.wakes a := fun a e => by
    rw [← hs']; exact upd_other _ _ e
  have hhu : s'.has u = true := by rw [St.has, hpco u hut, hu.1, hwku]; rfl
  have hho : ∀ a, a ≠ u → s'.has a = false := by
    intro a e
    by_cases e' : a = t
    · subst e'; rw [St.has, hpct]; cases w <;> rfl
    · have := hno a; rw [St.has] at this ⊢; rw [hpco a e', hwko a e]; exact this
  have hwu : s'.wants u = false := by rw [St.wants, hpco u hut, hu.1, hwku]; rfl
  have hwu0 : s.wants u = true := by rw [St.wants, hu.1, hu.2]; rfl
  have hwo : ∀ a, a ≠ u → s'.wants a = s.wants a := by
    intro a e
    by_cases e' : a = t
    · subst e'; rw [St.wants, St.wants, hpct, h]; cases w <;> rfl
    · rw [St.wants, St.wants, hpco a e', hwko a e]
  have hnh' : ∀ a, (s'.pc a).hands = false := by
    intro a
    by_cases e' : a = t
    · subst e'; rw [hpct]; cases w <;> rfl
    · rw [hpco a e']; exact hnh a e'
  have c1 := cnt_change (n := n) (p := s'.wants) (q := s.wants) u hun hwo
  have c2 := cnt_change (n := n) (p := s'.has) (q := s.has) u hun
    (fun a e => by rw [hho a e, hno a])
  rw [hwu, hwu0] at c1
  rw [hhu, hno u] at c2
  simp only [if_true, Bool.false_eq_true, if_false] at c1 c2
  have e1 : s'.counter = s.counter := by rw [← hs']; rfl
  have e2 : s'.waitlist = ts := by rw [← hs']
  have e3 : s'.owner = s.owner := by rw [← hs']; rfl
  have e4 : s'.waiters = s.waiters := by rw [← hs']; rfl
  have e5 : s'.timer = upd s.timer u false := by rw [← hs']; rfl
  constructor
  · intro a b ha hb
    rw [hnh' a] at ha
    rw [hnh' b] at hb
    have ea : a = u := by
      by_cases e : a = u
      · exact e
      · rw [hho a e] at ha; simp at ha
    have eb : b = u := by
      by_cases e : b = u
      · exact e
      · rw [hho b e] at hb; simp at hb
    rw [ea, eb]
  · have := I.count; rw [e1]; omega
  · intro a _; exact ⟨u, hun, .inl hhu⟩
  · intro a ha; rw [hnh' a] at ha; cases ha
  · intro a
    rw [e2]
    have hla := I.list a
    rw [hl, List.mem_cons] at hla
    by_cases e : a = u
    · subst e; rw [hwku]
      simp [hnd.1]
    · rw [hwko a e]
      by_cases e' : a = t
      · subst e'; rw [hpct]
        rw [h] at hla
        constructor
        · intro hm; have := hla.1 (.inr hm); simp at this
        · cases w <;> simp [Why.next]
      · rw [hpco a e', ← hla]; simp [e]
  · rw [e2]; exact hnd.2
  · intro a
    rw [e3, I.owner]
    by_cases e' : a = t
    · subst e'; rw [hpct, h]; cases w <;> simp [Why.next, Pc.owns]
    · rw [hpco a e']
  · intro a
    by_cases e : a = u
    · subst e; rw [hwku]; omega
    · rw [hwko a e]; exact I.one a
  · intro a ha
    by_cases e : a = u
    · subst e; rw [hpco a hut]; exact .inl hu.1
    · rw [hwko a e] at ha
      by_cases e' : a = t
      · subst e'; omega
      · rw [hpco a e']; exact I.woken a ha
  · intro a
    rw [e4, I.waiters]
    by_cases e : a = u
    · subst e; rw [hpco a hut, hu.1]; simp [Pc.leaving]
    · rw [hwko a e]
      by_cases e' : a = t
      · subst e'; rw [hpct, h, hwt]; cases w <;> simp [Why.next, Pc.leaving] at hwd ⊢
      · rw [hpco a e']
  · rw [e4]; exact I.waitersNodup
  · intro a; rw [e5]
    by_cases e : a = u
    · subst e; rw [upd_same]
    · rw [upd_other _ _ e]; exact I.timer a
  · intro a
    by_cases e' : a = t
    · subst e'; rw [hpct]; cases w <;> simp [Why.next, Pc.isTimed] at hwd ⊢
    · rw [hpco a e']; exact I.untimed a
  · intro a ha
    rw [hpco a (by omega)]; exact I.bound a ha

theorem Inv.step {c : Cfg} {n : Nat} {s s' : St} (I : Inv n s) (hc : c.timed = false)
    (st : Step c n s s') : Inv n s' := by
  have hunt := I.untimed
  cases st with
  | enterSpin t ht h hs =>
    apply I.change0 _ (.load .ret) ht h <;> simp [hasOf, wantsOf, Pc.holds, Pc.hands, Pc.owns, Pc.leaving, Pc.isTimed]
  | enterAdd t ht h hs hk =>
    apply I.change0 _ .add ht h <;> simp [hasOf, wantsOf, Pc.holds, Pc.hands, Pc.owns, Pc.leaving, Pc.isTimed]
  | enterPlain t ht h hs hk =>
    apply I.change0 _ .panic ht h <;> simp [hasOf, wantsOf, Pc.holds, Pc.hands, Pc.owns, Pc.leaving, Pc.isTimed]
  | addFree t ht h h0 =>
    apply I.change0 _ (.got .ret) ht h <;> simp [hasOf, wantsOf, Pc.holds, Pc.hands, Pc.owns, Pc.leaving, Pc.isTimed, h0]
  | addHeld t ht h h0 =>
    apply I.change0 _ .push ht h <;> simp [hasOf, wantsOf, Pc.holds, Pc.hands, Pc.owns, Pc.leaving, Pc.isTimed, h0]
  | push t ht h hl =>
    apply I.change0 _ .block ht h <;> simp [hasOf, wantsOf, Pc.holds, Pc.hands, Pc.owns, Pc.leaving, Pc.isTimed]
  | pushFull t ht h hl =>
    apply I.change0 _ .full ht h <;> simp [hasOf, wantsOf, Pc.holds, Pc.hands, Pc.owns, Pc.leaving, Pc.isTimed]
  | block t ht h hw =>
    have h1 : s.wakes t = 1 := by have := I.one t; omega
    apply I.change (.got .ret) 0 ht <;>
      simp [St.has, St.wants, h, h1, hasOf, wantsOf, Pc.holds, Pc.hands, Pc.owns, Pc.leaving, Pc.isTimed]
  | nowrap t ht h =>
    apply I.change0 _ (.load .ret) ht h <;> simp [hasOf, wantsOf, Pc.holds, Pc.hands, Pc.owns, Pc.leaving, Pc.isTimed]
  | load t k ht h h0 =>
    apply I.change0 _ (.cas k) ht h <;> simp [hasOf, wantsOf, Pc.holds, Pc.hands, Pc.owns, Pc.leaving, Pc.isTimed]
  | casOk t k ht h h0 =>
    apply I.change0 _ (.got k) ht h <;> simp [hasOf, wantsOf, Pc.holds, Pc.hands, Pc.owns, Pc.leaving, Pc.isTimed, h0]
  | casFail t k ht h h0 =>
    apply I.change0 _ (.load k) ht h <;> simp [hasOf, wantsOf, Pc.holds, Pc.hands, Pc.owns, Pc.leaving, Pc.isTimed]
  | tryEnter t ht h =>
    apply I.change0 _ .tryOwner ht h <;> simp [hasOf, wantsOf, Pc.holds, Pc.hands, Pc.owns, Pc.leaving, Pc.isTimed]
  | tryOwner t ht h ho =>
    apply I.change0 _ .tryLoad ht h <;> simp [hasOf, wantsOf, Pc.holds, Pc.hands, Pc.owns, Pc.leaving, Pc.isTimed]
  | tryOwn t ht h ho =>
    apply I.change0 _ .panic ht h <;> simp [hasOf, wantsOf, Pc.holds, Pc.hands, Pc.owns, Pc.leaving, Pc.isTimed]
  | tryHeld t ht h h0 =>
    apply I.change0 _ .idle ht h <;> simp [hasOf, wantsOf, Pc.holds, Pc.hands, Pc.owns, Pc.leaving, Pc.isTimed]
  | tryFree t ht h h0 =>
    apply I.change0 _ .tryCas ht h <;> simp [hasOf, wantsOf, Pc.holds, Pc.hands, Pc.owns, Pc.leaving, Pc.isTimed]
  | tryCas t ht h h0 =>
    apply I.change0 _ (.got .ret) ht h <;> simp [hasOf, wantsOf, Pc.holds, Pc.hands, Pc.owns, Pc.leaving, Pc.isTimed, h0]
  | own t k ht h =>
    apply I.change0 _ k.next ht h <;> cases k <;> simp [hasOf, wantsOf, Pc.holds, Pc.hands, Pc.owns, Pc.leaving, Pc.isTimed, Then.next]
  | exit t ht h =>
    apply I.change0 _ (.exitOwner .unlock) ht h <;> simp [hasOf, wantsOf, Pc.holds, Pc.hands, Pc.owns, Pc.leaving, Pc.isTimed]
  | exitOwner t w ht h =>
    have hw := hunt t
    rw [h] at hw
    apply I.change0 _ (.exitSub w) ht h <;> cases w <;> simp_all [hasOf, wantsOf, Pc.holds, Pc.hands, Pc.owns, Pc.leaving, Pc.isTimed]
  | exitLast t w ht h h0 =>
    have hw := hunt t
    rw [h] at hw
    apply I.change0 _ w.next ht h <;> cases w <;> simp_all [hasOf, wantsOf, Pc.holds, Pc.hands, Pc.owns, Pc.leaving, Pc.isTimed, Why.next]
  | exitMore t w ht h h0 =>
    have hw := hunt t
    rw [h] at hw
    apply I.change0 _ (.exitPop w) ht h <;> cases w <;> simp_all [hasOf, wantsOf, Pc.holds, Pc.hands, Pc.owns, Pc.leaving, Pc.isTimed] <;> omega
  | exitFree t w ht h h0 =>
    exfalso
    have h1 : s.has t = true := by
      have hz := I.wakes_zero (t := t) (by rw [h]; nofun) (by rw [h]; nofun)
      simp [St.has, h, hz, hasOf, Pc.holds]
    have := cnt_pos ht h1
    have := I.count
    omega
  | exitPop t u ts w ht h hl => exact I.pop w ht h hl
  | wait t ht h =>
    apply I.change0 _ (.exitOwner .wait) ht h <;> simp [hasOf, wantsOf, Pc.holds, Pc.hands, Pc.owns, Pc.leaving, Pc.isTimed]
  | cvBlock t ht h hw =>
    have h1 : s.wakes t = 1 := by have := I.one t; omega
    apply I.change (.load .cv) 0 ht <;>
      simp [St.has, St.wants, h, h1, hasOf, wantsOf, Pc.holds, Pc.hands, Pc.owns, Pc.leaving, Pc.isTimed]
  | cvRemove t ht h =>
    have hn : s.waiters.erase t = s.waiters :=
      List.erase_of_not_mem (by rw [I.waiters, h]; simp [Pc.leaving])
    apply I.change0 _ .crit ht h <;> simp [hasOf, wantsOf, Pc.holds, Pc.hands, Pc.owns, Pc.leaving, Pc.isTimed, hn]
  | timedWait t ht h h0 => rw [hc] at h0; cases h0
  | cvSleep t ht h => have := hunt t; rw [h] at this; cases this
  | expire t ht h => rw [I.timer t] at h; cases h
  | cvAwake t ht h hw => have := hunt t; rw [h] at this; cases this
  | signal t ht h => exact I.signal (I.none_leaving ht h)
  | broadcast t ht h => exact I.wake_all _ rfl (I.none_leaving ht h)

theorem Reach.inv {c : Cfg} {n : Nat} {s : St} (hc : c.timed = false) (r : Reach c n s) :
    Inv n s := by
  induction r with
  | init => exact Inv.init n
  | step _ st ih => exact ih.step hc st

end NRK.Lineup
