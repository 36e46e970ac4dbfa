import Verif.Rump.VcpuLemmas

/-!
# C101: threads that wait give up their virtual CPU and get it back
-/

namespace NRK.Rump.Vcpu
open Spec

/-- The part of `c101_back` for a condition variable. -/
theorem cvWait_acts {m : Mutex} {timed : Bool} {n : Nat} {l : List Act} (h : m.cvWait timed n = .ok l) (x : Th) (d : Nat)
    (hc : x.cpu = some d) (hm : m.id ∈ x.has) :
    ∃ y, x.acts l = .ok y ∧ y.cpu = some d ∧ y.has = m.id :: x.has.erase m.id := by
  obtain ⟨cpu, rid, has⟩ := x
  cases hc
  have hm : m.id ∈ has := hm
  obtain ⟨w, hw, ⟨_, _, rfl⟩ | ⟨_, _, rfl⟩⟩ := cvWait_cases h
  · refine ⟨⟨some d, d, m.id :: has.erase m.id⟩, ?_, rfl, rfl⟩
    rcases hw with rfl | rfl <;>
      (rw [acts_append]; simp [Th.acts, Th.act, hm, acts_nowrap'])
  · refine ⟨⟨some d, d, m.id :: has.erase m.id⟩, ?_, rfl, rfl⟩
    rcases hw with rfl | rfl <;>
      (rw [acts_append]; simp [Th.acts, Th.act, hm, acts_nowrap])

/-- **C101** Whatever other threads do, a hypercall that returns leaves the thread with a virtual CPU and with the big lock
as often as before, and with the mutexes that the call is about. -/
theorem c101_back (c : Call) (l : List Act) (h : c.acts = .ok l) (x : Th) (d : Nat) (hc : x.cpu = some d)
    (ha : Allowed x.has c) :
    ∃ y, x.acts l = .ok y ∧ y.cpu = some d ∧ y.has.Perm (mutexes x.has c) := by
  cases c with
  | mutexEnter m held n =>
    obtain ⟨y, h1, h2, h3⟩ := enter_acts h x d hc
    exact ⟨y, h1, h2, h3 ▸ .refl _⟩
  | mutexEnterNowrap m n =>
    cases h
    exact ⟨_, acts_nowrap' m n x, hc, .refl _⟩
  | mutexTryEnter m held =>
    cases h
    cases held
    · exact ⟨_, rfl, hc, .refl _⟩
    · exact ⟨x, rfl, hc, .refl _⟩
  | mutexExit m =>
    cases h
    have ha : m.id ∈ x.has := ha
    exact ⟨{ x with has := x.has.erase m.id }, by simp [Th.acts, Th.act, ha], hc, .refl _⟩
  | cvWait m timed n =>
    obtain ⟨y, h1, h2, h3⟩ := cvWait_acts h x d hc ha
    exact ⟨y, h1, h2, h3 ▸ (List.perm_cons_erase ha).symm⟩
  | rwEnter w a first hw hA =>
    have ha : w ≠ a := ha
    have h : Vcpu.rwEnter w a first hw hA = .ok l := h
    unfold Vcpu.rwEnter at h
    cases h1 : (rwMutex w).enter hw 0 with
    | err e => rw [h1] at h; cases h
    | panic => rw [h1] at h; cases h
    | ok k1 =>
      cases h2 : (rwMutex a).enter hA 0 with
      | err e => rw [h1, h2] at h; cases h
      | panic => rw [h1, h2] at h; cases h
      | ok k2 =>
        rw [h1, h2] at h
        cases h
        obtain ⟨y, e1, c1, m1⟩ := enter_acts h1 x d hc
        have m1 : y.has = w :: x.has := m1
        cases first
        · refine ⟨{ y with has := x.has }, ?_, c1, .refl _⟩
          rw [acts_append, acts_append, e1]
          simp [Th.acts, Th.act, m1]
        · obtain ⟨z, e2, c2, m2⟩ := enter_acts h2 y d c1
          have m2 : z.has = a :: y.has := m2
          refine ⟨{ z with has := a :: x.has }, ?_, c2, .refl _⟩
          rw [acts_append, acts_append, e1]
          simp only [if_true]
          rw [e2]
          simp [Th.acts, Th.act, m2, m1, Ne.symm ha]
  | rwExit a last =>
    cases h
    cases last
    · exact ⟨x, rfl, hc, .refl _⟩
    · have ha : a ∈ x.has := ha rfl
      exact ⟨{ x with has := x.has.erase a }, by simp [Th.acts, Th.act, ha], hc, .refl _⟩
  | clockSleep a p =>
    have h : Vcpu.clockSleep a p = .ok l := h
    unfold Vcpu.clockSleep at h
    cases hp : (a && p) <;> rw [hp] at h
    · cases h
      obtain ⟨cpu, rid, has⟩ := x
      cases hc
      exact ⟨⟨some d, d, has⟩, by simp [Th.acts, Th.act], rfl, .refl _⟩
    · cases h

/-- **C101** While a thread waits in a hypercall, until another wakes it up or time has passed, it has no virtual CPU. -/
theorem c101_gives_up (c : Call) (l : List Act) (h : c.acts = .ok l) (x : Th) :
    ∀ p ∈ x.trace l, Waits p.1 → p.2.cpu = none := by
  show Quiet x l
  have one : ∀ {a : Act} {x : Th}, ¬ Waits a → Quiet x [a] := fun na =>
    quiet_cons.2 ⟨fun w => absurd w na, fun y _ => quiet_nil y⟩
  cases c with
  | mutexEnter m held n => exact enter_quiet h x
  | mutexEnterNowrap m n => cases h; exact quiet_nowrap'
  | mutexTryEnter m held =>
    cases h; cases held
    · exact one (not_waits (by simp) (by simp))
    · exact quiet_nil x
  | mutexExit m => cases h; exact one (not_waits (by simp) (by simp))
  | cvWait m timed n =>
    obtain ⟨w, hw, e⟩ := cvWait_cases h
    have key : ∀ k, (∀ y : Th, Quiet y k) →
        Quiet x ([.setRid 0, .unsched 0 (some m.id), .leave m.id, w] ++ k) := by
      intro k hk
      apply quiet_append _ (fun y _ => hk y)
      intro p hp ww
      obtain ⟨cpu, rid, has⟩ := x
      cases cpu with
      | none =>
        simp [Th.trace, Th.act] at hp
        rcases hp with rfl | rfl <;> rcases ww with ww | ww <;> cases ww
      | some d =>
        by_cases hm : m.id ∈ has
        · rcases hw with rfl | rfl <;> simp [Th.trace, Th.act, hm] at hp <;>
          rcases hp with rfl | rfl | rfl | rfl <;> first | rfl | (rcases ww with ww | ww <;> cases ww)
        · simp [Th.trace, Th.act, hm] at hp
          rcases hp with rfl | rfl | rfl <;> rcases ww with ww | ww <;> cases ww
    rcases e with ⟨_, _, rfl⟩ | ⟨_, _, rfl⟩
    · exact key (.sched (some m.id) :: m.nowrap n) fun y =>
        quiet_cons.2 ⟨fun w => absurd w (not_waits (by simp) (by simp)), fun z _ => quiet_nowrap'⟩
    · exact key _ fun y => quiet_nowrap (one (not_waits (by simp) (by simp)))
  | rwEnter w a first hw hA =>
    have h : Vcpu.rwEnter w a first hw hA = .ok l := h
    unfold Vcpu.rwEnter at h
    cases h1 : (rwMutex w).enter hw 0 with
    | err e => rw [h1] at h; cases h
    | panic => rw [h1] at h; cases h
    | ok k1 =>
      cases h2 : (rwMutex a).enter hA 0 with
      | err e => rw [h1, h2] at h; cases h
      | panic => rw [h1, h2] at h; cases h
      | ok k2 =>
        rw [h1, h2] at h
        cases h
        refine quiet_append (quiet_append (enter_quiet h1 x) fun y _ => ?_) fun y _ =>
          one (not_waits (by simp) (by simp))
        cases first
        · exact quiet_nil y
        · exact enter_quiet h2 y
  | rwExit a last =>
    cases h; cases last
    · exact quiet_nil x
    · exact one (not_waits (by simp) (by simp))
  | clockSleep a p =>
    have h : Vcpu.clockSleep a p = .ok l := h
    unfold Vcpu.clockSleep at h
    cases hp : (a && p) <;> rw [hp] at h
    · cases h
      intro p hp w
      obtain ⟨cpu, rid, has⟩ := x
      cases cpu <;> simp [Th.trace, Th.act] at hp
      · rcases hp with rfl | rfl <;> rcases w with w | w <;> cases w
      · rcases hp with rfl | rfl | rfl | rfl <;> first | rfl | (rcases w with w | w <;> cases w)
    · cases h

/-- **C101** A thread that waits on a condition variable does wait, without the mutex; the upcalls are told the mutex. -/
theorem c101_cv (m : Mutex) (timed : Bool) (n : Nat) (l : List Act) (h : m.cvWait timed n = .ok l) (x : Th) (d : Nat)
    (hc : x.cpu = some d) (hm : m.id ∈ x.has) :
    (∃ p ∈ x.trace l, p.1 = (if timed then .sleep else .block) ∧ p.2.has = x.has.erase m.id) ∧
    (∀ p ∈ x.trace l, ∀ k i, (p.1 = .unsched k i ∨ p.1 = .sched i) → i = some m.id) := by
  have ht : (if timed then Act.sleep else .block) ∈ l := by
    unfold Mutex.cvWait at h
    cases e : m.cvScheduleEnter n with
    | ok k => rw [e] at h; cases h; cases timed <;> simp
    | err e' => rw [e] at h; cases h
    | panic => rw [e] at h; cases h
  obtain ⟨cpu, rid, has⟩ := x
  cases hc
  have hm : m.id ∈ has := hm
  obtain ⟨w, hw, e⟩ := cvWait_cases h
  have hww : w = (if timed then Act.sleep else .block) := by
    have : ∀ a ∈ m.nowrap n, a = .spin m.id ∨ a = .take m.id := by
      intro a ha
      unfold Mutex.nowrap at ha
      rcases List.mem_append.1 ha with ha | ha
      · exact .inl (List.eq_of_mem_replicate ha)
      · exact .inr (List.mem_singleton.1 ha)
    rcases e with ⟨_, _, rfl⟩ | ⟨_, _, rfl⟩
    · rcases List.mem_append.1 ht with ht | ht
      · cases timed <;> simp at ht <;> simp [ht]
      · rcases this _ ht with ht | ht <;> cases timed <;> simp at ht
    · rcases List.mem_append.1 ht with ht | ht
      · cases timed <;> simp at ht <;> simp [ht]
      · rcases List.mem_append.1 ht with ht | ht
        · rcases this _ ht with ht | ht <;> cases timed <;> simp at ht
        · cases timed <;> simp at ht
  rcases e with ⟨_, _, rfl⟩ | ⟨_, _, rfl⟩
  · refine ⟨⟨(w, ⟨none, d, has.erase m.id⟩), ?_, hww, rfl⟩, ?_⟩
    · rcases hw with rfl | rfl <;> simp [Th.trace, Th.act, hm]
    · intro p hp k i hi
      rcases hw with rfl | rfl <;> simp [Th.trace, Th.act, hm, mem_trace_nowrap'] at hp <;>
        rcases hp with rfl | rfl | rfl | rfl | rfl | ⟨rfl, _⟩ | rfl <;> rcases hi with hi | hi <;> cases hi <;> rfl
  · refine ⟨⟨(w, ⟨none, d, has.erase m.id⟩), ?_, hww, rfl⟩, ?_⟩
    · rcases hw with rfl | rfl <;> simp [Th.trace, Th.act, hm]
    · intro p hp k i hi
      rcases hw with rfl | rfl <;> simp [Th.trace, Th.act, hm, mem_trace_nowrap] at hp <;>
        rcases hp with rfl | rfl | rfl | rfl | ⟨rfl, _⟩ | rfl | rfl <;> rcases hi with hi | hi <;> cases hi <;> rfl

/-- **C101** The other hypercalls do not name a mutex to the upcalls. -/
theorem c101_no_interlock (c : Call) (l : List Act) (h : c.acts = .ok l) (hc : ∀ m timed n, c ≠ .cvWait m timed n) :
    ∀ a ∈ l, ∀ k i, (a = .unsched k i ∨ a = .sched i) → i = none := by
  have hn : ∀ (m : Mutex) (n : Nat), ∀ a ∈ m.nowrap n, ∀ k i, (a = .unsched k i ∨ a = .sched i) → i = none := by
    intro m n a ha k i hi
    unfold Mutex.nowrap at ha
    rcases List.mem_append.1 ha with ha | ha
    · cases List.eq_of_mem_replicate ha
      rcases hi with hi | hi <;> cases hi
    · cases List.mem_singleton.1 ha
      rcases hi with hi | hi <;> cases hi
  have he : ∀ {m : Mutex} {held : Bool} {n : Nat} {l : List Act}, m.enter held n = .ok l →
      ∀ a ∈ l, ∀ k i, (a = .unsched k i ∨ a = .sched i) → i = none := by
    intro m held n l h a ha k i hi
    rcases enter_cases h with rfl | rfl | rfl
    · exact hn m n a ha k i hi
    · cases List.mem_singleton.1 ha
      rcases hi with hi | hi <;> cases hi
    · simp at ha
      rcases ha with rfl | rfl | rfl | rfl | rfl <;> rcases hi with hi | hi <;> cases hi <;> rfl
  have h1 : ∀ {m : Nat} {b : Bool}, ∀ a ∈ (if b then [] else [Act.take m]), ∀ k i,
      (a = .unsched k i ∨ a = .sched i) → i = none := by
    intro m b a ha k i hi
    cases b <;> simp at ha
    cases ha
    rcases hi with hi | hi <;> cases hi
  have h2 : ∀ {m : Nat} {b : Bool}, ∀ a ∈ (if b then [Act.leave m] else []), ∀ k i,
      (a = .unsched k i ∨ a = .sched i) → i = none := by
    intro m b a ha k i hi
    cases b <;> simp at ha
    cases ha
    rcases hi with hi | hi <;> cases hi
  cases c with
  | mutexEnter m held n => exact he h
  | mutexEnterNowrap m n => cases h; exact hn m n
  | mutexTryEnter m held => cases h; exact h1
  | mutexExit m => cases h; exact h2 (b := true)
  | cvWait m timed n => exact absurd rfl (hc m timed n)
  | rwEnter w a first hw hA =>
    have h : Vcpu.rwEnter w a first hw hA = .ok l := h
    unfold Vcpu.rwEnter at h
    cases e1 : (rwMutex w).enter hw 0 with
    | err e => rw [e1] at h; cases h
    | panic => rw [e1] at h; cases h
    | ok k1 =>
      cases e2 : (rwMutex a).enter hA 0 with
      | err e => rw [e1, e2] at h; cases h
      | panic => rw [e1, e2] at h; cases h
      | ok k2 =>
        rw [e1, e2] at h
        cases h
        intro b hb
        rcases List.mem_append.1 hb with hb | hb
        · rcases List.mem_append.1 hb with hb | hb
          · exact he e1 b hb
          · cases first
            · exact absurd hb (List.not_mem_nil)
            · exact he e2 b hb
        · exact h2 (b := true) b hb
  | rwExit a last => cases h; exact h2
  | clockSleep a p =>
    have h : Vcpu.clockSleep a p = .ok l := h
    unfold Vcpu.clockSleep at h
    cases hp : (a && p) <;> rw [hp] at h
    · cases h
      intro a ha k i hi
      simp at ha
      rcases ha with rfl | rfl | rfl | rfl <;> rcases hi with hi | hi <;> cases hi <;> rfl
    · cases h

/-- **C101** Which calls wait: a mutex that another thread has, unless it is a spin mutex, and sleeping; nothing else but
condition variables does. Mutexes made without a flag cannot be entered: the host panics. -/
theorem c101_waits (m : Mutex) (held : Bool) (n : Nat) :
    (m.spin = false → m.kmutex = false → m.enter held n = .panic) ∧
    (∀ l, m.enter held n = .ok l → (.block ∈ l ↔ m.spin = false ∧ held = true) ∧ .sleep ∉ l) ∧
    (∀ absolute l, clockSleep absolute false = .ok l → .sleep ∈ l) := by
  refine ⟨fun h1 h2 => ?_, fun l h => ?_, fun absolute l h => ?_⟩
  · unfold Mutex.enter; rw [h1, h2]; rfl
  · have hn : ∀ a ∈ m.nowrap n, a ≠ .block ∧ a ≠ .sleep := by
      intro a ha
      unfold Mutex.nowrap at ha
      rcases List.mem_append.1 ha with ha | ha
      · cases List.eq_of_mem_replicate ha; exact ⟨by simp, by simp⟩
      · cases List.mem_singleton.1 ha; exact ⟨by simp, by simp⟩
    unfold Mutex.enter at h
    cases hs : m.spin <;> rw [hs] at h
    · cases hk : m.kmutex <;> rw [hk] at h
      · exact absurd h (by simp)
      · cases held <;> simp at h <;> subst h <;> simp
    · simp at h
      subst h
      exact ⟨⟨fun hb => absurd rfl (hn _ hb).1, fun hb => by cases hb.1⟩, fun hb => (hn _ hb).2 rfl⟩
  · unfold clockSleep at h
    rw [Bool.and_false] at h
    cases h
    simp

/-- **C101** The flags of `rumpuser_mutex_init`. -/
theorem c101_init (id : Nat) : Mutex.init id 0 = ⟨id, false, false⟩ ∧ Mutex.init id 1 = ⟨id, true, false⟩ ∧
    Mutex.init id 2 = ⟨id, false, true⟩ ∧ Mutex.init id 3 = ⟨id, true, true⟩ := ⟨rfl, rfl, rfl, rfl⟩

/-- One interrupt after the other. -/
theorem irq_rounds (k : Nat) (x : Th) (hc : x.cpu = none) (hr : x.rid = 1) :
    x.acts (List.replicate k irqRound).flatten = .ok x ∧
    (∀ p ∈ x.trace (List.replicate k irqRound).flatten,
      (Waits p.1 → p.2.cpu = none) ∧ (p.1 = .handler → p.2.cpu = some 1)) ∧
    ((x.trace (List.replicate k irqRound).flatten).filter (·.1 = .handler)).length = k := by
  obtain ⟨cpu, rid, has⟩ := x
  cases hc
  cases hr
  induction k with
  | zero => exact ⟨rfl, fun p hp => absurd hp (List.not_mem_nil), rfl⟩
  | succ k ih =>
    obtain ⟨i1, i2, i3⟩ := ih
    have e : (List.replicate (k + 1) irqRound).flatten = irqRound ++ (List.replicate k irqRound).flatten := rfl
    have et : (⟨none, 1, has⟩ : Th).trace (irqRound ++ (List.replicate k irqRound).flatten) =
        (.sched none, ⟨none, 1, has⟩) :: (.handler, ⟨some 1, 1, has⟩) :: (.unsched 0 none, ⟨some 1, 1, has⟩) ::
          (.block, ⟨none, 1, has⟩) :: (⟨none, 1, has⟩ : Th).trace (List.replicate k irqRound).flatten := by
      simp [irqRound, Th.trace, Th.act]
    rw [e, et]
    refine ⟨?_, ?_, ?_⟩
    · rw [acts_append]
      have : (⟨none, 1, has⟩ : Th).acts irqRound = .ok ⟨none, 1, has⟩ := by simp [irqRound, Th.acts, Th.act]
      rw [this]
      exact i1
    · intro p hp
      simp only [List.mem_cons] at hp
      rcases hp with rfl | rfl | rfl | rfl | hp
      · exact ⟨fun w => absurd w (not_waits (by simp) (by simp)), fun w => by cases w⟩
      · exact ⟨fun w => absurd w (not_waits (by simp) (by simp)), fun _ => rfl⟩
      · exact ⟨fun w => absurd w (not_waits (by simp) (by simp)), fun w => by cases w⟩
      · exact ⟨fun _ => rfl, fun w => by cases w⟩
      · exact i2 p hp
    · simp [i3]

/-- **C101** The thread for interrupts calls the handler once for each, with a virtual CPU and the big lock, and has neither
while it waits for the next. -/
theorem c101_irq (k : Nat) (x : Th) (hc : x.cpu = none) :
    (∃ y, x.acts (irqThread k) = .ok y ∧ y.cpu = none ∧ y.has = x.has) ∧
    (∀ p ∈ x.trace (irqThread k), (Waits p.1 → p.2.cpu = none) ∧ (p.1 = .handler → p.2.cpu = some 1)) ∧
    ((x.trace (irqThread k)).filter (·.1 = .handler)).length = k := by
  obtain ⟨cpu, rid, has⟩ := x
  cases hc
  obtain ⟨h1, h2, h3⟩ := irq_rounds k ⟨none, 1, has⟩ rfl rfl
  have et : (⟨none, rid, has⟩ : Th).trace (irqThread k) =
      (.setRid 0, ⟨none, rid, has⟩) :: (.sched none, ⟨none, 0, has⟩) :: (.unsched 0 none, ⟨some 0, 0, has⟩) ::
        (.block, ⟨none, 0, has⟩) :: (.setRid 1, ⟨none, 0, has⟩) ::
          (⟨none, 1, has⟩ : Th).trace (List.replicate k irqRound).flatten := by
    simp [irqThread, Th.trace, Th.act]
  rw [et]
  refine ⟨⟨⟨none, 1, has⟩, ?_, rfl, rfl⟩, ?_, ?_⟩
  · unfold irqThread
    rw [acts_append]
    have : (⟨none, rid, has⟩ : Th).acts [.setRid 0, .sched none, .unsched 0 none, .block, .setRid 1] =
        .ok ⟨none, 1, has⟩ := by simp [Th.acts, Th.act]
    rw [this]
    exact h1
  · intro p hp
    simp only [List.mem_cons] at hp
    rcases hp with rfl | rfl | rfl | rfl | rfl | hp
    · exact ⟨fun w => absurd w (not_waits (by simp) (by simp)), fun w => by cases w⟩
    · exact ⟨fun w => absurd w (not_waits (by simp) (by simp)), fun w => by cases w⟩
    · exact ⟨fun w => absurd w (not_waits (by simp) (by simp)), fun w => by cases w⟩
    · exact ⟨fun _ => rfl, fun w => by cases w⟩
    · exact ⟨fun w => absurd w (not_waits (by simp) (by simp)), fun w => by cases w⟩
    · exact h2 p hp
  · simp [h3]

/-! ## All threads -/

theorem cnt_upd (f : Nat → Bool) (t n : Nat) (b : Bool) (ht : t < n) :
    ((List.range n).filter (upd f t b)).length + (f t).toNat = ((List.range n).filter f).length + b.toNat := by
  have out : ∀ n, n ≤ t → ((List.range n).filter (upd f t b)).length = ((List.range n).filter f).length := by
    intro n hn
    congr 1
    apply List.filter_congr
    intro x hx
    exact upd_other f b (by have := List.mem_range.1 hx; omega)
  induction n with
  | zero => omega
  | succ n ih =>
    rw [List.range_succ, List.filter_append, List.filter_append, List.length_append, List.length_append]
    by_cases e : t = n
    · subst e
      rw [out t (Nat.le_refl t)]
      have e1 : ([t].filter (upd f t b)).length = b.toNat := by
        rw [List.filter_cons, upd_same]; cases b <;> rfl
      have e2 : ([t].filter f).length = (f t).toNat := by
        rw [List.filter_cons]; cases f t <;> rfl
      omega
    · have hx : upd f t b n = f n := upd_other f b (fun h => e h.symm)
      have e1 : [n].filter (upd f t b) = [n].filter f := by rw [List.filter_cons, List.filter_cons, hx]; rfl
      rw [e1]
      have := ih (by omega)
      omega

theorem running_upd (s : Sys) (n t : Nat) (x : Th) (free : Nat) (todo : Nat → List Act) (ht : t < n) :
    running ⟨free, upd s.th t x, todo⟩ n + ((s.th t).cpu.isSome).toNat = running s n + (x.cpu.isSome).toNat := by
  have := cnt_upd (fun u => (s.th u).cpu.isSome) t n x.cpu.isSome ht
  unfold running
  have e : (fun u => ((upd s.th t x) u).cpu.isSome) = upd (fun u => (s.th u).cpu.isSome) t x.cpu.isSome := by
    funext u
    by_cases h : u = t
    · subst h; rw [upd_same, upd_same]
    · rw [upd_other _ _ h, upd_other _ _ h]
  show ((List.range n).filter (fun u => ((upd s.th t x) u).cpu.isSome)).length + _ = _
  rw [e]
  exact this

theorem act_cpus {x y : Th} {a : Act} {f : Nat} (h : x.act a = .ok y) (hf : ∀ i, a = .sched i → 0 < f) :
    cpus f a + (y.cpu.isSome).toNat = f + (x.cpu.isSome).toNat := by
  obtain ⟨cpu, rid, has⟩ := x
  cases a with
  | unsched n i =>
    cases cpu with
    | none => cases h
    | some d =>
      simp only [Th.act] at h
      split at h
      · cases h; rfl
      · cases h
  | sched i =>
    have := hf i rfl
    cases cpu with
    | some d => cases h
    | none =>
      cases h
      show f - 1 + 1 = f + 0
      omega
  | leave m =>
    simp only [Th.act] at h
    split at h
    · cases h; rfl
    · cases h
  | handler =>
    simp only [Th.act] at h
    split at h
    · cases h
    · cases h; rfl
  | _ => cases h; rfl

/-- What holds in every state. -/
def Inv (n k : Nat) (s : Sys) : Prop := s.free + running s n = k ∧ ∀ t, Quiet (s.th t) (s.todo t)

theorem inv_reach {n k : Nat} {s : Sys} (r : Reach n k s) : Inv n k s := by
  induction r with
  | init =>
    refine ⟨?_, fun t => quiet_nil _⟩
    have : running (Sys.init k) n = 0 := by
      unfold running
      rw [List.length_eq_zero_iff, List.filter_eq_nil_iff]
      intro t _
      simp [Sys.init]
    rw [this]; rfl
  | step r st ih =>
    obtain ⟨hk, hq⟩ := ih
    have put : ∀ (s : Sys) (t : Nat) (l : List Act), s.free + running s n = k → (∀ t, Quiet (s.th t) (s.todo t)) →
        Quiet (s.th t) l → Inv n k { s with todo := upd s.todo t l } := by
      intro s t l hk hq hl
      refine ⟨hk, fun u => ?_⟩
      by_cases e : u = t
      · subst e
        show Quiet (s.th u) (upd s.todo u l u)
        rw [upd_same]; exact hl
      · show Quiet (s.th u) (upd s.todo t l u)
        rw [upd_other _ _ e]; exact hq u
    cases st with
    | enter t ht h hc =>
      refine put _ t _ hk hq ?_
      intro p hp w
      simp [Th.trace, Th.act, hc] at hp
      rcases hp with rfl | rfl <;> rcases w with w | w <;> cases w
    | exit t ht h hc =>
      refine put _ t _ hk hq ?_
      exact quiet_cons.2 ⟨fun w => absurd w (not_waits (by simp) (by simp)), fun y _ => quiet_nil y⟩
    | big t d ht h hc =>
      rename_i s
      refine ⟨?_, fun u => ?_⟩
      · have := running_upd s n t { s.th t with cpu := some d } s.free s.todo ht
        have e : ((s.th t).cpu.isSome) = true := by
          cases hx : (s.th t).cpu with
          | none => exact absurd hx hc
          | some d => rfl
        rw [e] at this
        have this : running ⟨s.free, upd s.th t { s.th t with cpu := some d }, s.todo⟩ n + 1 = running s n + 1 := this
        show s.free + running ⟨s.free, upd s.th t { s.th t with cpu := some d }, s.todo⟩ n = k
        omega
      · show Quiet (upd s.th t { s.th t with cpu := some d } u) (s.todo u)
        by_cases e : u = t
        · subst e; rw [h]; exact quiet_nil _
        · rw [upd_other _ _ e]; exact hq u
    | call t c l ht h hc hl => exact put _ t l hk hq (c101_gives_up c l hl _)
    | nowrap t m j wait ht h hc =>
      rename_i s
      refine put _ t _ hk hq ?_
      cases wait
      · exact quiet_nowrap'
      · show Quiet (s.th t) (.leave m.id :: .block :: m.nowrap j)
        refine quiet_cons.2 ⟨fun w => absurd w (not_waits (by simp) (by simp)), fun y hy => ?_⟩
        refine quiet_cons.2 ⟨fun _ => ?_, fun z _ => quiet_nowrap'⟩
        simp only [Th.act] at hy
        split at hy
        · cases hy; exact hc
        · cases hy
    | irq t j ht h hc => exact put _ t _ hk hq fun p hp w => ((c101_irq j _ hc).2.1 p hp).1 w
    | act t a l x ht h ha hf =>
      rename_i s
      refine ⟨?_, fun u => ?_⟩
      · have h1 := running_upd s n t x (cpus s.free a) (upd s.todo t l) ht
        have h2 := act_cpus ha hf
        show cpus s.free a + running ⟨cpus s.free a, upd s.th t x, upd s.todo t l⟩ n = k
        omega
      · show Quiet (upd s.th t x u) (upd s.todo t l u)
        by_cases e : u = t
        · subst e
          rw [upd_same, upd_same]
          have := hq u
          rw [h] at this
          exact (quiet_cons.1 this).2 x ha
        · rw [upd_other _ _ e, upd_other _ _ e]; exact hq u

/-- **C101** There are never more threads with a virtual CPU than virtual CPUs. -/
theorem c101_no_more {n k : Nat} {s : Sys} (r : Reach n k s) : running s n ≤ k := by
  have := (inv_reach r).1
  omega

/-- **C101** No thread that waits, until another wakes it up or time has passed, has a virtual CPU. -/
theorem c101_waiting {n k : Nat} {s : Sys} (r : Reach n k s) (t : Nat) (a : Act) (l : List Act) (h : s.todo t = a :: l)
    (w : Waits a) : (s.th t).cpu = none := by
  have := (inv_reach r).2 t
  rw [h] at this
  exact (quiet_cons.1 this).1 w

/-- **C101** If a thread cannot have a virtual CPU, another has it and does not wait for an event or for time to pass. -/
theorem c101_some_runs {n k : Nat} {s : Sys} (r : Reach n k s) (hk : 0 < k) (hf : s.free = 0) :
    ∃ u, u < n ∧ (s.th u).cpu ≠ none ∧ ∀ a l, s.todo u = a :: l → ¬ Waits a := by
  have h := (inv_reach r).1
  have hpos : 0 < ((List.range n).filter fun t => (s.th t).cpu.isSome).length := by
    have : running s n = ((List.range n).filter fun t => (s.th t).cpu.isSome).length := rfl
    omega
  obtain ⟨u, hu⟩ := List.exists_mem_of_length_pos hpos
  rw [List.mem_filter, List.mem_range] at hu
  have hc : (s.th u).cpu ≠ none := fun e => by rw [e] at hu; cases hu.2
  exact ⟨u, hu.1, hc, fun a l e w => hc (c101_waiting r u a l e w)⟩

/-! ## Findings -/

/-- Finding. With a spin mutex that is not a `kmutex`, a thread that comes back from a condition variable waits for a virtual
CPU while it has the mutex, and a thread that enters the mutex waits for it while it has a virtual CPU: with one virtual CPU
both wait forever.  With no other kind of mutex this happens. -/
theorem c101_spin_order (m : Mutex) :
    ((∃ timed n l x d p i, m.cvWait timed n = .ok l ∧ x = (⟨some d, 0, [m.id]⟩ : Th) ∧ p ∈ x.trace l ∧
        p.1 = .sched i ∧ m.id ∈ p.2.has) ∧
      ∃ held n l x d p, m.enter held n = .ok l ∧ x = (⟨some d, 0, []⟩ : Th) ∧ p ∈ x.trace l ∧
        p.1 = .spin m.id ∧ p.2.cpu ≠ none) ↔ m.spin = true ∧ m.kmutex = false := by
  constructor
  · rintro ⟨⟨timed, n, l, x, d, p, i, h, rfl, hp, hi, hm⟩, ⟨held, n', l', x', d', p', h', rfl, hp', hi', hc'⟩⟩
    have hs : m.spin = true := by
      cases hs : m.spin with
      | true => rfl
      | false =>
        exfalso
        unfold Mutex.enter at h'
        rw [hs] at h'
        cases hk : m.kmutex <;> rw [hk] at h'
        · exact absurd h' (by simp)
        · cases held <;> simp at h' <;> subst h' <;> simp [Th.trace, Th.act] at hp'
          · subst hp'; cases hi'
          · rcases hp' with rfl | rfl | rfl | rfl | rfl <;> cases hi'
    refine ⟨hs, ?_⟩
    cases hk : m.kmutex with
    | false => rfl
    | true =>
      exfalso
      obtain ⟨w, hw, ⟨_, _, rfl⟩ | ⟨h1 | h1, _, _⟩⟩ := cvWait_cases h
      · rcases hw with rfl | rfl <;> simp [Th.trace, Th.act, mem_trace_nowrap'] at hp <;>
          rcases hp with rfl | rfl | rfl | rfl | rfl | ⟨rfl, _⟩ | rfl <;> first | (cases hi; done) | (simp at hm)
      · rw [hs] at h1; cases h1
      · rw [hk] at h1; cases h1
  · rintro ⟨hs, hk⟩
    refine ⟨⟨false, 0, [.setRid 0, .unsched 0 (some m.id), .leave m.id, .block, .take m.id, .sched (some m.id)], _, 0,
      (.sched (some m.id), ⟨none, 0, [m.id]⟩), some m.id, ?_, rfl, ?_, rfl, by simp⟩,
      ⟨true, 1, m.nowrap 1, _, 0, (.spin m.id, ⟨some 0, 0, []⟩), ?_, rfl, ?_, rfl, by simp⟩⟩
    · simp [Mutex.cvWait, Mutex.cvScheduleEnter, Mutex.cvMutexEnter, hs, hk, Mutex.cvUnschedule, Mutex.nowrap]
    · simp [Th.trace, Th.act]
    · simp [Mutex.enter, hs]
    · rw [mem_trace_nowrap']; exact .inl ⟨rfl, Nat.one_pos⟩

end NRK.Rump.Vcpu
