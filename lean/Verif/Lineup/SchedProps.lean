import Verif.Lineup.SchedLemmas
import Verif.Sync.Count

/-!
# Properties C53 and C54: sleeping and scheduling of user-level threads
-/

namespace NRK.Lineup.Sched

open NRK.Sync (cnt cnt_congr cnt_succ cnt_change)

/-! ## Specification -/

/-- The thread exists: it was spawned and has not terminated. -/
def Live (s : St) (t : Nat) : Prop := ∃ c, On s t c

/-- Thread `t` waits for the end of thread `u`. -/
def Joins (s : St) (t u : Nat) : Prop := ∃ c, JoinsOn s t c u

/-- Thread `t` sleeps on core `c` until `d`. -/
def Sleeps (s : St) (t c d : Nat) : Prop := (d, t) ∈ s.waiting c

/-- What well-behaved threads do.  A thread that yields, sleeps, joins or terminates has no
wake-up outstanding; a thread is made runnable only if it exists, is not queued already and does
not wait for the end of a thread; a thread makes only itself unrunnable; threads are spawned only
below the limit; and an interrupt arrives only on the core of its thread, while that is suspended
without a deadline. -/
def Calm (s : St) : Act → Prop
  | .start _ _ => s.count ≤ maxThreads
  | .interrupt c v => ∀ t, s.irqs v = some t → Out s t c
  | .check _ _ => True
  | .dispatch _ => True
  | .yield c r => ∀ t, s.running c = some t →
    match r with
    | none => t ∉ s.queue c
    | some .none => t ∉ s.queue c
    | some (.timeout _) => t ∉ s.queue c
    | some (.joinOn _) => t ∉ s.queue c
    | some (.runnable a) => Wakeable s a
    | some (.runnableList l) => l.Nodup ∧ ∀ a, a ∈ l → Wakeable s a
    | some (.unrunnable a) => a = t
    | some (.spawn _ _) => s.count ≤ maxThreads

/-- States reached by well-behaved threads. -/
inductive CReach : St → Prop where
  | init : CReach .init
  | step {s s'} (a : Act) : CReach s → Calm s a → s.act a = .ok s' → CReach s'

/-- Histories of well-behaved threads from a given state. -/
inductive CSteps (s : St) : St → Prop where
  | refl : CSteps s s
  | step {s' s''} (a : Act) : CSteps s s' → Calm s' a → s'.act a = .ok s'' → CSteps s s''

/-! ## The invariant is kept -/

theorem CReach.reach {s : St} (r : CReach s) : Reach s := by
  induction r with
  | init => exact .init
  | step a _ _ h ih => exact .step a ih h

theorem out_stop {s : St} {t c : Nat} {g : Nat → Bool} {r : Nat → Option Nat} (h : Out s t c) :
    Out { s with gens := g, running := r } t c := ⟨h.on, h.queue, h.wait, h.join⟩

theorem Inv.act {s : St} (I : Inv s) (hd : ∀ c, Desc (s.waiting c)) {a : Act} (hc : Calm s a) :
    ∃ s', s.act a = .ok s' ∧ Inv s' := by
  cases a with
  | start c irq =>
    obtain ⟨s', h1, h2⟩ := I.spawn (c := c) (irq := irq) hc
    exact ⟨s', by simp only [St.act, h1], h2⟩
  | interrupt c v =>
    refine ⟨_, rfl, ?_⟩
    unfold St.interrupt
    split
    · rename_i t ht; exact I.enqueue (hc t ht)
    · exact I
  | check c clock => exact ⟨_, rfl, I.check hd⟩
  | dispatch c =>
    simp only [St.act, St.dispatch]
    cases hr : s.running c with
    | some t => exact ⟨s, rfl, I⟩
    | none =>
      cases hq : s.queue c with
      | nil => exact ⟨s, rfl, I⟩
      | cons t q =>
        obtain ⟨hg, ⟨th, ho, _⟩, hI⟩ := I.dispatch hr hq
        simp only [hg, ho]
        exact ⟨_, rfl, hI⟩
  | yield c r =>
    simp only [St.act, St.yield]
    cases hr : s.running c with
    | none => exact ⟨s, rfl, I⟩
    | some t =>
      have hc := hc t hr
      obtain ⟨th, ht, hta⟩ := I.run t c hr
      have hnr : ({ s with gens := upd s.gens t true, running := upd s.running c none } : St).running
          c ≠ some t := by
        show upd s.running c none c ≠ _
        rw [upd_same]; nofun
      cases r with
      | none =>
        have hc : t ∉ s.queue c := hc
        simp only [St.handle, ht]
        have hf : (s.queue c).filter (· ≠ t) = s.queue c := by
          rw [List.filter_eq_self]
          intro x hx
          simp only [ne_eq, decide_eq_true_eq]
          intro e; subst e; exact hc hx
        have hm : s.markUnrunnable t th.affinity = s := by
          simp only [St.markUnrunnable, hta, hf, upd_self]
        simp only [hm]
        have hw : ∀ (l : List (Nat × Nat)) (x : St) (r : Nat → Option Nat),
            { x.wakeJoiners l with running := r } = { x with running := r }.wakeJoiners l := by
          intro l
          induction l with
          | nil => intro x r; rfl
          | cons e l ih => intro x r; obtain ⟨e1, e2⟩ := e; exact ih _ _
        refine ⟨_, rfl, ?_⟩
        have h2 : ∀ (l : List (Nat × Nat)) (x : St), (x.wakeJoiners l).running = x.running := by
          intro l
          induction l with
          | nil => intro x; rfl
          | cons e l ih => intro x; obtain ⟨e1, e2⟩ := e; exact ih _
        rw [h2, hw]
        exact I.exit hr hc ht
      | some r =>
        cases r with
        | none =>
          have o := I.out_of_running hr hc
          simp only [St.handle, ht, St.markRunnable]
          refine ⟨_, rfl, ?_⟩
          rw [hta]
          exact (I.stop hr).enqueue (out_stop o)
        | timeout d =>
          have o := I.out_of_running hr hc
          simp only [St.handle, ht, St.waitInsert, hta]
          cases hi : insertDesc (d, t) (s.waiting c) with
          | none => exact absurd ((insertDesc_none (hd c)).1 hi) (o.wait d)
          | some l =>
            simp only [ht]
            refine ⟨_, rfl, ?_⟩
            exact (I.stop hr).sleep (out_stop o) hnr hi
        | runnable a =>
          obtain ⟨b, hb, h1, h2⟩ := I.wake hc
          simp only [St.handle, ht, h1]
          exact ⟨_, rfl, h2⟩
        | unrunnable a =>
          have hc : a = t := hc
          subst hc
          simp only [St.handle, ht, if_true]
          exact ⟨_, rfl, I.stop hr⟩
        | runnableList l =>
          obtain ⟨s', h1, h2⟩ := I.wakeAll hc.1 hc.2
          simp only [St.handle, ht, h1]
          exact ⟨_, rfl, h2⟩
        | joinOn u =>
          have o := I.out_of_running hr hc
          simp only [St.handle, ht]
          cases hu : s.threads u with
          | none => exact ⟨_, rfl, I⟩
          | some uth =>
            have : ∃ x, upd s.threads u
                (some { uth with joinlist := uth.joinlist ++ [(t, th.affinity)] }) t = some x := by
              rw [upd_apply]; split
              · exact ⟨_, rfl⟩
              · exact ⟨_, ht⟩
            obtain ⟨x, hx⟩ := this
            simp only [hx]
            refine ⟨_, rfl, ?_⟩
            rw [hta]
            exact (I.stop hr).joinOn (out_stop o) hnr hu
        | spawn b irq =>
          obtain ⟨s', h1, h2⟩ := I.spawn (c := b) (irq := irq) hc
          simp only [St.handle, ht, h1]
          exact ⟨_, rfl, h2⟩

theorem CReach.inv {s : St} (r : CReach s) : Inv s := by
  induction r with
  | init => exact Inv.init
  | step a r hc h ih =>
    obtain ⟨s', h1, h2⟩ := ih.act (waiting_sorted r.reach) hc
    rw [h] at h1; cases h1; exact h2

/-! ## What one action does to the queues -/

theorem wakeJoiners_left (s : St) (l : List (Nat × Nat)) : (s.wakeJoiners l).left = s.left := by
  induction l generalizing s with
  | nil => rfl
  | cons x l ih => obtain ⟨t, c⟩ := x; exact ih _

theorem wakeJoiners_running (s : St) (l : List (Nat × Nat)) :
    (s.wakeJoiners l).running = s.running := by
  induction l generalizing s with
  | nil => rfl
  | cons x l ih => obtain ⟨t, c⟩ := x; exact ih _

theorem wakeJoiners_threads (s : St) (l : List (Nat × Nat)) :
    (s.wakeJoiners l).threads = s.threads := by
  induction l generalizing s with
  | nil => rfl
  | cons x l ih => obtain ⟨t, c⟩ := x; exact ih _

theorem markRunnable_entered (s : St) (t b c : Nat) :
    s.entered c <+: (s.markRunnable t b).entered c := by
  simp only [St.markRunnable, upd_apply]
  split
  · rename_i e; subst e; exact List.prefix_append _ _
  · exact List.prefix_refl _

theorem wakeJoiners_entered (s : St) (l : List (Nat × Nat)) (c : Nat) :
    s.entered c <+: (s.wakeJoiners l).entered c := by
  induction l generalizing s with
  | nil => exact List.prefix_refl _
  | cons x l ih =>
    obtain ⟨t, b⟩ := x
    exact (markRunnable_entered s t b c).trans (ih _)

theorem wakeJoiners_mem (s : St) {l : List (Nat × Nat)} {t c : Nat} (h : (t, c) ∈ l ∨ t ∈ s.queue c) :
    t ∈ (s.wakeJoiners l).queue c := by
  induction l generalizing s with
  | nil => exact h.elim (fun h => nomatch h) id
  | cons x l ih =>
    obtain ⟨a, b⟩ := x
    refine ih (s.markRunnable a b) ?_
    rcases h with h | h
    · rcases List.mem_cons.1 h with e | h
      · cases e; right; simp [St.markRunnable, upd_same]
      · exact .inl h
    · right
      simp only [St.markRunnable, upd_apply]
      split
      · rename_i e; subst e; simp [h]
      · exact h

/-- The parts of the state that waking threads does not touch. -/
structure Same (s s' : St) : Prop where
  left : s'.left = s.left
  running : s'.running = s.running
  threads : s'.threads = s.threads
  gens : s'.gens = s.gens
  entered : ∀ c, s.entered c <+: s'.entered c

theorem Same.refl (s : St) : Same s s := ⟨rfl, rfl, rfl, rfl, fun _ => List.prefix_refl _⟩

theorem Same.trans {a b c : St} (h : Same a b) (h' : Same b c) : Same a c :=
  ⟨h'.left.trans h.left, h'.running.trans h.running, h'.threads.trans h.threads,
   h'.gens.trans h.gens, fun x => (h.entered x).trans (h'.entered x)⟩

theorem Same.mark (s : St) (t c : Nat) : Same s (s.markRunnable t c) :=
  ⟨rfl, rfl, rfl, rfl, markRunnable_entered s t c⟩

theorem wake_same {s s' : St} {r : Nat} (h : s.wake r = .ok s') : Same s s' := by
  unfold St.wake at h
  split at h
  · cases h
  · injection h with h
    subst h
    exact ⟨rfl, rfl, rfl, rfl, fun c => markRunnable_entered (St.waitRemove _ _ _) _ _ c⟩

theorem wakeAll_same {s s' : St} {l : List Nat} (h : s.wakeAll l = .ok s') : Same s s' := by
  induction l generalizing s with
  | nil => cases h; exact Same.refl _
  | cons r l ih =>
    simp only [St.wakeAll] at h
    cases hr : s.wake r <;> rw [hr] at h <;> first | cases h | skip
    exact (wake_same hr).trans (ih h)

theorem checkLoop_same {c : Nat} {clock : Nat → Nat} {i f : Nat} (s : St) :
    Same s (St.checkLoop c clock i f s) := by
  induction f generalizing i s with
  | zero => exact Same.refl s
  | succ f ih =>
    simp only [St.checkLoop]
    split
    · exact Same.refl s
    · split
      · refine Same.trans (b := { s with waiting := upd s.waiting c (s.waiting c).dropLast }) ?_
          ((Same.mark _ _ _).trans (ih _))
        exact ⟨rfl, rfl, rfl, rfl, fun _ => List.prefix_refl _⟩
      · exact Same.refl s

/-- What `spawn` does. -/
theorem spawn_cases {s s' : St} {c : Nat} {irq u : Option Nat} (h : s.spawn c irq = .ok (s', u)) :
    s'.left = s.left ∧ s'.running = s.running ∧ (∀ b, s.entered b <+: s'.entered b) ∧
    s.threads s.nextTid = none ∧
    (s'.threads = s.threads ∨ s'.threads = upd s.threads s.nextTid (some ⟨c, []⟩)) := by
  simp only [St.spawn] at h
  split at h
  · cases h
  · rename_i hn
    split at h
    · split at h <;> cases h <;>
        exact ⟨rfl, rfl, fun b => markRunnable_entered _ _ _ b, hn, .inr rfl⟩
    · cases h; exact ⟨rfl, rfl, fun b => List.prefix_refl _, hn, .inl rfl⟩

/-- What a request of the running thread does. -/
theorem handle_cases {s s' : St} {t : Nat} {r : Option Req} {x : Resume}
    (h : s.handle t r = .ok (s', x)) :
    s'.left = s.left ∧ s'.running = s.running ∧ ∀ b, s.entered b <+: s'.entered b := by
  unfold St.handle at h
  split at h
  · cases h
  · rename_i th hth
    split at h
    · cases h
      refine ⟨wakeJoiners_left _ _, wakeJoiners_running _ _, fun b => ?_⟩
      exact wakeJoiners_entered
        { s.markUnrunnable t th.affinity with threads := upd s.threads t none, count := s.count - 1 }
        th.joinlist b
    · cases h; exact ⟨rfl, rfl, fun b => markRunnable_entered s _ _ b⟩
    · rename_i r
      cases hr : s.wake r <;> rw [hr] at h <;> cases h
      have := wake_same hr
      exact ⟨this.left, this.running, this.entered⟩
    · split at h
      · cases h
      · split at h <;> cases h <;> exact ⟨rfl, rfl, fun b => List.prefix_refl _⟩
    · rename_i l
      cases hr : s.wakeAll l <;> rw [hr] at h <;> cases h
      have := wakeAll_same hr
      exact ⟨this.left, this.running, this.entered⟩
    · rename_i d
      simp only [St.waitInsert] at h
      cases hi : insertDesc (d, t) (s.waiting th.affinity) <;> rw [hi] at h <;> cases h
      exact ⟨rfl, rfl, fun b => List.prefix_refl _⟩
    · split at h <;> cases h <;> exact ⟨rfl, rfl, fun b => List.prefix_refl _⟩
    · rename_i c irq
      split at h
      · rename_i s'' u hu
        cases h
        have := spawn_cases hu
        exact ⟨this.1, this.2.1, this.2.2.1⟩
      · cases h
      · cases h
      · cases h

/-- The queues only grow at the end, and only `dispatch` takes a thread off at the front. -/
theorem act_log {s s' : St} {a : Act} (h : s.act a = .ok s') (c : Nat) :
    s.entered c <+: s'.entered c ∧
    (s'.left c = s.left c ∨
      ∃ t q, s.queue c = t :: q ∧ s'.queue c = q ∧ s'.left c = s.left c ++ [t] ∧
        s'.running c = some t ∧ a = .dispatch c) := by
  cases a with
  | start b irq =>
    simp only [St.act] at h
    split at h
    · rename_i s'' u hu; cases h
      have := spawn_cases hu
      exact ⟨this.2.2.1 c, .inl (by rw [this.1])⟩
    · cases h
    · cases h
  | interrupt b v =>
    simp only [St.act, St.interrupt] at h
    split at h <;> cases h
    · exact ⟨markRunnable_entered _ _ _ _, .inl rfl⟩
    · exact ⟨List.prefix_refl _, .inl rfl⟩
  | check b clock =>
    cases h
    have := checkLoop_same (c := b) (clock := clock) (i := 0) (f := (s.waiting b).length) s
    exact ⟨this.entered c, .inl (congrFun this.left c)⟩
  | dispatch b =>
    simp only [St.act, St.dispatch] at h
    split at h
    · cases h; exact ⟨List.prefix_refl _, .inl rfl⟩
    · cases h; exact ⟨List.prefix_refl _, .inl rfl⟩
    · rename_i t q hr hq
      split at h <;> cases h
      refine ⟨List.prefix_refl _, ?_⟩
      by_cases e : c = b
      · subst e
        exact .inr ⟨t, q, hq, upd_same .., upd_same .., upd_same .., rfl⟩
      · left; exact upd_other _ _ e
  | yield b r =>
    simp only [St.act, St.yield] at h
    split at h
    · cases h; exact ⟨List.prefix_refl _, .inl rfl⟩
    · split at h
      · rename_i hh
        have hd := handle_cases hh
        split at h <;> cases h
        exact ⟨hd.2.2 c, .inl (congrFun hd.1 c)⟩
      · rename_i hh
        have hd := handle_cases hh
        cases h; exact ⟨hd.2.2 c, .inl (congrFun hd.1 c)⟩
      · rename_i hh
        have hd := handle_cases hh
        cases h; exact ⟨hd.2.2 c, .inl (congrFun hd.1 c)⟩
      · cases h
      · cases h

/-! ## Theorems about C54 -/

/-- C54: well-behaved threads never make the scheduler panic. -/
theorem c54_no_panic_partial {s : St} (r : CReach s) {a : Act} (hc : Calm s a) :
    ∃ s', s.act a = .ok s' := by
  obtain ⟨s', h, _⟩ := r.inv.act (waiting_sorted r.reach) hc
  exact ⟨s', h⟩

/-- C54: a thread is queued, sleeps and runs only on its own core, and stands in the queue at most
once. -/
theorem c54_own_core_partial {s : St} (r : CReach s) (t c : Nat) :
    (t ∈ s.queue c ∨ s.running c = some t ∨ (∃ d, Sleeps s t c d) → On s t c) ∧
    (s.queue c).Nodup := by
  have I := r.inv
  refine ⟨?_, I.qnodup c⟩
  rintro (h | h | ⟨d, h⟩)
  · exact I.queue t c h
  · exact I.run t c h
  · exact (I.wait d t c h).1

/-- C54: no thread runs on two cores, and a running thread neither sleeps nor waits for the end of
a thread. -/
theorem c54_runs_once_partial {s : St} (r : CReach s) {t c : Nat} (h : s.running c = some t) :
    (∀ c', s.running c' = some t → c' = c) ∧ (∀ c' d, ¬ Sleeps s t c' d) ∧ ∀ u, ¬ Joins s t u := by
  have I := r.inv
  have ho := I.run t c h
  refine ⟨fun c' h' => On.unique (I.run t c' h') ho, ?_, ?_⟩
  · intro c' d hs
    have hw := I.wait d t c' hs
    have : c' = c := On.unique hw.1 ho
    subst this; exact hw.2.2 h
  · rintro u ⟨c', hj⟩
    have hw := I.join t c' u hj
    have : c' = c := On.unique hw.1 ho
    subst this; exact hw.2.2.1 h

/-- C54: a queued thread stays queued until it runs. -/
theorem c54_stays_queued_partial {s s' : St} (r : CReach s) {a : Act} (hc : Calm s a)
    (h : s.act a = .ok s') {t c : Nat} (ht : t ∈ s.queue c) :
    t ∈ s'.queue c ∨ (s'.running c = some t ∧ a = .dispatch c) := by
  have I := r.inv
  have I' := (CReach.step a r hc h).inv
  obtain ⟨hp, hl⟩ := act_log h c
  rw [I.log c, I'.log c] at hp
  rcases hl with hl | ⟨x, q, hq, hq', hl, hr, ha⟩
  · rw [hl, List.prefix_append_right_inj] at hp
    exact .inl (hp.subset ht)
  · rw [hq] at ht
    rcases List.mem_cons.1 ht with e | e
    · right; rw [e]; exact ⟨hr, ha⟩
    · left; rw [hq']; exact e

theorem CSteps.reach {s s' : St} (r : CReach s) (h : CSteps s s') : CReach s' := by
  induction h with
  | refl => exact r
  | step a _ hc h ih => exact .step a ih hc h

theorem CSteps.log {s s' : St} (h : CSteps s s') (c : Nat) :
    s.entered c <+: s'.entered c ∧ s.left c <+: s'.left c := by
  induction h with
  | refl => exact ⟨List.prefix_refl _, List.prefix_refl _⟩
  | step a _ hc h ih =>
    obtain ⟨hp, hl⟩ := act_log h c
    refine ⟨ih.1.trans hp, ?_⟩
    rcases hl with hl | ⟨x, q, _, _, hl, _⟩
    · rw [hl]; exact ih.2
    · rw [hl]; exact ih.2.trans (List.prefix_append _ _)

/-- C54: round-robin order.  If `t` stands behind the threads `l` in the queue of its core, then in
any later state either core `c` has dispatched the first `k` threads of `l` since, `k ≤ |l|`, and
`t` stands behind the others, or core `c` has dispatched all of `l`, in order, and then `t`. -/
theorem c54_round_robin_partial {s s' : St} (r : CReach s) (h : CSteps s s') {c t : Nat}
    {l m : List Nat} (hq : s.queue c = l ++ t :: m) :
    (∃ k m', k ≤ l.length ∧ s'.left c = s.left c ++ l.take k ∧
      s'.queue c = l.drop k ++ t :: m') ∨
    (∃ m', s'.left c = s.left c ++ l ++ t :: m') := by
  have I := r.inv
  have I' := (h.reach r).inv
  obtain ⟨⟨e, he⟩, ⟨d, hd⟩⟩ := h.log c
  rw [I.log c, I'.log c, ← hd, hq] at he
  simp only [List.append_assoc, List.append_cancel_left_eq] at he
  rw [← List.append_assoc] at he
  -- `l ++ t :: m ++ e = d ++ s'.queue c`
  by_cases hk : d.length ≤ l.length
  · left
    have h1 : d = l.take d.length := by
      have := congrArg (List.take d.length) he
      simp only [List.append_assoc, List.take_left] at this
      rw [List.take_append_of_le_length hk] at this
      exact this.symm
    refine ⟨d.length, m ++ e, hk, by rw [← h1]; exact hd.symm, ?_⟩
    have := congrArg (List.drop d.length) he
    simp only [List.append_assoc, List.drop_left] at this
    rw [List.drop_append_of_le_length hk] at this
    rw [← this]; simp
  · right
    have hk : l.length + 1 ≤ d.length := by omega
    refine ⟨d.drop (l.length + 1), ?_⟩
    rw [← hd, List.append_assoc, List.append_cancel_left_eq]
    have := congrArg (List.take (l.length + 1)) he
    rw [List.take_append_of_le_length (l₁ := d) hk] at this
    have h2 : List.take (l.length + 1) (l ++ t :: m ++ e) = l ++ [t] := by
      rw [show l ++ t :: m ++ e = (l ++ [t]) ++ (m ++ e) by simp]
      rw [List.take_append_of_le_length (by simp)]
      rw [List.take_of_length_le (by simp)]
    rw [h2] at this
    conv => lhs; rw [← List.take_append_drop (l.length + 1) d, ← this]
    simp

/-- C54: a running thread runs until it terminates or suspends itself, and every way to suspend
leaves it where it will be found again (any behaviour of the threads). -/
theorem c54_runs_on {s s' : St} {a : Act} (h : s.act a = .ok s') {t c : Nat}
    (hr : s.running c = some t) (hr' : s'.running c ≠ some t) :
    ∃ r th, a = .yield c r ∧ s.threads t = some th ∧
      ((r = none ∧ s'.threads t = none) ∨
       (r = some .none ∧ t ∈ s'.queue th.affinity) ∨
       (∃ d, r = some (.timeout d) ∧ Sleeps s' t th.affinity d) ∨
       (∃ u, r = some (.joinOn u) ∧ Joins s' t u) ∨
       r = some (.unrunnable t)) := by
  cases a with
  | start b irq =>
    simp only [St.act] at h
    split at h
    · rename_i s'' u hu; cases h
      exact absurd (by rw [(spawn_cases hu).2.1]; exact hr) hr'
    · cases h
    · cases h
  | interrupt b v =>
    simp only [St.act, St.interrupt] at h
    split at h <;> cases h <;> exact absurd hr hr'
  | check b clock =>
    cases h
    have := checkLoop_same (c := b) (clock := clock) (i := 0) (f := (s.waiting b).length) s
    exact absurd (by rw [St.check, this.running]; exact hr) hr'
  | dispatch b =>
    simp only [St.act, St.dispatch] at h
    split at h
    · cases h; exact absurd hr hr'
    · cases h; exact absurd hr hr'
    · rename_i x q hb hq
      split at h <;> cases h
      have : c ≠ b := by intro e; subst e; rw [hr] at hb; cases hb
      exact absurd (show upd s.running b (some x) c = some t by rw [upd_other _ _ this]; exact hr) hr'
  | yield b r =>
    simp only [St.act, St.yield] at h
    split at h
    · cases h; exact absurd hr hr'
    · rename_i x hx
      by_cases e : b = c
      · subst e
        rw [hr] at hx; cases hx
        refine ⟨r, ?_⟩
        cases ht : s.threads t with
        | none =>
          have : s.handle t r = .panic := by simp only [St.handle, ht]
          rw [this] at h; cases h
        | some th =>
          refine ⟨th, rfl, rfl, ?_⟩
          cases r with
          | none =>
            simp only [St.handle, ht] at h
            cases h
            left
            refine ⟨rfl, ?_⟩
            show (St.wakeJoiners _ _).threads t = none
            rw [wakeJoiners_threads]; exact upd_same ..
          | some r =>
            cases r with
            | none =>
              simp only [St.handle, ht, St.markRunnable] at h
              cases h
              right; left
              exact ⟨rfl, by simp [upd_same]⟩
            | timeout d =>
              simp only [St.handle, ht, St.waitInsert] at h
              cases hi : insertDesc (d, t) (s.waiting th.affinity) with
              | none => rw [hi] at h; cases h
              | some l =>
                rw [hi] at h
                simp only [ht] at h
                cases h
                right; right; left
                refine ⟨d, rfl, ?_⟩
                show (d, t) ∈ upd s.waiting th.affinity l th.affinity
                rw [upd_same]; exact (insertDesc_mem hi _).2 (.inl rfl)
            | joinOn u =>
              simp only [St.handle, ht] at h
              cases hu : s.threads u with
              | none => simp only [hu] at h; cases h; exact absurd hr hr'
              | some uth =>
                simp only [hu] at h
                split at h <;> cases h
                right; right; right; left
                refine ⟨u, rfl, th.affinity, ?_⟩
                exact ⟨_, upd_same .., by simp⟩
            | unrunnable a =>
              simp only [St.handle, ht] at h
              cases ha : s.threads a with
              | none => simp only [ha] at h; cases h
              | some ath =>
                simp only [ha] at h
                by_cases e : a = t
                · subst e; right; right; right; right; rfl
                · simp only [e, if_false] at h
                  cases h; exact absurd hr hr'
            | runnable a =>
              simp only [St.handle, ht] at h
              cases hw : s.wake a with
              | ok s'' =>
                simp only [hw] at h; cases h
                exact absurd (by rw [(wake_same hw).running]; exact hr) hr'
              | err e => simp only [hw] at h; cases h
              | panic => simp only [hw] at h; cases h
            | runnableList l =>
              simp only [St.handle, ht] at h
              cases hw : s.wakeAll l with
              | ok s'' =>
                simp only [hw] at h; cases h
                exact absurd (by rw [(wakeAll_same hw).running]; exact hr) hr'
              | err e => simp only [hw] at h; cases h
              | panic => simp only [hw] at h; cases h
            | spawn c irq =>
              simp only [St.handle, ht] at h
              cases hw : s.spawn c irq with
              | ok p =>
                obtain ⟨s'', u⟩ := p
                cases u with
                | none => simp only [hw] at h; cases h
                | some u =>
                  simp only [hw] at h; cases h
                  exact absurd (by rw [(spawn_cases hw).2.1]; exact hr) hr'
              | err e => simp only [hw] at h; cases h
              | panic => simp only [hw] at h; cases h
      · have hne : ∀ y : St, y.running = s.running → upd y.running b none c = some t := by
          intro y hy; rw [upd_other _ _ (Ne.symm e), hy]; exact hr
        split at h
        · rename_i s'' hh
          split at h <;> cases h
          exact absurd (hne s'' (handle_cases hh).2.1) hr'
        · rename_i s'' hh
          cases h; exact absurd (hne s'' (handle_cases hh).2.1) hr'
        · rename_i s'' _ _ _ hh
          cases h; exact absurd (by rw [(handle_cases hh).2.1]; exact hr) hr'
        · cases h
        · cases h

/-- Joins last until the thread joined terminates (any behaviour of the threads). -/
theorem act_join {s s' : St} {a : Act} (h : s.act a = .ok s') {t c u : Nat}
    (hj : JoinsOn s t c u) :
    JoinsOn s' t c u ∨ (s'.threads u = none ∧ t ∈ s'.queue c ∧
      ∃ b, a = .yield b none ∧ s.running b = some u) := by
  have same : ∀ y : St, y.threads = s.threads → JoinsOn y t c u := by
    intro y hy; unfold JoinsOn; rw [hy]; exact hj
  obtain ⟨uth, hu, hm⟩ := hj
  have spawned : ∀ {y : St} {b : Nat} {irq v : Option Nat}, s.spawn b irq = .ok (y, v) →
      JoinsOn y t c u := by
    intro y b irq v hy
    obtain ⟨_, _, _, hn, h1 | h1⟩ := spawn_cases hy
    · exact same y h1
    · have : u ≠ s.nextTid := by intro e; rw [← e, hu] at hn; cases hn
      refine ⟨uth, ?_, hm⟩
      rw [h1, upd_other _ _ this]; exact hu
  cases a with
  | start b irq =>
    simp only [St.act] at h
    split at h
    · rename_i s'' v hv; cases h; exact .inl (spawned hv)
    · cases h
    · cases h
  | interrupt b v =>
    simp only [St.act, St.interrupt] at h
    split at h <;> cases h <;> exact .inl (same _ rfl)
  | check b clock => cases h; exact .inl (same _ (checkLoop_same s).threads)
  | dispatch b =>
    simp only [St.act, St.dispatch] at h
    split at h
    · cases h; exact .inl (same _ rfl)
    · cases h; exact .inl (same _ rfl)
    · split at h <;> cases h
      exact .inl (same _ rfl)
  | yield b r =>
    simp only [St.act, St.yield] at h
    split at h
    · cases h; exact .inl (same _ rfl)
    · rename_i x hx
      cases ht : s.threads x with
      | none =>
        have : s.handle x r = .panic := by simp only [St.handle, ht]
        rw [this] at h; cases h
      | some th =>
        cases r with
        | none =>
          simp only [St.handle, ht] at h
          cases h
          by_cases e : u = x
          · subst e
            rw [hu] at ht; cases ht
            right
            refine ⟨?_, ?_, b, rfl, hx⟩
            · show (St.wakeJoiners _ _).threads u = none
              rw [wakeJoiners_threads]; exact upd_same ..
            · exact wakeJoiners_mem _ (.inl hm)
          · left
            refine ⟨uth, ?_, hm⟩
            show (St.wakeJoiners _ _).threads u = _
            rw [wakeJoiners_threads]
            show upd s.threads x none u = _
            rw [upd_other _ _ e]; exact hu
        | some r =>
          left
          cases r with
          | none =>
            simp only [St.handle, ht, St.markRunnable] at h
            cases h; exact same _ rfl
          | timeout d =>
            simp only [St.handle, ht, St.waitInsert] at h
            cases hi : insertDesc (d, x) (s.waiting th.affinity) with
            | none => rw [hi] at h; cases h
            | some l =>
              rw [hi] at h
              simp only [ht] at h
              cases h; exact same _ rfl
          | joinOn v =>
            simp only [St.handle, ht] at h
            cases hv : s.threads v with
            | none => simp only [hv] at h; cases h; exact same _ rfl
            | some vth =>
              simp only [hv] at h
              split at h <;> cases h
              by_cases e : u = v
              · subst e
                rw [hu] at hv; cases hv
                exact ⟨_, upd_same .., by simp [hm]⟩
              · refine ⟨uth, ?_, hm⟩
                show upd s.threads v _ u = _
                rw [upd_other _ _ e]; exact hu
          | unrunnable a =>
            simp only [St.handle, ht] at h
            cases ha : s.threads a with
            | none => simp only [ha] at h; cases h
            | some ath =>
              simp only [ha] at h
              by_cases e : a = x
              · simp only [e, if_true, ht] at h; cases h; exact same _ rfl
              · simp only [e, if_false] at h
                cases h; exact same _ rfl
          | runnable a =>
            simp only [St.handle, ht] at h
            cases hw : s.wake a with
            | ok s'' =>
              simp only [hw] at h; cases h
              exact same _ (wake_same hw).threads
            | err e => simp only [hw] at h; cases h
            | panic => simp only [hw] at h; cases h
          | runnableList l =>
            simp only [St.handle, ht] at h
            cases hw : s.wakeAll l with
            | ok s'' =>
              simp only [hw] at h; cases h
              exact same _ (wakeAll_same hw).threads
            | err e => simp only [hw] at h; cases h
            | panic => simp only [hw] at h; cases h
          | spawn c irq =>
            simp only [St.handle, ht] at h
            cases hw : s.spawn c irq with
            | ok p =>
              obtain ⟨s'', v⟩ := p
              cases v with
              | none => simp only [hw] at h; cases h
              | some v => simp only [hw] at h; cases h; exact spawned hw
            | err e => simp only [hw] at h; cases h
            | panic => simp only [hw] at h; cases h

/-- C54: a thread that has joined another neither runs nor is queued or asleep, and it is made
runnable, on its own core, by the very action with which the other terminates. -/
theorem c54_join_partial {s s' : St} (r : CReach s) {a : Act} (h : s.act a = .ok s') {t u : Nat}
    (hj : Joins s t u) :
    (∀ c, s.running c ≠ some t ∧ t ∉ s.queue c ∧ ∀ d, ¬ Sleeps s t c d) ∧
    (Live s' u → Joins s' t u) ∧
    (¬ Live s' u → ∃ c, On s t c ∧ t ∈ s'.queue c) := by
  have I := r.inv
  obtain ⟨c, hj⟩ := hj
  have hw := I.join t c u hj
  have core : ∀ b, On s t b → b = c := fun b hb => On.unique hb hw.1
  refine ⟨fun b => ⟨?_, ?_, ?_⟩, ?_, ?_⟩
  · intro hb; have := core b (I.run t b hb); subst this; exact hw.2.2.1 hb
  · intro hb; have := core b (I.queue t b hb); subst this; exact hw.2.1 hb
  · intro d hb; have := core b (I.wait d t b hb).1; subst this; exact hw.2.2.2 d hb
  · rintro ⟨b, th, hth, _⟩
    rcases act_join h hj with h1 | ⟨h1, _⟩
    · exact ⟨c, h1⟩
    · rw [h1] at hth; cases hth
  · intro hn
    rcases act_join h hj with ⟨th, h1, _⟩ | ⟨_, h2, _⟩
    · exact absurd ⟨th.affinity, th, h1, rfl⟩ hn
    · exact ⟨c, hw.1, h2⟩

/-- C54: joining a thread that has terminated returns at once (any behaviour of the threads). -/
theorem c54_join_terminated {s : St} {t u c : Nat} (hr : s.running c = some t)
    (ht : Live s t) (hu : ¬ Live s u) : s.act (.yield c (some (.joinOn u))) = .ok s := by
  obtain ⟨b, th, h1, _⟩ := ht
  have h2 : s.threads u = none := by
    cases h : s.threads u with
    | none => rfl
    | some uth => exact absurd ⟨uth.affinity, uth, h, rfl⟩ hu
  simp only [St.act, St.yield, hr, St.handle, h1, h2]

/-- C54: thread numbers are not used twice, so that a join cannot meet a later thread. -/
theorem c54_new_thread_is_fresh {s s' : St} (r : CReach s) {c : Nat} {irq : Option Nat} {u : Nat}
    (h : s.spawn c irq = .ok (s', some u)) : ¬ Live s u ∧ Live s' u ∧ ∀ t, ¬ Joins s t u := by
  have I := r.inv
  have hn := I.fresh s.nextTid (Nat.le_refl _)
  simp only [St.spawn, hn] at h
  have key : u = s.nextTid ∧ s'.threads u = some ⟨c, []⟩ := by
    split at h
    · split at h
      · cases h; exact ⟨rfl, upd_same ..⟩
      · cases h; exact ⟨rfl, upd_same ..⟩
    · cases h
  obtain ⟨e, hs⟩ := key
  subst e
  refine ⟨?_, ⟨c, _, hs, rfl⟩, ?_⟩
  · rintro ⟨b, th, h1, _⟩; rw [hn] at h1; cases h1
  · rintro t ⟨b, th, h1, _⟩; rw [hn] at h1; cases h1

/-! ## The number of threads -/

/-- How many threads exist. -/
def St.live (s : St) : Nat := cnt s.nextTid (fun t => (s.threads t).isSome)

structure Counted (s : St) : Prop where
  fresh : ∀ t, s.nextTid ≤ t → s.threads t = none
  count : s.count = s.live

theorem Counted.same {s s' : St} (C : Counted s) (h1 : s'.threads = s.threads)
    (h2 : s'.nextTid = s.nextTid) (h3 : s'.count = s.count) : Counted s' := by
  refine ⟨by rw [h1, h2]; exact C.fresh, ?_⟩
  rw [h3, St.live, h1, h2]; exact C.count

theorem Counted.addJoiner {s : St} (C : Counted s) {u : Nat} {uth : Thread}
    (hu : s.threads u = some uth) (l : List (Nat × Nat)) (g : Nat → Bool) (r : Nat → Option Nat) :
    Counted { s with
      threads := upd s.threads u (some ⟨uth.affinity, l⟩), gens := g, running := r } := by
  have hun : ¬ s.nextTid ≤ u := fun h => by rw [C.fresh u h] at hu; cases hu
  constructor
  · intro t ht
    have ht : s.nextTid ≤ t := ht
    show upd s.threads _ _ t = none
    rw [upd_other _ _ (by intro e; subst e; exact hun ht)]; exact C.fresh t ht
  · show s.count = cnt s.nextTid (fun t => (upd s.threads u _ t).isSome)
    rw [C.count]
    apply cnt_congr
    intro t _
    by_cases e : t = u
    · subst e; rw [upd_same, hu]; rfl
    · rw [upd_other _ _ e]

theorem wakeJoiners_count (s : St) (l : List (Nat × Nat)) :
    (s.wakeJoiners l).count = s.count ∧ (s.wakeJoiners l).nextTid = s.nextTid := by
  induction l generalizing s with
  | nil => exact ⟨rfl, rfl⟩
  | cons x l ih => obtain ⟨t, c⟩ := x; exact ih _

theorem wake_count {s s' : St} {r : Nat} (h : s.wake r = .ok s') :
    s'.count = s.count ∧ s'.nextTid = s.nextTid := by
  unfold St.wake at h
  split at h
  · cases h
  · injection h with h; subst h; exact ⟨rfl, rfl⟩

theorem wakeAll_count {s s' : St} {l : List Nat} (h : s.wakeAll l = .ok s') :
    s'.count = s.count ∧ s'.nextTid = s.nextTid := by
  induction l generalizing s with
  | nil => cases h; exact ⟨rfl, rfl⟩
  | cons r l ih =>
    simp only [St.wakeAll] at h
    cases hr : s.wake r <;> rw [hr] at h <;> first | cases h | skip
    have h1 := wake_count hr
    have h2 := ih h
    exact ⟨h2.1.trans h1.1, h2.2.trans h1.2⟩

theorem checkLoop_count {c : Nat} {clock : Nat → Nat} {i f : Nat} (s : St) :
    (St.checkLoop c clock i f s).count = s.count ∧
    (St.checkLoop c clock i f s).nextTid = s.nextTid := by
  induction f generalizing i s with
  | zero => exact ⟨rfl, rfl⟩
  | succ f ih =>
    simp only [St.checkLoop]
    split
    · exact ⟨rfl, rfl⟩
    · split
      · exact ih _
      · exact ⟨rfl, rfl⟩

theorem Counted.spawn {s s' : St} {c : Nat} {irq u : Option Nat} (C : Counted s)
    (h : s.spawn c irq = .ok (s', u)) : Counted s' := by
  have hn := C.fresh s.nextTid (Nat.le_refl _)
  have big : ∀ y : St, y.threads = upd s.threads s.nextTid (some ⟨c, []⟩) →
      y.nextTid = s.nextTid + 1 → y.count = s.count + 1 → Counted y := by
    intro y h1 h2 h3
    constructor
    · intro t ht
      rw [h2] at ht
      rw [h1, upd_other _ _ (by omega)]; exact C.fresh t (by omega)
    · rw [h3, C.count, St.live, St.live, h1, h2, cnt_succ, upd_same]
      simp only [Option.isSome_some, if_true, Nat.add_right_cancel_iff]
      apply cnt_congr
      intro t ht
      rw [upd_other _ _ (by omega)]
  simp only [St.spawn, hn] at h
  split at h
  · split at h <;> cases h <;> exact big _ rfl rfl rfl
  · cases h
    constructor
    · intro t ht
      have ht : s.nextTid + 1 ≤ t := ht
      exact C.fresh t (by omega)
    · show s.count = cnt (s.nextTid + 1) (fun t => (s.threads t).isSome)
      rw [cnt_succ, hn, C.count, St.live]; rfl

theorem Counted.act {s s' : St} {a : Act} (C : Counted s) (h : s.act a = .ok s') : Counted s' := by
  cases a with
  | start b irq =>
    simp only [St.act] at h
    split at h
    · rename_i s'' v hv; cases h; exact C.spawn hv
    · cases h
    · cases h
  | interrupt b v =>
    simp only [St.act, St.interrupt] at h
    split at h <;> cases h <;> exact C.same rfl rfl rfl
  | check b clock =>
    cases h
    have := checkLoop_count (c := b) (clock := clock) (i := 0) (f := (s.waiting b).length) s
    exact C.same (checkLoop_same s).threads this.2 this.1
  | dispatch b =>
    simp only [St.act, St.dispatch] at h
    split at h
    · cases h; exact C
    · cases h; exact C
    · split at h <;> cases h
      exact C.same rfl rfl rfl
  | yield b r =>
    simp only [St.act, St.yield] at h
    split at h
    · cases h; exact C
    · rename_i x hx
      cases ht : s.threads x with
      | none =>
        have : s.handle x r = .panic := by simp only [St.handle, ht]
        rw [this] at h; cases h
      | some th =>
        cases r with
        | none =>
          simp only [St.handle, ht] at h
          cases h
          have hxn : x < s.nextTid := by
            apply Nat.lt_of_not_le
            intro hle; rw [C.fresh x hle] at ht; cases ht
          refine Counted.same (s := { s with
            threads := upd s.threads x none, count := s.count - 1 }) ?_ ?_ ?_ ?_
          · constructor
            · intro t htn
              show upd s.threads x none t = none
              rw [upd_apply]; split
              · rfl
              · exact C.fresh t htn
            · show s.count - 1 = cnt s.nextTid (fun t => (upd s.threads x none t).isSome)
              have := cnt_change (p := fun t => (upd s.threads x none t).isSome)
                (q := fun t => (s.threads t).isSome) x hxn
                (fun t hne => by simp only [upd_other _ _ hne])
              simp only [ht, upd_same, Option.isSome_some, Option.isSome_none, if_true] at this
              have hc := C.count
              unfold St.live at hc
              simp only [Bool.false_eq_true, if_false] at this
              omega
          · exact wakeJoiners_threads _ _
          · exact (wakeJoiners_count _ _).2
          · exact (wakeJoiners_count _ _).1
        | some r =>
          cases r with
          | none =>
            simp only [St.handle, ht, St.markRunnable] at h
            cases h; exact C.same rfl rfl rfl
          | timeout d =>
            simp only [St.handle, ht, St.waitInsert] at h
            cases hi : insertDesc (d, x) (s.waiting th.affinity) with
            | none => rw [hi] at h; cases h
            | some l =>
              rw [hi] at h
              simp only [ht] at h
              cases h; exact C.same rfl rfl rfl
          | joinOn v =>
            simp only [St.handle, ht] at h
            cases hv : s.threads v with
            | none => simp only [hv] at h; cases h; exact C
            | some vth =>
              simp only [hv] at h
              split at h <;> cases h
              exact C.addJoiner hv _ _ _
          | unrunnable a =>
            simp only [St.handle, ht] at h
            cases ha : s.threads a with
            | none => simp only [ha] at h; cases h
            | some ath =>
              simp only [ha] at h
              by_cases e : a = x
              · simp only [e, if_true, ht] at h; cases h; exact C.same rfl rfl rfl
              · simp only [e, if_false] at h
                cases h; exact C.same rfl rfl rfl
          | runnable a =>
            simp only [St.handle, ht] at h
            cases hw : s.wake a with
            | ok s'' =>
              simp only [hw] at h; cases h
              exact C.same (wake_same hw).threads (wake_count hw).2 (wake_count hw).1
            | err e => simp only [hw] at h; cases h
            | panic => simp only [hw] at h; cases h
          | runnableList l =>
            simp only [St.handle, ht] at h
            cases hw : s.wakeAll l with
            | ok s'' =>
              simp only [hw] at h; cases h
              exact C.same (wakeAll_same hw).threads (wakeAll_count hw).2 (wakeAll_count hw).1
            | err e => simp only [hw] at h; cases h
            | panic => simp only [hw] at h; cases h
          | spawn c irq =>
            simp only [St.handle, ht] at h
            cases hw : s.spawn c irq with
            | ok p =>
              obtain ⟨s'', v⟩ := p
              cases v with
              | none => simp only [hw] at h; cases h
              | some v => simp only [hw] at h; cases h; exact C.spawn hw
            | err e => simp only [hw] at h; cases h
            | panic => simp only [hw] at h; cases h

theorem Reach.counted {s : St} (r : Reach s) : Counted s := by
  induction r with
  | init => exact ⟨fun _ _ => rfl, rfl⟩
  | step a _ h ih => exact ih.act h

/-- C54: spawning fails only when there are more than `MAX_THREADS` threads, and otherwise makes a
new thread, at the end of the queue of the core asked for (any behaviour of the threads). -/
theorem c54_spawn {s : St} (r : Reach s) (c : Nat) (irq : Option Nat) :
    (s.live ≤ maxThreads → ∃ s', s.spawn c irq = .ok (s', some s.nextTid) ∧
      On s' s.nextTid c ∧ s'.queue c = s.queue c ++ [s.nextTid] ∧ s'.live = s.live + 1) ∧
    (maxThreads < s.live → ∃ s', s.spawn c irq = .ok (s', none) ∧ s'.live = s.live) := by
  have C := r.counted
  have hn := C.fresh s.nextTid (Nat.le_refl _)
  constructor
  · intro h
    have hc : s.count ≤ maxThreads := by rw [C.count]; exact h
    have hs : ∃ s', s.spawn c irq = .ok (s', some s.nextTid) ∧ On s' s.nextTid c ∧
        s'.queue c = s.queue c ++ [s.nextTid] ∧ s'.count = s.count + 1 := by
      simp only [St.spawn, hn, if_pos hc]
      cases irq with
      | none => exact ⟨_, rfl, ⟨_, upd_same .., rfl⟩, upd_same .., rfl⟩
      | some v => exact ⟨_, rfl, ⟨_, upd_same .., rfl⟩, upd_same .., rfl⟩
    obtain ⟨s', h1, h2, h3, h4⟩ := hs
    refine ⟨s', h1, h2, h3, ?_⟩
    rw [← (C.spawn h1).count, h4, C.count]
  · intro h
    have hc : ¬ s.count ≤ maxThreads := by rw [C.count]; omega
    have hs : ∃ s', s.spawn c irq = .ok (s', none) ∧ s'.count = s.count := by
      simp only [St.spawn, hn, if_neg hc]
      exact ⟨_, rfl, rfl⟩
    obtain ⟨s', h1, h2⟩ := hs
    exact ⟨s', h1, by rw [← (C.spawn h1).count, h2, C.count]⟩

/-! ## C53: sleeping -/

/-- Entries leave the list of sleeping threads only at a check or when someone wakes the thread. -/
theorem waitRemove_mem {s : St} {r c t b d : Nat} (h : (d, t) ∈ s.waiting b) (hr : r ≠ t) :
    (d, t) ∈ (s.waitRemove r c).waiting b := by
  simp only [St.waitRemove, upd_apply]
  split
  · rename_i e; subst e
    simp only [ne_eq, List.mem_filter]
    exact ⟨h, by simp [Ne.symm hr]⟩
  · exact h

theorem wake_waiting {s s' : St} {r t b d : Nat} (hw : s.wake r = .ok s')
    (h : (d, t) ∈ s.waiting b) (hr : r ≠ t) : (d, t) ∈ s'.waiting b := by
  unfold St.wake at hw
  split at hw
  · cases hw
  · injection hw with hw
    subst hw
    exact waitRemove_mem (s := s) h hr

theorem wakeAll_waiting {s s' : St} {l : List Nat} {t b d : Nat} (hw : s.wakeAll l = .ok s')
    (h : (d, t) ∈ s.waiting b) (hr : t ∉ l) : (d, t) ∈ s'.waiting b := by
  induction l generalizing s with
  | nil => cases hw; exact h
  | cons r l ih =>
    simp only [St.wakeAll] at hw
    simp only [List.mem_cons, not_or] at hr
    cases h1 : s.wake r <;> rw [h1] at hw <;> first | cases hw | skip
    exact ih hw (wake_waiting h1 h (Ne.symm hr.1)) hr.2

/-- The request wakes thread `t`. -/
def Wakes (t : Nat) : Option Req → Prop
  | some (.runnable a) => a = t
  | some (.runnableList l) => t ∈ l
  | _ => False

/-- C53: a thread sleeps until a check on its core shows its deadline to have passed, which makes
it runnable, or another thread makes it runnable (any behaviour of the threads). -/
theorem c53_sleeps_until {s s' : St} (r : Reach s) {a : Act} (h : s.act a = .ok s') {t c d : Nat}
    (hs : Sleeps s t c d) :
    Sleeps s' t c d ∨
    (∃ clock j, a = .check c clock ∧ d ≤ clock j ∧ t ∈ s'.queue c) ∨
    (∃ b q, a = .yield b q ∧ Wakes t q) := by
  cases a with
  | start b irq =>
    simp only [St.act] at h
    split at h
    · rename_i s'' v hv; cases h; left; unfold Sleeps; rw [spawn_waiting hv]; exact hs
    · cases h
    · cases h
  | interrupt b v =>
    simp only [St.act, St.interrupt] at h
    split at h <;> cases h <;> exact .inl hs
  | check b clock =>
    cases h
    obtain ⟨w, h1, h2, h3, h4, _, _, h7⟩ := c53_check r b clock
    by_cases e : c = b
    · subst e
      rcases (h1 (d, t)).1 hs with hm | hm
      · exact .inl hm
      · right; left
        obtain ⟨j, hj, hje⟩ := List.getElem_of_mem hm
        refine ⟨clock, j, rfl, ?_, ?_⟩
        · have := h4 j hj; rw [hje] at this; exact this
        · rw [h3]; exact List.mem_append_right _ (List.mem_map.2 ⟨_, hm, rfl⟩)
    · left; unfold Sleeps; rw [(h7 c e).1]; exact hs
  | dispatch b =>
    simp only [St.act, St.dispatch] at h
    split at h
    · cases h; exact .inl hs
    · cases h; exact .inl hs
    · split at h <;> cases h
      exact .inl hs
  | yield b q =>
    simp only [St.act, St.yield] at h
    split at h
    · cases h; exact .inl hs
    · rename_i x hx
      cases ht : s.threads x with
      | none =>
        have : s.handle x q = .panic := by simp only [St.handle, ht]
        rw [this] at h; cases h
      | some th =>
        cases q with
        | none =>
          simp only [St.handle, ht] at h
          cases h
          left
          show (d, t) ∈ (St.wakeJoiners _ _).waiting c
          rw [wakeJoiners_waiting]; exact hs
        | some q =>
          cases q with
          | none =>
            simp only [St.handle, ht, St.markRunnable] at h
            cases h; exact .inl hs
          | timeout d' =>
            simp only [St.handle, ht, St.waitInsert] at h
            cases hi : insertDesc (d', x) (s.waiting th.affinity) with
            | none => rw [hi] at h; cases h
            | some l =>
              rw [hi] at h
              simp only [ht] at h
              cases h
              left
              show (d, t) ∈ upd s.waiting th.affinity l c
              by_cases e : c = th.affinity
              · subst e; rw [upd_same]; exact (insertDesc_mem hi _).2 (.inr hs)
              · rw [upd_other _ _ e]; exact hs
          | joinOn v =>
            simp only [St.handle, ht] at h
            cases hv : s.threads v with
            | none => simp only [hv] at h; cases h; exact .inl hs
            | some vth =>
              simp only [hv] at h
              split at h <;> cases h
              exact .inl hs
          | unrunnable a =>
            simp only [St.handle, ht] at h
            cases ha : s.threads a with
            | none => simp only [ha] at h; cases h
            | some ath =>
              simp only [ha] at h
              by_cases e : a = x
              · simp only [e, if_true, ht] at h; cases h; exact .inl hs
              · simp only [e, if_false] at h
                cases h; exact .inl hs
          | runnable a =>
            simp only [St.handle, ht] at h
            cases hw : s.wake a with
            | ok s'' =>
              simp only [hw] at h; cases h
              by_cases e : a = t
              · right; right; exact ⟨b, _, rfl, e⟩
              · exact .inl (wake_waiting hw hs e)
            | err e => simp only [hw] at h; cases h
            | panic => simp only [hw] at h; cases h
          | runnableList l =>
            simp only [St.handle, ht] at h
            cases hw : s.wakeAll l with
            | ok s'' =>
              simp only [hw] at h; cases h
              by_cases e : t ∈ l
              · right; right; exact ⟨b, _, rfl, e⟩
              · exact .inl (wakeAll_waiting hw hs e)
            | err e => simp only [hw] at h; cases h
            | panic => simp only [hw] at h; cases h
          | spawn b irq =>
            simp only [St.handle, ht] at h
            cases hw : s.spawn b irq with
            | ok p =>
              obtain ⟨s'', v⟩ := p
              cases v with
              | none => simp only [hw] at h; cases h
              | some v =>
                simp only [hw] at h; cases h
                left; unfold Sleeps; rw [spawn_waiting hw]; exact hs
            | err e => simp only [hw] at h; cases h
            | panic => simp only [hw] at h; cases h

/-- C53: while a thread sleeps it neither runs nor stands in a queue, so it goes on only after it
was made runnable.  Missing: threads that are made runnable while they run or are queued
(`c53_sleep_cut_short`). -/
theorem c53_asleep_partial {s : St} (r : CReach s) {t c d : Nat} (hs : Sleeps s t c d) :
    (∀ b, s.running b ≠ some t ∧ t ∉ s.queue b) ∧
    ∀ b d', Sleeps s t b d' → b = c ∧ d' = d := by
  have I := r.inv
  have hw := I.wait d t c hs
  have core : ∀ b, On s t b → b = c := fun b hb => On.unique hb hw.1
  refine ⟨fun b => ⟨?_, ?_⟩, ?_⟩
  · intro hb; have := core b (I.run t b hb); subst this; exact hw.2.2 hb
  · intro hb; have := core b (I.queue t b hb); subst this; exact hw.2.1 hb
  · intro b d' hb
    have e := core b (I.wait d' t b hb).1
    subst e
    exact ⟨rfl, I.wuniq d' d t b hb hs⟩

end NRK.Lineup.Sched
