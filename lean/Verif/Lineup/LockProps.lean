import Verif.Lineup.LockLemmas
import Verif.Sync.MpmcProps

/-!
# Properties C49 and C52: the user-level mutex and condition variable
-/

namespace NRK.Lineup

open NRK.Sync

/-! ## Specification -/

/-- The thread has returned from `enter`, `try_enter` (with `true`) or `wait` and has not called
`exit` or `wait` since: it is in its critical section. -/
def Owns (s : St) (t : Nat) : Prop := s.pc t = .crit

/-- The thread has called `enter`, found the mutex taken and has not been let in. -/
def Waits (s : St) (t : Nat) : Prop :=
  s.pc t = .push ∨ (s.pc t = .block ∧ s.wakes t = 0)

/-- The thread has called `wait` and nobody has woken it. -/
def Asleep (s : St) (t : Nat) : Prop := t ∈ s.waiters

/-- The next step of thread `t` is possible. -/
def Moves (c : Cfg) (n : Nat) (s : St) (t : Nat) : Prop :=
  ∃ s', Step c n s s' ∧ s'.pc t ≠ s.pc t

/-! ## C49 -/

/-- C49: at most one thread owns the mutex, and it is the recorded owner.  Missing: threads that
use `timed_wait`, see `c49_timed_wait_two_owners`. -/
theorem c49_exclusive_partial {c : Cfg} {n : Nat} {s : St} (hc : c.timed = false)
    (r : Reach c n s) {t u : Nat} (h1 : Owns s t) (h2 : Owns s u) :
    t = u ∧ s.owner = some t := by
  have I := r.inv hc
  have hx : ∀ v, Owns s v → s.has v = true := fun v hv => by
    rw [Owns] at hv; rw [St.has, hv]; rfl
  exact ⟨I.uniq t u (.inl (hx t h1)) (.inl (hx u h2)), (I.owner t).2 (by rw [h1]; rfl)⟩

/-- Stronger: while a thread owns the mutex, no other thread is anywhere between having acquired
and having released it, and none can acquire it. -/
theorem c49_owner_alone_partial {c : Cfg} {n : Nat} {s s' : St} (hc : c.timed = false)
    (r : Reach c n s) {t u : Nat} (h : Owns s t) (hu : u ≠ t) (st : Step c n s s') :
    (s.pc u).holds = false ∧ (Owns s' t → (s'.pc u).holds = false) := by
  have key : ∀ {s : St}, Reach c n s → Owns s t → (s.pc u).holds = false := by
    intro s r h
    have I := r.inv hc
    cases hx : (s.pc u).holds with
    | false => rfl
    | true =>
      have h1 : s.has u = true := by
        cases hp : s.pc u <;> rw [hp] at hx <;> simp_all [St.has, hasOf, Pc.holds]
      have h2 : s.has t = true := by rw [Owns] at h; rw [St.has, h]; rfl
      exact absurd (I.uniq u t (.inl h1) (.inl h2)) hu
  exact ⟨key r h, key (r.step st)⟩

/-- C49: no waiter is lost.  If a thread waits, the mutex is owned by another thread, which can
leave it, or some thread that is acquiring it, releasing it, or to which it has been handed over,
can make a step; a thread that hands the mutex over waits at most for one that is about to put
itself on the list, which it can.  (The list is assumed not to be full, see `c49_list_full`.) -/
theorem c49_no_waiter_lost_partial {c : Cfg} {n : Nat} {s : St} (hc : c.timed = false)
    (r : Reach c n s) (hf : ∀ u, s.pc u ≠ .full) (hl : s.waitlist.length < c.cap) {t : Nat}
    (h : Waits s t) :
    ∃ u, Owns s u ∨
      (((s.pc u).holds = true ∨ (s.pc u).hands = true ∨ s.pc u = .push ∨
        (s.pc u = .block ∧ 0 < s.wakes u)) ∧ Moves c n s u) := by
  have I := r.inv hc
  have hw : s.wants t = true := by
    rcases h with h | ⟨h1, h2⟩
    · simp [St.wants, h, wantsOf]
    · simp [St.wants, h1, h2, wantsOf]
  obtain ⟨u, hu, hr⟩ := I.resp t hw
  have mv : ∀ {s' : St} (v : Nat), Step c n s s' → s'.pc v ≠ s.pc v → Moves c n s v :=
    fun v st e => ⟨_, st, e⟩
  rcases hr with hr | hr
  · cases hp : s.pc u with
    | crit => exact ⟨u, .inl hp⟩
    | block =>
      have hk : 0 < s.wakes u := by
        rcases Nat.eq_zero_or_pos (s.wakes u) with h0 | h0
        · rw [St.has, hp, h0] at hr; cases hr
        · exact h0
      exact ⟨u, .inr ⟨.inr (.inr (.inr ⟨hp, hk⟩)),
        mv u (.block s u hu hp hk) (by simp [hp])⟩⟩
    | got k =>
      exact ⟨u, .inr ⟨.inl (by rw [hp]; rfl), mv u (.own s u k hu hp) (by
        simp [hp]; cases k <;> simp [Then.next])⟩⟩
    | exitOwner w =>
      exact ⟨u, .inr ⟨.inl (by rw [hp]; rfl), mv u (.exitOwner s u w hu hp) (by simp [hp])⟩⟩
    | exitSub w =>
      refine ⟨u, .inr ⟨.inl (by rw [hp]; rfl), ?_⟩⟩
      have h1 := cnt_pos hu hr
      have h2 := I.count
      rcases Nat.lt_or_ge 1 s.counter with h3 | h3
      · exact mv u (.exitMore s u w hu hp h3) (by simp [hp])
      · exact mv u (.exitLast s u w hu hp (by omega)) (by
          simp [hp]; cases w <;> simp [Why.next])
    | cvRemove =>
      exact ⟨u, .inr ⟨.inl (by rw [hp]; rfl), mv u (.cvRemove s u hu hp) (by simp [hp])⟩⟩
    | _ => simp [St.has, hp, hasOf, Pc.holds] at hr
  · cases hp : s.pc u with
    | exitPop w =>
      cases hwl : s.waitlist with
      | cons v vs =>
        exact ⟨u, .inr ⟨.inr (.inl (by rw [hp]; rfl)), mv u (.exitPop s u v vs w hu hp hwl) (by
          simp [hp]; cases w <;> simp [Why.next])⟩⟩
      | nil =>
        obtain ⟨v, hv, hwv⟩ := cnt_exists (I.handto u (by rw [hp]; rfl))
        cases hpv : s.pc v with
        | push =>
          exact ⟨v, .inr ⟨.inr (.inr (.inl hpv)), mv v (.push s v hv hpv hl) (by simp [hpv])⟩⟩
        | full => exact absurd hpv (hf v)
        | block =>
          have h0 : s.wakes v = 0 := by
            rcases Nat.eq_zero_or_pos (s.wakes v) with h0 | h0
            · exact h0
            · have := I.one v
              have : s.wakes v = 1 := by omega
              rw [St.wants, hpv, this] at hwv; cases hwv
          have := (I.list v).2 ⟨hpv, h0⟩
          rw [hwl] at this; cases this
        | _ => simp [St.wants, hpv, wantsOf] at hwv
    | _ => rw [hp] at hr; cases hr

/-- C49: a release admits the waiter that is first in line.  Only the list's first thread is taken
off it, it is then let in: it can run, and nobody else owns the mutex or waits to hand it over. -/
theorem c49_next_admitted_partial {c : Cfg} {n : Nat} {s s' : St} (hc : c.timed = false)
    (r : Reach c n s) (st : Step c n s s') :
    s'.waitlist = s.waitlist ∨ (∃ t, s.pc t = .push ∧ s'.waitlist = s.waitlist ++ [t]) ∨
      ∃ u, s.waitlist = u :: s'.waitlist ∧ Moves c n s' u ∧
        ∀ v, ¬ Owns s' v ∧ (s'.pc v).holds = false ∧ (s'.pc v).hands = false := by
  have I := r.inv hc
  have I' := I.step hc st
  have hsig : ∀ s : St, s.signal.waitlist = s.waitlist := by
    intro s; unfold St.signal; split <;> rfl
  have hall : ∀ (l : List Nat) (s : St), (s.runnableAll l).waitlist = s.waitlist := by
    intro l
    induction l with
    | nil => intro s; rfl
    | cons a l ih => intro s; exact ih (s.runnable a)
  cases st with
  | push t ht h hl => exact .inr (.inl ⟨t, h, rfl⟩)
  | signal t ht h => exact .inl (hsig s)
  | broadcast t ht h => exact .inl (hall _ s)
  | exitPop t u ts w ht h hl =>
    refine .inr (.inr ⟨u, hl, ?_⟩)
    have hu : s.pc u = .block ∧ s.wakes u = 0 := (I.list u).1 (by rw [hl]; simp)
    have hut : u ≠ t := by intro e; rw [e, h] at hu; simp at hu
    have hun : u < n := by
      rcases Nat.lt_or_ge u n with h | h
      · exact h
      · rw [I.bound u h] at hu; simp at hu
    have hpu : (upd s.pc t w.next) u = .block := by rw [upd_other _ _ hut]; exact hu.1
    have hku : (upd s.wakes u (s.wakes u + 1)) u = 1 := by rw [upd_same, hu.2]
    have hhu : St.has { s.runnable u with waitlist := ts, pc := upd s.pc t w.next } u = true := by
      show hasOf (upd s.pc t w.next u) (upd s.wakes u (s.wakes u + 1) u) = true
      rw [hpu, hku]; rfl
    refine ⟨⟨_, .block _ u hun hpu (by show 0 < upd s.wakes u (s.wakes u + 1) u; omega), ?_⟩, ?_⟩
    · show upd (upd s.pc t w.next) u (.got .ret) u ≠ upd s.pc t w.next u
      rw [upd_same, hpu]; nofun
    · intro v
      have hv : ∀ p : Pc, p.holds = true → p ≠ .block := by intro p; cases p <;> simp [Pc.holds]
      have key : (upd s.pc t w.next v).holds = false := by
        cases hx : (upd s.pc t w.next v).holds with
        | false => rfl
        | true =>
          have h1 : St.has { s.runnable u with waitlist := ts, pc := upd s.pc t w.next } v = true := by
            show hasOf (upd s.pc t w.next v) (upd s.wakes u (s.wakes u + 1) v) = true
            have hb := hv _ hx
            cases hp : upd s.pc t w.next v <;> rw [hp] at hx hb <;> simp_all [hasOf, Pc.holds]
          have := I'.uniq v u (.inl h1) (.inl hhu)
          subst this
          exact absurd hpu (hv _ hx)
      refine ⟨fun ho => ?_, key, ?_⟩
      · have ho : upd s.pc t w.next v = .crit := ho
        rw [ho] at key; cases key
      · cases hx : (upd s.pc t w.next v).hands with
        | false => rfl
        | true =>
          have := I'.uniq v u (.inr hx) (.inl hhu)
          subst this
          rw [hpu] at hx; cases hx
  | _ => exact .inl rfl

/-- C49: `try_enter` returns `false` only while another thread has the mutex or is releasing or
waiting for it. -/
theorem c49_try_false_partial {c : Cfg} {n : Nat} {s : St} (hc : c.timed = false)
    (r : Reach c n s) {t : Nat} (h : s.pc t = .tryLoad) (h0 : s.counter ≠ 0) :
    ∃ u, u ≠ t ∧ ((s.pc u).holds = true ∨ (s.pc u).hands = true ∨
      (s.pc u = .block ∧ 0 < s.wakes u)) := by
  have I := r.inv hc
  have : ∃ u, u < n ∧ (s.has u = true ∨ (s.pc u).hands = true) := by
    by_cases h1 : 0 < cnt n s.has
    · obtain ⟨u, h2, h3⟩ := cnt_exists h1
      exact ⟨u, h2, .inl h3⟩
    · obtain ⟨u, _, h3⟩ := cnt_exists (n := n) (p := s.wants) (by have := I.count; omega)
      exact I.resp u h3
  obtain ⟨u, _, hu⟩ := this
  refine ⟨u, ?_, ?_⟩
  · intro e; subst e
    rcases hu with hu | hu
    · simp [St.has, h, hasOf, Pc.holds] at hu
    · rw [h] at hu; cases hu
  · rcases hu with hu | hu
    · cases hp : s.pc u with
      | block =>
        right; right
        refine ⟨rfl, ?_⟩
        rcases Nat.eq_zero_or_pos (s.wakes u) with h0 | h0
        · rw [St.has, hp, h0] at hu; cases hu
        · exact h0
      | _ => left; simp_all [St.has, hasOf]
    · exact .inr (.inl hu)

/-- C49: with a mutex made for blocking or spinning no assertion fails and `exit` never panics, as
long as at most one thread more than the list holds uses the mutex. -/
theorem c49_no_panic_partial {c : Cfg} {n : Nat} {s : St} (hc : c.timed = false)
    (hk : c.spin = true ∨ c.kmutex = true) (hn : n ≤ c.cap + 1) (r : Reach c n s) (t : Nat) :
    s.pc t ≠ .panic ∧ s.pc t ≠ .full := by
  induction r generalizing t with
  | init => exact ⟨nofun, nofun⟩
  | @step s s' r st ih =>
    have I := r.inv hc
    have hall : ∀ (l : List Nat) (s : St), (s.runnableAll l).pc = s.pc := by
      intro l
      induction l with
      | nil => intro s; rfl
      | cons a l ih => intro s; exact ih (s.runnable a)
    have key : ∀ (a : Nat) (p : Pc), p ≠ .panic → p ≠ .full →
        upd s.pc a p t ≠ .panic ∧ upd s.pc a p t ≠ .full := by
      intro a p h1 h2
      by_cases e : t = a
      · subst e; rw [upd_same]; exact ⟨h1, h2⟩
      · rw [upd_other _ _ e]; exact ih t
    cases st with
    | enterPlain a ha h hs hk' => rcases hk with hk | hk <;> simp_all
    | pushFull a ha h hl =>
      exfalso
      -- the waiting threads, the one that pushes and the one that has the mutex are different
      obtain ⟨u, hu, hr⟩ := I.resp a (by simp [St.wants, h, wantsOf])
      have hua : u ≠ a := by
        intro e; subst e
        rcases hr with hr | hr
        · simp [St.has, h, hasOf, Pc.holds] at hr
        · rw [h] at hr; cases hr
      have hul : u ∉ s.waitlist := by
        rw [I.list]; rintro ⟨h1, h2⟩
        rcases hr with hr | hr
        · simp [St.has, h1, h2, hasOf, Pc.holds] at hr
        · rw [h1] at hr; cases hr
      have hal : a ∉ s.waitlist := by
        rw [I.list, h]; simp
      have hsub : ∀ x ∈ u :: a :: s.waitlist, x < n := by
        intro x hx
        simp only [List.mem_cons] at hx
        rcases hx with hx | hx | hx
        · omega
        · omega
        · rcases Nat.lt_or_ge x n with h' | h'
          · exact h'
          · have := (I.list x).1 hx; rw [I.bound x h'] at this; simp at this
      have hnd : (u :: a :: s.waitlist).Nodup := by
        simp [hua, hul, hal, I.listNodup]
      have := Mpmc.length_le_of_lt hnd hsub
      simp only [List.length_cons] at this
      omega
    | tryOwn a ha h ho =>
      have := (I.owner a).1 ho
      rw [h] at this; cases this
    | exitFree a w ha h h0 =>
      have h1 : s.has a = true := by
        have hz := I.wakes_zero (t := a) (by rw [h]; nofun) (by rw [h]; nofun)
        simp [St.has, h, hz, hasOf, Pc.holds]
      have := cnt_pos ha h1
      have := I.count
      omega
    | own a k ha h => exact key a _ (by cases k <;> nofun) (by cases k <;> nofun)
    | exitLast a w ha h h0 => exact key a _ (by cases w <;> nofun) (by cases w <;> nofun)
    | exitPop a u ts w ha h hl => exact key a _ (by cases w <;> nofun) (by cases w <;> nofun)
    | signal a ha h =>
      have : s.signal.pc = s.pc := by unfold St.signal; split <;> rfl
      rw [this]; exact ih t
    | broadcast a ha h =>
      show (s.runnableAll s.waiters).pc t ≠ _ ∧ (s.runnableAll s.waiters).pc t ≠ _
      rw [hall]; exact ih t
    | expire a ha h => exact ih t
    | _ => exact key _ _ nofun nofun

/-! ## C52 -/

theorem runnableAll_spec : ∀ (l : List Nat) (s : St), l.Nodup → ∀ u,
    (s.runnableAll l).pc u = s.pc u ∧
      (s.runnableAll l).wakes u = if u ∈ l then s.wakes u + 1 else s.wakes u
  | [], s, _, u => ⟨rfl, rfl⟩
  | a :: l, s, h, u => by
    have h := List.nodup_cons.1 h
    have ih := runnableAll_spec l (s.runnable a) h.2 u
    refine ⟨ih.1, ?_⟩
    show ((s.runnable a).runnableAll l).wakes u = _
    rw [ih.2]
    show (if u ∈ l then upd s.wakes a (s.wakes a + 1) u + 1 else upd s.wakes a (s.wakes a + 1) u) = _
    by_cases e : u = a
    · subst e; simp [h.1]
    · simp [e, upd_other _ _ e]

/-- C52: `signal` wakes exactly one of the sleeping threads if there is one, and changes nothing
else: the woken thread can run. -/
theorem c52_signal_partial {c : Cfg} {n : Nat} {s : St} (hc : c.timed = false) (r : Reach c n s)
    {t : Nat} (ht : t < n) (h : Owns s t) :
    ((∀ u, ¬ Asleep s u) → s.signal = s) ∧
    ((∃ u, Asleep s u) → ∃ u, Asleep s u ∧ ¬ Asleep s.signal u ∧ Moves c n s.signal u ∧
      (∀ v, v ≠ u → (Asleep s.signal v ↔ Asleep s v) ∧ s.signal.wakes v = s.wakes v) ∧
      s.signal.pc = s.pc ∧ s.signal.counter = s.counter ∧ s.signal.owner = s.owner ∧
      s.signal.waitlist = s.waitlist) := by
  have I := r.inv hc
  rcases List.eq_nil_or_concat s.waiters with hw | ⟨us, u, hw⟩
  · refine ⟨fun _ => St.signal_nil hw, ?_⟩
    rintro ⟨u, hu⟩
    rw [Asleep, hw] at hu; cases hu
  · rw [List.concat_eq_append] at hw
    refine ⟨fun hno => absurd (by rw [Asleep, hw]; simp) (hno u), fun _ => ?_⟩
    have hu : Asleep s u := by rw [Asleep, hw]; simp
    have hub : s.pc u = .cvBlock ∧ s.wakes u = 0 := by
      rcases (I.waiters u).1 hu with h' | h'
      · rw [I.none_leaving ht h u] at h'; cases h'
      · exact h'
    have hun : u < n := by
      rcases Nat.lt_or_ge u n with h | h
      · exact h
      · rw [I.bound u h] at hub; simp at hub
    have hnd := I.waitersNodup
    rw [hw, List.nodup_append] at hnd
    rw [St.signal_snoc hw]
    refine ⟨u, hu, ?_, ?_, ?_, rfl, rfl, rfl, rfl⟩
    · intro hx
      exact hnd.2.2 u hx u (by simp) rfl
    · have h1 : (upd s.wakes u (s.wakes u + 1)) u = 1 := by rw [upd_same, hub.2]
      refine ⟨_, .cvBlock _ u hun hub.1 (by show 0 < upd s.wakes u (s.wakes u + 1) u; omega), ?_⟩
      show upd s.pc u (.load .cv) u ≠ s.pc u
      rw [upd_same, hub.1]; nofun
    · intro v hv
      refine ⟨?_, upd_other _ _ hv⟩
      show v ∈ us ↔ v ∈ s.waiters
      rw [hw]; simp [hv]

/-- C52: `broadcast` wakes all sleeping threads, and no other. -/
theorem c52_broadcast_partial {c : Cfg} {n : Nat} {s : St} (hc : c.timed = false)
    (r : Reach c n s) {t : Nat} (ht : t < n) (h : Owns s t) :
    (∀ u, ¬ Asleep s.broadcast u) ∧ (∀ u, Asleep s u → Moves c n s.broadcast u) ∧
    (∀ u, ¬ Asleep s u → s.broadcast.wakes u = s.wakes u) ∧ s.broadcast.pc = s.pc := by
  have I := r.inv hc
  have hsp := runnableAll_spec s.waiters s I.waitersNodup
  refine ⟨nofun, ?_, ?_, ?_⟩
  · intro u hu
    have hub : s.pc u = .cvBlock ∧ s.wakes u = 0 := by
      rcases (I.waiters u).1 hu with h' | h'
      · rw [I.none_leaving ht h u] at h'; cases h'
      · exact h'
    have hun : u < n := by
      rcases Nat.lt_or_ge u n with h | h
      · exact h
      · rw [I.bound u h] at hub; simp at hub
    have h1 : s.broadcast.pc u = .cvBlock := (hsp u).1.trans hub.1
    have h2 : s.broadcast.wakes u = s.wakes u + 1 := by
      have := (hsp u).2
      rw [if_pos (show u ∈ s.waiters from hu)] at this
      exact this
    refine ⟨_, .cvBlock _ u hun h1 (by omega), ?_⟩
    show upd s.broadcast.pc u (.load .cv) u ≠ s.broadcast.pc u
    rw [upd_same, h1]; nofun
  · intro u hu
    have := (hsp u).2
    rw [if_neg (show ¬ u ∈ s.waiters from hu)] at this
    exact this
  · funext u; exact (hsp u).1

/-- C52: nothing but a `signal` or `broadcast` by an owner of the mutex wakes a sleeping thread:
until then it stays asleep. -/
theorem c52_only_woken_partial {c : Cfg} {n : Nat} {s s' : St} (hc : c.timed = false)
    (r : Reach c n s) (st : Step c n s s') {u : Nat} (h : Asleep s u) :
    (Asleep s' u ∧ s'.pc u ≠ .load .cv) ∨
      ∃ t, Owns s t ∧ (s' = s.signal ∨ s' = s.broadcast) := by
  have I := r.inv hc
  have hin := (I.waiters u).1 h
  have key : ∀ (a : Nat) (p : Pc), p ≠ .load .cv → upd s.pc a p u ≠ .load .cv := by
    intro a p hp
    by_cases e : u = a
    · subst e; rw [upd_same]; exact hp
    · rw [upd_other _ _ e]
      intro hx; rw [hx] at hin; simp [Pc.leaving] at hin
  have hnl : ∀ p : Pc, p.leaving = true ∨ (p = .cvBlock ∧ s.wakes u = 0) → p ≠ .load .cv := by
    intro p hp hx; rw [hx] at hp; simp [Pc.leaving] at hp
  cases st with
  | signal t ht h => exact .inr ⟨t, h, .inl rfl⟩
  | broadcast t ht h => exact .inr ⟨t, h, .inr rfl⟩
  | cvRemove t ht h' =>
    have hne : u ≠ t := by
      intro e; subst e; rw [h'] at hin; simp [Pc.leaving] at hin
    exact .inl ⟨(List.mem_erase_of_ne hne).2 h, key _ _ nofun⟩
  | wait t ht h' => exact .inl ⟨List.mem_append_left _ h, key _ _ nofun⟩
  | timedWait t ht h' h0 => rw [hc] at h0; cases h0
  | cvBlock t ht h' hw =>
    have hne : u ≠ t := by
      intro e; subst e; rw [h'] at hin; simp [Pc.leaving] at hin; omega
    refine .inl ⟨h, ?_⟩
    show upd s.pc t _ u ≠ _
    rw [upd_other _ _ hne]; exact hnl _ hin
  | cvAwake t ht h' hw => have := I.untimed t; rw [h'] at this; cases this
  | own t k ht h' => exact .inl ⟨h, key _ _ (by cases k <;> nofun)⟩
  | exitLast t w ht h' h0 => exact .inl ⟨h, key _ _ (by cases w <;> nofun)⟩
  | exitPop t v ts w ht h' hl => exact .inl ⟨h, key _ _ (by cases w <;> nofun)⟩
  | expire t ht h' => exact .inl ⟨h, hnl _ hin⟩
  | load t k ht h' h0 => exact .inl ⟨h, key _ _ nofun⟩
  | casFail t k ht h' h0 =>
    have hne : u ≠ t := by
      intro e; subst e; rw [h'] at hin; simp [Pc.leaving] at hin
    refine .inl ⟨h, ?_⟩
    show upd s.pc t _ u ≠ _
    rw [upd_other _ _ hne]; exact hnl _ hin
  | _ => exact .inl ⟨h, key _ _ nofun⟩

/-- C52: a thread that returns from `wait` owns the mutex, alone. -/
theorem c52_returns_owning_partial {c : Cfg} {n : Nat} {s : St} (hc : c.timed = false)
    (r : Reach c n s) {t : Nat} (h : s.pc t = .cvRemove) :
    s.owner = some t ∧ (∀ u, u ≠ t → (s.pc u).holds = false) ∧
      ∃ s', Step c n s s' ∧ Owns s' t := by
  have I := r.inv hc
  refine ⟨(I.owner t).2 (by rw [h]; rfl), ?_, ?_⟩
  · intro u hu
    cases hx : (s.pc u).holds with
    | false => rfl
    | true =>
      have h1 : s.has u = true := by
        cases hp : s.pc u <;> rw [hp] at hx <;> simp_all [St.has, hasOf, Pc.holds]
      have h2 : s.has t = true := by rw [St.has, h]; rfl
      exact absurd (I.uniq u t (.inl h1) (.inl h2)) hu
  · have htn : t < n := by
      rcases Nat.lt_or_ge t n with h' | h'
      · exact h'
      · rw [I.bound t h'] at h; cases h
    exact ⟨_, .cvRemove s t htn h, by rw [Owns]; exact upd_same ..⟩

end NRK.Lineup
