import Verif.Rump.LwpReach

/-!
# C99: every C thread knows who it is, and shows where it runs

What the C library sees: `_lwp_self` gives a thread its id; `_lwp_ctl` points to a word with the
core that the thread runs on (−1 if it does not run) and a counter that tells whether it has been
switched since; `rumpuser_curlwp` gives what the rump kernel last set for this thread.

`Runs` and `Is` are all that is needed to read the statements: which thread has a core, and what
`_lwp_self` answers in it.
-/

namespace NRK.Rump.Lwp

open NRK.Lineup
open NRK.Lineup.Sched (Home)

/-- Thread `t` has core `c`. -/
def Runs (s : St) (t c : Nat) : Prop := s.sched.running c = some t

/-- In thread `t`, `_lwp_self` returns `i`. -/
def Is (s : St) (t i : Nat) : Prop := s.self t = .ok i

theorem is_iff {s : St} {t i : Nat} : Is s t i ↔ (s.tcb t).lwp = some i := by
  unfold Is St.self
  cases (s.tcb t).lwp with
  | none => simp
  | some j => simp

/-- What an action does to the ids of the threads. -/
theorem act_lwp {s s' : St} (I : Inv s) {a : Act} (hs : s.act a = .ok s') {t i : Nat}
    (h : (s.tcb t).lwp = some i) : (s'.tcb t).lwp = some i ∧ (s'.tcb t).core = (s.tcb t).core := by
  have viaSch : ∀ {b : Sched.Act} {r : St}, s.sch b = .ok r →
      (r.tcb t).lwp = some i ∧ (r.tcb t).core = (s.tcb t).core := by
    intro b r hb
    have hl := I.toBase.bornl h
    obtain ⟨σ, _, ⟨c, u, _, _, _, rfl⟩ | ⟨_, rfl⟩⟩ := sch_eq hb
    · show ((s.started b) t).lwp = some i ∧ ((s.started b) t).core = _
      rw [started_old s b t (by omega)]
      exact ⟨h, rfl⟩
    · show ((s.started b) t).lwp = some i ∧ ((s.started b) t).core = _
      rw [started_old s b t (by omega)]
      exact ⟨h, rfl⟩
  cases a with
  | sched a => exact viaSch hs
  | idle c =>
    simp only [St.act, Outcome.ok.injEq] at hs
    subst hs
    unfold St.idle
    split <;> exact ⟨h, rfl⟩
  | lwpInit c n =>
    simp only [St.act, Outcome.ok.injEq] at hs
    subst hs
    unfold St.lwpInit
    cases h1 : s.sched.running c with
    | none => exact ⟨h, rfl⟩
    | some u =>
      simp only
      split
      · exact ⟨h, rfl⟩
      · next h2 =>
        have : t ≠ u := by
          intro e
          subst e
          exact h2 (.inr (by rw [h]; rfl))
        simp only
        rw [upd_other _ _ this]
        exact ⟨h, rfl⟩
  | makeBegin c e =>
    simp only [St.act, Outcome.ok.injEq] at hs
    subst hs
    unfold St.makeBegin
    cases h1 : s.sched.running c with
    | none => exact ⟨h, rfl⟩
    | some u =>
      simp only
      split
      · exact ⟨h, rfl⟩
      · split
        · exact ⟨h, rfl⟩
        · simp only [upd_apply]
          split
          · next e => subst e; exact ⟨h, rfl⟩
          · exact ⟨h, rfl⟩
  | makeSpawn c =>
    simp only [St.act] at hs
    cases h0 : s.makeSpawn c with
    | ok p =>
      rw [h0] at hs
      have := Outcome.ok.inj hs
      subst this
      rcases makeSpawn_eq (r := p.2) h0 with ⟨_, e⟩ | ⟨u, j, g, σ, _, h1, h2, _, _, _, e⟩
      · rw [e]; exact ⟨h, rfl⟩
      · rw [e]
        have hl := I.toBase.bornl h
        have hu := I.toBase.born h1
        show (named s.tcb u s.sched.nextTid g j t).lwp = some i ∧
          (named s.tcb u s.sched.nextTid g j t).core = _
        unfold named
        simp only [upd_apply]
        rw [if_neg (show ¬ t = s.sched.nextTid by omega),
          if_neg (show ¬ u = s.sched.nextTid by omega),
          if_neg (show ¬ u = s.sched.nextTid by omega)]
        split
        · next e => subst e; exact ⟨h, rfl⟩
        · rw [if_neg (show ¬ t = s.sched.nextTid by omega)]; exact ⟨h, rfl⟩
    | err e => rw [h0] at hs; exact absurd hs (by simp)
    | panic => rw [h0] at hs; exact absurd hs (by simp)
  | create c j =>
    simp only [St.act] at hs
    cases h0 : s.create c j with
    | ok p =>
      rw [h0] at hs
      have := Outcome.ok.inj hs
      subst this
      obtain ⟨_, g, _, _, h1⟩ := create_eq (r := p.2) h0
      exact viaSch h1
    | err e => rw [h0] at hs; exact absurd hs (by simp)
    | panic => rw [h0] at hs; exact absurd hs (by simp)
  | curlwpop c op l =>
    simp only [St.act] at hs
    cases h0 : s.curlwpop c op l with
    | ok p =>
      rw [h0] at hs
      have := Outcome.ok.inj hs
      subst this
      obtain ⟨_, h1 | ⟨u, k, h1, h2, _⟩⟩ := curlwpop_eq (r := p.2) h0
      · rw [h1]; exact ⟨h, rfl⟩
      · rw [h2]
        simp only [upd_apply]
        split
        · next e => subst e; exact ⟨h, rfl⟩
        · exact ⟨h, rfl⟩
    | err e => rw [h0] at hs; exact absurd hs (by simp)
    | panic => rw [h0] at hs; exact absurd hs (by simp)

/-- No two threads have the same id, and no id is 0. -/
theorem c99_ids {gtids : List Nat} {s : St} (h : Reach gtids s) {t i : Nat} (ht : Is s t i) :
    0 < i ∧ ∀ u, Is s u i → u = t := by
  have I := h.inv
  rw [is_iff] at ht
  exact ⟨(I.lwplt t i ht).1, fun u hu => I.inj u t i (is_iff.1 hu) ht⟩

/-- A thread keeps its id, whatever it or any other thread does. -/
theorem c99_stays {gtids : List Nat} {s s' : St} (h : Reach gtids s) {l : List Act}
    (hs : s.acts l = .ok s') {t i : Nat} (ht : Is s t i) : Is s' t i := by
  induction l generalizing s with
  | nil =>
    simp only [St.acts, Outcome.ok.injEq] at hs
    exact hs ▸ ht
  | cons a l ih =>
    unfold St.acts at hs
    cases h1 : s.act a with
    | ok r =>
      rw [h1] at hs
      exact ih (.step a h h1) hs (is_iff.2 (act_lwp h.inv h1 (is_iff.1 ht)).1)
    | err e => rw [h1] at hs; exact absurd hs (by simp)
    | panic => rw [h1] at hs; exact absurd hs (by simp)

/-- A C thread always runs on the same core. -/
theorem c99_one_core {gtids : List Nat} {s s' : St} (h : Reach gtids s) {l : List Act}
    (hs : s.acts l = .ok s') {t i c d : Nat} (ht : Is s t i) (hc : Runs s t c)
    (hd : Runs s' t d) : d = c := by
  have key : ∀ {l : List Act} {s : St}, Reach gtids s → s.acts l = .ok s' →
      (s.tcb t).lwp = some i →
      (s'.tcb t).lwp = some i ∧ (s'.tcb t).core = (s.tcb t).core ∧ Reach gtids s' := by
    intro l
    induction l with
    | nil =>
      intro s h hs ht
      simp only [St.acts, Outcome.ok.injEq] at hs
      subst hs
      exact ⟨ht, rfl, h⟩
    | cons a l ih =>
      intro s h hs ht
      unfold St.acts at hs
      cases h1 : s.act a with
      | ok r =>
        rw [h1] at hs
        obtain ⟨h2, h3⟩ := act_lwp h.inv h1 ht
        obtain ⟨h4, h5, h6⟩ := ih (.step a h h1) hs h2
        exact ⟨h4, h5.trans h3, h6⟩
      | err e => rw [h1] at hs; exact absurd hs (by simp)
      | panic => rw [h1] at hs; exact absurd hs (by simp)
  obtain ⟨h1, h2, h3⟩ := key h hs (is_iff.1 ht)
  have a := h.inv.toBase.core hc (is_iff.1 ht)
  have b := h3.inv.toBase.core hd h1
  rw [b, h2, ← a]

/-- A C thread that runs shows the core that it runs on, once it has been switched to.
Partial: until then it shows core 0 (`c99_main_shows_zero`). -/
theorem c99_running_partial {gtids : List Nat} {s : St} (h : Reach gtids s) {t i c : Nat}
    (ht : Is s t i) (hr : Runs s t c) :
    ∃ l, s.ctl i = some l ∧ (0 < l.pctr → l.curcpu = (c : Int)) := by
  have I := h.inv
  rw [is_iff] at ht
  obtain ⟨l, hl⟩ := Option.isSome_iff_exists.1 (I.lwplt t i ht).2.2
  exact ⟨l, hl, fun hp => (I.shown c t i l hr ht hl hp).1⟩

/-- Two threads never show the same core and both run. -/
theorem c99_one_per_core {gtids : List Nat} {s : St} (h : Reach gtids s) {t u i j c d : Nat}
    {l m : Ctl} (ht : Is s t i) (hu : Is s u j) (hi : i ≠ j) (hc : Runs s t c) (hd : Runs s u d)
    (hl : s.ctl i = some l) (hm : s.ctl j = some m) (hp : 0 < l.pctr) (hq : 0 < m.pctr) :
    l.curcpu ≠ m.curcpu := by
  obtain ⟨l', e1, e2⟩ := c99_running_partial h ht hc
  obtain ⟨m', e3, e4⟩ := c99_running_partial h hu hd
  rw [hl] at e1
  rw [hm] at e3
  simp only [Option.some.injEq] at e1 e3
  subst e1 e3
  rw [e2 hp, e4 hq]
  intro e
  have e5 : c = d := by omega
  subst e5
  have hc : s.sched.running c = some t := hc
  have hd : s.sched.running c = some u := hd
  rw [hc] at hd
  simp only [Option.some.injEq] at hd
  subst hd
  have ht : s.self t = .ok i := ht
  have hu : s.self t = .ok j := hu
  rw [ht] at hu
  exact hi (Outcome.ok.inj hu)

/-- How `sch` changes a control word. -/
theorem sch_ctl {s s' : St} (I : Inv s) {a : Sched.Act} (hs : s.sch a = .ok s') {i : Nat} {l : Ctl}
    (hl : s.lwps i = some l) :
    (∃ c t, a = .dispatch c ∧ s.sched.running c = none ∧ s'.sched.running c = some t ∧
      (∀ d, d ≠ c → s'.sched.running d = s.sched.running d) ∧
      s'.prev = upd s.prev c (s.tcb t).lwp ∧
      s'.lwps i = some (if (s.tcb t).lwp = some i then ⟨(c : Int), l.pctr + 1⟩
        else if s.prev c = some i then ⟨-1, l.pctr⟩ else l)) ∨
    ((∀ d u, s'.sched.running d = some u → s.sched.running d = some u) ∧ s'.prev = s.prev ∧
      s'.lwps i = some l) := by
  obtain ⟨σ, h1, ⟨c, t, rfl, h2, h3, rfl⟩ | ⟨h2, rfl⟩⟩ := sch_eq hs
  · obtain ⟨_, _, ho, _⟩ := Sched.act_same_run h1
    refine .inl ⟨c, t, rfl, h2, h3, ho c rfl, rfl, ?_⟩
    exact switch_some (s := { s with sched := σ, tcb := s.started (.dispatch c) }) _ hl
      (I.low i l hl)
  · exact .inr ⟨h2, rfl, hl⟩

/-- How any action changes a control word. -/
theorem act_ctl {s s' : St} (I : Inv s) {a : Act} (hs : s.act a = .ok s') {i : Nat} {l : Ctl}
    (hl : s.lwps i = some l) :
    (∃ c t, a = .sched (.dispatch c) ∧ s.sched.running c = none ∧ s'.sched.running c = some t ∧
      (∀ d, d ≠ c → s'.sched.running d = s.sched.running d) ∧
      s'.prev = upd s.prev c (s.tcb t).lwp ∧
      s'.lwps i = some (if (s.tcb t).lwp = some i then ⟨(c : Int), l.pctr + 1⟩
        else if s.prev c = some i then ⟨-1, l.pctr⟩ else l)) ∨
    ((∀ d u, s'.sched.running d = some u → s.sched.running d = some u) ∧
      (s'.prev = s.prev ∨ ∃ c, a = .idle c ∧ s'.prev = upd s.prev c none) ∧
      s'.lwps i = some l) := by
  cases a with
  | sched a =>
    rcases sch_ctl I hs hl with ⟨c, t, rfl, h⟩ | ⟨h1, h2, h3⟩
    · exact .inl ⟨c, t, rfl, h⟩
    · exact .inr ⟨h1, .inl h2, h3⟩
  | idle c =>
    simp only [St.act, Outcome.ok.injEq] at hs
    subst hs
    unfold St.idle
    split
    · exact .inr ⟨fun _ _ h => h, .inr ⟨c, rfl, rfl⟩, hl⟩
    · exact .inr ⟨fun _ _ h => h, .inl rfl, hl⟩
  | lwpInit c n =>
    simp only [St.act, Outcome.ok.injEq] at hs
    subst hs
    unfold St.lwpInit
    cases h1 : s.sched.running c with
    | none => exact .inr ⟨fun _ _ h => h, .inl rfl, hl⟩
    | some u =>
      simp only
      split
      · exact .inr ⟨fun _ _ h => h, .inl rfl, hl⟩
      · refine .inr ⟨fun _ _ h => h, .inl rfl, ?_⟩
        simp only
        rw [upd_other _ _ (I.toBase.old_id hl)]
        exact hl
  | makeBegin c e =>
    simp only [St.act, Outcome.ok.injEq] at hs
    subst hs
    unfold St.makeBegin
    cases h1 : s.sched.running c with
    | none => exact .inr ⟨fun _ _ h => h, .inl rfl, hl⟩
    | some u =>
      simp only
      split
      · exact .inr ⟨fun _ _ h => h, .inl rfl, hl⟩
      · split
        · exact .inr ⟨fun _ _ h => h, .inl rfl, hl⟩
        · refine .inr ⟨fun _ _ h => h, .inl rfl, ?_⟩
          simp only
          rw [upd_other _ _ (I.toBase.old_id hl)]
          exact hl
  | makeSpawn c =>
    simp only [St.act] at hs
    cases h0 : s.makeSpawn c with
    | ok p =>
      rw [h0] at hs
      have := Outcome.ok.inj hs
      subst this
      rcases makeSpawn_eq (r := p.2) h0 with ⟨_, e⟩ | ⟨u, j, g, σ, _, h1, h2, _, _, h5, e⟩
      · rw [e]; exact .inr ⟨fun _ _ h => h, .inl rfl, hl⟩
      · rw [e]
        refine .inr ⟨?_, .inl rfl, hl⟩
        obtain ⟨ha, _⟩ := Sched.act_same_run h5
        intro d v h
        rcases ha d (by simp [Sched.Act.takes]) with h3 | h3
        · rw [← h3]; exact h
        · have h : σ.running d = some v := h
          rw [h3] at h; exact absurd h (by simp)
    | err e => rw [h0] at hs; exact absurd hs (by simp)
    | panic => rw [h0] at hs; exact absurd hs (by simp)
  | create c j =>
    simp only [St.act] at hs
    cases h0 : s.create c j with
    | ok p =>
      rw [h0] at hs
      have := Outcome.ok.inj hs
      subst this
      obtain ⟨_, g, _, _, h1⟩ := create_eq (r := p.2) h0
      rcases sch_ctl I h1 hl with ⟨c, t, h2, _⟩ | ⟨h1, h2, h3⟩
      · exact absurd h2 (by simp)
      · exact .inr ⟨h1, .inl h2, h3⟩
    | err e => rw [h0] at hs; exact absurd hs (by simp)
    | panic => rw [h0] at hs; exact absurd hs (by simp)
  | curlwpop c op k =>
    simp only [St.act] at hs
    cases h0 : s.curlwpop c op k with
    | ok p =>
      rw [h0] at hs
      have := Outcome.ok.inj hs
      subst this
      obtain ⟨_, h1 | ⟨u, k, h1, h2, _⟩⟩ := curlwpop_eq (r := p.2) h0
      · rw [h1]; exact .inr ⟨fun _ _ h => h, .inl rfl, hl⟩
      · rw [h2]; exact .inr ⟨fun _ _ h => h, .inl rfl, hl⟩
    | err e => rw [h0] at hs; exact absurd hs (by simp)
    | panic => rw [h0] at hs; exact absurd hs (by simp)

/-- The counter of a thread goes up by one whenever the thread gets its core, and only then: the
thread library can tell that it has been switched. -/
theorem c99_counter {gtids : List Nat} {s s' : St} (h : Reach gtids s) {a : Act}
    (hs : s.act a = .ok s') {i : Nat} {l : Ctl} (hl : s.ctl i = some l) :
    ∃ l', s'.ctl i = some l' ∧
      ((l'.pctr = l.pctr + 1 ∧
          ∃ c t, Is s t i ∧ s.sched.running c = none ∧ Runs s' t c) ∨
       (l'.pctr = l.pctr ∧ ∀ c t, Is s t i → Runs s' t c → Runs s t c)) := by
  have I := h.inv
  rcases act_ctl I hs hl with ⟨c, t, _, h2, h3, h4, _, h5⟩ | ⟨h2, _, h5⟩
  · refine ⟨_, h5, ?_⟩
    by_cases h6 : (s.tcb t).lwp = some i
    · rw [if_pos h6]
      exact .inl ⟨rfl, c, t, is_iff.2 h6, h2, h3⟩
    · rw [if_neg h6]
      refine .inr ⟨by split <;> rfl, ?_⟩
      intro d u hu hd
      have hd : s'.sched.running d = some u := hd
      by_cases e : d = c
      · subst e
        rw [h3] at hd
        simp only [Option.some.injEq] at hd
        subst hd
        exact absurd (is_iff.1 hu) h6
      · rw [h4 d e] at hd
        exact hd
  · exact ⟨l, h5, .inr ⟨rfl, fun c t _ hr => h2 c t hr⟩⟩

/-- A C thread that has run, and has lost its core to another thread, shows that it does not run.
Partial: only as long as the core has not run out of threads since (`c99_idle_stale`). -/
theorem c99_stopped_partial {gtids : List Nat} {s s' : St} (h : Reach gtids s) {t u i c : Nat}
    {l : Ctl} (ht : Is s t i) (hr : Runs s t c) (hl : s.ctl i = some l) (hp : 0 < l.pctr)
    {as : List Act} (hs : s.acts as = .ok s') (hi : Act.idle c ∉ as) (hu : Runs s' u c)
    (hne : u ≠ t) : ∃ l', s'.ctl i = some l' ∧ l'.curcpu = -1 := by
  -- what holds along the way
  have key : ∀ {as : List Act} {s : St} {l : Ctl}, Reach gtids s → s.acts as = .ok s' →
      Act.idle c ∉ as → (s.tcb t).lwp = some i → (s.tcb t).core = c → s.lwps i = some l →
      ((s.prev c = some i ∧ ∀ v, s.sched.running c = some v → v = t) ∨
        (l.curcpu = -1 ∧ s.sched.running c ≠ some t)) →
      ∃ l', s'.lwps i = some l' ∧
        ((s'.prev c = some i ∧ ∀ v, s'.sched.running c = some v → v = t) ∨
          (l'.curcpu = -1 ∧ s'.sched.running c ≠ some t)) := by
    intro as
    induction as with
    | nil =>
      intro s l _ hs _ _ _ hl hJ
      simp only [St.acts, Outcome.ok.injEq] at hs
      subst hs
      exact ⟨l, hl, hJ⟩
    | cons a as ih =>
      intro s l h hs hi ht hc hl hJ
      have I := h.inv
      unfold St.acts at hs
      cases h1 : s.act a with
      | err e => rw [h1] at hs; exact absurd hs (by simp)
      | panic => rw [h1] at hs; exact absurd hs (by simp)
      | ok r =>
        rw [h1] at hs
        obtain ⟨ht', hc'⟩ := act_lwp I h1 ht
        have hR := Reach.step a h h1
        rcases act_ctl I h1 hl with ⟨d, v, _, h2, h3, h4, h5, h6⟩ | ⟨h2, h3, h6⟩
        · refine ih hR hs (fun hm => hi (List.mem_cons.2 (.inr hm))) ht' (hc'.trans hc) h6 ?_
          by_cases h7 : (s.tcb v).lwp = some i
          · -- the thread itself is taken
            have e : v = t := I.inj v t i h7 ht
            subst e
            have hd : d = c := by
              have := hR.inv.toBase.core h3 ht'
              rw [this, hc', hc]
            subst hd
            refine .inl ⟨by rw [h5, upd_same]; exact h7, ?_⟩
            intro w hw
            rw [h3] at hw
            exact (Option.some.inj hw).symm
          · rw [if_neg h7]
            have hvt : v ≠ t := fun e => h7 (by rw [e]; exact ht)
            by_cases hd : d = c
            · subst hd
              refine .inr ⟨?_, by rw [h3]; simpa using hvt⟩
              rcases hJ with ⟨hJ, _⟩ | ⟨hJ, _⟩
              · rw [if_pos hJ]
              · split
                · rfl
                · exact hJ
            · have hrc := h4 c (fun e => hd e.symm)
              rcases hJ with ⟨hJ, hJ'⟩ | ⟨hJ, hJ'⟩
              · refine .inl ⟨by rw [h5, upd_other _ _ (fun e => hd e.symm)]; exact hJ, ?_⟩
                intro w hw
                rw [hrc] at hw
                exact hJ' w hw
              · refine .inr ⟨?_, by rw [hrc]; exact hJ'⟩
                split
                · rfl
                · exact hJ
        · refine ih hR hs (fun hm => hi (List.mem_cons.2 (.inr hm))) ht' (hc'.trans hc) h6 ?_
          rcases hJ with ⟨hJ, hJ'⟩ | ⟨hJ, hJ'⟩
          · refine .inl ⟨?_, fun v hv => hJ' v (h2 c v hv)⟩
            rcases h3 with h3 | ⟨d, rfl, h3⟩
            · rw [h3]; exact hJ
            · have : c ≠ d := fun e => hi (by rw [e]; exact List.mem_cons.2 (.inl rfl))
              rw [h3, upd_other _ _ this]
              exact hJ
          · exact .inr ⟨hJ, fun e => hJ' (h2 c t e)⟩
  have I := h.inv
  have ht' := is_iff.1 ht
  have hr' : s.sched.running c = some t := hr
  obtain ⟨l', h1, h2 | h2⟩ := key h hs hi ht' (I.toBase.core hr ht').symm hl
    (.inl ⟨(I.shown c t i l hr ht' hl hp).2,
      fun v hv => by rw [hr'] at hv; exact (Option.some.inj hv).symm⟩)
  · exact absurd (h2.2 u hu) hne
  · exact ⟨l', h1, h2.1⟩

/-- A C thread that `rumprun_makelwp` makes: the id that the caller gets is the id of the new thread
and of no other, now or before; it is on the core of the process that the id selects, ready to run;
the ids of all other threads stay. -/
theorem c99_made {gtids : List Nat} {s s' : St} (h : Reach gtids s) {c i : Nat}
    (hs : s.makeSpawn c = .ok (s', some i)) :
    ∃ u g, s.sched.threads u = none ∧ (∀ j, ¬ Is s u j) ∧ (∀ t, ¬ Is s t i) ∧
      Is s' u i ∧ (∀ t j, t ≠ u → (Is s' t j ↔ Is s t j)) ∧
      s.gtids[i % s.avail]? = some g ∧
      (∃ th, s'.sched.threads u = some th ∧ th.affinity = g) ∧ u ∈ s'.sched.queue g := by
  have I := h.inv
  rcases makeSpawn_eq hs with ⟨h1, _⟩ | ⟨t, j, g, σ, h0, h1, h2, _, h4, h5, rfl⟩
  · exact absurd h1 (by simp)
  · simp only [Option.some.injEq] at h0
    subst h0
    have hb := I.toBase.born h1
    -- the scheduler's part
    have hsp : s.sched.threads s.sched.nextTid = none ∧
        σ.threads = upd s.sched.threads s.sched.nextTid (some ⟨g, []⟩) ∧
        σ.queue = upd s.sched.queue g (s.sched.queue g ++ [s.sched.nextTid]) := by
      simp only [Sched.St.act] at h5
      unfold Sched.St.yield at h5
      rw [h1] at h5
      simp only at h5
      unfold Sched.St.handle at h5
      cases h6 : s.sched.threads t with
      | none => rw [h6] at h5; exact absurd h5 (by simp)
      | some th =>
        rw [h6] at h5
        simp only at h5
        cases h7 : s.sched.spawn g none with
        | err e => rw [h7] at h5; exact absurd h5 (by simp)
        | panic => rw [h7] at h5; exact absurd h5 (by simp)
        | ok p =>
          obtain ⟨τ, r⟩ := p
          rw [h7] at h5
          cases r with
          | none => exact absurd h5 (by simp)
          | some w =>
            simp only [Outcome.ok.injEq] at h5
            subst h5
            obtain ⟨a, _, b | ⟨_, _, _, _, b, d, _⟩⟩ := Home.spawn_eq h7
            · exact absurd b.1 (by simp)
            · exact ⟨a, b, d⟩
    have tcb_eq : ∀ v, named s.tcb t s.sched.nextTid g i v =
        if v = s.sched.nextTid then { Tcb.new g false with lwp := some i }
        else if v = t then { s.tcb t with making := none } else s.tcb v := by
      intro v
      unfold named
      simp only [upd_apply]
      have htu : t ≠ s.sched.nextTid := by omega
      by_cases e1 : v = s.sched.nextTid
      · rw [if_pos e1, if_neg (fun e => htu (e.symm.trans e1)), if_pos e1]
      · rw [if_neg e1]
        by_cases e2 : v = t
        · rw [if_pos e2, if_pos e2, if_neg htu, if_neg htu, if_neg e1]
        · rw [if_neg e2, if_neg e2, if_neg e1, if_neg e1]
    refine ⟨s.sched.nextTid, g, hsp.1, ?_, ?_, ?_, ?_, h4, ⟨⟨g, []⟩, ?_, rfl⟩, ?_⟩
    · intro j hj
      have := I.toBase.bornl (is_iff.1 hj)
      omega
    · intro v hv
      exact I.mklwp t v i h2 (is_iff.1 hv)
    · rw [is_iff]
      simp only
      rw [tcb_eq, if_pos rfl]
    · intro v j hv
      rw [is_iff, is_iff]
      simp only
      rw [tcb_eq, if_neg hv]
      split
      · next e => subst e; exact Iff.rfl
      · exact Iff.rfl
    · show σ.threads _ = _
      rw [hsp.2.1, upd_same]
    · show _ ∈ σ.queue g
      rw [hsp.2.2, upd_same]
      simp

/-- When the rump kernel has no context for another thread, the caller gets its error and nothing
has happened. -/
theorem c99_make_fails (s : St) {t c : Nat} {err : Int} (hr : Runs s t c)
    (hm : (s.tcb t).making = none) (he : err ≠ 0) : s.makeBegin c err = (s, some err) := by
  unfold St.makeBegin
  have hr : s.sched.running c = some t := hr
  rw [hr]
  simp only [hm, Option.isSome_none, Bool.false_eq_true, if_false, if_pos he]

/-- `rumpuser_thread_create`: a new thread without a C identity, on the core with this index (the
first one for −1). -/
theorem c99_create {gtids : List Nat} {s s' : St} (h : Reach gtids s) {t c : Nat} {idx r : Int}
    (hr : Runs s t c) (hs : s.create c idx = .ok (s', r)) :
    r = 0 ∧ ∃ u g th, s.sched.threads u = none ∧ s'.sched.threads u = some th ∧
      th.affinity = g ∧ u ∈ s'.sched.queue g ∧ (∀ i, ¬ Is s' u i) ∧ s'.curlwp u = 0 ∧
      ((idx = -1 ∧ s.gtids[0]? = some g) ∨ (0 ≤ idx ∧ s.gtids[idx.toNat]? = some g)) := by
  have I := h.inv
  obtain ⟨h0, g, h1, h2, h3⟩ := create_eq hs
  refine ⟨h0, s.sched.nextTid, g, ⟨g, []⟩, ?_⟩
  have hr' : s.sched.running c = some t := hr
  obtain ⟨σ, h5, ⟨_, _, e, _⟩ | ⟨_, rfl⟩⟩ := sch_eq h3
  · exact absurd e (by simp)
  · have hsp : s.sched.threads s.sched.nextTid = none ∧
        σ.threads = upd s.sched.threads s.sched.nextTid (some ⟨g, []⟩) ∧
        σ.queue = upd s.sched.queue g (s.sched.queue g ++ [s.sched.nextTid]) := by
      simp only [Sched.St.act] at h5
      unfold Sched.St.yield at h5
      rw [hr'] at h5
      simp only at h5
      unfold Sched.St.handle at h5
      cases h6 : s.sched.threads t with
      | none => rw [h6] at h5; exact absurd h5 (by simp)
      | some th =>
        rw [h6] at h5
        simp only at h5
        cases h7 : s.sched.spawn g none with
        | err e => rw [h7] at h5; exact absurd h5 (by simp)
        | panic => rw [h7] at h5; exact absurd h5 (by simp)
        | ok p =>
          obtain ⟨τ, r⟩ := p
          rw [h7] at h5
          cases r with
          | none => exact absurd h5 (by simp)
          | some w =>
            simp only [Outcome.ok.injEq] at h5
            subst h5
            obtain ⟨a, _, b | ⟨_, _, _, _, b, d, _⟩⟩ := Home.spawn_eq h7
            · exact absurd b.1 (by simp)
            · exact ⟨a, b, d⟩
    have e : s.started (.yield c (some (.spawn g none))) s.sched.nextTid = .new g false := by
      unfold St.started
      simp only [hr', upd_same]
      rfl
    refine ⟨hsp.1, ?_, rfl, ?_, ?_, ?_, ?_⟩
    · show σ.threads _ = _
      rw [hsp.2.1, upd_same]
    · show _ ∈ σ.queue g
      rw [hsp.2.2, upd_same]
      simp
    · intro i hi
      have hi := is_iff.1 hi
      simp only [e] at hi
      exact absurd hi (by simp [Tcb.new])
    · show (s.started _ _).cookie = 0
      rw [e]; rfl
    · by_cases e1 : idx = -1
      · rw [if_pos e1] at h2; exact .inl ⟨e1, h2⟩
      · rw [if_neg e1] at h1 h2; exact .inr ⟨h1, h2⟩

/-- An index for which the process has no core ends the program. -/
theorem c99_create_range (s : St) (c : Nat) {idx : Int}
    (h : idx < -1 ∨ (s.gtids.length : Int) ≤ idx) : s.create c idx = .panic := by
  unfold St.create
  simp only
  by_cases e : idx < 0
  · have : idx ≠ -1 := by omega
    rw [if_neg this, if_pos e]
  · have h1 : idx ≠ -1 := by omega
    rw [if_neg h1, if_neg e]
    have h2 : s.gtids.length ≤ idx.toNat := by omega
    rw [List.getElem?_eq_none h2]

/-- What the rump kernel sees with `rumpuser_curlwp`: what this thread has set last, and nothing
that another thread does. -/
theorem c99_curlwp {gtids : List Nat} {s s' : St} (h : Reach gtids s) {a : Act}
    (hs : s.act a = .ok s') {t : Nat} (ht : t < s.sched.nextTid) :
    s'.curlwp t = match (generalizing := false) a with
      | .curlwpop c op l =>
        if s.sched.running c = some t then
          if op = 2 then l else if op = 3 then 0 else s.curlwp t
        else s.curlwp t
      | _ => s.curlwp t := by
  have I := h.inv
  have viaSch : ∀ {b : Sched.Act} {r : St}, s.sch b = .ok r → r.curlwp t = s.curlwp t := by
    intro b r hb
    obtain ⟨σ, _, ⟨c, u, _, _, _, rfl⟩ | ⟨_, rfl⟩⟩ := sch_eq hb
    · show ((s.started b) t).cookie = _
      rw [started_old s b t (by omega)]
      rfl
    · show ((s.started b) t).cookie = _
      rw [started_old s b t (by omega)]
      rfl
  cases a with
  | sched a => exact viaSch hs
  | idle c =>
    simp only [St.act, Outcome.ok.injEq] at hs
    subst hs
    unfold St.idle
    split <;> rfl
  | lwpInit c n =>
    simp only [St.act, Outcome.ok.injEq] at hs
    subst hs
    unfold St.lwpInit
    cases h1 : s.sched.running c with
    | none => rfl
    | some u =>
      simp only
      split
      · rfl
      · unfold St.curlwp
        simp only [upd_apply]
        split
        · next e => subst e; rfl
        · rfl
  | makeBegin c e =>
    simp only [St.act, Outcome.ok.injEq] at hs
    subst hs
    unfold St.makeBegin
    cases h1 : s.sched.running c with
    | none => rfl
    | some u =>
      simp only
      split
      · rfl
      · split
        · rfl
        · unfold St.curlwp
          simp only [upd_apply]
          split
          · next e => subst e; rfl
          · rfl
  | makeSpawn c =>
    simp only [St.act] at hs
    cases h0 : s.makeSpawn c with
    | ok p =>
      rw [h0] at hs
      have := Outcome.ok.inj hs
      subst this
      rcases makeSpawn_eq (r := p.2) h0 with ⟨_, e⟩ | ⟨u, j, g, σ, _, h1, h2, _, _, _, e⟩
      · rw [e]
      · rw [e]
        have hu := I.toBase.born h1
        show (named s.tcb u s.sched.nextTid g j t).cookie = _
        unfold named
        simp only [upd_apply]
        rw [if_neg (show ¬ t = s.sched.nextTid by omega),
          if_neg (show ¬ u = s.sched.nextTid by omega),
          if_neg (show ¬ u = s.sched.nextTid by omega)]
        split
        · next e => subst e; rfl
        · rw [if_neg (show ¬ t = s.sched.nextTid by omega)]; rfl
    | err e => rw [h0] at hs; exact absurd hs (by simp)
    | panic => rw [h0] at hs; exact absurd hs (by simp)
  | create c j =>
    simp only [St.act] at hs
    cases h0 : s.create c j with
    | ok p =>
      rw [h0] at hs
      have := Outcome.ok.inj hs
      subst this
      obtain ⟨_, g, _, _, h1⟩ := create_eq (r := p.2) h0
      exact viaSch h1
    | err e => rw [h0] at hs; exact absurd hs (by simp)
    | panic => rw [h0] at hs; exact absurd hs (by simp)
  | curlwpop c op l =>
    simp only [St.act] at hs
    simp only
    cases h1 : s.sched.running c with
    | none =>
      have : s.curlwpop c op l = .ok (s, 0) := by unfold St.curlwpop; rw [h1]
      rw [this] at hs
      have := Outcome.ok.inj hs
      subst this
      simp
    | some u =>
      cases h0 : s.curlwpop c op l with
      | ok p =>
        rw [h0] at hs
        have := Outcome.ok.inj hs
        subst this
        unfold St.curlwpop at h0
        rw [h1] at h0
        simp only at h0
        unfold St.curlwp
        simp only [Option.some.injEq]
        by_cases h2 : op = 2
        · subst h2
          simp only [if_true, show ¬ ((2 : Nat) = 3) by decide, if_false] at h0
          have := Outcome.ok.inj h0
          subst this
          simp only [upd_apply, if_true]
          by_cases e : t = u
          · rw [if_pos e, if_pos e.symm]
          · rw [if_neg e, if_neg (fun k => e k.symm)]
        · by_cases h3 : op = 3
          · subst h3
            simp only [show ¬ ((3 : Nat) = 2) by decide, if_false, if_true] at h0
            split at h0
            · have := Outcome.ok.inj h0
              subst this
              simp only [upd_apply, if_true, show ¬ ((3 : Nat) = 2) by decide, if_false]
              by_cases e : t = u
              · rw [if_pos e, if_pos e.symm]
              · rw [if_neg e, if_neg (fun k => e k.symm)]
            · exact absurd h0 (by simp)
          · simp only [if_neg h2, if_neg h3] at h0
            have := Outcome.ok.inj h0
            subst this
            simp only [upd_apply, if_neg h2, if_neg h3]
            by_cases e : t = u
            · rw [if_pos e, if_pos e.symm, e]
            · rw [if_neg e, if_neg (fun k => e k.symm)]
      | err e => rw [h0] at hs; exact absurd hs (by simp)
      | panic => rw [h0] at hs; exact absurd hs (by simp)

/-- Before a thread is started, nothing is set for it. -/
theorem c99_curlwp_new {gtids : List Nat} {s : St} (h : Reach gtids s) {t : Nat}
    (ht : s.sched.nextTid ≤ t) : s.curlwp t = 0 := by
  unfold St.curlwp
  rw [h.inv.unborn t ht]
  rfl

/-- To clear what is not set ends the program. -/
theorem c99_clear_other (s : St) {t c l : Nat} (hr : Runs s t c) (hl : s.curlwp t ≠ l) :
    s.curlwpop c 3 l = .panic := by
  unfold St.curlwpop
  have hr : s.sched.running c = some t := hr
  have hl : ¬ (s.tcb t).cookie = l := hl
  rw [hr]
  simp only [show ¬ ((3 : Nat) = 2) by decide, if_false, if_true, if_neg hl]

/-- With more than 2048 threads, the next one ends the program, whoever starts it. -/
theorem c99_full (s : St) {t c : Nat} (hr : Runs s t c) (hc : 2048 < s.sched.count) :
    (∀ idx r, s.create c idx ≠ .ok r) ∧
      (∀ i, (s.tcb t).making = some i → ∀ r, s.makeSpawn c ≠ .ok r) := by
  have hr : s.sched.running c = some t := hr
  have key : ∀ g r, s.sch (.yield c (some (.spawn g none))) ≠ .ok r := by
    intro g r h
    obtain ⟨σ, h5, _⟩ := sch_eq h
    simp only [Sched.St.act] at h5
    unfold Sched.St.yield at h5
    rw [hr] at h5
    simp only at h5
    unfold Sched.St.handle at h5
    cases h6 : s.sched.threads t with
    | none => rw [h6] at h5; exact absurd h5 (by simp)
    | some th =>
      rw [h6] at h5
      simp only at h5
      cases h7 : s.sched.spawn g none with
      | err e => rw [h7] at h5; exact absurd h5 (by simp)
      | panic => rw [h7] at h5; exact absurd h5 (by simp)
      | ok p =>
        obtain ⟨τ, r⟩ := p
        rw [h7] at h5
        cases r with
        | none => exact absurd h5 (by simp)
        | some w =>
          obtain ⟨_, _, b | b⟩ := Home.spawn_eq h7
          · exact absurd b.1 (by simp)
          · have := b.2.1
            unfold Sched.maxThreads at this
            omega
  constructor
  · intro idx r h
    obtain ⟨_, g, _, _, h3⟩ := create_eq (s' := r.1) (r := r.2) h
    exact key g _ h3
  · intro i hi r h
    rcases makeSpawn_eq (s' := r.1) (r := r.2) h with ⟨h1, _⟩ | ⟨u, j, g, σ, _, h1, h2, _, _, h5, _⟩
    · unfold St.makeSpawn at h
      rw [hr] at h
      simp only [hi] at h
      by_cases h3 : s.avail = 0
      · rw [if_pos h3] at h; exact absurd h (by simp)
      · rw [if_neg h3] at h
        cases h4 : s.gtids[i % s.avail]? with
        | none => rw [h4] at h; exact absurd h (by simp)
        | some g =>
          rw [h4] at h
          simp only at h
          cases h5 : s.sch (.yield c (some (.spawn g none))) with
          | panic => rw [h5] at h; exact absurd h (by simp)
          | err e => rw [h5] at h; exact absurd h (by simp)
          | ok s2 => exact key g _ h5
    · have h6 : s.sch (.yield c (some (.spawn g none))) =
          .ok { s with sched := σ, tcb := s.started (.yield c (some (.spawn g none))) } := by
        unfold St.sch
        rw [h5]
      exact key g _ h6

end NRK.Rump.Lwp
