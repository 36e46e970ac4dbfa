import Verif.Rump.LwpInv

/-!
# The invariant of C threads holds in every reachable state
-/

namespace NRK.Rump.Lwp

open NRK.Lineup
open NRK.Lineup.Sched (Home)

structure Base (s : St) : Prop where
  home : ∀ t, (s.tcb t).irq = false → t < s.sched.nextTid → Home s.sched t (s.tcb t).core
  fresh : ∀ t, s.sched.nextTid ≤ t → ∀ c, Home s.sched t c
  unborn : ∀ t, s.sched.nextTid ≤ t → s.tcb t = .new 0 false
  noirq : ∀ t i, (s.tcb t).lwp = some i → (s.tcb t).irq = false
  inj : ∀ t u i, (s.tcb t).lwp = some i → (s.tcb u).lwp = some i → t = u
  mkinj : ∀ t u i, (s.tcb t).making = some i → (s.tcb u).making = some i → t = u
  mklwp : ∀ t u i, (s.tcb t).making = some i → (s.tcb u).lwp ≠ some i
  lwplt : ∀ t i, (s.tcb t).lwp = some i → 0 < i ∧ i < s.next ∧ (s.lwps i).isSome = true
  mklt : ∀ t i, (s.tcb t).making = some i → 0 < i ∧ i < s.next ∧ s.lwps i = some ⟨0, 0⟩
  pos : 0 < s.next
  gap : ∀ i, s.next ≤ i → s.lwps i = none
  prevs : ∀ c i, s.prev c = some i → ∃ t, (s.tcb t).lwp = some i ∧ (s.tcb t).core = c
  low : ∀ i l, s.lwps i = some l → -1 ≤ l.curcpu

/-- A thread that runs, and has been taken from the queue since it is a C thread, shows its core. -/
def Shown (s : St) : Prop :=
  ∀ c t i l, s.sched.running c = some t → (s.tcb t).lwp = some i → s.lwps i = some l →
    0 < l.pctr → l.curcpu = (c : Int) ∧ s.prev c = some i

theorem Base.init (gtids : List Nat) : Base (.init gtids) := by
  constructor <;> simp [St.init, Tcb.new, Sched.St.init]
  exact fun _ _ => Home.init

/-- A running thread has been started. -/
theorem Base.born {s : St} (I : Base s) {c t : Nat} (h : s.sched.running c = some t) :
    t < s.sched.nextTid := by
  by_cases h1 : t < s.sched.nextTid
  · exact h1
  · have a := (I.fresh t (by omega) 0).running c h
    have b := (I.fresh t (by omega) 1).running c h
    omega

/-- So has a C thread. -/
theorem Base.bornl {s : St} (I : Base s) {t i : Nat} (h : (s.tcb t).lwp = some i) :
    t < s.sched.nextTid := by
  by_cases h1 : t < s.sched.nextTid
  · exact h1
  · rw [I.unborn t (by omega)] at h; exact absurd h (by simp [Tcb.new])

/-- A C thread runs on its core. -/
theorem Base.core {s : St} (I : Base s) {c t i : Nat} (h : s.sched.running c = some t)
    (hl : (s.tcb t).lwp = some i) : c = (s.tcb t).core :=
  (I.home t (I.noirq t i hl) (I.bornl hl)).running c h

theorem started_apply (s : St) (a : Sched.Act) (t : Nat) :
    s.started a t = match Home.starts s.sched a with
      | none => s.tcb t
      | some p => if t = s.sched.nextTid then .new p.1 p.2.isSome else s.tcb t := by
  unfold St.started Home.starts
  cases a with
  | start c irq => simp only [upd_apply]
  | interrupt c v => rfl
  | check c k => rfl
  | dispatch c => rfl
  | yield c r =>
    rcases r with _ | r
    · rfl
    · cases r <;> try rfl
      simp only
      cases s.sched.running c <;> simp only [upd_apply]

theorem started_old (s : St) (a : Sched.Act) (t : Nat) (ht : t ≠ s.sched.nextTid) :
    s.started a t = s.tcb t := by
  rw [started_apply]
  split
  · rfl
  · rw [if_neg ht]

theorem started_lwp {s : St} (I : Base s) {a : Sched.Act} {t i : Nat} :
    (s.started a t).lwp = some i ↔ (s.tcb t).lwp = some i := by
  constructor
  · intro h
    rw [started_apply] at h
    split at h
    · exact h
    · split at h
      · exact absurd h (by simp [Tcb.new])
      · exact h
  · intro h
    rw [started_old s a t (fun e => absurd (I.bornl h) (by omega))]
    exact h

theorem started_making {s : St} {a : Sched.Act} {t i : Nat}
    (h : (s.started a t).making = some i) : (s.tcb t).making = some i := by
  rw [started_apply] at h
  split at h
  · exact h
  · split at h
    · exact absurd h (by simp [Tcb.new])
    · exact h

/-- The scheduler's part of an action, without `context_switch`. -/
theorem Base.sched {s : St} (I : Base s) {a : Sched.Act} {σ : Sched.St}
    (hs : s.sched.act a = .ok σ) : Base { s with sched := σ, tcb := s.started a } := by
  obtain ⟨_, _, _, hn⟩ := Sched.act_same_run hs
  have hle : s.sched.nextTid ≤ σ.nextTid := by
    rw [hn]; cases Home.starts s.sched a <;> simp
  refine ⟨?_, ?_, ?_, ?_, ?_, ?_, ?_, ?_, ?_, I.pos, I.gap, ?_, I.low⟩
  · intro t hirq ht
    simp only at hirq ht ⊢
    by_cases h1 : t < s.sched.nextTid
    · rw [started_old s a t (by omega)] at hirq ⊢
      exact (I.home t hirq h1).act hs (fun _ _ e => absurd e (by omega))
    · rw [started_apply] at hirq ⊢
      rw [hn] at ht
      cases h2 : Home.starts s.sched a with
      | none => rw [h2] at ht; exact absurd ht h1
      | some p =>
        rw [h2] at ht hirq
        have h3 : t = s.sched.nextTid := by simp only at ht; omega
        simp only [if_pos h3] at hirq ⊢
        refine (I.fresh t (by omega) p.1).act hs ?_
        intro q hq _
        rw [h2] at hq
        simp only [Option.some.injEq] at hq
        subst hq
        obtain ⟨d, irq⟩ := p
        cases irq with
        | none => rfl
        | some v => exact absurd hirq (by simp [Tcb.new])
  · intro t ht c
    simp only at ht ⊢
    refine (I.fresh t (by omega) c).act hs ?_
    intro p hp e
    rw [hn, hp] at ht
    simp only at ht
    omega
  · intro t ht
    simp only at ht ⊢
    rw [started_apply]
    cases h2 : Home.starts s.sched a with
    | none => exact I.unborn t (by omega)
    | some p =>
      rw [hn, h2] at ht
      simp only at ht ⊢
      rw [if_neg (by omega)]
      exact I.unborn t (by omega)
  · intro t i h
    have h1 := (started_lwp I).1 h
    simp only
    rw [started_old s a t (fun e => absurd (I.bornl h1) (by omega))]
    exact I.noirq t i h1
  · intro t u i h k; exact I.inj t u i ((started_lwp I).1 h) ((started_lwp I).1 k)
  · intro t u i h k; exact I.mkinj t u i (started_making h) (started_making k)
  · intro t u i h k; exact I.mklwp t u i (started_making h) ((started_lwp I).1 k)
  · intro t i h; exact I.lwplt t i ((started_lwp I).1 h)
  · intro t i h; exact I.mklt t i (started_making h)
  · intro c i h
    obtain ⟨t, h1, h2⟩ := I.prevs c i h
    refine ⟨t, (started_lwp I).2 h1, ?_⟩
    simp only
    rw [started_old s a t (fun e => absurd (I.bornl h1) (by omega))]
    exact h2

/-- The table after `context_switch` has marked the thread that ran before. -/
def St.cleared (s : St) (c : Nat) : Nat → Option Ctl :=
  match s.prev c with
  | none => s.lwps
  | some i => match s.lwps i with
    | none => s.lwps
    | some l => if l.curcpu = cpuExited then s.lwps
                else upd s.lwps i (some { l with curcpu := cpuNone })

theorem switch_eq (s : St) (c : Nat) (next : Option Nat) :
    s.switch c next = { s with
      lwps := match next with
        | none => s.cleared c
        | some i => match s.cleared c i with
          | none => s.cleared c
          | some l => upd (s.cleared c) i (some ⟨(c : Int), l.pctr + 1⟩)
      prev := upd s.prev c next } := rfl

theorem cleared_some {s : St} {c i : Nat} {l : Ctl} (hl : s.lwps i = some l)
    (hx : -1 ≤ l.curcpu) :
    s.cleared c i = some (if s.prev c = some i then ⟨-1, l.pctr⟩ else l) := by
  have ne : l.curcpu ≠ cpuExited := by unfold cpuExited; omega
  unfold St.cleared
  cases hp : s.prev c with
  | none => simpa using hl
  | some j =>
    by_cases h : j = i
    · subst h
      simp only [hl]
      rw [if_neg ne, upd_same]
      rfl
    · have h' : ¬ (some j = some i) := by simpa using h
      rw [if_neg h']
      simp only
      cases hj : s.lwps j with
      | none => exact hl
      | some m =>
        simp only
        split
        · exact hl
        · rw [upd_other _ _ (fun e => h e.symm)]; exact hl

theorem cleared_none {s : St} {c i : Nat} (hl : s.lwps i = none) : s.cleared c i = none := by
  unfold St.cleared
  cases hp : s.prev c with
  | none => exact hl
  | some j =>
    simp only
    cases hj : s.lwps j with
    | none => exact hl
    | some m =>
      simp only
      split
      · exact hl
      · rw [upd_other _ _ (fun e => by rw [e, hj] at hl; exact absurd hl (by simp))]; exact hl

theorem switch_some {s : St} {c i : Nat} {l : Ctl} (next : Option Nat) (hl : s.lwps i = some l)
    (hx : -1 ≤ l.curcpu) :
    (s.switch c next).lwps i = some
      (if next = some i then ⟨(c : Int), l.pctr + 1⟩
       else if s.prev c = some i then ⟨-1, l.pctr⟩ else l) := by
  have key := cleared_some (c := c) hl hx
  rw [switch_eq]
  simp only
  cases next with
  | none =>
    simp only [reduceCtorEq, if_false]
    exact key
  | some k =>
    simp only [Option.some.injEq]
    by_cases h : k = i
    · subst h
      rw [if_pos rfl, key]
      simp only [upd_same]
      split <;> rfl
    · rw [if_neg h]
      cases hk : s.cleared c k with
      | none => exact key
      | some v =>
        simp only
        rw [upd_other _ _ (fun e => h e.symm)]
        exact key

theorem switch_none {s : St} {c i : Nat} (next : Option Nat) (hl : s.lwps i = none) :
    (s.switch c next).lwps i = none := by
  have key := cleared_none (c := c) hl
  rw [switch_eq]
  simp only
  cases next with
  | none => exact key
  | some k =>
    simp only
    cases hk : s.cleared c k with
    | none => exact key
    | some v =>
      simp only
      rw [upd_other _ _ (fun e => by rw [e, hk] at key; exact absurd key (by simp))]
      exact key

theorem switch_back {s : St} {c i : Nat} {next : Option Nat} {l' : Ctl}
    (h : (s.switch c next).lwps i = some l') : ∃ l, s.lwps i = some l := by
  cases hl : s.lwps i with
  | none => rw [switch_none next hl] at h; exact absurd h (by simp)
  | some l => exact ⟨l, rfl⟩

theorem Base.switch {s : St} (I : Base s) {c t : Nat} (hr : s.sched.running c = some t) :
    Base (s.switch c (s.tcb t).lwp) := by
  refine ⟨I.home, I.fresh, I.unborn, I.noirq, I.inj, I.mkinj, I.mklwp, ?_, ?_, I.pos, ?_, ?_, ?_⟩
  · intro u i h
    obtain ⟨h1, h2, h3⟩ := I.lwplt u i h
    refine ⟨h1, h2, ?_⟩
    obtain ⟨l, hl⟩ := Option.isSome_iff_exists.1 h3
    rw [switch_some _ hl (I.low i l hl)]
    rfl
  · intro u i h
    obtain ⟨h1, h2, h3⟩ := I.mklt u i h
    refine ⟨h1, h2, ?_⟩
    rw [switch_some _ h3 (by decide), if_neg (I.mklwp u t i h), if_neg]
    intro hp
    obtain ⟨w, hw, _⟩ := I.prevs c i hp
    exact I.mklwp u w i h hw
  · intro i h
    exact switch_none _ (I.gap i h)
  · intro d i h
    rw [switch_eq] at h
    simp only [upd_apply] at h
    split at h
    · next h1 =>
      refine ⟨t, h, ?_⟩
      rw [h1]
      exact (I.core hr h).symm
    · exact I.prevs d i h
  · intro i l h
    obtain ⟨m, hm⟩ := switch_back h
    rw [switch_some _ hm (I.low i m hm)] at h
    simp only [Option.some.injEq] at h
    subst h
    split
    · show (-1 : Int) ≤ (c : Int); omega
    · split
      · show (-1 : Int) ≤ -1; omega
      · exact I.low i m hm

/-- Taking a thread from the queue, with `context_switch`. -/
theorem dispatch_shown {s : St} (I : Base s) (S : Shown s) {c t : Nat} {σ : Sched.St}
    (hs : s.sched.act (.dispatch c) = .ok σ) (hr : σ.running c = some t) :
    Shown (({ s with sched := σ, tcb := s.started (.dispatch c) } : St).switch c (s.tcb t).lwp) := by
  have I' := I.sched hs
  obtain ⟨_, _, ho, _⟩ := Sched.act_same_run hs
  intro d u i l h1' h2' h3 h4
  have h1 : σ.running d = some u := h1'
  have h2 : (s.tcb u).lwp = some i := h2'
  clear h1' h2'
  obtain ⟨m, hm'⟩ := switch_back h3
  rw [switch_some _ hm' (I'.low i m hm')] at h3
  simp only [Option.some.injEq] at h3
  have hm : s.lwps i = some m := hm'
  clear hm'
  show _ ∧ (upd s.prev c (s.tcb t).lwp) d = some i
  by_cases hd : d = c
  · subst hd
    rw [hr] at h1
    simp only [Option.some.injEq] at h1
    subst h1
    rw [if_pos h2] at h3
    subst h3
    exact ⟨rfl, by rw [upd_same]; exact h2⟩
  · have e1 : ¬ (s.tcb t).lwp = some i := by
      intro e
      have : t = u := I.inj t u i e h2
      subst this
      have a := I'.core (c := c) (t := t) (i := i) hr e
      have b := I'.core (c := d) (t := t) (i := i) h1 e
      exact hd (b.trans a.symm)
    have old : s.sched.running d = some u := by rw [← ho c rfl d hd]; exact h1
    have e2 : ¬ s.prev c = some i := by
      intro e
      obtain ⟨w, hw, hc⟩ := I.prevs c i e
      have : w = u := I.inj w u i hw h2
      subst this
      have b := I.core old h2
      exact hd (b.trans hc)
    rw [if_neg e1] at h3
    have e2' : ¬ ({ s with sched := σ, tcb := s.started (.dispatch c) } : St).prev c = some i := e2
    rw [if_neg e2'] at h3
    subst h3
    rw [upd_other _ _ hd]
    exact S d u i m old h2 hm h4

/-- An action of the scheduler. -/
theorem sch_eq {s s' : St} {a : Sched.Act} (hs : s.sch a = .ok s') :
    ∃ σ, s.sched.act a = .ok σ ∧
      ((∃ c t, a = .dispatch c ∧ s.sched.running c = none ∧ σ.running c = some t ∧
          s' = ({ s with sched := σ, tcb := s.started a } : St).switch c (s.tcb t).lwp) ∨
       ((∀ d u, σ.running d = some u → s.sched.running d = some u) ∧
          s' = { s with sched := σ, tcb := s.started a })) := by
  unfold St.sch at hs
  cases h1 : s.sched.act a with
  | panic => rw [h1] at hs; exact absurd hs (by simp)
  | err e => rw [h1] at hs; exact absurd hs (by simp)
  | ok σ =>
    rw [h1] at hs
    refine ⟨σ, rfl, ?_⟩
    obtain ⟨ha, hb, hc, _⟩ := Sched.act_same_run h1
    have keep : a.takes = none → ∀ d u, σ.running d = some u → s.sched.running d = some u := by
      intro hn d u h
      rcases ha d (by rw [hn]; simp) with h2 | h2
      · rw [← h2]; exact h
      · rw [h2] at h; exact absurd h (by simp)
    cases a with
    | start c irq => exact .inr ⟨keep rfl, (Outcome.ok.inj hs).symm⟩
    | interrupt c v => exact .inr ⟨keep rfl, (Outcome.ok.inj hs).symm⟩
    | check c k => exact .inr ⟨keep rfl, (Outcome.ok.inj hs).symm⟩
    | yield c r => exact .inr ⟨keep rfl, (Outcome.ok.inj hs).symm⟩
    | dispatch c =>
      simp only at hs
      cases h2 : s.sched.running c with
      | none =>
        rw [h2] at hs
        cases h3 : σ.running c with
        | none =>
          rw [h3] at hs
          refine .inr ⟨?_, (Outcome.ok.inj hs).symm⟩
          intro d u h
          by_cases hd : d = c
          · subst hd; rw [h3] at h; exact absurd h (by simp)
          · rw [← hc c rfl d hd]; exact h
        | some t =>
          rw [h3] at hs
          exact .inl ⟨c, t, rfl, h2, h3, (Outcome.ok.inj hs).symm⟩
      | some t =>
        rw [h2] at hs
        refine .inr ⟨?_, (Outcome.ok.inj hs).symm⟩
        rw [hb c rfl (by rw [h2]; simp)]
        exact fun _ _ h => h

structure Inv (s : St) : Prop extends Base s where
  shown : Shown s

theorem Inv.init (gtids : List Nat) : Inv (.init gtids) :=
  ⟨Base.init gtids, by intro c t i l h; exact absurd h (by simp [St.init, Sched.St.init])⟩

theorem Inv.sch {s s' : St} (I : Inv s) {a : Sched.Act} (hs : s.sch a = .ok s') : Inv s' := by
  obtain ⟨σ, h1, ⟨c, t, rfl, h2, h3, rfl⟩ | ⟨h2, rfl⟩⟩ := sch_eq hs
  · exact ⟨(I.toBase.sched h1).switch h3, dispatch_shown I.toBase I.shown h1 h3⟩
  · refine ⟨I.toBase.sched h1, ?_⟩
    intro c t i l k1 k2 k3 k4
    exact I.shown c t i l (h2 c t k1) ((started_lwp I.toBase).1 k2) k3 k4

theorem Inv.idle {s : St} (I : Inv s) (c : Nat) : Inv (s.idle c) := by
  unfold St.idle
  split
  · next h1 h2 =>
    refine ⟨⟨I.home, I.fresh, I.unborn, I.noirq, I.inj, I.mkinj, I.mklwp, I.lwplt, I.mklt, I.pos,
      I.gap, ?_, I.low⟩, ?_⟩
    · intro d i h
      simp only [upd_apply] at h
      split at h
      · exact absurd h (by simp)
      · exact I.prevs d i h
    · intro d t i l k1 k2 k3 k4
      obtain ⟨k5, k6⟩ := I.shown d t i l k1 k2 k3 k4
      refine ⟨k5, ?_⟩
      have : d ≠ c := by
        intro e
        have k1' : s.sched.running d = some t := k1
        rw [e, h1] at k1'
        exact absurd k1' (by simp)
      show upd s.prev c none d = _
      rw [upd_other _ _ this]
      exact k6
  · exact I

/-- A new entry in the table. -/
theorem Base.old_id {s : St} (I : Base s) {i : Nat} {l : Ctl} (h : s.lwps i = some l) :
    i ≠ s.next := by
  intro e
  rw [e, I.gap s.next (by omega)] at h
  exact absurd h (by simp)

theorem Inv.lwpInit {s : St} (I : Inv s) (c n : Nat) : Inv (s.lwpInit c n) := by
  unfold St.lwpInit
  cases h1 : s.sched.running c with
  | none => exact I
  | some t =>
    simp only
    split
    · exact I
    · next h2 =>
      have hb := I.toBase.born h1
      have hirq : (s.tcb t).irq = false := by
        cases h : (s.tcb t).irq with
        | false => rfl
        | true => exact absurd (.inl h) h2
      have hnl : (s.tcb t).lwp = none := by
        cases h : (s.tcb t).lwp with
        | none => rfl
        | some i => exact absurd (.inr (by rw [h]; rfl)) h2
      have lwp : ∀ u i, (upd s.tcb t { s.tcb t with lwp := some s.next } u).lwp = some i →
          (u = t ∧ i = s.next) ∨ (u ≠ t ∧ (s.tcb u).lwp = some i) := by
        intro u i h
        rw [upd_apply] at h
        split at h
        · next e => exact .inl ⟨e, (Option.some.inj h).symm⟩
        · next e => exact .inr ⟨e, h⟩
      have keep : ∀ u, (upd s.tcb t { s.tcb t with lwp := some s.next } u).irq = (s.tcb u).irq ∧
          (upd s.tcb t { s.tcb t with lwp := some s.next } u).core = (s.tcb u).core ∧
          (upd s.tcb t { s.tcb t with lwp := some s.next } u).making = (s.tcb u).making := by
        intro u
        rw [upd_apply]
        split
        · next e => subst e; exact ⟨rfl, rfl, rfl⟩
        · exact ⟨rfl, rfl, rfl⟩
      refine ⟨⟨?_, I.fresh, ?_, ?_, ?_, ?_, ?_, ?_, ?_, ?_, ?_, ?_, ?_⟩, ?_⟩
      · intro u h hu
        simp only at h hu ⊢
        rw [(keep u).1] at h
        rw [(keep u).2.1]
        exact I.home u h hu
      · intro u hu
        simp only at hu ⊢
        rw [upd_other _ _ (by omega)]
        exact I.unborn u hu
      · intro u i h
        simp only at h ⊢
        rw [(keep u).1]
        rcases lwp u i h with ⟨e, _⟩ | ⟨_, e⟩
        · rw [e]; exact hirq
        · exact I.noirq u i e
      · intro u v i h k
        rcases lwp u i h with ⟨e, f⟩ | ⟨_, e⟩ <;> rcases lwp v i k with ⟨e', f'⟩ | ⟨_, e'⟩
        · rw [e, e']
        · have := (I.lwplt v i e').2.1; omega
        · have := (I.lwplt u i e).2.1; omega
        · exact I.inj u v i e e'
      · intro u v i h k
        simp only at h k
        rw [(keep u).2.2] at h
        rw [(keep v).2.2] at k
        exact I.mkinj u v i h k
      · intro u v i h k
        simp only at h
        rw [(keep u).2.2] at h
        rcases lwp v i k with ⟨_, f⟩ | ⟨_, e⟩
        · have := (I.mklt u i h).2.1; omega
        · exact I.mklwp u v i h e
      · intro u i h
        simp only
        rcases lwp u i h with ⟨_, f⟩ | ⟨_, e⟩
        · subst f
          have := I.pos
          exact ⟨by omega, by omega, by rw [upd_same]; rfl⟩
        · obtain ⟨a, b, d⟩ := I.lwplt u i e
          exact ⟨a, by omega, by rw [upd_other _ _ (by omega)]; exact d⟩
      · intro u i h
        simp only at h ⊢
        rw [(keep u).2.2] at h
        obtain ⟨a, b, d⟩ := I.mklt u i h
        exact ⟨a, by omega, by rw [upd_other _ _ (by omega)]; exact d⟩
      · exact Nat.succ_pos _
      · intro i h
        simp only at h ⊢
        rw [upd_other _ _ (by omega)]
        exact I.gap i (by omega)
      · intro d i h
        obtain ⟨u, h3, h4⟩ := I.prevs d i h
        refine ⟨u, ?_, ?_⟩
        · simp only
          rw [upd_other _ _ (fun e => by rw [e, hnl] at h3; exact absurd h3 (by simp))]
          exact h3
        · simp only; rw [(keep u).2.1]; exact h4
      · intro i l h
        simp only [upd_apply] at h
        split at h
        · simp only [Option.some.injEq] at h; subst h; decide
        · exact I.low i l h
      · intro d u i l k1 k2 k3 k4
        simp only [upd_apply] at k3
        split at k3
        · simp only [Option.some.injEq] at k3; subst k3; exact absurd k4 (by decide)
        · next e =>
          rcases lwp u i k2 with ⟨_, f⟩ | ⟨_, f⟩
          · exact absurd f e
          · exact I.shown d u i l k1 f k3 k4

theorem Inv.makeBegin {s : St} (I : Inv s) (c : Nat) (err : Int) : Inv (s.makeBegin c err).1 := by
  unfold St.makeBegin
  cases h1 : s.sched.running c with
  | none => exact I
  | some t =>
    simp only
    split
    · exact I
    · next h2 =>
      split
      · exact I
      · have hb := I.toBase.born h1
        have keep : ∀ u, (upd s.tcb t { s.tcb t with making := some s.next } u).irq
              = (s.tcb u).irq ∧
            (upd s.tcb t { s.tcb t with making := some s.next } u).core = (s.tcb u).core ∧
            (upd s.tcb t { s.tcb t with making := some s.next } u).lwp = (s.tcb u).lwp := by
          intro u
          rw [upd_apply]
          split
          · next e => subst e; exact ⟨rfl, rfl, rfl⟩
          · exact ⟨rfl, rfl, rfl⟩
        have mk : ∀ u i, (upd s.tcb t { s.tcb t with making := some s.next } u).making = some i →
            (u = t ∧ i = s.next) ∨ (u ≠ t ∧ (s.tcb u).making = some i) := by
          intro u i h
          rw [upd_apply] at h
          split at h
          · next e => exact .inl ⟨e, (Option.some.inj h).symm⟩
          · next e => exact .inr ⟨e, h⟩
        refine ⟨⟨?_, I.fresh, ?_, ?_, ?_, ?_, ?_, ?_, ?_, ?_, ?_, ?_, ?_⟩, ?_⟩
        · intro u h hu
          simp only at h hu ⊢
          rw [(keep u).1] at h
          rw [(keep u).2.1]
          exact I.home u h hu
        · intro u hu
          simp only at hu ⊢
          rw [upd_other _ _ (by omega)]
          exact I.unborn u hu
        · intro u i h
          simp only at h ⊢
          rw [(keep u).2.2] at h
          rw [(keep u).1]
          exact I.noirq u i h
        · intro u v i h k
          simp only at h k
          rw [(keep u).2.2] at h
          rw [(keep v).2.2] at k
          exact I.inj u v i h k
        · intro u v i h k
          rcases mk u i h with ⟨e, f⟩ | ⟨_, e⟩ <;> rcases mk v i k with ⟨e', f'⟩ | ⟨_, e'⟩
          · rw [e, e']
          · have := (I.mklt v i e').2.1; omega
          · have := (I.mklt u i e).2.1; omega
          · exact I.mkinj u v i e e'
        · intro u v i h k
          simp only at k
          rw [(keep v).2.2] at k
          rcases mk u i h with ⟨_, f⟩ | ⟨_, e⟩
          · have := (I.lwplt v i k).2.1; omega
          · exact I.mklwp u v i e k
        · intro u i h
          simp only at h ⊢
          rw [(keep u).2.2] at h
          obtain ⟨a, b, d⟩ := I.lwplt u i h
          exact ⟨a, by omega, by rw [upd_other _ _ (by omega)]; exact d⟩
        · intro u i h
          simp only
          rcases mk u i h with ⟨_, f⟩ | ⟨_, e⟩
          · subst f
            have := I.pos
            exact ⟨by omega, by omega, by rw [upd_same]⟩
          · obtain ⟨a, b, d⟩ := I.mklt u i e
            exact ⟨a, by omega, by rw [upd_other _ _ (by omega)]; exact d⟩
        · exact Nat.succ_pos _
        · intro i h
          simp only at h ⊢
          rw [upd_other _ _ (by omega)]
          exact I.gap i (by omega)
        · intro d i h
          obtain ⟨u, h3, h4⟩ := I.prevs d i h
          refine ⟨u, ?_, ?_⟩
          · simp only; rw [(keep u).2.2]; exact h3
          · simp only; rw [(keep u).2.1]; exact h4
        · intro i l h
          simp only [upd_apply] at h
          split at h
          · simp only [Option.some.injEq] at h; subst h; decide
          · exact I.low i l h
        · intro d u i l k1 k2 k3 k4
          simp only at k2
          rw [(keep u).2.2] at k2
          simp only [upd_apply] at k3
          split at k3
          · simp only [Option.some.injEq] at k3; subst k3; exact absurd k4 (by decide)
          · exact I.shown d u i l k1 k2 k3 k4

/-- The TLS areas when thread `t` has started the C thread `i` as thread `u` on core `g`. -/
def named (f : Nat → Tcb) (t u g i : Nat) : Nat → Tcb :=
  let tcb := upd (upd f u (.new g false)) u { Tcb.new g false with lwp := some i }
  upd tcb t { tcb t with making := none }

/-- What the rest of `rumprun_makelwp` does when it returns. -/
theorem makeSpawn_eq {s s' : St} {c : Nat} {r : Option Nat} (hs : s.makeSpawn c = .ok (s', r)) :
    (r = none ∧ s' = s) ∨
    ∃ t i g σ, r = some i ∧ s.sched.running c = some t ∧ (s.tcb t).making = some i ∧
      s.avail ≠ 0 ∧ s.gtids[i % s.avail]? = some g ∧
      s.sched.act (.yield c (some (.spawn g none))) = .ok σ ∧
      s' = { s with sched := σ, tcb := named s.tcb t s.sched.nextTid g i } := by
  unfold St.makeSpawn at hs
  cases h1 : s.sched.running c with
  | none =>
    rw [h1] at hs
    simp only [Outcome.ok.injEq, Prod.mk.injEq] at hs
    exact .inl ⟨hs.2.symm, hs.1.symm⟩
  | some t =>
    rw [h1] at hs
    simp only at hs
    cases h2 : (s.tcb t).making with
    | none =>
      rw [h2] at hs
      simp only [Outcome.ok.injEq, Prod.mk.injEq] at hs
      exact .inl ⟨hs.2.symm, hs.1.symm⟩
    | some i =>
      rw [h2] at hs
      simp only at hs
      by_cases h3 : s.avail = 0
      · rw [if_pos h3] at hs; exact absurd hs (by simp)
      · rw [if_neg h3] at hs
        cases h4 : s.gtids[i % s.avail]? with
        | none => rw [h4] at hs; exact absurd hs (by simp)
        | some g =>
          rw [h4] at hs
          simp only at hs
          cases h5 : s.sch (.yield c (some (.spawn g none))) with
          | panic => rw [h5] at hs; exact absurd hs (by simp)
          | err e => rw [h5] at hs; exact absurd hs (by simp)
          | ok s2 =>
            rw [h5] at hs
            simp only [Outcome.ok.injEq, Prod.mk.injEq] at hs
            obtain ⟨hs, hr⟩ := hs
            obtain ⟨σ, h6, ⟨d, u, h7, _⟩ | ⟨_, rfl⟩⟩ := sch_eq h5
            · exact absurd h7 (by simp)
            · have e : s.started (.yield c (some (.spawn g none))) =
                  upd s.tcb s.sched.nextTid (.new g false) := by
                unfold St.started
                simp only [h1]
                rfl
              refine .inr ⟨t, i, g, σ, hr.symm, rfl, h2, h3, h4, h6, ?_⟩
              rw [← hs]
              simp only [e, upd_same]
              rfl

theorem Inv.makeSpawn {s s' : St} (I : Inv s) {c : Nat} {r : Option Nat}
    (hs : s.makeSpawn c = .ok (s', r)) : Inv s' := by
  rcases makeSpawn_eq hs with ⟨_, rfl⟩ | ⟨t, i, g, σ, _, h1, h2, _, _, h5, rfl⟩
  · exact I
  · have hb := I.toBase.born h1
    have e : s.started (.yield c (some (.spawn g none))) =
        upd s.tcb s.sched.nextTid (.new g false) := by
      unfold St.started
      simp only [h1]
      rfl
    have h6 : s.sch (.yield c (some (.spawn g none))) =
        .ok { s with sched := σ, tcb := upd s.tcb s.sched.nextTid (.new g false) } := by
      unfold St.sch
      rw [h5, e]
    have J := I.sch h6
    obtain ⟨_, _, _, hn⟩ := Sched.act_same_run h5
    have hst : Home.starts s.sched (.yield c (some (.spawn g none))) = some (g, none) := by
      unfold Home.starts
      simp only [h1]
    rw [hst] at hn
    simp only at hn
    generalize hU : s.sched.nextTid = u at *
    have htu : t ≠ u := by omega
    have hJt : ((upd s.tcb u (.new g false)) t) = s.tcb t := upd_other _ _ htu
    -- the new TLS areas
    have tcb_eq : ∀ v, named s.tcb t u g i v =
        if v = u then { Tcb.new g false with lwp := some i }
        else if v = t then { s.tcb t with making := none } else s.tcb v := by
      intro v
      unfold named
      simp only [upd_apply]
      by_cases e1 : v = u
      · rw [if_pos e1, if_neg (fun e => htu (e.symm.trans e1)), if_pos e1]
      · rw [if_neg e1]
        by_cases e2 : v = t
        · rw [if_pos e2, if_pos e2, if_neg htu, if_neg htu, if_neg e1]
        · rw [if_neg e2, if_neg e2, if_neg e1, if_neg e1]
    have lwp : ∀ v j, (named s.tcb t u g i v).lwp = some j →
        (v = u ∧ j = i) ∨ (v ≠ u ∧ (s.tcb v).lwp = some j) := by
      intro v j h
      rw [tcb_eq] at h
      split at h
      · next e1 => exact .inl ⟨e1, (Option.some.inj h).symm⟩
      · next e1 =>
        split at h
        · next e2 => exact .inr ⟨e1, by rw [e2]; exact h⟩
        · exact .inr ⟨e1, h⟩
    have mk : ∀ v j, (named s.tcb t u g i v).making = some j →
        v ≠ u ∧ v ≠ t ∧ (s.tcb v).making = some j := by
      intro v j h
      rw [tcb_eq] at h
      split at h
      · exact absurd h (by simp [Tcb.new])
      · next e1 =>
        split at h
        · exact absurd h (by simp)
        · next e2 => exact ⟨e1, e2, h⟩
    refine ⟨⟨?_, J.fresh, ?_, ?_, ?_, ?_, ?_, ?_, ?_, J.pos, J.gap, ?_, J.low⟩, ?_⟩
    · intro v hv hlt
      simp only [tcb_eq] at hv hlt ⊢
      have := J.home v
      simp only [upd_apply] at this
      split
      · next e1 =>
        rw [if_pos e1] at this
        exact this rfl hlt
      · next e1 =>
        rw [if_neg e1] at this hv
        split
        · next e2 =>
          rw [if_pos e2] at hv
          subst e2
          exact this hv hlt
        · next e2 =>
          rw [if_neg e2] at hv
          exact this hv hlt
    · intro v hv
      simp only [tcb_eq] at hv ⊢
      rw [if_neg (by omega), if_neg (by omega)]
      exact I.unborn v (by omega)
    · intro v j h
      rcases lwp v j h with ⟨e1, _⟩ | ⟨e1, f⟩
      · simp only [tcb_eq]
        rw [if_pos e1]
        rfl
      · have := I.noirq v j f
        simp only [tcb_eq]
        rw [if_neg e1]
        split
        · next e2 => subst e2; exact this
        · exact this
    · intro v w j h k
      rcases lwp v j h with ⟨e1, f⟩ | ⟨_, f⟩ <;> rcases lwp w j k with ⟨e2, k'⟩ | ⟨_, k'⟩
      · rw [e1, e2]
      · subst f; exact absurd k' (I.mklwp t w _ h2)
      · subst k'; exact absurd f (I.mklwp t v _ h2)
      · exact I.inj v w j f k'
    · intro v w j h k
      exact I.mkinj v w j (mk v j h).2.2 (mk w j k).2.2
    · intro v w j h k
      obtain ⟨_, e2, f⟩ := mk v j h
      rcases lwp w j k with ⟨_, k'⟩ | ⟨_, k'⟩
      · subst k'; exact e2 (I.mkinj v t _ f h2)
      · exact I.mklwp v w j f k'
    · intro v j h
      rcases lwp v j h with ⟨_, f⟩ | ⟨_, f⟩
      · subst f
        obtain ⟨a, b, d⟩ := I.mklt t _ h2
        exact ⟨a, b, by simp only; rw [d]; rfl⟩
      · exact I.lwplt v j f
    · intro v j h
      exact I.mklt v j (mk v j h).2.2
    · intro d j h
      obtain ⟨w, h3, h4⟩ := I.prevs d j h
      have hw := I.toBase.bornl h3
      refine ⟨w, ?_, ?_⟩
      · simp only [tcb_eq]
        rw [if_neg (by omega)]
        split
        · next e2 => subst e2; exact h3
        · exact h3
      · simp only [tcb_eq]
        rw [if_neg (by omega)]
        split
        · next e2 => subst e2; exact h4
        · exact h4
    · intro d v j l k1 k2 k3 k4
      rcases lwp v j k2 with ⟨_, f⟩ | ⟨e1, f⟩
      · subst f
        have k3' : s.lwps _ = some l := k3
        rw [(I.mklt t _ h2).2.2] at k3'
        simp only [Option.some.injEq] at k3'
        subst k3'
        exact absurd k4 (by decide)
      · refine J.shown d v j l k1 ?_ k3 k4
        simp only
        rw [upd_other _ _ e1]
        exact f

theorem create_eq {s s' : St} {c : Nat} {i : Int} {r : Int} (hs : s.create c i = .ok (s', r)) :
    r = 0 ∧ ∃ g, 0 ≤ (if i = -1 then 0 else i) ∧
      s.gtids[(if i = -1 then 0 else i).toNat]? = some g ∧
      s.sch (.yield c (some (.spawn g none))) = .ok s' := by
  unfold St.create at hs
  simp only at hs
  generalize (if i = -1 then (0 : Int) else i) = k at hs ⊢
  by_cases h1 : k < 0
  · rw [if_pos h1] at hs; exact absurd hs (by simp)
  · rw [if_neg h1] at hs
    cases h2 : s.gtids[k.toNat]? with
    | none => rw [h2] at hs; exact absurd hs (by simp)
    | some g =>
      rw [h2] at hs
      simp only at hs
      cases h3 : s.sch (.yield c (some (.spawn g none))) with
      | panic => rw [h3] at hs; exact absurd hs (by simp)
      | err e => rw [h3] at hs; exact absurd hs (by simp)
      | ok s2 =>
        rw [h3] at hs
        simp only [Outcome.ok.injEq, Prod.mk.injEq] at hs
        obtain ⟨rfl, rfl⟩ := hs
        exact ⟨rfl, g, by omega, rfl, h3⟩

theorem curlwpop_eq {s s' : St} {c op l : Nat} {r : Int} (hs : s.curlwpop c op l = .ok (s', r)) :
    r = 0 ∧ (s' = s ∨ ∃ t k, s.sched.running c = some t ∧
      s' = { s with tcb := upd s.tcb t { s.tcb t with cookie := k } } ∧
      k = (if op = 2 then l else if op = 3 then 0 else (s.tcb t).cookie)) := by
  unfold St.curlwpop at hs
  cases h1 : s.sched.running c with
  | none =>
    rw [h1] at hs
    simp only [Outcome.ok.injEq, Prod.mk.injEq] at hs
    exact ⟨hs.2.symm, .inl hs.1.symm⟩
  | some t =>
    rw [h1] at hs
    simp only at hs
    by_cases h2 : op = 2
    · subst h2
      simp only [if_true, show ¬ ((2 : Nat) = 3) by decide, if_false, Outcome.ok.injEq,
        Prod.mk.injEq] at hs
      refine ⟨hs.2.symm, .inr ⟨t, l, rfl, hs.1.symm, rfl⟩⟩
    · by_cases h3 : op = 3
      · subst h3
        simp only [show ¬ ((3 : Nat) = 2) by decide, if_false, if_true] at hs
        split at hs
        · simp only [Outcome.ok.injEq, Prod.mk.injEq] at hs
          exact ⟨hs.2.symm, .inr ⟨t, 0, rfl, hs.1.symm, rfl⟩⟩
        · exact absurd hs (by simp)
      · simp only [if_neg h2, if_neg h3, Outcome.ok.injEq, Prod.mk.injEq] at hs
        refine ⟨hs.2.symm, .inr ⟨t, (s.tcb t).cookie, rfl, hs.1.symm, ?_⟩⟩
        rw [if_neg h2, if_neg h3]

theorem Inv.cookie {s : St} (I : Inv s) (t k : Nat) :
    t < s.sched.nextTid → Inv { s with tcb := upd s.tcb t { s.tcb t with cookie := k } } := by
  intro ht
  have keep : ∀ u, (upd s.tcb t { s.tcb t with cookie := k } u).irq = (s.tcb u).irq ∧
      (upd s.tcb t { s.tcb t with cookie := k } u).core = (s.tcb u).core ∧
      (upd s.tcb t { s.tcb t with cookie := k } u).lwp = (s.tcb u).lwp ∧
      (upd s.tcb t { s.tcb t with cookie := k } u).making = (s.tcb u).making := by
    intro u
    rw [upd_apply]
    split
    · next e => subst e; exact ⟨rfl, rfl, rfl, rfl⟩
    · exact ⟨rfl, rfl, rfl, rfl⟩
  refine ⟨⟨?_, I.fresh, ?_, ?_, ?_, ?_, ?_, ?_, ?_, I.pos, I.gap, ?_, I.low⟩, ?_⟩
  · intro u h; simp only at h ⊢; rw [(keep u).1] at h; rw [(keep u).2.1]; exact I.home u h
  · intro u h; simp only at h ⊢; rw [upd_other _ _ (by omega)]; exact I.unborn u h
  · intro u i h
    simp only at h ⊢
    rw [(keep u).2.2.1] at h
    rw [(keep u).1]
    exact I.noirq u i h
  · intro u v i h h'
    simp only at h h'
    rw [(keep u).2.2.1] at h
    rw [(keep v).2.2.1] at h'
    exact I.inj u v i h h'
  · intro u v i h h'
    simp only at h h'
    rw [(keep u).2.2.2] at h
    rw [(keep v).2.2.2] at h'
    exact I.mkinj u v i h h'
  · intro u v i h h'
    simp only at h h'
    rw [(keep u).2.2.2] at h
    rw [(keep v).2.2.1] at h'
    exact I.mklwp u v i h h'
  · intro u i h; simp only at h; rw [(keep u).2.2.1] at h; exact I.lwplt u i h
  · intro u i h; simp only at h; rw [(keep u).2.2.2] at h; exact I.mklt u i h
  · intro c i h
    obtain ⟨u, h1, h2⟩ := I.prevs c i h
    exact ⟨u, by simp only; rw [(keep u).2.2.1]; exact h1, by simp only; rw [(keep u).2.1]; exact h2⟩
  · intro c u i l h1 h2 h3 h4
    simp only at h2
    rw [(keep u).2.2.1] at h2
    exact I.shown c u i l h1 h2 h3 h4

theorem Inv.act {s s' : St} (I : Inv s) {a : Act} (hs : s.act a = .ok s') : Inv s' := by
  cases a with
  | sched a => exact I.sch hs
  | idle c => simp only [St.act, Outcome.ok.injEq] at hs; exact hs ▸ I.idle c
  | lwpInit c n => simp only [St.act, Outcome.ok.injEq] at hs; exact hs ▸ I.lwpInit c n
  | makeBegin c e => simp only [St.act, Outcome.ok.injEq] at hs; exact hs ▸ I.makeBegin c e
  | makeSpawn c =>
    simp only [St.act] at hs
    cases h : s.makeSpawn c with
    | ok p => rw [h] at hs; exact Outcome.ok.inj hs ▸ I.makeSpawn (r := p.2) h
    | err e => rw [h] at hs; exact absurd hs (by simp)
    | panic => rw [h] at hs; exact absurd hs (by simp)
  | create c i =>
    simp only [St.act] at hs
    cases h : s.create c i with
    | ok p =>
      rw [h] at hs
      obtain ⟨_, g, _, _, h1⟩ := create_eq (r := p.2) h
      exact Outcome.ok.inj hs ▸ I.sch h1
    | err e => rw [h] at hs; exact absurd hs (by simp)
    | panic => rw [h] at hs; exact absurd hs (by simp)
  | curlwpop c op l =>
    simp only [St.act] at hs
    cases h : s.curlwpop c op l with
    | ok p =>
      rw [h] at hs
      have := Outcome.ok.inj hs
      subst this
      obtain ⟨_, h1 | ⟨t, k, h1, h2, _⟩⟩ := curlwpop_eq (r := p.2) h
      · exact h1 ▸ I
      · exact h2 ▸ I.cookie t k (I.toBase.born h1)
    | err e => rw [h] at hs; exact absurd hs (by simp)
    | panic => rw [h] at hs; exact absurd hs (by simp)

theorem Reach.inv {gtids : List Nat} {s : St} (h : Reach gtids s) : Inv s := by
  induction h with
  | init => exact Inv.init gtids
  | step a _ hs ih => exact ih.act hs

end NRK.Rump.Lwp
