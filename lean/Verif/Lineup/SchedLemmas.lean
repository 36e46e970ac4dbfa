import Verif.Lineup.TimerProps

/-!
# Invariant of the user-level scheduler for well-behaved threads (helper lemmas for C54)
-/

namespace NRK.Lineup.Sched

/-- The thread exists and belongs to core `c`. -/
def On (s : St) (t c : Nat) : Prop := ∃ th, s.threads t = some th ∧ th.affinity = c

/-- Thread `t`, of core `c`, waits for the end of thread `u`. -/
def JoinsOn (s : St) (t c u : Nat) : Prop := ∃ th, s.threads u = some th ∧ (t, c) ∈ th.joinlist

structure Inv (s : St) : Prop where
  fresh : ∀ t, s.nextTid ≤ t → s.threads t = none
  gens : ∀ t, s.gens t = true ↔ (∃ c, On s t c) ∧ ∀ c, s.running c ≠ some t
  run : ∀ t c, s.running c = some t → On s t c
  queue : ∀ t c, t ∈ s.queue c → On s t c
  qnodup : ∀ c, (s.queue c).Nodup
  wait : ∀ d t c, (d, t) ∈ s.waiting c → On s t c ∧ t ∉ s.queue c ∧ s.running c ≠ some t
  wuniq : ∀ d d' t c, (d, t) ∈ s.waiting c → (d', t) ∈ s.waiting c → d = d'
  join : ∀ t c u, JoinsOn s t c u →
    On s t c ∧ t ∉ s.queue c ∧ s.running c ≠ some t ∧ ∀ d, (d, t) ∉ s.waiting c
  juniq : ∀ t c u c' u', JoinsOn s t c u → JoinsOn s t c' u' → u = u'
  jnodup : ∀ u th, s.threads u = some th → (th.joinlist.map (·.1)).Nodup
  log : ∀ c, s.entered c = s.left c ++ s.queue c

theorem On.unique {s : St} {t c c' : Nat} (h : On s t c) (h' : On s t c') : c = c' := by
  obtain ⟨th, h1, h2⟩ := h
  obtain ⟨th', h3, h4⟩ := h'
  rw [h1] at h3; cases h3; rw [← h2, h4]

theorem Inv.init : Inv .init := by
  constructor <;> simp [St.init, On, JoinsOn]

/-- Not blocked in a join, a sleep, or the queue. -/
structure Out (s : St) (t c : Nat) : Prop where
  on : On s t c
  queue : t ∉ s.queue c
  wait : ∀ d, (d, t) ∉ s.waiting c
  join : ∀ c' u, ¬ JoinsOn s t c' u

theorem Inv.enqueue {s : St} {t c : Nat} (I : Inv s) (h : Out s t c) : Inv (s.markRunnable t c) := by
  obtain ⟨h1, h2, h3, h4⟩ := h
  obtain ⟨i1, i2, i3, i4, i5, i6, i7, i8, i9, i10, i11⟩ := I
  have on : ∀ a b, On (s.markRunnable t c) a b = On s a b := fun _ _ => rfl
  have jo : ∀ a b u, JoinsOn (s.markRunnable t c) a b u = JoinsOn s a b u := fun _ _ _ => rfl
  constructor <;> (try simp only [on, jo]) <;> (try simp only [St.markRunnable])
  · exact i1
  · exact i2
  · exact i3
  · intro a b hab
    by_cases e : b = c
    · subst e
      rw [upd_same, List.mem_append, List.mem_singleton] at hab
      rcases hab with h | h
      · exact i4 a b h
      · rw [h]; exact h1
    · rw [upd_other _ _ e] at hab; exact i4 a b hab
  · intro b
    by_cases e : b = c
    · subst e
      rw [upd_same, List.nodup_append]
      refine ⟨i5 b, by simp, ?_⟩
      intro x hx y hy e
      rw [List.mem_singleton] at hy
      subst hy; subst e; exact h2 hx
    · rw [upd_other _ _ e]; exact i5 b
  · intro d a b hab
    have := i6 d a b hab
    refine ⟨this.1, ?_, this.2.2⟩
    by_cases e : b = c
    · subst e
      rw [upd_same, List.mem_append, List.mem_singleton]
      rintro (h | h)
      · exact this.2.1 h
      · subst h; exact h3 d hab
    · rw [upd_other _ _ e]; exact this.2.1
  · exact i7
  · intro a b u hab
    have := i8 a b u hab
    refine ⟨this.1, ?_, this.2.2⟩
    by_cases e : b = c
    · subst e
      rw [upd_same, List.mem_append, List.mem_singleton]
      rintro (h | h)
      · exact this.2.1 h
      · subst h; exact h4 _ _ hab
    · rw [upd_other _ _ e]; exact this.2.1
  · exact i9
  · exact i10
  · intro b
    by_cases e : b = c
    · subst e; rw [upd_same, upd_same, i11 b, List.append_assoc]
    · rw [upd_other _ _ e, upd_other _ _ e]; exact i11 b

theorem Inv.unwait {s : St} (I : Inv s) {c : Nat} {l : List (Nat × Nat)}
    (h : ∀ e, e ∈ l → e ∈ s.waiting c) : Inv { s with waiting := upd s.waiting c l } := by
  obtain ⟨i1, i2, i3, i4, i5, i6, i7, i8, i9, i10, i11⟩ := I
  have hw : ∀ e b, e ∈ upd s.waiting c l b → e ∈ s.waiting b := by
    intro e b he
    by_cases eb : b = c
    · subst eb; rw [upd_same] at he; exact h e he
    · rw [upd_other _ _ eb] at he; exact he
  constructor
  · exact i1
  · exact i2
  · exact i3
  · exact i4
  · exact i5
  · intro d a b hab; exact i6 d a b (hw _ _ hab)
  · intro d d' a b h1 h2; exact i7 d d' a b (hw _ _ h1) (hw _ _ h2)
  · intro a b u hab
    have := i8 a b u hab
    exact ⟨this.1, this.2.1, this.2.2.1, fun d hd => this.2.2.2 d (hw _ _ hd)⟩
  · exact i9
  · exact i10
  · exact i11

/-- The running thread gives up its core. -/
theorem Inv.stop {s : St} (I : Inv s) {t c : Nat} (h : s.running c = some t) :
    Inv { s with gens := upd s.gens t true, running := upd s.running c none } := by
  obtain ⟨i1, i2, i3, i4, i5, i6, i7, i8, i9, i10, i11⟩ := I
  have sub : ∀ b a, upd s.running c none b = some a → s.running b = some a ∧ b ≠ c := by
    intro b a hb
    by_cases e : b = c
    · subst e; rw [upd_same] at hb; cases hb
    · rw [upd_other _ _ e] at hb; exact ⟨hb, e⟩
  constructor
  · exact i1
  · intro a
    show upd s.gens t true a = true ↔ (∃ b, On s a b) ∧ ∀ b, upd s.running c none b ≠ some a
    by_cases e : a = t
    · subst e
      rw [upd_same]
      refine ⟨fun _ => ⟨⟨c, i3 a c h⟩, ?_⟩, fun _ => rfl⟩
      intro b hb
      have hb := sub b a hb
      exact hb.2 (On.unique (i3 a b hb.1) (i3 a c h))
    · rw [upd_other _ _ e, i2 a]
      refine and_congr_right fun _ => ⟨fun hr b hb => hr b (sub b a hb).1, fun hr b hb => hr b ?_⟩
      by_cases eb : b = c
      · subst eb; rw [h] at hb; cases hb; exact absurd rfl e
      · rw [upd_other _ _ eb]; exact hb
  · intro a b hb; exact i3 a b (sub b a hb).1
  · exact i4
  · exact i5
  · intro d a b hab
    have := i6 d a b hab
    exact ⟨this.1, this.2.1, fun hb => this.2.2 (sub b a hb).1⟩
  · exact i7
  · intro a b u hab
    have := i8 a b u hab
    exact ⟨this.1, this.2.1, fun hb => this.2.2.1 (sub b a hb).1, this.2.2.2⟩
  · exact i9
  · exact i10
  · exact i11

/-- A running thread is in no list but possibly the queue. -/
theorem Inv.out_of_running {s : St} (I : Inv s) {t c : Nat} (h : s.running c = some t)
    (hq : t ∉ s.queue c) : Out s t c where
  on := I.run t c h
  queue := hq
  wait := fun d hd => (I.wait d t c hd).2.2 h
  join := by
    intro c' u hj
    have hj' := I.join t c' u hj
    have : c' = c := On.unique hj'.1 (I.run t c h)
    subst this
    exact hj'.2.2.1 h

theorem Inv.sleep {s : St} (I : Inv s) {t c d : Nat} {l : List (Nat × Nat)} (h : Out s t c)
    (hr : s.running c ≠ some t) (hl : insertDesc (d, t) (s.waiting c) = some l) :
    Inv { s with waiting := upd s.waiting c l } := by
  obtain ⟨h1, h2, h3, h4⟩ := h
  obtain ⟨i1, i2, i3, i4, i5, i6, i7, i8, i9, i10, i11⟩ := I
  have hw : ∀ e b, e ∈ upd s.waiting c l b → (b = c ∧ e = (d, t)) ∨ e ∈ s.waiting b := by
    intro e b he
    by_cases eb : b = c
    · subst eb
      rw [upd_same] at he
      rcases (insertDesc_mem hl e).1 he with h | h
      · exact .inl ⟨rfl, h⟩
      · exact .inr h
    · rw [upd_other _ _ eb] at he; exact .inr he
  constructor
  · exact i1
  · exact i2
  · exact i3
  · exact i4
  · exact i5
  · intro d' a b hab
    rcases hw _ _ hab with ⟨e, e'⟩ | hab
    · cases e'; subst e; exact ⟨h1, h2, hr⟩
    · exact i6 d' a b hab
  · intro d1 d2 a b m1 m2
    rcases hw _ _ m1 with ⟨e, e'⟩ | m1' <;> rcases hw _ _ m2 with ⟨f, f'⟩ | m2'
    · cases e'; cases f'; rfl
    · cases e'; subst e; exact absurd m2' (h3 d2)
    · cases f'; subst f; exact absurd m1' (h3 d1)
    · exact i7 d1 d2 a b m1' m2'
  · intro a b u hab
    have := i8 a b u hab
    refine ⟨this.1, this.2.1, this.2.2.1, ?_⟩
    intro d' hd'
    rcases hw _ _ hd' with ⟨e, e'⟩ | hd'
    · cases e'; exact h4 _ _ hab
    · exact this.2.2.2 d' hd'
  · exact i9
  · exact i10
  · exact i11

theorem on_upd_joinlist {s : St} {u : Nat} {th : Thread} (h : s.threads u = some th)
    (l : List (Nat × Nat)) (t c : Nat) :
    On { s with threads := upd s.threads u (some { th with joinlist := l }) } t c ↔ On s t c := by
  unfold On
  by_cases e : t = u
  · subst e; simp [upd_same, h]
  · simp [upd_other _ _ e]

theorem Inv.joinOn {s : St} (I : Inv s) {t c u : Nat} {th : Thread} (h : Out s t c)
    (hr : s.running c ≠ some t) (hu : s.threads u = some th) :
    Inv { s with threads := upd s.threads u (some ⟨th.affinity, th.joinlist ++ [(t, c)]⟩) } := by
  obtain ⟨h1, h2, h3, h4⟩ := h
  obtain ⟨i1, i2, i3, i4, i5, i6, i7, i8, i9, i10, i11⟩ := I
  have jo : ∀ a b v,
      JoinsOn { s with threads := upd s.threads u (some ⟨th.affinity, th.joinlist ++ [(t, c)]⟩) }
        a b v →
      JoinsOn s a b v ∨ (a = t ∧ b = c ∧ v = u) := by
    rintro a b v ⟨tv, hv, hm⟩
    by_cases e : v = u
    · subst e
      simp only [upd_same, Option.some.injEq] at hv
      subst hv
      simp only [List.mem_append, List.mem_singleton, Prod.mk.injEq] at hm
      rcases hm with hm | hm
      · exact .inl ⟨th, hu, hm⟩
      · exact .inr ⟨hm.1, hm.2, rfl⟩
    · simp only [upd_other _ _ e] at hv
      exact .inl ⟨tv, hv, hm⟩
  constructor <;> (try simp only [on_upd_joinlist hu])
  · intro a ha
    have : a ≠ u := by intro e; subst e; rw [i1 a ha] at hu; cases hu
    show upd _ _ _ a = none
    rw [upd_other _ _ this]; exact i1 a ha
  · exact i2
  · exact i3
  · exact i4
  · exact i5
  · exact i6
  · exact i7
  · intro a b v hab
    rcases jo a b v hab with h | ⟨e1, e2, e3⟩
    · exact i8 a b v h
    · subst e1; subst e2; exact ⟨h1, h2, hr, h3⟩
  · intro a b v b' v' j1 j2
    rcases jo _ _ _ j1 with k1 | ⟨e1, e2, e3⟩ <;> rcases jo _ _ _ j2 with k2 | ⟨f1, f2, f3⟩
    · exact i9 a b v b' v' k1 k2
    · rw [f1] at k1; exact absurd k1 (h4 _ _)
    · rw [e1] at k2; exact absurd k2 (h4 _ _)
    · rw [e3, f3]
  · intro v tv hv
    by_cases e : v = u
    · subst e
      simp only [upd_same, Option.some.injEq] at hv
      subst hv
      simp only [List.map_append, List.map_cons, List.map_nil, List.nodup_append]
      refine ⟨i10 v th hu, by simp, ?_⟩
      intro x hx y hy exy
      rw [List.mem_singleton] at hy
      subst hy; subst exy
      obtain ⟨p, hp, hp'⟩ := List.mem_map.1 hx
      obtain ⟨p1, p2⟩ := p
      subst hp'
      exact h4 p2 v ⟨th, hu, hp⟩
    · simp only [upd_other _ _ e] at hv
      exact i10 v tv hv
  · exact i11

/-- The joiners wake up after the thread is gone. -/
theorem Inv.wakeJoiners {s : St} (I : Inv s) {l : List (Nat × Nat)}
    (hl : ∀ t c, (t, c) ∈ l → Out s t c) (hn : (l.map (·.1)).Nodup) : Inv (s.wakeJoiners l) := by
  induction l generalizing s with
  | nil => exact I
  | cons x l ih =>
    obtain ⟨t, c⟩ := x
    simp only [List.map_cons, List.nodup_cons] at hn
    refine ih (I.enqueue (hl t c (by simp))) ?_ hn.2
    intro a b hab
    have o := hl a b (by simp [hab])
    refine ⟨o.on, ?_, o.wait, o.join⟩
    have : a ≠ t := by
      intro e; subst e
      exact hn.1 (List.mem_map.2 ⟨(a, b), hab, rfl⟩)
    simp only [St.markRunnable, upd_apply]
    split
    · rename_i e
      subst e
      simp only [List.mem_append, List.mem_singleton, this, or_false]
      exact o.queue
    · exact o.queue

theorem Inv.exit {s : St} (I : Inv s) {t c : Nat} {th : Thread} (h : s.running c = some t)
    (hq : t ∉ s.queue c) (ht : s.threads t = some th) :
    Inv ({ s with threads := upd s.threads t none, count := s.count - 1,
                  running := upd s.running c none }.wakeJoiners th.joinlist) := by
  have o := I.out_of_running h hq
  obtain ⟨i1, i2, i3, i4, i5, i6, i7, i8, i9, i10, i11⟩ := I
  have sub : ∀ b a, upd s.running c none b = some a → s.running b = some a ∧ b ≠ c := by
    intro b a hb
    by_cases e : b = c
    · subst e; rw [upd_same] at hb; cases hb
    · rw [upd_other _ _ e] at hb; exact ⟨hb, e⟩
  have on : ∀ a b, On { s with threads := upd s.threads t none, count := s.count - 1,
                               running := upd s.running c none } a b ↔ On s a b ∧ a ≠ t := by
    intro a b
    unfold On
    by_cases e : a = t
    · subst e; simp [upd_same]
    · simp [upd_other _ _ e, e]
  have jo : ∀ a b v, JoinsOn { s with threads := upd s.threads t none, count := s.count - 1,
                                      running := upd s.running c none } a b v ↔
      JoinsOn s a b v ∧ v ≠ t := by
    intro a b v
    unfold JoinsOn
    by_cases e : v = t
    · subst e; simp [upd_same]
    · simp [upd_other _ _ e, e]
  have hnt : ∀ a b v, JoinsOn s a b v → a ≠ t := by
    intro a b v hj e; subst e; exact o.join b v hj
  apply Inv.wakeJoiners
  · constructor <;> (try simp only [on, jo])
    · intro a ha
      show upd s.threads t none a = none
      rw [upd_apply]; split
      · rfl
      · exact i1 a ha
    · intro a
      rw [i2 a]
      constructor
      · rintro ⟨⟨b, hb⟩, hr⟩
        refine ⟨⟨b, hb, ?_⟩, fun b' hb' => hr b' (sub b' a hb').1⟩
        intro e; subst e; exact hr c h
      · rintro ⟨⟨b, hb, hne⟩, hr⟩
        refine ⟨⟨b, hb⟩, fun b' hb' => hr b' ?_⟩
        show upd s.running c none b' = some a
        by_cases e : b' = c
        · subst e; rw [h] at hb'; cases hb'; exact absurd rfl hne
        · rw [upd_other _ _ e]; exact hb'
    · intro a b hb
      have hb := sub b a hb
      refine ⟨i3 a b hb.1, ?_⟩
      intro e; subst e
      exact hb.2 (On.unique (i3 a b hb.1) (i3 a c h))
    · intro a b hab
      refine ⟨i4 a b hab, ?_⟩
      intro e; subst e
      have : b = c := On.unique (i4 a b hab) o.on
      subst this; exact hq hab
    · exact i5
    · intro d a b hab
      have := i6 d a b hab
      refine ⟨⟨this.1, ?_⟩, this.2.1, fun hb => this.2.2 (sub b a hb).1⟩
      intro e; subst e
      have : b = c := On.unique this.1 o.on
      subst this; exact o.wait d hab
    · exact i7
    · rintro a b u ⟨hab, hne⟩
      have := i8 a b u hab
      exact ⟨⟨this.1, hnt _ _ _ hab⟩, this.2.1, fun hb => this.2.2.1 (sub b a hb).1, this.2.2.2⟩
    · intro a b u b' u' j1 j2; exact i9 a b u b' u' j1.1 j2.1
    · intro u tu hu
      by_cases e : u = t
      · subst e; simp only [upd_same] at hu; cases hu
      · simp only [upd_other _ _ e] at hu; exact i10 u tu hu
    · exact i11
  · intro a b hab
    have hj : JoinsOn s a b t := ⟨th, ht, hab⟩
    have := i8 a b t hj
    refine ⟨(on a b).2 ⟨this.1, hnt _ _ _ hj⟩, this.2.1, this.2.2.2, ?_⟩
    intro c' u hj'
    have hj' := (jo _ _ _).1 hj'
    exact hj'.2 (i9 _ _ _ _ _ hj'.1 hj)
  · exact i10 t th ht

theorem Inv.spawn {s : St} (I : Inv s) {c : Nat} {irq : Option Nat} (h : s.count ≤ maxThreads) :
    ∃ s', s.spawn c irq = .ok (s', some s.nextTid) ∧ Inv s' := by
  have hn := I.fresh s.nextTid (Nat.le_refl _)
  have nr : ∀ b, s.running b ≠ some s.nextTid := by
    intro b hb
    obtain ⟨th, h1, _⟩ := I.run _ _ hb
    rw [hn] at h1; cases h1
  have non : ∀ b, ¬ On s s.nextTid b := by
    rintro b ⟨th, h1, _⟩
    rw [hn] at h1; cases h1
  have nq : ∀ b, s.nextTid ∉ s.queue b := fun b hb => non b (I.queue _ _ hb)
  have nw : ∀ b d, (d, s.nextTid) ∉ s.waiting b := fun b d hb => non b (I.wait _ _ _ hb).1
  have nj : ∀ b u, ¬ JoinsOn s s.nextTid b u := fun b u hb => non b (I.join _ _ _ hb).1
  obtain ⟨i1, i2, i3, i4, i5, i6, i7, i8, i9, i10, i11⟩ := I
  let s1 : St := { s with
    nextTid := s.nextTid + 1
    gens := upd s.gens s.nextTid true
    threads := upd s.threads s.nextTid (some ⟨c, []⟩)
    count := s.count + 1 }
  have on : ∀ a b, On s1 a b ↔ On s a b ∨ (a = s.nextTid ∧ b = c) := by
    intro a b
    show (∃ th, upd s.threads s.nextTid (some ⟨c, []⟩) a = some th ∧ th.affinity = b) ↔ _
    by_cases e : a = s.nextTid
    · subst e
      simp only [upd_same, Option.some.injEq, exists_eq_left', true_and]
      exact ⟨fun e => .inr e.symm, fun e => e.elim (fun e => absurd e (non b)) Eq.symm⟩
    · simp only [upd_other _ _ e, e, false_and, or_false]; exact Iff.rfl
  have jo : ∀ a b u, JoinsOn s1 a b u ↔ JoinsOn s a b u := by
    intro a b u
    show (∃ th, upd s.threads s.nextTid (some ⟨c, []⟩) u = some th ∧ (a, b) ∈ th.joinlist) ↔ _
    by_cases e : u = s.nextTid
    · subst e; simp [upd_same, JoinsOn, hn]
    · simp only [upd_other _ _ e]; exact Iff.rfl
  have I1 : Inv s1 := by
    constructor <;> (try simp only [on, jo])
    · intro a ha
      have ha : s.nextTid + 1 ≤ a := ha
      show upd s.threads _ _ a = none
      rw [upd_other _ _ (by omega)]; exact i1 a (by omega)
    · intro a
      show upd s.gens s.nextTid true a = true ↔ _ ∧ ∀ b, s.running b ≠ some a
      by_cases e : a = s.nextTid
      · subst e
        rw [upd_same]
        exact ⟨fun _ => ⟨⟨c, .inr ⟨rfl, rfl⟩⟩, nr⟩, fun _ => rfl⟩
      · rw [upd_other _ _ e, i2 a]; simp [e]
    · intro a b hb; exact .inl (i3 a b hb)
    · intro a b hb; exact .inl (i4 a b hb)
    · exact i5
    · intro d a b hb; have := i6 d a b hb; exact ⟨.inl this.1, this.2⟩
    · exact i7
    · intro a b u hb; have := i8 a b u hb; exact ⟨.inl this.1, this.2⟩
    · exact i9
    · intro u th hu
      by_cases e : u = s.nextTid
      · subst e
        have hu : upd s.threads s.nextTid (some ⟨c, []⟩) s.nextTid = some th := hu
        rw [upd_same] at hu; cases hu; exact .nil
      · have hu : upd s.threads s.nextTid (some ⟨c, []⟩) u = some th := hu
        rw [upd_other _ _ e] at hu; exact i10 u th hu
    · exact i11
  have I2 : Inv (s1.markRunnable s.nextTid c) := by
    apply I1.enqueue
    exact ⟨(on _ _).2 (.inr ⟨rfl, rfl⟩), nq c, nw c, fun b u hj => nj b u ((jo _ _ _).1 hj)⟩
  cases irq with
  | none =>
    refine ⟨s1.markRunnable s.nextTid c, ?_, I2⟩
    simp only [St.spawn, hn, if_pos h]; rfl
  | some v =>
    refine ⟨{ s1.markRunnable s.nextTid c with irqs := upd s.irqs v (some s.nextTid) }, ?_, ?_⟩
    · simp only [St.spawn, hn, if_pos h]; rfl
    · obtain ⟨j1, j2, j3, j4, j5, j6, j7, j8, j9, j10, j11⟩ := I2
      exact ⟨j1, j2, j3, j4, j5, j6, j7, j8, j9, j10, j11⟩

theorem Inv.dispatch {s : St} (I : Inv s) {t c : Nat} {q : List Nat} (hr : s.running c = none)
    (hq : s.queue c = t :: q) :
    s.gens t = true ∧ On s t c ∧
    Inv { s with
        queue := upd s.queue c q
        left := upd s.left c (s.left c ++ [t])
        gens := upd s.gens t false
        running := upd s.running c (some t) } := by
  have ht : t ∈ s.queue c := by rw [hq]; simp
  have ho := I.queue t c ht
  have nr : ∀ b, s.running b ≠ some t := by
    intro b hb
    have : b = c := On.unique (I.run t b hb) ho
    subst this; rw [hr] at hb; cases hb
  have hg : s.gens t = true := (I.gens t).2 ⟨⟨c, ho⟩, nr⟩
  have hnd := I.qnodup c
  rw [hq, List.nodup_cons] at hnd
  refine ⟨hg, ho, ?_⟩
  obtain ⟨i1, i2, i3, i4, i5, i6, i7, i8, i9, i10, i11⟩ := I
  have sub : ∀ a b, a ∈ upd s.queue c q b → a ∈ s.queue b := by
    intro a b hb
    by_cases e : b = c
    · subst e; rw [upd_same] at hb; rw [hq]; simp [hb]
    · rw [upd_other _ _ e] at hb; exact hb
  have run : ∀ b a, upd s.running c (some t) b = some a →
      (b = c ∧ a = t) ∨ (b ≠ c ∧ s.running b = some a) := by
    intro b a hb
    by_cases e : b = c
    · subst e; rw [upd_same] at hb; cases hb; exact .inl ⟨rfl, rfl⟩
    · rw [upd_other _ _ e] at hb; exact .inr ⟨e, hb⟩
  constructor
  · exact i1
  · intro a
    show upd s.gens t false a = true ↔ (∃ b, On s a b) ∧ ∀ b, upd s.running c (some t) b ≠ some a
    by_cases e : a = t
    · subst e
      rw [upd_same]
      refine ⟨nofun, ?_⟩
      rintro ⟨_, h⟩
      exact absurd (upd_same ..) (h c)
    · rw [upd_other _ _ e, i2 a]
      refine and_congr_right fun _ => ⟨fun hr' b hb => ?_, fun hr' b hb => ?_⟩
      · rcases run b a hb with ⟨_, h⟩ | ⟨_, h⟩
        · exact e h
        · exact hr' b h
      · have : b ≠ c := by intro e; subst e; rw [hr] at hb; cases hb
        exact hr' b (by rw [upd_other _ _ this]; exact hb)
  · intro a b hb
    rcases run b a hb with ⟨h1, h2⟩ | ⟨_, h⟩
    · subst h1; subst h2; exact ho
    · exact i3 a b h
  · intro a b hb; exact i4 a b (sub a b hb)
  · intro b
    show (upd s.queue c q b).Nodup
    by_cases e : b = c
    · subst e; rw [upd_same]; exact hnd.2
    · rw [upd_other _ _ e]; exact i5 b
  · intro d a b hb
    have := i6 d a b hb
    refine ⟨this.1, fun h => this.2.1 (sub a b h), fun h => ?_⟩
    rcases run b a h with ⟨h1, h2⟩ | ⟨_, h⟩
    · subst h1; subst h2; exact this.2.1 ht
    · exact this.2.2 h
  · exact i7
  · intro a b u hb
    have := i8 a b u hb
    refine ⟨this.1, fun h => this.2.1 (sub a b h), fun h => ?_, this.2.2.2⟩
    rcases run b a h with ⟨h1, h2⟩ | ⟨_, h⟩
    · subst h1; subst h2; exact this.2.1 ht
    · exact this.2.2.1 h
  · exact i9
  · exact i10
  · intro b
    show s.entered b = upd s.left c (s.left c ++ [t]) b ++ upd s.queue c q b
    by_cases e : b = c
    · subst e; rw [upd_same, upd_same, i11 b, hq]; simp
    · rw [upd_other _ _ e, upd_other _ _ e]; exact i11 b

theorem Inv.check {s : St} (I : Inv s) (hd : ∀ c, Desc (s.waiting c)) {c : Nat}
    {clock : Nat → Nat} {i f : Nat} : Inv (St.checkLoop c clock i f s) := by
  induction f generalizing i s with
  | zero => exact I
  | succ f ih =>
    simp only [St.checkLoop]
    split
    · exact I
    · rename_i d t hl
      split
      · have hsplit := getLast?_dropLast hl
        have hm : (d, t) ∈ s.waiting c := by rw [hsplit]; simp
        have hw := I.wait d t c hm
        have hd' := hd c
        rw [hsplit] at hd'
        apply ih
        · apply Inv.enqueue
          · exact I.unwait fun e he => List.dropLast_subset _ he
          · refine ⟨hw.1, hw.2.1, ?_, ?_⟩
            · intro d' hm'
              simp only [upd_same] at hm'
              have e := I.wuniq d d' t c hm (List.dropLast_subset _ hm')
              subst e
              have := (List.pairwise_append.1 hd').2.2 (d, t) hm' (d, t) (by simp)
              unfold later at this; omega
            · intro c' u hj
              have := I.join t c' u hj
              have e : c' = c := On.unique this.1 hw.1
              subst e
              exact this.2.2.2 d hm
        · intro b
          simp only [St.markRunnable, upd_apply]
          split
          · exact (hd _).sublist (List.dropLast_sublist _)
          · exact hd b
      · exact I

/-- May be made runnable: not queued, not waiting for the end of a thread. -/
def Wakeable (s : St) (r : Nat) : Prop :=
  ∃ c, On s r c ∧ r ∉ s.queue c ∧ ∀ c' u, ¬ JoinsOn s r c' u

theorem Inv.wake {s : St} (I : Inv s) {r : Nat} (h : Wakeable s r) :
    ∃ c, On s r c ∧ s.wake r = .ok ((s.waitRemove r c).markRunnable r c) ∧
      Inv ((s.waitRemove r c).markRunnable r c) := by
  obtain ⟨c, ⟨th, h1, h2⟩, hq, hj⟩ := h
  refine ⟨c, ⟨th, h1, h2⟩, ?_, ?_⟩
  · simp only [St.wake, h1, h2]
  · apply Inv.enqueue
    · exact I.unwait fun e he => (List.mem_filter.1 he).1
    · refine ⟨⟨th, h1, h2⟩, hq, ?_, hj⟩
      intro d hd
      simp only [St.waitRemove, upd_same, List.mem_filter] at hd
      simp at hd

theorem wakeable_other {s : St} {r a c : Nat} (h : Wakeable s a) (ne : a ≠ r) :
    Wakeable ((s.waitRemove r c).markRunnable r c) a := by
  obtain ⟨b, h1, h2, h3⟩ := h
  refine ⟨b, h1, ?_, h3⟩
  simp only [St.markRunnable, St.waitRemove, upd_apply]
  split
  · rename_i e
    subst e
    simp only [List.mem_append, List.mem_singleton, ne, or_false]
    exact h2
  · exact h2

theorem Inv.wakeAll {s : St} (I : Inv s) {l : List Nat} (hn : l.Nodup)
    (h : ∀ r, r ∈ l → Wakeable s r) : ∃ s', s.wakeAll l = .ok s' ∧ Inv s' := by
  induction l generalizing s with
  | nil => exact ⟨s, rfl, I⟩
  | cons r l ih =>
    rw [List.nodup_cons] at hn
    obtain ⟨c, _, h1, h2⟩ := I.wake (h r (by simp))
    simp only [St.wakeAll, h1]
    apply ih h2 hn.2
    intro a ha
    exact wakeable_other (h a (by simp [ha])) (by intro e; subst e; exact hn.1 ha)

end NRK.Lineup.Sched
