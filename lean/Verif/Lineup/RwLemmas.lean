import Verif.Lineup.RwModel
import Verif.Sync.Count

/-!
# The invariant of the user-level reader-writer lock
-/

namespace NRK.Lineup.Rw

open NRK.Sync

/-- Inside the mutex `wait` (a thread panics only there). -/
def Pc.inW : Pc → Bool
  | .wAcc | .wSet | .wOut | .rAdd | .rAcc | .rSet | .rOut | .twAcc | .trLoad | .trTry _ | .trStore
  | .trSet | .tfOut | .panic => true
  | _ => false

/-- Counted in `readers`. -/
def Pc.counted : Pc → Bool
  | .rAcc | .rSet | .rOut | .read | .xLoadR | .xSub | .uCas | .dAcc | .trSet => true
  | _ => false

/-- Has the lock for itself. -/
def Pc.excl : Pc → Bool
  | .wSet | .wOut | .write | .xLoadW | .dSet | .dAdd | .uSet | .xFree | .xAcc | .trStore | .trSet
  | .dAcc => true
  | _ => false

/-- Shares the lock with readers. -/
def Pc.shared : Pc → Bool
  | .rSet | .rOut | .read | .xLoadR | .xSub | .uCas => true
  | _ => false

/-- The first reader, waiting for `access`. -/
def Pc.pending : Pc → Bool
  | .rAcc => true
  | _ => false

/-- The type of the lock is `writeable`. -/
def Pc.typeW : Pc → Bool
  | .wOut | .write | .xLoadW | .dSet => true
  | _ => false

/-- The type of the lock is `readable`. -/
def Pc.typeR : Pc → Bool
  | .rOut | .read | .xLoadR | .xSub | .uCas | .dAdd | .dAcc => true
  | _ => false

structure Inv (n : Nat) (s : St) : Prop where
  wait : ∀ t, s.wait = some t ↔ (s.pc t).inW = true
  readers : s.readers = cnt n (fun t => (s.pc t).counted)
  alone : ∀ t u, t ≠ u → (s.pc t).excl = true → (s.pc u).excl = false ∧ (s.pc u).shared = false
  access : s.access = true ↔ (∃ t, (s.pc t).excl = true) ∨
    ((∃ t, (s.pc t).shared = true) ∧ ∀ t, (s.pc t).pending = false)
  down : ∀ t, s.pc t = .dAcc → ∃ u, (s.pc u).pending = true
  typeW : ∀ t, (s.pc t).typeW = true → s.type = .writeable
  typeR : ∀ t, (s.pc t).typeR = true → s.type = .readable
  bound : ∀ t, n ≤ t → s.pc t = .idle

theorem Inv.init (n : Nat) : Inv n St.init := by
  constructor <;> simp [St.init, Pc.inW, Pc.excl, Pc.shared, Pc.pending, Pc.typeW, Pc.typeR]
  rw [cnt_none]; intros; rfl

theorem cnt_other {n t : Nat} {f : Nat → Bool} (ht : t < n)
    (h : (if f t then 1 else 0) < cnt n f) : ∃ u, u < n ∧ u ≠ t ∧ f u = true := by
  have hc := cnt_change (n := n) (p := f) (q := fun u => if u = t then false else f u) t ht
    (fun u e => by simp [e])
  simp only [if_true, Bool.false_eq_true, if_false] at hc
  obtain ⟨u, h1, h2⟩ := cnt_exists (n := n) (p := fun u => if u = t then false else f u) (by omega)
  refine ⟨u, h1, ?_, ?_⟩
  · intro e; simp [e] at h2
  · by_cases e : u = t
    · simp [e] at h2
    · simpa [e] using h2

theorem cnt_only {n t : Nat} {f : Nat → Bool} (ht : t < n)
    (h : cnt n f = if f t then 1 else 0) {u : Nat} (hu : u < n) (e : u ≠ t) : f u = false := by
  cases hf : f u with
  | false => rfl
  | true =>
    have hc := cnt_change (n := n) (p := f) (q := fun u => if u = t then false else f u) t ht
      (fun u e => by simp [e])
    simp only [if_true, Bool.false_eq_true, if_false] at hc
    have := cnt_pos (n := n) (p := fun u => if u = t then false else f u) hu (by simp [e, hf])
    omega

/-- Thread `t` moves from `q` to `p`. -/
theorem Inv.change {n : Nat} {s s' : St} (I : Inv n s) {t : Nat} (q p : Pc) (ht : t < n)
    (h : s.pc t = q) (hpc : s'.pc = upd s.pc t p)
    (hw : (s'.wait = s.wait ∧ q.inW = p.inW) ∨ (s'.wait = some t ∧ s.wait = none ∧ p.inW = true) ∨
      (s'.wait = none ∧ q.inW = true ∧ p.inW = false))
    (hr : s'.readers + (if q.counted then 1 else 0) = s.readers + (if p.counted then 1 else 0))
    (he : p.excl = true → q.excl = true ∨
      ∀ u, u ≠ t → (s.pc u).excl = false ∧ (s.pc u).shared = false)
    (hm : p.shared = true → (q.excl = true ∨ q.shared = true) ∨ ∀ u, u ≠ t → (s.pc u).excl = false)
    (ha : (s'.access = s.access ∧ q.excl = p.excl ∧ q.shared = p.shared ∧ q.pending = p.pending) ∨
      (s'.access = true ↔ (p.excl = true ∨ ∃ u, u ≠ t ∧ (s.pc u).excl = true) ∨
        ((p.shared = true ∨ ∃ u, u ≠ t ∧ (s.pc u).shared = true) ∧ p.pending = false ∧
          ∀ u, u ≠ t → (s.pc u).pending = false)))
    (hd : p = .dAcc → ∃ u, u ≠ t ∧ (s.pc u).pending = true)
    (hd' : q.pending = true → p.pending = true ∨ ∀ u, u ≠ t → (s.pc u).excl = false)
    (hy : (s'.type = s.type ∧ (p.typeW = true → q.typeW = true ∨ s.type = .writeable) ∧
        (p.typeR = true → q.typeR = true ∨ s.type = .readable)) ∨
      (s'.type = .writeable ∧ p.typeR = false ∧ q.excl = true) ∨
      (s'.type = .readable ∧ p.typeW = false ∧ (q.excl = true ∨ q.shared = true)) ∨
      (s'.type = .free ∧ p.typeW = false ∧ p.typeR = false ∧ q.excl = true)) :
    Inv n s' := by
  have hpct : s'.pc t = p := by rw [hpc, upd_same]
  have hpco : ∀ u, u ≠ t → s'.pc u = s.pc u := fun u e => by rw [hpc, upd_other _ _ e]
  have qE : q.excl = true → ∀ u, u ≠ t → (s.pc u).excl = false ∧ (s.pc u).shared = false :=
    fun hq u e => I.alone t u (Ne.symm e) (by rw [h]; exact hq)
  have qM : q.shared = true → ∀ u, u ≠ t → (s.pc u).excl = false := by
    intro hq u e
    cases hx : (s.pc u).excl with
    | false => rfl
    | true => have := (I.alone u t e hx).2; rw [h, hq] at this; cases this
  have tW : ∀ r : Pc, r.typeW = true → r.excl = true := by intro r; cases r <;> simp [Pc.typeW, Pc.excl]
  have tR : ∀ r : Pc, r.typeR = true → r.excl = true ∨ r.shared = true := by
    intro r; cases r <;> simp [Pc.typeR, Pc.excl, Pc.shared]
  constructor
  · intro a
    by_cases e : a = t
    · subst e; rw [hpct]
      rcases hw with ⟨h1, h2⟩ | ⟨h1, h2, h3⟩ | ⟨h1, h2, h3⟩
      · rw [h1, I.wait, h, h2]
      · simp [h1, h3]
      · simp [h1, h3]
    · rw [hpco a e]
      rcases hw with ⟨h1, h2⟩ | ⟨h1, h2, h3⟩ | ⟨h1, h2, h3⟩
      · rw [h1, I.wait]
      · rw [← I.wait, h1, h2]; simp [Ne.symm e]
      · rw [← I.wait, h1, (I.wait t).2 (by rw [h]; exact h2)]; simp [Ne.symm e]
  · have hc := cnt_change (n := n) (p := fun u => (s'.pc u).counted)
      (q := fun u => (s.pc u).counted) t ht (fun u e => by simp only [hpco u e])
    simp only [hpct, h] at hc
    have := I.readers
    omega
  · intro a b hab hx
    by_cases e : a = t
    · subst e; rw [hpct] at hx
      rw [hpco b (Ne.symm hab)]
      rcases he hx with h' | h'
      · exact qE h' b (Ne.symm hab)
      · exact h' b (Ne.symm hab)
    · rw [hpco a e] at hx
      by_cases e' : b = t
      · subst e'; rw [hpct]
        constructor
        · cases hp : p.excl with
          | false => rfl
          | true =>
            rcases he hp with h' | h'
            · have := (qE h' a e).1; rw [hx] at this; cases this
            · have := (h' a e).1; rw [hx] at this; cases this
        · cases hp : p.shared with
          | false => rfl
          | true =>
            rcases hm hp with (h' | h') | h'
            · have := (qE h' a e).1; rw [hx] at this; cases this
            · have := qM h' a e; rw [hx] at this; cases this
            · have := h' a e; rw [hx] at this; cases this
      · rw [hpco b e']; exact I.alone a b hab hx
  · have hE : (∃ a, (s'.pc a).excl = true) ↔ (p.excl = true ∨ ∃ u, u ≠ t ∧ (s.pc u).excl = true) := by
      constructor
      · rintro ⟨a, hx⟩
        by_cases e : a = t
        · subst e; rw [hpct] at hx; exact .inl hx
        · rw [hpco a e] at hx; exact .inr ⟨a, e, hx⟩
      · rintro (hx | ⟨a, e, hx⟩)
        · exact ⟨t, by rw [hpct]; exact hx⟩
        · exact ⟨a, by rw [hpco a e]; exact hx⟩
    have hM : (∃ a, (s'.pc a).shared = true) ↔
        (p.shared = true ∨ ∃ u, u ≠ t ∧ (s.pc u).shared = true) := by
      constructor
      · rintro ⟨a, hx⟩
        by_cases e : a = t
        · subst e; rw [hpct] at hx; exact .inl hx
        · rw [hpco a e] at hx; exact .inr ⟨a, e, hx⟩
      · rintro (hx | ⟨a, e, hx⟩)
        · exact ⟨t, by rw [hpct]; exact hx⟩
        · exact ⟨a, by rw [hpco a e]; exact hx⟩
    have hP : (∀ a, (s'.pc a).pending = false) ↔
        (p.pending = false ∧ ∀ u, u ≠ t → (s.pc u).pending = false) := by
      constructor
      · intro hx
        exact ⟨by have := hx t; rw [hpct] at this; exact this,
          fun u e => by have := hx u; rw [hpco u e] at this; exact this⟩
      · rintro ⟨h1, h2⟩ a
        by_cases e : a = t
        · subst e; rw [hpct]; exact h1
        · rw [hpco a e]; exact h2 a e
    rcases ha with ⟨h1, h2, h3, h4⟩ | ha
    · have e1 : ∀ f : Pc → Bool, f q = f p → ∀ a, f (s'.pc a) = f (s.pc a) := by
        intro f hf a
        by_cases e : a = t
        · subst e; rw [hpct, h, hf]
        · rw [hpco a e]
      simp only [e1 _ h2, e1 _ h3, e1 _ h4, h1]
      exact I.access
    · rw [hE, hM, hP]; exact ha
  · intro a hx
    by_cases e : a = t
    · subst e; rw [hpct] at hx
      obtain ⟨u, h1, h2⟩ := hd hx
      exact ⟨u, by rw [hpco u h1]; exact h2⟩
    · rw [hpco a e] at hx
      obtain ⟨u, hu⟩ := I.down a hx
      by_cases e' : u = t
      · subst e'
        rw [h] at hu
        rcases hd' hu with h' | h'
        · exact ⟨u, by rw [hpct]; exact h'⟩
        · have := h' a e; rw [hx] at this; cases this
      · exact ⟨u, by rw [hpco u e']; exact hu⟩
  · intro a hx
    by_cases e : a = t
    · subst e; rw [hpct] at hx
      rcases hy with ⟨h1, h2, h3⟩ | ⟨h1, _⟩ | ⟨_, h2, _⟩ | ⟨_, h2, _⟩
      · rw [h1]
        rcases h2 hx with h' | h'
        · exact I.typeW a (by rw [h]; exact h')
        · exact h'
      · exact h1
      · rw [h2] at hx; cases hx
      · rw [h2] at hx; cases hx
    · rw [hpco a e] at hx
      have hxe := tW _ hx
      have nq : q.excl = false ∧ q.shared = false := by
        have := I.alone a t e hxe; rw [h] at this; exact this
      rcases hy with ⟨h1, _⟩ | ⟨_, _, h2⟩ | ⟨_, _, h2⟩ | ⟨_, _, _, h2⟩
      · rw [h1]; exact I.typeW a hx
      · rw [nq.1] at h2; cases h2
      · rw [nq.1, nq.2] at h2; simp at h2
      · rw [nq.1] at h2; cases h2
  · intro a hx
    by_cases e : a = t
    · subst e; rw [hpct] at hx
      rcases hy with ⟨h1, h2, h3⟩ | ⟨_, h2, _⟩ | ⟨h1, _⟩ | ⟨_, _, h2, _⟩
      · rw [h1]
        rcases h3 hx with h' | h'
        · exact I.typeR a (by rw [h]; exact h')
        · exact h'
      · rw [h2] at hx; cases hx
      · exact h1
      · rw [h2] at hx; cases hx
    · rw [hpco a e] at hx
      have hxe := tR _ hx
      rcases hy with ⟨h1, _⟩ | ⟨_, _, h2⟩ | ⟨h1, _⟩ | ⟨_, _, _, h2⟩
      · rw [h1]; exact I.typeR a hx
      · have := qE h2 a e; rw [this.1, this.2] at hxe; simp at hxe
      · exact h1
      · have := qE h2 a e; rw [this.1, this.2] at hxe; simp at hxe
  · intro a ha
    rw [hpco a (by omega)]; exact I.bound a ha

/-- Facts about the other threads, from the program counter of `t`. -/
theorem Inv.waitAlone {n : Nat} {s : St} (I : Inv n s) {t u : Nat} (h : (s.pc t).inW = true)
    (e : u ≠ t) : (s.pc u).inW = false := by
  cases hx : (s.pc u).inW with
  | false => rfl
  | true =>
    have h1 := (I.wait t).2 h
    rw [(I.wait u).2 hx] at h1
    exact absurd (Option.some.inj h1) e

theorem pending_inW (p : Pc) : p.pending = true → p.inW = true := by
  cases p <;> simp [Pc.pending, Pc.inW]

theorem Inv.noPending {n : Nat} {s : St} (I : Inv n s) {t : Nat} (h : (s.pc t).inW = true) :
    ∀ u, u ≠ t → (s.pc u).pending = false := by
  intro u e
  cases hx : (s.pc u).pending with
  | false => rfl
  | true => have := pending_inW _ hx; rw [I.waitAlone h e] at this; cases this

theorem Inv.counted_lt {n : Nat} {s : St} (I : Inv n s) {u : Nat} (h : s.pc u ≠ .idle) : u < n := by
  rcases Nat.lt_or_ge u n with h' | h'
  · exact h'
  · exact absurd (I.bound u h') h

theorem shared_counted (p : Pc) : p.shared = true → p.counted = true := by
  cases p <;> simp [Pc.shared, Pc.counted]

theorem pending_counted (p : Pc) : p.pending = true → p.counted = true := by
  cases p <;> simp [Pc.pending, Pc.counted]

theorem counted_cases (p : Pc) : p.counted = true → p.shared = true ∨ p.pending = true ∨
    p.excl = true ∧ (p = .dAcc ∨ p.inW = true) := by
  cases p <;> simp [Pc.shared, Pc.counted, Pc.pending, Pc.excl, Pc.inW]

/-- If nobody is counted, nobody shares the lock or waits as the first reader. -/
theorem Inv.none_counted {n : Nat} {s : St} (I : Inv n s) (h0 : s.readers = 0) (u : Nat) :
    (s.pc u).shared = false ∧ (s.pc u).pending = false := by
  have key : (s.pc u).counted = false := by
    rcases Nat.lt_or_ge u n with hu | hu
    · exact cnt_eq_zero (p := fun t => (s.pc t).counted) (by rw [← I.readers]; exact h0) hu
    · rw [I.bound u hu]; rfl
  constructor
  · cases hx : (s.pc u).shared with
    | false => rfl
    | true => rw [shared_counted _ hx] at key; cases key
  · cases hx : (s.pc u).pending with
    | false => rfl
    | true => rw [pending_counted _ hx] at key; cases key

/-- The only counted thread. -/
theorem Inv.only_counted {n : Nat} {s : St} (I : Inv n s) {t : Nat} (ht : t < n)
    (h1 : s.readers = 1) (h : (s.pc t).counted = true) (u : Nat) (e : u ≠ t) :
    (s.pc u).shared = false ∧ (s.pc u).pending = false := by
  have key : (s.pc u).counted = false := by
    rcases Nat.lt_or_ge u n with hu | hu
    · exact cnt_only (f := fun t => (s.pc t).counted) ht
        (by rw [← I.readers, h1]; simp [h]) hu e
    · rw [I.bound u hu]; rfl
  constructor
  · cases hx : (s.pc u).shared with
    | false => rfl
    | true => rw [shared_counted _ hx] at key; cases key
  · cases hx : (s.pc u).pending with
    | false => rfl
    | true => rw [pending_counted _ hx] at key; cases key

/-- A thread inside `wait` that is not counted sees readers: they share the lock. -/
theorem Inv.readers_share {n : Nat} {s : St} (I : Inv n s) {t : Nat} (ht : t < n)
    (hw : (s.pc t).inW = true) (hc : (s.pc t).counted = false) (h0 : s.readers ≠ 0) :
    (∃ u, u ≠ t ∧ (s.pc u).shared = true ∧ (s.pc u).typeR = true) ∧
      ∀ u, u ≠ t → (s.pc u).excl = false := by
  have hr := I.readers
  obtain ⟨u, _, e, hu⟩ := cnt_other (f := fun t => (s.pc t).counted) ht (by
    simp only [hc]; simp; omega)
  have hun := I.waitAlone hw e
  have hsh : (s.pc u).shared = true := by
    rcases counted_cases _ hu with h | h | ⟨_, h | h⟩
    · exact h
    · rw [I.noPending hw u e] at h; cases h
    · obtain ⟨v, hv⟩ := I.down u h
      by_cases e' : v = t
      · subst e'; rw [pending_counted _ hv] at hc; cases hc
      · rw [I.noPending hw v e'] at hv; cases hv
    · rw [hun] at h; cases h
  refine ⟨⟨u, e, hsh, ?_⟩, ?_⟩
  · cases hp : s.pc u <;> rw [hp] at hsh hun <;> simp [Pc.shared, Pc.inW, Pc.typeR] at hsh hun ⊢
  · intro v _
    cases hx : (s.pc v).excl with
    | false => rfl
    | true =>
      by_cases e' : v = u
      · subst e'
        cases hp : s.pc v <;> rw [hp] at hsh hx <;> simp [Pc.shared, Pc.excl] at hsh hx
      · have := (I.alone v u e' hx).2; rw [hsh] at this; cases this

/-- When `access` is free a thread inside `wait` that is not the first reader is alone. -/
theorem Inv.free_alone {n : Nat} {s : St} (I : Inv n s) {t : Nat}
    (hw : (s.pc t).inW = true) (hp : (s.pc t).pending = false) (ha : s.access = false) (u : Nat) :
    (s.pc u).excl = false ∧ (s.pc u).shared = false := by
  have hn : ¬ ((∃ t, (s.pc t).excl = true) ∨
      ((∃ t, (s.pc t).shared = true) ∧ ∀ t, (s.pc t).pending = false)) := by
    rw [← I.access, ha]; nofun
  constructor
  · cases hx : (s.pc u).excl with
    | false => rfl
    | true => exact absurd (.inl ⟨u, hx⟩) hn
  · cases hx : (s.pc u).shared with
    | false => rfl
    | true =>
      refine absurd (.inr ⟨⟨u, hx⟩, fun v => ?_⟩) hn
      by_cases e : v = t
      · subst e; exact hp
      · exact I.noPending hw v e

theorem Inv.free_excl {n : Nat} {s : St} (I : Inv n s) (ha : s.access = false) (u : Nat) :
    (s.pc u).excl = false := by
  cases hx : (s.pc u).excl with
  | false => rfl
  | true => have := I.access.2 (.inl ⟨u, hx⟩); rw [ha] at this; cases this

theorem Inv.excl_access {n : Nat} {s : St} (I : Inv n s) {t : Nat} (h : (s.pc t).excl = true) :
    s.access = true := I.access.2 (.inl ⟨t, h⟩)

theorem Inv.shared_noexcl {n : Nat} {s : St} (I : Inv n s) {t : Nat} (h : (s.pc t).shared = true)
    (u : Nat) (e : u ≠ t) : (s.pc u).excl = false := by
  cases hx : (s.pc u).excl with
  | false => rfl
  | true => have := (I.alone u t e hx).2; rw [h] at this; cases this

theorem tryTable (v : Nat) : (Pc.trTry v).inW = true ∧ (Pc.trTry v).counted = false ∧
    (Pc.trTry v).excl = false ∧ (Pc.trTry v).shared = false ∧ (Pc.trTry v).pending = false ∧
    (Pc.trTry v).typeW = false ∧ (Pc.trTry v).typeR = false := ⟨rfl, rfl, rfl, rfl, rfl, rfl, rfl⟩

set_option linter.unusedSimpArgs false in
theorem Inv.step {n : Nat} {s s' : St} (I : Inv n s) (st : Step n s s') : Inv n s' := by
  cases st with
  | enterW t ht h | enterR t ht h | tryW t ht h | tryR t ht h =>
    apply I.change _ _ ht h rfl <;> simp (decide := true) [St.to, tryTable]
  | wWait t ht h hw | rWait t ht h hw | twWait t ht h hw | trWait t ht h hw =>
    apply I.change _ _ ht h rfl <;> simp (decide := true) [St.to, tryTable, hw]
  | twBusy t ht h hw | trBusy t ht h hw =>
    apply I.change _ _ ht h rfl <;> simp (decide := true) [St.to, tryTable]
  | wAcc t ht h ha =>
    have hf := I.free_alone (t := t) (by rw [h]; rfl) (by rw [h]; rfl) ha
    apply I.change _ _ ht h rfl <;> simp (decide := true) [St.to, St.lockAccess, tryTable, hf]
  | twAcc t ht h ho ha =>
    have hf := I.free_alone (t := t) (by rw [h]; rfl) (by rw [h]; rfl) ha
    apply I.change _ _ ht h rfl <;> simp (decide := true) [St.to, St.lockAccess, tryTable, hf]
  | trAcc t ht h ho ha =>
    have hf := I.free_alone (t := t) (by rw [h]; rfl) (by rw [h]; rfl) ha
    apply I.change _ _ ht h rfl <;> simp (decide := true) [St.to, St.lockAccess, tryTable, hf]
  | rAcc t ht h ha =>
    have hf := I.free_excl ha
    have hp := I.noPending (t := t) (by rw [h]; rfl)
    apply I.change _ _ ht h rfl <;> simp (decide := true) [St.to, St.lockAccess, tryTable, hf]
    exact hp
  | wSet t ht h | wOut t ht h | rSet t ht h | rOut t ht h | uSet t ht h | dSet t ht h | xFree t ht h
  | tfOut t ht h =>
    apply I.change _ _ ht h rfl <;> simp (decide := true) [St.to, tryTable]
  | exitW t ht h | exitR t ht h | downgrade t ht h | upgrade t ht h | trLoad t ht h =>
    apply I.change _ _ ht h rfl <;> simp (decide := true) [St.to, tryTable]
  | twOwn t ht h ho | trOwn t ht h ho | uFail t ht h ho =>
    apply I.change _ _ ht h rfl <;> simp (decide := true) [St.to, tryTable]
  | twHeld t ht h ho ha | trHeld t ht h ho ha | trFail t v ht h ho =>
    apply I.change _ _ ht h rfl <;> simp (decide := true) [St.to, tryTable]
  | rAddFirst t ht h h0 =>
    have hn := I.none_counted h0
    have ha := I.access
    apply I.change _ _ ht h rfl <;> simp (decide := true) [St.to, tryTable]
    rw [ha]
    constructor
    · rintro (⟨a, hx⟩ | ⟨⟨a, hx⟩, _⟩)
      · exact ⟨a, (by intro e; subst e; rw [h] at hx; cases hx), hx⟩
      · rw [(hn a).1] at hx; cases hx
    · rintro ⟨a, _, hx⟩; exact .inl ⟨a, hx⟩
  | rAddMore t ht h h0 =>
    obtain ⟨⟨u, hue, hus, huR⟩, he⟩ := I.readers_share ht (by rw [h]; rfl) (by rw [h]; rfl) h0
    have hp := I.noPending (t := t) (by rw [h]; rfl)
    have hp' : ∀ v, (s.pc v).pending = false := fun v => by
      by_cases e : v = t
      · subst e; rw [h]; rfl
      · exact hp v e
    have ha : s.access = true := I.access.2 (.inr ⟨⟨u, hus⟩, hp'⟩)
    have hR := I.typeR u huR
    apply I.change _ _ ht h rfl <;> simp (decide := true) [St.to, tryTable, ha, hR]
    · exact he
    · exact .inr hp
  | trCas t v ht h hr =>
    obtain ⟨⟨u, hue, hus, huR⟩, he⟩ := I.readers_share ht (by rw [h]; rfl) (by rw [h]; rfl) (by omega)
    have hp := I.noPending (t := t) (by rw [h]; rfl)
    have hp' : ∀ v, (s.pc v).pending = false := fun v => by
      by_cases e : v = t
      · subst e; rw [h]; rfl
      · exact hp v e
    have ha : s.access = true := I.access.2 (.inr ⟨⟨u, hus⟩, hp'⟩)
    have hR := I.typeR u huR
    apply I.change _ _ ht h rfl <;> simp (decide := true) [St.to, tryTable, ha, hR]
    · omega
    · exact he
    · exact .inr hp
  | trStore t ht h =>
    have h0 : s.readers = 0 := by
      rcases Nat.eq_zero_or_pos s.readers with h0 | h0
      · exact h0
      · obtain ⟨⟨u, e, hus, _⟩, _⟩ := I.readers_share ht (by rw [h]; rfl) (by rw [h]; rfl) (by omega)
        have := (I.alone t u (Ne.symm e) (by rw [h]; rfl)).2
        rw [hus] at this; cases this
    apply I.change _ _ ht h rfl <;> simp (decide := true) [St.to, tryTable, h0]
  | trSet t ht h =>
    have ha := I.excl_access (t := t) (by rw [h]; rfl)
    have hp := I.noPending (t := t) (by rw [h]; rfl)
    apply I.change _ _ ht h rfl <;> simp (decide := true) [St.to, tryTable, ha]
    exact .inr hp
  | xLoadWrite t ht h hy =>
    rcases h with h | h
    · apply I.change _ _ ht h rfl <;> simp (decide := true) [St.to, tryTable]
    · have := I.typeR t (by rw [h]; rfl); rw [hy] at this; cases this
  | xLoadOther t ht h hy =>
    rcases h with h | h
    · have := I.typeW t (by rw [h]; rfl); exact absurd this hy
    · apply I.change _ _ ht h rfl <;> simp (decide := true) [St.to, tryTable]
  | xSubLast t ht h h1 =>
    have ho := I.only_counted ht h1 (by rw [h]; rfl)
    have he := I.shared_noexcl (t := t) (by rw [h]; rfl)
    have ha : s.access = true := I.access.2 (.inr ⟨⟨t, by rw [h]; rfl⟩, fun v => by
      by_cases e : v = t
      · subst e; rw [h]; rfl
      · exact (ho v e).2⟩)
    apply I.change _ _ ht h rfl <;> simp (decide := true) [St.to, tryTable, ha, h1]
    exact fun u e => ⟨he u e, (ho u e).1⟩
  | xSubMore t ht h h1 =>
    have he := I.shared_noexcl (t := t) (by rw [h]; rfl)
    have hr := I.readers
    have hpos := cnt_pos (p := fun t => (s.pc t).counted) ht (by simp only [h]; rfl)
    obtain ⟨u, _, e, hu⟩ := cnt_other (f := fun t => (s.pc t).counted) ht (by
      have hct : (s.pc t).counted = true := by rw [h]; rfl
      simp only [hct, if_true]; omega)
    apply I.change _ _ ht h rfl <;> simp (decide := true) [St.to, tryTable]
    · omega
    · rw [I.access]
      constructor
      · rintro (⟨a, hx⟩ | ⟨_, hp⟩)
        · by_cases ea : a = t
          · subst ea; rw [h] at hx; cases hx
          · rw [he a ea] at hx; cases hx
        · right
          refine ⟨⟨u, e, ?_⟩, fun v _ => hp v⟩
          rcases counted_cases _ hu with h' | h' | ⟨h', _⟩
          · exact h'
          · rw [hp u] at h'; cases h'
          · rw [he u e] at h'; cases h'
      · rintro (⟨a, ea, hx⟩ | ⟨_, hp⟩)
        · rw [he a ea] at hx; cases hx
        · refine .inr ⟨⟨t, by rw [h]; rfl⟩, fun v => ?_⟩
          by_cases ev : v = t
          · subst ev; rw [h]; rfl
          · exact hp v ev
  | xAcc t ht h ha =>
    have hal := fun u (e : u ≠ t) => I.alone t u (Ne.symm e) (by rw [h]; rfl)
    apply I.change _ _ ht h rfl <;> simp (decide := true) [St.to, St.unlockAccess, tryTable]
    exact ⟨fun u e => (hal u e).1, fun u e hx => by rw [(hal u e).2] at hx; cases hx⟩
  | xAccFree t ht h ha =>
    have := I.excl_access (t := t) (by rw [h]; rfl); rw [ha] at this; cases this
  | dAddFirst t ht h h0 =>
    have ha := I.excl_access (t := t) (by rw [h]; rfl)
    have hn := I.none_counted h0
    have hR := I.typeR t (by rw [h]; rfl)
    apply I.change _ _ ht h rfl <;> simp (decide := true) [St.to, tryTable, ha, hR]
    exact .inr fun u _ => (hn u).2
  | dAddMore t ht h h0 =>
    have hal := fun u (e : u ≠ t) => I.alone t u (Ne.symm e) (by rw [h]; rfl)
    have hr := I.readers
    obtain ⟨u, _, e, hu⟩ := cnt_other (f := fun t => (s.pc t).counted) ht (by
      have hct : (s.pc t).counted = false := by rw [h]; rfl
      simp only [hct]; simp; omega)
    have hpu : (s.pc u).pending = true := by
      rcases counted_cases _ hu with h' | h' | ⟨h', _⟩
      · rw [(hal u e).2] at h'; cases h'
      · exact h'
      · rw [(hal u e).1] at h'; cases h'
    apply I.change _ _ ht h rfl <;> simp (decide := true) [St.to, tryTable]
    exact ⟨u, e, hpu⟩
  | dAcc t ht h ha =>
    have hal := fun u (e : u ≠ t) => I.alone t u (Ne.symm e) (by rw [h]; rfl)
    obtain ⟨u, hu⟩ := I.down t h
    have e : u ≠ t := by intro e; subst e; rw [h] at hu; cases hu
    have hR := I.typeR t (by rw [h]; rfl)
    apply I.change _ _ ht h rfl <;> simp (decide := true) [St.to, St.unlockAccess, tryTable, hR]
    exact ⟨fun a ea => (hal a ea).1, u, e, hu⟩
  | dAccFree t ht h ha =>
    have := I.excl_access (t := t) (by rw [h]; rfl); rw [ha] at this; cases this
  | uCas t ht h h1 =>
    have ho := I.only_counted ht h1 (by rw [h]; rfl)
    have he := I.shared_noexcl (t := t) (by rw [h]; rfl)
    have ha : s.access = true := I.access.2 (.inr ⟨⟨t, by rw [h]; rfl⟩, fun v => by
      by_cases e : v = t
      · subst e; rw [h]; rfl
      · exact (ho v e).2⟩)
    apply I.change _ _ ht h rfl <;> simp (decide := true) [St.to, tryTable, ha, h1]
    exact fun u e => ⟨he u e, (ho u e).1⟩

theorem Reach.inv {n : Nat} {s : St} (r : Reach n s) : Inv n s := by
  induction r with
  | init => exact Inv.init n
  | step _ st ih => exact ih.step st

end NRK.Lineup.Rw
