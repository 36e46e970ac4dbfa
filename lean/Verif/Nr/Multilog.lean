import Verif.Common

/-!
# Several logs: replaying them in different relative orders

`kernel/src/fs/cnrfs.rs` replicates the file system with one log per group of inodes
(concurrent node replication).  A replica replays every log in order, but different logs in any
relative order; an operation that is in several logs is executed once, when all of them have
reached it.  A replay is therefore a sequence of operations whose projection on every log is
that log.  This file has the general argument: if independent operations commute then all
replays agree.  `Verif/Fs/Multilog.lean` applies it to the file system.
-/

namespace NRK.Nr

/-- An object replicated over several logs. `on o l`: operation `o` goes to log `l`.  `Good s o`
is the condition under which the object may execute `o` in `s`. -/
structure MultiObj (S O R : Type) where
  step : S → O → S × R
  on : O → Nat → Bool
  Good : S → O → Prop

variable {S O R : Type}

/-- The two operations share no log. -/
def MultiObj.Indep (ob : MultiObj S O R) (a b : O) : Prop := ∀ l, ¬ (ob.on a l = true ∧ ob.on b l = true)

/-- Replaying a sequence: final state and the responses, each with its operation. -/
def MultiObj.replay (ob : MultiObj S O R) (s : S) : List O → S × List (O × R)
  | [] => (s, [])
  | o :: os =>
    let r := ob.step s o
    let q := ob.replay r.1 os
    (q.1, (o, r.2) :: q.2)

/-- Every operation is good in the state in which it is executed. -/
def MultiObj.GoodRun (ob : MultiObj S O R) (s : S) : List O → Prop
  | [] => True
  | o :: os => ob.Good s o ∧ ob.GoodRun (ob.step s o).1 os

/-- Independent operations commute: either order gives the same state and responses, and
executing one does not disturb the other's condition. -/
def MultiObj.Commutes (ob : MultiObj S O R) : Prop :=
  ∀ s a b, ob.Indep a b → ob.Good s a → ob.Good (ob.step s a).1 b →
    ob.Good s b ∧ ob.Good (ob.step s b).1 a ∧
    (ob.step (ob.step s a).1 b).1 = (ob.step (ob.step s b).1 a).1 ∧
    (ob.step (ob.step s a).1 b).2 = (ob.step s b).2 ∧
    (ob.step s a).2 = (ob.step (ob.step s b).1 a).2

/-- What log `l` sees of a sequence. -/
def MultiObj.proj (ob : MultiObj S O R) (l : Nat) (os : List O) : List O := os.filter (ob.on · l)

/-- The responses of the operations of log `l`. -/
def MultiObj.projR (ob : MultiObj S O R) (l : Nat) (rs : List (O × R)) : List (O × R) :=
  rs.filter (fun p => ob.on p.1 l)

theorem replay_move (ob : MultiObj S O R) (hc : ob.Commutes) (x : O) (suf : List O) :
    ∀ (pre : List O) (s : S), (∀ p ∈ pre, ob.Indep x p) → ob.GoodRun s (x :: pre ++ suf) →
      ob.GoodRun s (pre ++ x :: suf) ∧
      (ob.replay s (x :: pre ++ suf)).1 = (ob.replay s (pre ++ x :: suf)).1 ∧
      ∀ l, ob.projR l (ob.replay s (x :: pre ++ suf)).2
        = ob.projR l (ob.replay s (pre ++ x :: suf)).2 := by
  intro pre
  induction pre with
  | nil => intro s _ hg; exact ⟨hg, rfl, fun _ => rfl⟩
  | cons p ps ih =>
    intro s hind hg
    obtain ⟨gx, gp, grest⟩ := hg
    have hi := hind p (by simp)
    obtain ⟨c1, c2, c3, c4, c5⟩ := hc s x p hi gx gp
    have hg' : ob.GoodRun (ob.step s p).1 (x :: ps ++ suf) := by
      refine ⟨c2, ?_⟩
      rw [← c3]
      exact grest
    obtain ⟨i1, i2, i3⟩ := ih (ob.step s p).1 (fun q hq => hind q (by simp [hq])) hg'
    refine ⟨⟨c1, i1⟩, ?_, ?_⟩
    · simp only [List.cons_append, MultiObj.replay] at i2 ⊢
      rw [c3]; exact i2
    · intro l
      have i3 := i3 l
      simp only [List.cons_append, MultiObj.replay, MultiObj.projR, List.filter_cons] at i3 ⊢
      rw [c3, c4, c5]
      have hh := hi l
      by_cases hx : ob.on x l = true <;> by_cases hp : ob.on p l = true
      · exact absurd ⟨hx, hp⟩ hh
      · simp [hx, hp] at i3 ⊢; exact i3
      · simp [hx, hp] at i3 ⊢; exact i3
      · simp [hx, hp] at i3 ⊢; exact i3

/-- The first operation that shares a log with `x`. -/
theorem split_first (ob : MultiObj S O R) (x : O) (l : Nat) (hx : ob.on x l = true) :
    ∀ ys : List O, (∃ y ∈ ys, ob.on y l = true) →
      ∃ pre y suf, ys = pre ++ y :: suf ∧ (∀ p ∈ pre, ob.Indep x p) ∧ ¬ ob.Indep x y := by
  intro ys
  induction ys with
  | nil => rintro ⟨y, hy, _⟩; cases hy
  | cons z zs ih =>
    rintro ⟨y, hy, hyl⟩
    by_cases hz : ob.Indep x z
    · rcases List.mem_cons.1 hy with rfl | hy
      · exact absurd ⟨hx, hyl⟩ (hz l)
      · obtain ⟨pre, w, suf, rfl, h2, h3⟩ := ih ⟨y, hy, hyl⟩
        refine ⟨z :: pre, w, suf, rfl, ?_, h3⟩
        intro p hp
        rcases List.mem_cons.1 hp with rfl | hp
        · exact hz
        · exact h2 p hp
    · exact ⟨[], z, zs, rfl, by simp, hz⟩

/-- All replays of the same logs agree: if `xs` is a good replay, and `ys` is a sequence with the
same projection on every log, then `ys` is also good, ends in the same state, and gives the same
responses to the operations of every log. -/
theorem replays_agree (ob : MultiObj S O R) (hc : ob.Commutes) (hon : ∀ o, ∃ l, ob.on o l = true) :
    ∀ (xs ys : List O) (s : S), ob.GoodRun s xs → (∀ l, ob.proj l xs = ob.proj l ys) →
      ob.GoodRun s ys ∧ (ob.replay s xs).1 = (ob.replay s ys).1 ∧
      ∀ l, ob.projR l (ob.replay s xs).2 = ob.projR l (ob.replay s ys).2 := by
  intro xs
  induction xs with
  | nil =>
    intro ys s hg hp
    cases ys with
    | nil => exact ⟨hg, rfl, fun _ => rfl⟩
    | cons y ys =>
      obtain ⟨l, hl⟩ := hon y
      have := hp l
      simp [MultiObj.proj, hl] at this
  | cons x xs ih =>
    intro ys s hg hp
    obtain ⟨l, hl⟩ := hon x
    have hmem : ∃ y ∈ ys, ob.on y l = true := by
      have := hp l
      have hx : x ∈ ob.proj l ys := by rw [← this]; simp [MultiObj.proj, hl]
      simp only [MultiObj.proj, List.mem_filter] at hx
      exact ⟨x, hx⟩
    obtain ⟨pre, y, suf, rfl, hpre, hy⟩ := split_first ob x l hl ys hmem
    have hpreproj : ∀ l', ob.on x l' = true → ob.proj l' pre = [] := by
      intro l' hl'
      simp only [MultiObj.proj, List.filter_eq_nil_iff]
      intro p hp' hpl
      exact hpre p hp' l' ⟨hl', hpl⟩
    have hyx : y = x := by
      simp only [MultiObj.Indep, Classical.not_forall, Classical.not_not] at hy
      obtain ⟨l', h1, h2⟩ := hy
      have := hp l'
      have hpn := hpreproj l' h1
      simp only [MultiObj.proj] at hpn this
      rw [List.filter_append, hpn] at this
      simp [h1, h2] at this
      exact this.1.symm
    subst hyx
    have hproj' : ∀ l', ob.proj l' xs = ob.proj l' (pre ++ suf) := by
      intro l'
      have := hp l'
      by_cases h1 : ob.on y l' = true
      · have hpn := hpreproj l' h1
        simp only [MultiObj.proj] at hpn this ⊢
        rw [List.filter_append, hpn] at this ⊢
        simp [h1] at this
        simpa using this
      · simp only [MultiObj.proj] at this ⊢
        rw [List.filter_append] at this ⊢
        simp [h1] at this
        exact this
    obtain ⟨g1, g2⟩ := hg
    obtain ⟨i1, i2, i3⟩ := ih (pre ++ suf) (ob.step s y).1 g2 hproj'
    obtain ⟨m1, m2, m3⟩ := replay_move ob hc y suf pre s hpre ⟨g1, i1⟩
    refine ⟨m1, ?_, ?_⟩
    · rw [← m2]
      exact i2
    · intro l'
      rw [← m3 l']
      have := i3 l'
      simp only [List.cons_append, MultiObj.replay, MultiObj.projR, List.filter_cons] at this ⊢
      rw [this]

end NRK.Nr
