import Verif.Common

/-!
# Counting threads that satisfy a predicate (helper lemmas)
-/

namespace NRK.Sync

/-- Number of threads below `n` for which `p` holds. -/
def cnt (n : Nat) (p : Nat → Bool) : Nat := (List.range n).countP p

theorem cnt_zero (p : Nat → Bool) : cnt 0 p = 0 := rfl

theorem cnt_succ (n : Nat) (p : Nat → Bool) :
    cnt (n + 1) p = cnt n p + (if p n then 1 else 0) := by
  simp only [cnt, List.range_succ, List.countP_append, List.countP_singleton]

theorem cnt_congr {n : Nat} {p q : Nat → Bool} (h : ∀ t, t < n → p t = q t) : cnt n p = cnt n q := by
  induction n with
  | zero => rfl
  | succ n ih =>
    rw [cnt_succ, cnt_succ, ih (fun t ht => h t (by omega)), h n (by omega)]

/-- Changing the predicate at one thread. -/
theorem cnt_change {n : Nat} {p q : Nat → Bool} (a : Nat) (ha : a < n)
    (h : ∀ t, t ≠ a → p t = q t) :
    cnt n p + (if q a then 1 else 0) = cnt n q + (if p a then 1 else 0) := by
  induction n with
  | zero => omega
  | succ n ih =>
    rw [cnt_succ, cnt_succ]
    by_cases hn : a = n
    · subst hn
      have : cnt a p = cnt a q := cnt_congr (fun t ht => h t (by omega))
      omega
    · have h1 := ih (by omega)
      have h2 := h n (fun q => hn q.symm)
      rw [h2]; omega

theorem cnt_pos {n : Nat} {p : Nat → Bool} {a : Nat} (ha : a < n) (hp : p a = true) :
    0 < cnt n p := by
  simp only [cnt, List.countP_pos_iff]
  exact ⟨a, List.mem_range.2 ha, hp⟩

theorem cnt_eq_zero {n : Nat} {p : Nat → Bool} (h : cnt n p = 0) {a : Nat} (ha : a < n) :
    p a = false := by
  cases hp : p a with
  | false => rfl
  | true => have := cnt_pos ha hp; omega

theorem cnt_exists {n : Nat} {p : Nat → Bool} (h : 0 < cnt n p) : ∃ a, a < n ∧ p a = true := by
  simp only [cnt, List.countP_pos_iff, List.mem_range] at h
  exact h

theorem cnt_none {n : Nat} {p : Nat → Bool} (h : ∀ a, a < n → p a = false) : cnt n p = 0 := by
  cases hc : cnt n p with
  | zero => rfl
  | succ k =>
    obtain ⟨a, h1, h2⟩ := cnt_exists (n := n) (p := p) (by omega)
    rw [h a h1] at h2; cases h2

end NRK.Sync
