import Verif.Hist.Model
/-!
# Buckets of a histogram with three digits
-/

namespace NRK.Hist

/-- A histogram that `configured` makes for three digits, if the greatest value has a bucket. -/
structure Std (M : Nat) (h : Hist) : Prop where
  prec : h.cfg.precision = 3
  max : h.cfg.maxValue = M
  inner : h.inner = 1000
  linMax : h.linMax = 1024
  linPow : h.linPow = 10
  fits : h.getIndex M < h.len

/-- `get_index` for three digits. -/
def idx (v : Nat) : Nat :=
  if v ≤ 1032 then v
  else 1024 + 1000 * (Nat.log2 v - 10) + 1000 * (v - 2 ^ Nat.log2 v) / 2 ^ Nat.log2 v + 1

theorem Std.getIndex {M : Nat} {h : Hist} (s : Std M h) (v : Nat) : h.getIndex v = idx v := by
  have h1 : Nat.log2 1024 = 10 := by decide
  have h2 : 1024 + 2 ^ 3 = 1032 := by decide
  simp only [Hist.getIndex, idx, s.prec, s.inner, s.linMax, h1, h2]

theorem log2_bounds (v : Nat) (h : v ≠ 0) : 2 ^ Nat.log2 v ≤ v ∧ v < 2 ^ Nat.log2 v + 2 ^ Nat.log2 v := by
  refine ⟨Nat.log2_self_le h, ?_⟩
  have := @Nat.lt_log2_self v
  rw [Nat.pow_succ] at this
  omega

theorem log2_ten (v : Nat) (h : 1024 ≤ v) : 10 ≤ Nat.log2 v := by
  apply (Nat.le_log2 (by omega)).2
  exact h

theorem frac_lt (v : Nat) (h : v ≠ 0) : 1000 * (v - 2 ^ Nat.log2 v) / 2 ^ Nat.log2 v < 1000 := by
  obtain ⟨h1, h2⟩ := log2_bounds v h
  have hp : 0 < 2 ^ Nat.log2 v := Nat.two_pow_pos _
  rw [Nat.div_lt_iff_lt_mul hp]
  generalize 2 ^ Nat.log2 v = p at *
  omega

theorem log2_mono {v w : Nat} (h : v ≤ w) (hv : v ≠ 0) : Nat.log2 v ≤ Nat.log2 w := by
  apply (Nat.le_log2 (by omega)).2
  exact Nat.le_trans (Nat.log2_self_le hv) h

theorem idx_lin_le (w : Nat) (h : 1032 < w) : 1033 ≤ idx w := by
  have hl := log2_ten w (by omega)
  obtain ⟨h1, h2⟩ := log2_bounds w (by omega)
  unfold idx
  rw [if_neg (by omega)]
  by_cases e : Nat.log2 w = 10
  · rw [e] at h1 h2 ⊢
    simp only [show (2 : Nat) ^ 10 = 1024 from rfl] at *
    omega
  · generalize 1000 * (w - 2 ^ Nat.log2 w) / 2 ^ Nat.log2 w = z
    omega

/-- Larger values are in later buckets. -/
theorem idx_mono {v w : Nat} (h : v ≤ w) : idx v ≤ idx w := by
  by_cases hv : v ≤ 1032
  · have ev : idx v = v := by unfold idx; rw [if_pos hv]
    by_cases hw : w ≤ 1032
    · have ew : idx w = w := by unfold idx; rw [if_pos hw]
      omega
    · have := idx_lin_le w (by omega)
      omega
  · have hw : ¬ w ≤ 1032 := by omega
    unfold idx
    rw [if_neg hv, if_neg hw]
    have hlv := log2_ten v (by omega)
    have hm := log2_mono h (by omega)
    by_cases e : Nat.log2 v = Nat.log2 w
    · rw [e]
      have : 1000 * (v - 2 ^ Nat.log2 w) / 2 ^ Nat.log2 w ≤ 1000 * (w - 2 ^ Nat.log2 w) / 2 ^ Nat.log2 w :=
        Nat.div_le_div_right (by omega)
      omega
    · have := frac_lt v (by omega)
      generalize 1000 * (v - 2 ^ Nat.log2 v) / 2 ^ Nat.log2 v = a at *
      generalize 1000 * (w - 2 ^ Nat.log2 w) / 2 ^ Nat.log2 w = b at *
      omega

/-- What `index_value` gives before it is cut, for a bucket beyond the first 1024. -/
theorem Std.value {M : Nat} {h : Hist} (s : Std M h) (o k : Nat) (hk : k ≤ 1000) (ho : 10 ≤ o)
    (hi : 1 ≤ 1000 * (o - 10) + k) :
    h.indexValue (1024 + 1000 * (o - 10) + k) = min M (2 ^ o + (k * 2 ^ o + 999) / 1000) := by
  unfold Hist.indexValue
  simp only [s.linMax, s.inner, s.linPow, s.max]
  rw [if_neg (by omega)]
  have e1 : 1024 + 1000 * (o - 10) + k - 1024 = 1000 * (o - 10) + k := by omega
  rw [e1]
  by_cases hk' : k = 1000
  · subst hk'
    have e2 : (1000 * (o - 10) + 1000) / 1000 = o - 10 + 1 := by omega
    have e3 : 1000 * (o - 10) + 1000 - (o - 10 + 1) * 1000 = 0 := by omega
    have e4 : o - 10 + 1 + 10 = o + 1 := by omega
    rw [e2, e3, e4, Nat.pow_succ]
    generalize 2 ^ o = p
    split <;> omega
  · have e2 : (1000 * (o - 10) + k) / 1000 = o - 10 := by omega
    have e3 : 1000 * (o - 10) + k - (o - 10) * 1000 = k := by omega
    have e4 : o - 10 + 10 = o := by omega
    rw [e2, e3, e4]
    generalize 2 ^ o = p
    generalize k * p = q
    split <;> omega

/-- The value that is reported for a sample. -/
def repr (M v : Nat) : Nat :=
  if v ≤ 1024 then v
  else if v ≤ 1032 then min M (1024 + ((v - 1024) * 1024 + 999) / 1000)
  else min M (2 ^ Nat.log2 v + ((1000 * (v - 2 ^ Nat.log2 v) / 2 ^ Nat.log2 v + 1) * 2 ^ Nat.log2 v + 999) / 1000)

theorem Std.repr {M : Nat} {h : Hist} (s : Std M h) (v : Nat) : h.indexValue (h.getIndex v) = repr M v := by
  rw [s.getIndex]
  unfold idx NRK.Hist.repr
  by_cases h1 : v ≤ 1024
  · rw [if_pos (by omega), if_pos h1]
    unfold Hist.indexValue
    rw [s.linMax, if_pos h1]
  · by_cases h2 : v ≤ 1032
    · rw [if_pos h2, if_neg h1, if_pos h2]
      have := s.value 10 (v - 1024) (by omega) (by omega) (by omega)
      rw [show 1024 + 1000 * (10 - 10) + (v - 1024) = v by omega] at this
      exact this
    · rw [if_neg h2, if_neg h1, if_neg h2]
      have hl := log2_ten v (by omega)
      have hf := frac_lt v (by omega)
      have := s.value (Nat.log2 v) (1000 * (v - 2 ^ Nat.log2 v) / 2 ^ Nat.log2 v + 1) (by omega) hl
        (Nat.le_trans (Nat.le_add_left 1 _) (Nat.le_add_left _ _))
      rw [← Nat.add_assoc] at this
      exact this

/-- The value that is reported is near to the sample. -/
theorem repr_near (M v : Nat) (hv : v ≤ M) : Near v (repr M v) ∧ repr M v ≤ M := by
  unfold repr Near
  by_cases h1 : v ≤ 1024
  · rw [if_pos h1]; omega
  · by_cases h2 : v ≤ 1032
    · rw [if_neg h1, if_pos h2]; omega
    · rw [if_neg h1, if_neg h2]
      obtain ⟨a, b⟩ := log2_bounds v (by omega)
      have hp : 0 < 2 ^ Nat.log2 v := Nat.two_pow_pos _
      have hd := Nat.div_add_mod (1000 * (v - 2 ^ Nat.log2 v)) (2 ^ Nat.log2 v)
      have hm := Nat.mod_lt (1000 * (v - 2 ^ Nat.log2 v)) hp
      generalize 1000 * (v - 2 ^ Nat.log2 v) / 2 ^ Nat.log2 v = q at *
      generalize hr : 1000 * (v - 2 ^ Nat.log2 v) % 2 ^ Nat.log2 v = r at *
      clear hr
      generalize 2 ^ Nat.log2 v = p at *
      have e : (q + 1) * p = p * q + p := by rw [Nat.add_mul, Nat.one_mul, Nat.mul_comm]
      rw [e]
      generalize p * q = t at *
      omega

/-- Samples of one bucket are reported alike. -/
theorem repr_mono {M : Nat} {h : Hist} (s : Std M h) {v w : Nat} (e : idx v = idx w) : repr M v = repr M w := by
  rw [← s.repr, ← s.repr, s.getIndex, s.getIndex, e]

/-! Ranks. -/

theorem least (p : Nat → Prop) [DecidablePred p] : ∀ n, p n → ∃ m, p m ∧ ∀ k, k < m → ¬ p k := by
  intro n
  induction n using Nat.strongRecOn with
  | _ n ih =>
    intro hn
    by_cases h : ∃ k, k < n ∧ p k
    · obtain ⟨k, hk, hp⟩ := h
      exact ih k hk hp
    · exact ⟨n, hn, fun k hk hp => h ⟨k, hk, hp⟩⟩

theorem countP_le_of_imp (l : List Nat) (p q : Nat → Bool) (h : ∀ v ∈ l, p v = true → q v = true) :
    l.countP p ≤ l.countP q := by
  induction l with
  | nil => simp
  | cons a l ih =>
    simp only [List.countP_cons]
    have := ih (fun v hv => h v (List.mem_cons_of_mem _ hv))
    have ha := h a (List.mem_cons_self ..)
    cases hp : p a <;> cases hq : q a <;> simp_all <;> omega

theorem countP_split (l : List Nat) (p q r : Nat → Bool)
    (h : ∀ v ∈ l, (if p v then 1 else 0) + (if q v then 1 else 0) = (if r v then 1 else (0 : Nat))) :
    l.countP p + l.countP q = l.countP r := by
  induction l with
  | nil => simp
  | cons a l ih =>
    simp only [List.countP_cons]
    have := ih (fun v hv => h v (List.mem_cons_of_mem _ hv))
    have ha := h a (List.mem_cons_self ..)
    omega

theorem bound (l : List Nat) : ∃ b, ∀ v ∈ l, v ≤ b := by
  induction l with
  | nil => exact ⟨0, by simp⟩
  | cons a l ih =>
    obtain ⟨b, hb⟩ := ih
    refine ⟨max a b, ?_⟩
    intro v hv
    rcases List.mem_cons.1 hv with h | h
    · omega
    · have := hb v h; omega

theorem rank_exists (l : List Nat) (k : Nat) (h1 : 1 ≤ k) (h2 : k ≤ l.length) : ∃ s, Rank l k s := by
  obtain ⟨b, hb⟩ := bound l
  have hall : l.countP (fun v => decide (v ≤ b)) = l.length := List.countP_eq_length.2 (fun v hv => by simp [hb v hv])
  obtain ⟨s, hs, hm⟩ := least (fun s => k ≤ l.countP (fun v => decide (v ≤ s))) b (by omega)
  have hlt : l.countP (fun v => decide (v < s)) < k := by
    cases s with
    | zero =>
      have : l.countP (fun v => decide (v < 0)) = 0 := List.countP_eq_zero.2 (by simp)
      omega
    | succ s =>
      have := hm s (by omega)
      have e : (fun v => decide (v < s + 1)) = (fun v => decide (v ≤ s)) := by
        funext v
        simp only [Nat.lt_succ_iff]
      rw [e]; omega
  refine ⟨s, ?_, hlt, hs⟩
  by_cases hmem : s ∈ l
  · exact hmem
  · exfalso
    have := countP_le_of_imp l (fun v => decide (v ≤ s)) (fun v => decide (v < s)) (by
      intro v hv hp
      have : v ≠ s := fun e => hmem (e ▸ hv)
      simp at hp ⊢
      omega)
    omega

theorem rankTop_iff (l : List Nat) (k s : Nat) (h2 : k ≤ l.length) :
    RankTop l k s ↔ Rank l (l.length + 1 - k) s := by
  have e1 := countP_split l (fun v => decide (v < s)) (fun v => decide (s ≤ v)) (fun _ => true) (by
    intro v _
    by_cases h : v < s <;> simp [h, Nat.not_le_of_lt, Nat.le_of_not_lt])
  have e2 := countP_split l (fun v => decide (v ≤ s)) (fun v => decide (s < v)) (fun _ => true) (by
    intro v _
    by_cases h : v ≤ s <;> simp [h, Nat.not_lt_of_le, Nat.lt_of_not_le])
  have e3 : l.countP (fun _ => true) = l.length := List.countP_eq_length.2 (by simp)
  unfold RankTop Rank
  constructor
  · rintro ⟨a, b, c⟩; exact ⟨a, by omega, by omega⟩
  · rintro ⟨a, b, c⟩; exact ⟨a, by omega, by omega⟩

theorem rankTop_exists (l : List Nat) (k : Nat) (h1 : 1 ≤ k) (h2 : k ≤ l.length) : ∃ s, RankTop l k s := by
  obtain ⟨s, hs⟩ := rank_exists l (l.length + 1 - k) (by omega) (by omega)
  exact ⟨s, (rankTop_iff l k s h2).2 hs⟩

end NRK.Hist
