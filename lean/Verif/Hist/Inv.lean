import Verif.Hist.Lemmas
/-!
# What a histogram holds
-/

namespace NRK.Hist

theorem U64MAX_eq : U64MAX = 2 ^ 64 - 1 := by unfold U64MAX; rfl

/-- The histogram holds the samples `l`. -/
structure Inv (M : Nat) (h : Hist) (l : List Nat) : Prop extends Std M h where
  data : ∀ i, h.data i = l.countP (fun v => decide (v ≤ M ∧ idx v = i))
  total : h.total = l.length
  large : h.large = l.countP (fun v => decide (M < v))

theorem Inv.perm {M : Nat} {h : Hist} {l l' : List Nat} (i : Inv M h l) (p : l.Perm l') : Inv M h l' :=
  ⟨i.toStd, fun k => by rw [i.data, p.countP_eq], by rw [i.total, p.length_eq], by rw [i.large, p.countP_eq]⟩

theorem Std.inside {M : Nat} {h : Hist} (s : Std M h) {v : Nat} (hv : v ≤ M) : h.getIndex v < h.len := by
  have := s.fits
  rw [s.getIndex] at this ⊢
  exact Nat.lt_of_le_of_lt (idx_mono hv) this

theorem Std.congr {M : Nat} {h h' : Hist} (s : Std M h) (h1 : h'.cfg = h.cfg) (h2 : h'.inner = h.inner)
    (h3 : h'.linMax = h.linMax) (h4 : h'.linPow = h.linPow) (h5 : h'.len = h.len) : Std M h' := by
  refine ⟨by rw [h1]; exact s.prec, by rw [h1]; exact s.max, by rw [h2]; exact s.inner, by rw [h3]; exact s.linMax,
    by rw [h4]; exact s.linPow, ?_⟩
  have := s.fits
  unfold Hist.getIndex at this ⊢
  rw [h1, h2, h3, h5]
  exact this

theorem countP_le_length (l : List Nat) (p : Nat → Bool) : l.countP p ≤ l.length := List.countP_le_length

theorem inv_inc {M : Nat} {h : Hist} {l : List Nat} (i : Inv M h l) (v n : Nat) (hl : n + l.length < 2 ^ 64) :
    ∃ h', h.incrementBy v n = some (h', if v ≤ M then .ok else .err .tooLarge) ∧ Inv M h' (List.replicate n v ++ l) := by
  have hu := U64MAX_eq
  have hs : sat h.total n = n + l.length := by unfold sat; rw [i.total]; omega
  unfold Hist.incrementBy
  simp only [i.max]
  by_cases hv : v ≤ M
  · have hi : Hist.getIndex { h with total := sat h.total n } v = idx v :=
      (i.toStd.congr (h' := { h with total := sat h.total n }) rfl rfl rfl rfl rfl).getIndex v
    have hi' := i.inside hv
    rw [i.getIndex] at hi'
    rw [if_neg (by omega)]
    simp only [hi]
    rw [if_pos hi', if_pos hv]
    refine ⟨_, rfl, i.toStd.congr rfl rfl rfl rfl rfl, ?_, ?_, ?_⟩
    · intro k
      simp only [List.countP_append, List.countP_replicate, upd]
      have hb := countP_le_length l (fun w => decide (w ≤ M ∧ idx w = idx v))
      by_cases hk : k = idx v
      · subst hk
        simp only [sat, i.data, hv, and_self, decide_true, if_true]
        omega
      · have : ¬ (v ≤ M ∧ idx v = k) := fun c => hk c.2.symm
        simp [hk, this, i.data]
    · simp only [hs]; simp
    · simp only [i.large, List.countP_append, List.countP_replicate]
      have : ¬ M < v := by omega
      simp [this]
  · rw [if_pos (by omega), if_neg hv]
    refine ⟨_, rfl, i.toStd.congr rfl rfl rfl rfl rfl, ?_, ?_, ?_⟩
    · intro k
      simp [List.countP_append, List.countP_replicate, hv, i.data]
    · simp only [hs]; simp
    · have hb := countP_le_length l (fun w => decide (M < w))
      have : M < v := by omega
      simp only [sat, i.large, List.countP_append, List.countP_replicate, this, decide_true, if_true]
      omega

theorem without_length (v n : Nat) : ∀ l : List Nat, n ≤ l.count v → (without v n l).length = l.length - n := by
  induction n with
  | zero => intro l _; rfl
  | succ n ih =>
    intro l hl
    have hm : v ∈ l := List.count_pos_iff.1 (by omega)
    unfold without
    rw [ih _ (by rw [List.count_erase_self]; omega), List.length_erase_of_mem hm]
    omega

theorem without_countP (v n : Nat) (p : Nat → Bool) : ∀ l : List Nat, n ≤ l.count v →
    (without v n l).countP p = l.countP p - (if p v then n else 0) := by
  induction n with
  | zero => intro l _; simp [without]
  | succ n ih =>
    intro l hl
    have hm : v ∈ l := List.count_pos_iff.1 (by omega)
    unfold without
    rw [ih _ (by rw [List.count_erase_self]; omega)]
    have := (List.perm_cons_erase hm).countP_eq p
    rw [List.countP_cons] at this
    cases hp : p v <;> simp [hp] at this ⊢ <;> omega

theorem count_le_countP (l : List Nat) (v : Nat) (p : Nat → Bool) (h : p v = true) : l.count v ≤ l.countP p := by
  unfold List.count
  apply countP_le_of_imp
  intro w _ hw
  have : w = v := by simpa using hw
  rw [this]; exact h

theorem inv_dec {M : Nat} {h : Hist} {l : List Nat} (i : Inv M h l) (v n : Nat) (hn : n ≤ l.count v) :
    ∃ h', h.decrementBy v n = some (h', if v ≤ M then .ok else .err .tooLarge) ∧ Inv M h' (without v n l) := by
  unfold Hist.decrementBy
  simp only [i.max]
  by_cases hv : v ≤ M
  · have hi' := i.inside hv
    rw [i.getIndex] at hi' ⊢
    have hc := count_le_countP l v (fun w => decide (w ≤ M ∧ idx w = idx v)) (by simp [hv])
    rw [if_neg (by omega), if_pos hi', if_pos (by rw [i.data]; omega), if_pos hv]
    refine ⟨_, rfl, i.toStd.congr rfl rfl rfl rfl rfl, ?_, ?_, ?_⟩
    · intro k
      rw [without_countP _ _ _ _ hn]
      simp only [upd]
      by_cases hk : k = idx v
      · subst hk
        simp [i.data, hv]
      · have : ¬ (v ≤ M ∧ idx v = k) := fun c => hk c.2.symm
        simp [hk, this, i.data]
    · rw [without_length _ _ _ hn]; simp only [i.total]
    · rw [without_countP _ _ _ _ hn]
      have : ¬ M < v := by omega
      simp [this, i.large]
  · have hM : M < v := by omega
    have hc := count_le_countP l v (fun w => decide (M < w)) (by simp [hM])
    rw [if_pos hM, if_pos (by rw [i.large]; omega), if_neg hv]
    refine ⟨_, rfl, i.toStd.congr rfl rfl rfl rfl rfl, ?_, ?_, ?_⟩
    · intro k
      rw [without_countP _ _ _ _ hn]
      simp [hv, i.data]
    · rw [without_length _ _ _ hn]; simp only [i.total]
    · rw [without_countP _ _ _ _ hn]
      simp [hM, i.large]

theorem inv_clear {M : Nat} {h : Hist} {l : List Nat} (i : Inv M h l) : Inv M h.clear [] :=
  ⟨i.toStd.congr rfl rfl rfl rfl rfl, by intro k; simp [Hist.clear], rfl, by simp [Hist.clear]⟩

theorem inv_runs {M : Nat} (os : List Op) : ∀ {h : Hist} {l : List Nat}, Inv M h l → Legal os l →
    ∃ h', runs os h = some h' ∧ Inv M h' (samples os l) := by
  induction os with
  | nil => intro h l i _; exact ⟨h, rfl, i⟩
  | cons o os ih =>
    intro h l i hl
    obtain ⟨h1, h2, h3⟩ := hl
    have key : ∃ h', o.run h = some h' ∧ Inv M h' (o.after l) := by
      cases o with
      | inc v n =>
        obtain ⟨h', e, i'⟩ := inv_inc i v n (by simpa [Op.after] using h2)
        exact ⟨h', by simp [Op.run, e], i'⟩
      | dec v n =>
        obtain ⟨h', e, i'⟩ := inv_dec i v n h1
        exact ⟨h', by simp [Op.run, e], i'⟩
      | clear => exact ⟨h.clear, rfl, inv_clear i⟩
    obtain ⟨h', e, i'⟩ := key
    obtain ⟨h'', e', i''⟩ := ih i' h3
    exact ⟨h'', by simp [runs, e, e'], i''⟩

/-! `percentile` -/

theorem cnt_succ (l : List Nat) (M i : Nat) :
    l.countP (fun v => decide (v ≤ M ∧ idx v < i)) + l.countP (fun v => decide (v ≤ M ∧ idx v = i)) =
      l.countP (fun v => decide (v ≤ M ∧ idx v < i + 1)) := by
  apply countP_split
  intro v _
  by_cases h1 : v ≤ M <;> by_cases h2 : idx v < i <;> by_cases h3 : idx v = i <;> simp [h1, h2, h3] <;> omega

theorem cnt_pred (l : List Nat) (M i : Nat) :
    l.countP (fun v => decide (M < v ∨ i < idx v)) + l.countP (fun v => decide (v ≤ M ∧ idx v = i)) =
      l.countP (fun v => decide (M < v ∨ i ≤ idx v)) := by
  apply countP_split
  intro v _
  by_cases h1 : M < v <;> by_cases h2 : i < idx v <;> by_cases h3 : idx v = i <;> simp [h1, h2, h3] <;> omega

theorem scanUp_spec {M : Nat} {h : Hist} {l : List Nat} (iv : Inv M h l) (hl : l.length < 2 ^ 64) (need : Nat) :
    ∀ f i got, got = l.countP (fun v => decide (v ≤ M ∧ idx v < i)) → got < need → i + f ≤ idx M + 1 →
      (∃ j, h.scanUp need f i got = .ok (h.indexValue j) ∧ l.countP (fun v => decide (v ≤ M ∧ idx v < j)) < need ∧
        need ≤ l.countP (fun v => decide (v ≤ M ∧ idx v < j + 1))) ∨
      (h.scanUp need f i got = .err .unknown ∧ l.countP (fun v => decide (v ≤ M ∧ idx v < i + f)) < need) := by
  have hu := U64MAX_eq
  have hfit := iv.fits
  rw [iv.getIndex] at hfit
  intro f
  induction f with
  | zero => intro i got hg hlt _; exact .inr ⟨rfl, by rw [Nat.add_zero, ← hg]; exact hlt⟩
  | succ f ih =>
    intro i got hg hlt hb
    have hs := cnt_succ l M i
    rw [← hg, ← iv.data] at hs
    have hle := countP_le_length l (fun v => decide (v ≤ M ∧ idx v < i + 1))
    unfold Hist.scanUp
    rw [if_pos (by omega), if_neg (by omega)]
    by_cases hn : got + h.data i ≥ need
    · rw [if_pos hn]
      exact .inl ⟨i, rfl, by rw [← hg]; exact hlt, by omega⟩
    · rw [if_neg hn]
      have := ih (i + 1) (got + h.data i) hs (by omega) (by omega)
      rw [show i + (f + 1) = i + 1 + f by omega]
      exact this

theorem scanDown_spec {M : Nat} {h : Hist} {l : List Nat} (iv : Inv M h l) (hl : l.length < 2 ^ 64) (need : Nat) :
    ∀ i got, got = l.countP (fun v => decide (M < v ∨ i ≤ idx v)) → got < need → i ≤ idx M + 1 →
      (∃ j, h.scanDown need i got = .ok (h.indexValue j) ∧ l.countP (fun v => decide (M < v ∨ j < idx v)) < need ∧
        need ≤ l.countP (fun v => decide (M < v ∨ j ≤ idx v))) ∨
      (h.scanDown need i got = .err .unknown ∧ l.length < need) := by
  have hu := U64MAX_eq
  have hfit := iv.fits
  rw [iv.getIndex] at hfit
  intro i
  induction i with
  | zero =>
    intro got hg hlt _
    refine .inr ⟨rfl, ?_⟩
    have : l.countP (fun v => decide (M < v ∨ 0 ≤ idx v)) = l.length := List.countP_eq_length.2 (by simp)
    omega
  | succ i ih =>
    intro got hg hlt hb
    have hs := cnt_pred l M i
    have e : (fun v => decide (M < v ∨ i + 1 ≤ idx v)) = (fun v => decide (M < v ∨ i < idx v)) := by
      funext v; simp only [Nat.succ_le_iff]
    rw [e] at hg
    rw [← hg, ← iv.data] at hs
    have hle := countP_le_length l (fun v => decide (M < v ∨ i ≤ idx v))
    unfold Hist.scanDown
    rw [if_pos (by omega), if_neg (by omega)]
    by_cases hn : got + h.data i ≥ need
    · rw [if_pos hn]
      exact .inl ⟨i, rfl, by rw [← hg]; exact hlt, by omega⟩
    · rw [if_neg hn]
      exact ih (got + h.data i) hs (by omega) (by omega)

/-- The bucket where the scan from below ends is that of the sample of that rank. -/
theorem rank_idx {l : List Nat} {M k s j : Nat} (hs : Rank l k s) (hM : s ≤ M)
    (h1 : l.countP (fun v => decide (v ≤ M ∧ idx v < j)) < k)
    (h2 : k ≤ l.countP (fun v => decide (v ≤ M ∧ idx v < j + 1))) : j = idx s := by
  obtain ⟨_, a, b⟩ := hs
  apply Nat.le_antisymm
  · apply Nat.le_of_not_lt
    intro hlt
    have := countP_le_of_imp l (fun v => decide (v ≤ s)) (fun v => decide (v ≤ M ∧ idx v < j)) (by
      intro v _ hp
      have hp : v ≤ s := by simpa using hp
      have := idx_mono hp
      simp; omega)
    omega
  · apply Nat.le_of_not_lt
    intro hlt
    have := countP_le_of_imp l (fun v => decide (v ≤ M ∧ idx v < j + 1)) (fun v => decide (v < s)) (by
      intro v _ hp
      have hp : v ≤ M ∧ idx v < j + 1 := by simpa using hp
      have : v < s := by
        apply Nat.lt_of_not_le
        intro c
        have := idx_mono c
        omega
      simpa using this)
    omega

/-- The bucket where the scan from above ends is that of the sample of that rank. -/
theorem rankTop_idx {l : List Nat} {M k s j : Nat} (hs : RankTop l k s) (hM : s ≤ M)
    (h1 : l.countP (fun v => decide (M < v ∨ j < idx v)) < k)
    (h2 : k ≤ l.countP (fun v => decide (M < v ∨ j ≤ idx v))) : j = idx s := by
  obtain ⟨_, a, b⟩ := hs
  apply Nat.le_antisymm
  · apply Nat.le_of_not_lt
    intro hlt
    have := countP_le_of_imp l (fun v => decide (M < v ∨ j ≤ idx v)) (fun v => decide (s < v)) (by
      intro v _ hp
      have hp : M < v ∨ j ≤ idx v := by simpa using hp
      have : s < v := by
        apply Nat.lt_of_not_le
        intro c
        have := idx_mono c
        omega
      simpa using this)
    omega
  · apply Nat.le_of_not_lt
    intro hlt
    have := countP_le_of_imp l (fun v => decide (s ≤ v)) (fun v => decide (M < v ∨ j < idx v)) (by
      intro v _ hp
      have hp : s ≤ v := by simpa using hp
      have := idx_mono hp
      simp; omega)
    omega

end NRK.Hist
