import Verif.Hist.Inv
/-!
# C96: the latencies that are reported are those that were measured
-/

namespace NRK.Hist

/-- A new histogram for values up to `M`, with three digits. -/
def fresh (M : Nat) (h : Hist) : Prop := ∃ mem, configured ⟨3, mem, M⟩ = some (some h)

/-- The greatest value has a bucket. -/
def HasBucket (M : Nat) : Prop := M ≤ 1032 ∨ 1000 * (M - 2 ^ Nat.log2 M) / 2 ^ Nat.log2 M < 999

theorem bits_le (M n : Nat) (h : M < 2 ^ n) : bits M ≤ n := by
  unfold bits
  split
  · omega
  · rename_i h0
    exact Nat.succ_le_of_lt ((Nat.log2_lt h0).2 h)

theorem fresh_inv {M : Nat} {h : Hist} (hf : fresh M h) (hb : HasBucket M) : Inv M h [] := by
  obtain ⟨mem, e⟩ := hf
  unfold configured at e
  simp only [show bits (10 ^ 3) = 10 by decide, show (10 : Nat) ^ 3 = 1000 by decide, show (2 : Nat) ^ 10 = 1024 by decide] at e
  generalize ho : (if bits M > 10 then bits M - 10 else 0) = outer at e
  split at e
  · simp at e
  split at e
  · simp at e
  have e := (Option.some.inj (Option.some.inj e)).symm
  subst e
  refine ⟨⟨rfl, rfl, rfl, rfl, rfl, ?_⟩, by intro i; simp, rfl, by simp⟩
  unfold Hist.getIndex
  simp only [show Nat.log2 1024 = 10 by decide, show 1024 + 2 ^ 3 = 1032 by decide]
  by_cases h1 : M ≤ 1032
  · rw [if_pos h1]
    by_cases h2 : M < 1024
    · omega
    · have : 10 ≤ Nat.log2 M := log2_ten M (by omega)
      have hbits : bits M = Nat.log2 M + 1 := by unfold bits; rw [if_neg (by omega)]
      rw [hbits, if_pos (by omega)] at ho
      omega
  · rw [if_neg h1]
    rcases hb with hb | hb
    · exact absurd hb h1
    · have : 10 ≤ Nat.log2 M := log2_ten M (by omega)
      have hbits : bits M = Nat.log2 M + 1 := by unfold bits; rw [if_neg (by omega)]
      rw [hbits, if_pos (by omega)] at ho
      generalize 1000 * (M - 2 ^ Nat.log2 M) / 2 ^ Nat.log2 M = z at *
      omega

/-- C96, every history: recording, taking away and clearing never panic; the number of entries is that of the samples;
the number of samples that is reported for a value is the number of those near to it, and exact up to 1032. -/
theorem c96_counts {M : Nat} {h : Hist} (hf : fresh M h) (hb : HasBucket M) (os : List Op) (hl : Legal os []) :
    ∃ h', runs os h = some h' ∧ h'.total = (samples os []).length ∧
      ∀ v, v ≤ M → ∃ n r, h'.get v = some n ∧ Near v r ∧ (samples os []).count v ≤ n ∧
        n ≤ (samples os []).countP (fun w => decide (w ≤ r ∧ r ≤ w + w / 1000 + 1)) ∧
        (v ≤ 1032 → n = (samples os []).count v) := by
  obtain ⟨h', e, i⟩ := inv_runs os (fresh_inv hf hb) hl
  generalize samples os [] = l at *
  refine ⟨h', e, i.total, ?_⟩
  intro v hv
  have hin := i.inside hv
  refine ⟨h'.data (idx v), repr M v, ?_, (repr_near M v hv).1, ?_, ?_, ?_⟩
  · unfold Hist.get
    rw [if_pos hin, i.getIndex]
  · rw [i.data]
    exact count_le_countP l v _ (by simp [hv])
  · rw [i.data]
    apply countP_le_of_imp
    intro w _ hw
    have hw : w ≤ M ∧ idx w = idx v := by simpa using hw
    have := (repr_near M w hw.1).1
    rw [repr_mono i.toStd hw.2] at this
    simpa [Near] using this
  · intro h32
    rw [i.data]
    apply Nat.le_antisymm
    · unfold List.count
      apply countP_le_of_imp
      intro w _ hw
      have hw : w ≤ M ∧ idx w = idx v := by simpa using hw
      have ev : idx v = v := by unfold idx; rw [if_pos h32]
      by_cases hw32 : w ≤ 1032
      · have ew : idx w = w := by unfold idx; rw [if_pos hw32]
        simp; omega
      · have := idx_lin_le w (by omega)
        omega
    · exact count_le_countP l v _ (by simp [hv])

/-- C96, what the calls answer: a sample that is too large is counted and refused. -/
theorem c96_answers {M : Nat} {h : Hist} (hf : fresh M h) (hb : HasBucket M) (os : List Op) (hl : Legal os []) (v n : Nat)
    (hn : n + (samples os []).length < 2 ^ 64) :
    ∃ h', runs os h = some h' ∧
      (h'.incrementBy v n).map (·.2) = some (if v ≤ M then .ok else .err .tooLarge) ∧
      (n ≤ (samples os []).count v → (h'.decrementBy v n).map (·.2) = some (if v ≤ M then .ok else .err .tooLarge)) := by
  obtain ⟨h', e, i⟩ := inv_runs os (fresh_inv hf hb) hl
  refine ⟨h', e, ?_, ?_⟩
  · obtain ⟨h1, e1, _⟩ := inv_inc i v n hn
    rw [e1]; rfl
  · intro hc
    obtain ⟨h1, e1, _⟩ := inv_dec i v n hc
    rw [e1]; rfl

/-- C96: more samples than there are cannot be taken away.  Values above the greatest one count together, and values up to
1032 one by one.  The histogram stays as it is. -/
theorem c96_refused {M : Nat} {h : Hist} (hf : fresh M h) (hb : HasBucket M) (os : List Op) (hl : Legal os []) (v n : Nat) :
    ∃ h', runs os h = some h' ∧
      (M < v → (samples os []).countP (fun w => decide (M < w)) < n → h'.decrementBy v n = some (h', .err .largeUnderflow)) ∧
      (v ≤ M → v ≤ 1032 → (samples os []).count v < n → h'.decrementBy v n = some (h', .err .underflow)) := by
  obtain ⟨h', e, i⟩ := inv_runs os (fresh_inv hf hb) hl
  refine ⟨h', e, ?_, ?_⟩
  · intro hM hc
    unfold Hist.decrementBy
    simp only [i.max]
    rw [if_pos hM, if_neg (by rw [i.large]; omega)]
  · intro hM hs hc
    obtain ⟨h'', e', -, hx⟩ := c96_counts hf hb os hl
    rw [e] at e'
    cases e'
    obtain ⟨m, r, g, -, -, -, ex⟩ := hx v hM
    have hm := ex hs
    unfold Hist.get at g
    unfold Hist.decrementBy
    simp only [i.max]
    have hi := i.inside hM
    rw [if_pos hi] at g
    rw [if_neg (by omega), if_pos hi, if_neg]
    cases g
    omega

theorem sat_lt (a b : Nat) : sat a b < 2 ^ 64 := by
  unfold sat U64MAX
  omega

/-- C96: the counters never pass 64 bits, whatever is recorded; they stay at the greatest number. -/
theorem c96_bounded {M : Nat} {h : Hist} (hf : fresh M h) : ∀ (os : List Op) {h' : Hist}, runs os h = some h' →
    h'.total < 2 ^ 64 ∧ h'.large < 2 ^ 64 ∧ ∀ i, h'.data i < 2 ^ 64 := by
  have step : ∀ (os : List Op) {h h' : Hist}, (h.total < 2 ^ 64 ∧ h.large < 2 ^ 64 ∧ ∀ i, h.data i < 2 ^ 64) →
      runs os h = some h' → h'.total < 2 ^ 64 ∧ h'.large < 2 ^ 64 ∧ ∀ i, h'.data i < 2 ^ 64 := by
    intro os
    induction os with
    | nil => intro h h' hb e; cases e; exact hb
    | cons o os ih =>
      intro h h' hb e
      simp only [runs, Option.bind_eq_some_iff] at e
      obtain ⟨h1, e1, e2⟩ := e
      refine ih ?_ e2
      obtain ⟨b1, b2, b3⟩ := hb
      cases o with
      | inc v n =>
        simp only [Op.run, Hist.incrementBy, Option.map_eq_some_iff] at e1
        obtain ⟨⟨h2, a⟩, e1, e3⟩ := e1
        cases e3
        split at e1
        · cases e1; exact ⟨sat_lt _ _, sat_lt _ _, b3⟩
        · split at e1
          · cases e1
            refine ⟨sat_lt _ _, b2, fun i => ?_⟩
            simp only [upd]
            split
            · exact sat_lt _ _
            · exact b3 i
          · cases e1
      | dec v n =>
        simp only [Op.run, Hist.decrementBy, Option.map_eq_some_iff] at e1
        obtain ⟨⟨h2, a⟩, e1, e3⟩ := e1
        cases e3
        split at e1
        · split at e1
          · cases e1; exact ⟨Nat.lt_of_le_of_lt (Nat.sub_le _ _) b1, Nat.lt_of_le_of_lt (Nat.sub_le _ _) b2, b3⟩
          · cases e1; exact ⟨b1, b2, b3⟩
        · split at e1
          · split at e1
            · cases e1
              refine ⟨Nat.lt_of_le_of_lt (Nat.sub_le _ _) b1, b2, fun i => ?_⟩
              simp only [upd]
              split
              · exact Nat.lt_of_le_of_lt (Nat.sub_le _ _) (b3 _)
              · exact b3 i
            · cases e1; exact ⟨b1, b2, b3⟩
          · cases e1
      | clear =>
        cases e1
        exact ⟨Nat.two_pow_pos 64, Nat.two_pow_pos 64, fun _ => Nat.two_pow_pos 64⟩
  intro os h' e
  refine step os ?_ e
  obtain ⟨mem, hc⟩ := hf
  unfold configured at hc
  simp only [show bits (10 ^ 3) = 10 by decide, show (10 : Nat) ^ 3 = 1000 by decide, show (2 : Nat) ^ 10 = 1024 by decide] at hc
  generalize (if bits M > 10 then bits M - 10 else 0) = outer at hc
  split at hc
  · simp at hc
  split at hc
  · simp at hc
  have hc := (Option.some.inj (Option.some.inj hc)).symm
  subst hc
  exact ⟨Nat.two_pow_pos 64, Nat.two_pow_pos 64, fun _ => Nat.two_pow_pos 64⟩

/-- What `percentile` gives for a histogram that holds `l`. -/
theorem percentile_spec {M : Nat} {h : Hist} {l : List Nat} (i : Inv M h l) (hl : l.length < 2 ^ 64) (hne : l ≠ [])
    (q : Query) (hq : q.valid = true) :
    (q.low = true → ∃ s, Rank l (max 1 (min (q.need l.length) l.length)) s ∧
      (s ≤ M → h.percentile q = .ok (repr M s)) ∧ (M < s → h.percentile q = .err .unknown)) ∧
    (q.low = false → ∃ s, RankTop l (max 1 (l.length - q.need l.length)) s ∧
      (s ≤ M → h.percentile q = .ok (repr M s)) ∧ (M < s → ∃ e, h.percentile q = .err e)) := by
  have hpos : 0 < l.length := List.length_pos_iff.2 hne
  have hbt : h.bucketsTotal = idx M + 1 := by unfold Hist.bucketsTotal; rw [i.max, i.getIndex]
  constructor
  · intro hlow
    have e : h.percentile q = h.scanUp (max 1 (min (q.need l.length) l.length)) (idx M + 1) 0 0 := by
      unfold Hist.percentile
      rw [i.total, hbt, hq, hlow]
      simp only [if_true]
      rw [if_neg (by omega)]
      have : (if (l.length - (l.length - (if q.need l.length > l.length then l.length else q.need l.length))) = 0 then 1
          else l.length - (l.length - (if q.need l.length > l.length then l.length else q.need l.length))) =
          max 1 (min (q.need l.length) l.length) := by
        split <;> split <;> omega
      rw [this, if_neg (by omega)]
    rw [e]
    generalize hk : max 1 (min (q.need l.length) l.length) = k at *
    have hk1 : 1 ≤ k ∧ k ≤ l.length := by omega
    obtain ⟨s, hs⟩ := rank_exists l k hk1.1 hk1.2
    refine ⟨s, hs, ?_⟩
    have h0 : 0 = l.countP (fun v => decide (v ≤ M ∧ idx v < 0)) := (List.countP_eq_zero.2 (by simp)).symm
    rcases scanUp_spec i hl k (idx M + 1) 0 0 h0 (by omega) (by omega) with ⟨j, ej, a, b⟩ | ⟨ej, a⟩
    · constructor
      · intro hM
        rw [ej, rank_idx hs hM a b, ← i.getIndex, i.repr]
      · intro hM
        exfalso
        have := countP_le_of_imp l (fun v => decide (v ≤ M ∧ idx v < j + 1)) (fun v => decide (v < s)) (by
          intro v _ hp
          have hp : v ≤ M ∧ idx v < j + 1 := by simpa using hp
          simp; omega)
        have := hs.2.1
        omega
    · constructor
      · intro hM
        exfalso
        have := countP_le_of_imp l (fun v => decide (v ≤ s)) (fun v => decide (v ≤ M ∧ idx v < 0 + (idx M + 1))) (by
          intro v _ hp
          have hp : v ≤ s := by simpa using hp
          have := idx_mono (show v ≤ M by omega)
          simp; omega)
        have := hs.2.2
        omega
      · intro _; exact ej
  · intro hlow
    have e : h.percentile q = if h.large ≥ max 1 (l.length - q.need l.length) then
          if idx M = 0 then .err .underflow else .err .overflow
        else h.scanDown (max 1 (l.length - q.need l.length)) (idx M + 1) h.large := by
      unfold Hist.percentile
      rw [i.total, hbt, hq, hlow]
      simp only [if_true, Bool.false_eq_true, if_false, Nat.add_sub_cancel]
      rw [if_neg (by omega)]
      have : (if (l.length - (if q.need l.length > l.length then l.length else q.need l.length)) = 0 then 1
          else l.length - (if q.need l.length > l.length then l.length else q.need l.length)) =
          max 1 (l.length - q.need l.length) := by
        split <;> split <;> omega
      rw [this]
    rw [e]
    generalize hk : max 1 (l.length - q.need l.length) = k at *
    have hk1 : 1 ≤ k ∧ k ≤ l.length := by omega
    obtain ⟨s, hs⟩ := rankTop_exists l k hk1.1 hk1.2
    refine ⟨s, hs, ?_⟩
    have hle : s ≤ M → h.large < k := by
      intro hM
      have := countP_le_of_imp l (fun v => decide (M < v)) (fun v => decide (s < v)) (by
        intro v _ hp
        have hp : M < v := by simpa using hp
        simp; omega)
      rw [i.large]
      have := hs.2.1
      omega
    have hge : M < s → h.large ≥ k := by
      intro hM
      have := countP_le_of_imp l (fun v => decide (s ≤ v)) (fun v => decide (M < v)) (by
        intro v _ hp
        have hp : s ≤ v := by simpa using hp
        simp; omega)
      rw [i.large]
      have := hs.2.2
      omega
    constructor
    · intro hM
      have := hle hM
      rw [if_neg (by omega)]
      have h0 : h.large = l.countP (fun v => decide (M < v ∨ idx M + 1 ≤ idx v)) := by
        rw [i.large]
        apply Nat.le_antisymm
        · apply countP_le_of_imp
          intro v _ hp
          have hp : M < v := by simpa using hp
          simp [hp]
        · apply countP_le_of_imp
          intro v _ hp
          have hp : M < v ∨ idx M + 1 ≤ idx v := by simpa using hp
          have : M < v := by
            apply Nat.lt_of_not_le
            intro c
            have := idx_mono c
            omega
          simpa using this
      rcases scanDown_spec i hl k (idx M + 1) h.large h0 this (by omega) with ⟨j, ej, a, b⟩ | ⟨ej, a⟩
      · rw [ej, rankTop_idx hs hM a b, ← i.getIndex, i.repr]
      · omega
    · intro hM
      rw [if_pos (hge hM)]
      split
      · exact ⟨_, rfl⟩
      · exact ⟨_, rfl⟩

/-- C96, percentiles below 50: for every history and every way to round the rank, what is reported is near to the sample
of that rank; if that sample was too large to be recorded, an error is reported. -/
theorem c96_low {M : Nat} {h : Hist} (hf : fresh M h) (hb : HasBucket M) (os : List Op) (hl : Legal os [])
    (hlen : (samples os []).length < 2 ^ 64) (hne : samples os [] ≠ []) (q : Query) (hv : q.valid = true)
    (hq : q.low = true) :
    ∃ h' s, runs os h = some h' ∧
      Rank (samples os []) (max 1 (min (q.need (samples os []).length) (samples os []).length)) s ∧
      (s ≤ M → ∃ r, h'.percentile q = .ok r ∧ Near s r ∧ r ≤ M) ∧ (M < s → h'.percentile q = .err .unknown) := by
  obtain ⟨h', e, i⟩ := inv_runs os (fresh_inv hf hb) hl
  obtain ⟨s, hs, h1, h2⟩ := (percentile_spec i hlen hne q hv).1 hq
  exact ⟨h', s, e, hs, fun hM => ⟨repr M s, h1 hM, (repr_near M s hM).1, (repr_near M s hM).2⟩, h2⟩

/-- C96, percentiles from 50 on.  Partial: the sample is the one *after* that of the rank (it has as many samples above it
as it should have from itself on), unless that is the last. -/
theorem c96_high_partial {M : Nat} {h : Hist} (hf : fresh M h) (hb : HasBucket M) (os : List Op) (hl : Legal os [])
    (hlen : (samples os []).length < 2 ^ 64) (hne : samples os [] ≠ []) (q : Query) (hv : q.valid = true)
    (hq : q.low = false) :
    ∃ h' s, runs os h = some h' ∧ RankTop (samples os []) (max 1 ((samples os []).length - q.need (samples os []).length)) s ∧
      (s ≤ M → ∃ r, h'.percentile q = .ok r ∧ Near s r ∧ r ≤ M) ∧ (M < s → ∃ e, h'.percentile q = .err e) := by
  obtain ⟨h', e, i⟩ := inv_runs os (fresh_inv hf hb) hl
  obtain ⟨s, hs, h1, h2⟩ := (percentile_spec i hlen hne q hv).2 hq
  exact ⟨h', s, e, hs, fun hM => ⟨repr M s, h1 hM, (repr_near M s hM).1, (repr_near M s hM).2⟩, h2⟩

/-- C96, the percentile `100 * a / b` below 50, without errors of rounding: the reported value is near to the smallest
sample that at least that part of all samples does not exceed. -/
theorem c96_nearest_rank {M : Nat} {h : Hist} (hf : fresh M h) (hb : HasBucket M) (os : List Op) (hl : Legal os [])
    (hlen : (samples os []).length < 2 ^ 64) (hne : samples os [] ≠ []) (hM : ∀ v ∈ samples os [], v ≤ M)
    (a b : Nat) (hab : 2 * a < b) :
    ∃ h' s r, runs os h = some h' ∧ h'.percentile (Query.exact a b) = .ok r ∧ Near s r ∧ s ∈ samples os [] ∧
      a * (samples os []).length ≤ b * (samples os []).countP (fun v => decide (v ≤ s)) ∧
      (a * (samples os []).length ≤ b * (samples os []).countP (fun v => decide (v < s)) →
        (samples os []).countP (fun v => decide (v < s)) = 0) := by
  obtain ⟨h', s, e, hs, h1, _⟩ := c96_low hf hb os hl hlen hne (Query.exact a b) (by simp [Query.exact]; omega)
    (by simp [Query.exact]; omega)
  obtain ⟨hmem, c1, c2⟩ := hs
  obtain ⟨r, e1, n1, _⟩ := h1 (hM s hmem)
  refine ⟨h', s, r, e, e1, n1, hmem, ?_, ?_⟩
  · simp only [Query.exact, rankOf] at c2
    generalize (samples os []).length = N at *
    generalize List.countP (fun v => decide (v ≤ s)) (samples os []) = C at *
    have hd := Nat.div_add_mod (N * a + b - 1) b
    have hm := Nat.mod_lt (N * a + b - 1) (show 0 < b by omega)
    have hle : (N * a + b - 1) / b ≤ N := by
      apply Nat.le_of_lt_succ
      rw [Nat.div_lt_iff_lt_mul (by omega)]
      have h2 : N * (2 * a) ≤ N * b := Nat.mul_le_mul_left N (by omega)
      have h3 : N * (2 * a) = 2 * (N * a) := by rw [Nat.mul_left_comm]
      rw [Nat.succ_mul]
      omega
    have hq : (N * a + b - 1) / b ≤ C := by omega
    have := Nat.mul_le_mul_left b hq
    rw [Nat.mul_comm a N]
    omega
  · intro hlt
    simp only [Query.exact, rankOf] at c1
    generalize (samples os []).length = N at *
    generalize List.countP (fun v => decide (v < s)) (samples os []) = C at *
    rw [Nat.mul_comm a N] at hlt
    have hq : (N * a + b - 1) / b ≤ C := by
      apply Nat.le_of_lt_succ
      rw [Nat.div_lt_iff_lt_mul (by omega), Nat.succ_mul, Nat.mul_comm C b]
      omega
    omega

/-- C96, the smallest and the greatest sample, of fewer than `2^53` (then the product with 0 or 1 is exact). -/
theorem c96_extremes {M : Nat} {h : Hist} (hf : fresh M h) (hb : HasBucket M) (os : List Op) (hl : Legal os [])
    (hlen : (samples os []).length < 2 ^ 53) (hne : samples os [] ≠ []) (hM : ∀ v ∈ samples os [], v ≤ M) :
    ∃ h' lo hi rlo rhi, runs os h = some h' ∧ lo ∈ samples os [] ∧ hi ∈ samples os [] ∧
      (∀ v ∈ samples os [], lo ≤ v ∧ v ≤ hi) ∧
      h'.minimum = .ok rlo ∧ Near lo rlo ∧ h'.maximum = .ok rhi ∧ Near hi rhi := by
  have hlen' : (samples os []).length < 2 ^ 64 := Nat.lt_of_lt_of_le hlen (by decide)
  have hpos : 0 < (samples os []).length := List.length_pos_iff.2 hne
  obtain ⟨h', s, e, hs, h1, _⟩ := c96_low hf hb os hl hlen' hne (Query.exact 0 1) (by simp [Query.exact]) (by simp [Query.exact])
  obtain ⟨h'', t, e', ht, h2, _⟩ := c96_high_partial hf hb os hl hlen' hne (Query.exact 1 1) (by simp [Query.exact])
    (by simp [Query.exact])
  rw [e] at e'
  have e' := (Option.some.inj e').symm
  subst e'
  obtain ⟨r, e1, n1, _⟩ := h1 (hM s hs.1)
  obtain ⟨r', e2, n2, _⟩ := h2 (hM t ht.1)
  refine ⟨h'', s, t, r, r', e, hs.1, ht.1, ?_, e1, n1, e2, n2⟩
  have c1 := hs.2.1
  have c2 := ht.2.1
  simp only [Query.exact, rankOf] at c1 c2
  rw [show max 1 (min (((samples os []).length * 0 + 1 - 1) / 1) (samples os []).length) = 1 by omega] at c1
  rw [show max 1 ((samples os []).length - ((samples os []).length * 1 + 1 - 1) / 1) = 1 by omega] at c2
  have z1 := List.countP_eq_zero.1 (Nat.lt_one_iff.1 c1)
  have z2 := List.countP_eq_zero.1 (Nat.lt_one_iff.1 c2)
  intro v hv
  have a1 := z1 v hv
  have a2 := z2 v hv
  simp at a1 a2
  exact ⟨a1, a2⟩

/-- C96: without samples, or for a percentile that is none, there is an error. -/
theorem c96_no_data {M : Nat} {h : Hist} (hf : fresh M h) (hb : HasBucket M) (os : List Op) (hl : Legal os []) (q : Query)
    (hq : samples os [] = [] ∨ q.valid = false) : ∃ h' e, runs os h = some h' ∧ h'.percentile q = .err e := by
  obtain ⟨h', e, i⟩ := inv_runs os (fresh_inv hf hb) hl
  refine ⟨h', if samples os [] = [] then .noData else .unknown, e, ?_⟩
  unfold Hist.percentile
  rw [i.total]
  by_cases hs : samples os [] = []
  · rw [hs]; simp
  · have : 0 < (samples os []).length := List.length_pos_iff.2 hs
    rw [if_neg (by omega), if_neg hs]
    rcases hq with hq | hq
    · exact absurd hq hs
    · rw [hq]; simp

/-! Merging. -/

theorem perm_filter_split (l : List Nat) (p q r : Nat → Bool) (hpq : ∀ v ∈ l, r v = (p v || q v))
    (hd : ∀ v ∈ l, ¬ (p v = true ∧ q v = true)) : (l.filter r).Perm (l.filter q ++ l.filter p) := by
  induction l with
  | nil => simp
  | cons a l ih =>
    have h1 := hpq a (List.mem_cons_self ..)
    have h2 := hd a (List.mem_cons_self ..)
    have := ih (fun v hv => hpq v (List.mem_cons_of_mem _ hv)) (fun v hv => hd v (List.mem_cons_of_mem _ hv))
    cases hp : p a <;> cases hq : q a <;> simp [hp, hq] at h1 h2 <;> simp only [List.filter_cons, hp, hq, h1]
    · simpa using this
    · simpa using this
    · simp only [Bool.false_eq_true, if_false, if_true]
      exact (this.cons a).trans List.perm_middle.symm

theorem mergeLoop_inv {M : Nat} {o : Hist} {k : List Nat} (io : Inv M o k) (l : List Nat) (hM : ∀ v ∈ k, v ≤ M)
    (hb : k.length + l.length < 2 ^ 64) : ∀ (f i : Nat) (h : Hist), i + f ≤ idx M + 1 →
      Inv M h ((k.filter (fun v => decide (idx v < i))).map (repr M) ++ l) →
      ∃ h', mergeLoop o f i h = some h' ∧ Inv M h' ((k.filter (fun v => decide (idx v < i + f))).map (repr M) ++ l) := by
  have hfit := io.fits
  rw [io.getIndex] at hfit
  intro f
  induction f with
  | zero => intro i h _ iv; exact ⟨h, rfl, iv⟩
  | succ f ih =>
    intro i h hi iv
    have hmax : o.indexValue i ≤ M ∨ i ≤ 1032 := by
      by_cases hh : i ≤ 1024
      · right; omega
      · left
        unfold Hist.indexValue
        simp only [io.linMax, io.inner, io.linPow, io.max]
        rw [if_neg hh]
        split
        · omega
        · rename_i hx
          generalize 2 ^ ((i - 1024) / 1000 + 10) = p at *
          generalize (i - 1024 - (i - 1024) / 1000 * 1000) * p = q at *
          omega
    have hval : o.indexValue i ≤ M := by
      rcases hmax with hmax | hmax
      · exact hmax
      · by_cases hh : i ≤ 1024
        · have : o.indexValue i = i := by unfold Hist.indexValue; rw [io.linMax, if_pos hh]
          rw [this]
          by_cases hMl : M ≤ 1032
          · have : idx M = M := by unfold idx; rw [if_pos hMl]
            omega
          · omega
        · unfold Hist.indexValue
          simp only [io.linMax, io.inner, io.linPow, io.max]
          rw [if_neg hh]
          split
          · omega
          · rename_i hx
            generalize 2 ^ ((i - 1024) / 1000 + 10) = p at *
            generalize (i - 1024 - (i - 1024) / 1000 * 1000) * p = q at *
            omega
    have hlen1 : (k.filter (fun v => decide (idx v < i))).length + o.data i ≤ k.length := by
      rw [io.data, ← List.countP_eq_length_filter]
      have := countP_split k (fun v => decide (idx v < i)) (fun v => decide (v ≤ M ∧ idx v = i)) (fun v => decide (idx v < i + 1)) (by
        intro v hv
        have := hM v hv
        by_cases a : idx v < i <;> by_cases b : idx v = i <;> simp [a, b, this] <;> omega)
      have := countP_le_length k (fun v => decide (idx v < i + 1))
      omega
    obtain ⟨h', e, i'⟩ := inv_inc iv (o.indexValue i) (o.data i) (by simp; omega)
    unfold mergeLoop
    have hnc : ¬ (o.indexValue i > M) := by omega
    simp only [io.max, hnc, if_false]
    rw [if_pos (by omega), e]
    simp only
    have hperm : (List.replicate (o.data i) (o.indexValue i) ++
        ((k.filter (fun v => decide (idx v < i))).map (repr M) ++ l)).Perm
        ((k.filter (fun v => decide (idx v < i + 1))).map (repr M) ++ l) := by
      have h1 := perm_filter_split k (fun v => decide (idx v < i)) (fun v => decide (idx v = i)) (fun v => decide (idx v < i + 1))
        (by intro v _; by_cases a : idx v < i <;> by_cases b : idx v = i <;> simp [a, b] <;> omega)
        (by intro v _; simp; omega)
      have h2 : (k.filter (fun v => decide (idx v = i))).map (repr M) = List.replicate (o.data i) (o.indexValue i) := by
        rw [List.eq_replicate_iff]
        constructor
        · rw [List.length_map, ← List.countP_eq_length_filter, io.data]
          apply List.countP_congr
          intro v hv
          simp [hM v hv]
        · intro b hb
          obtain ⟨v, hv, eb⟩ := List.mem_map.1 hb
          have hv2 : idx v = i := by simpa using (List.mem_filter.1 hv).2
          rw [← eb, ← io.repr, io.getIndex, hv2]
      have h3 := (h1.map (repr M)).append_right l
      rw [List.map_append, h2, List.append_assoc] at h3
      exact h3.symm
    obtain ⟨h'', e', i''⟩ := ih (i + 1) h' (by omega) (i'.perm hperm)
    refine ⟨h'', e', ?_⟩
    rw [show i + (f + 1) = i + 1 + f by omega]
    exact i''

/-- C96, merging: the result is what recording the samples of the one and, for each sample of the other, a value near to
it would have given; all further reports are about those. -/
theorem c96_merge {M : Nat} {h o : Hist} (hf : fresh M h) (ho : fresh M o) (hb : HasBucket M) (os ps : List Op)
    (hl : Legal os []) (hp : Legal ps []) (hM : ∀ v ∈ samples ps [], v ≤ M)
    (hlen : (samples ps []).length + (samples os []).length < 2 ^ 64) :
    ∃ h' o' m near, runs os h = some h' ∧ runs ps o = some o' ∧ h'.merge o' = some m ∧
      (∀ v, v ≤ M → Near v (near v) ∧ near v ≤ M) ∧
      m.total = (samples ps []).length + (samples os []).length ∧
      ∃ m', runs [.clear] m = some m' ∧
        ∃ m'', runs (((samples ps []).map near ++ samples os []).map (fun v => Op.inc v 1)) m' = some m'' ∧
          m''.total = m.total ∧ m''.large = m.large ∧ m''.len = m.len ∧ ∀ i, m''.data i = m.data i := by
  obtain ⟨h', e, i⟩ := inv_runs os (fresh_inv hf hb) hl
  obtain ⟨o', e', i'⟩ := inv_runs ps (fresh_inv ho hb) hp
  generalize samples os [] = l at *
  generalize samples ps [] = k at *
  have hidx : ∀ v ∈ k, idx v < 0 + (idx M + 1) := by
    intro v hv
    have := idx_mono (hM v hv)
    omega
  obtain ⟨m, em, im⟩ := mergeLoop_inv i' l hM hlen (idx M + 1) 0 h' (by omega) (by
    have : k.filter (fun v => decide (idx v < 0)) = [] := List.filter_eq_nil_iff.2 (by simp)
    rw [this]; exact i)
  have hfil : k.filter (fun v => decide (idx v < 0 + (idx M + 1))) = k := List.filter_eq_self.2 (by
    intro v hv; simpa using hidx v hv)
  rw [hfil] at im
  refine ⟨h', o', m, repr M, e, e', ?_, fun v hv => repr_near M v hv, by rw [im.total]; simp, m.clear, rfl, ?_⟩
  · unfold Hist.merge
    rw [i'.max, i'.getIndex]
    exact em
  · have hgen : ∀ (xs ys : List Nat) (g : Hist), Inv M g ys → xs.length + ys.length < 2 ^ 64 →
        ∃ g', runs (xs.map (fun v => Op.inc v 1)) g = some g' ∧ Inv M g' (xs ++ ys) ∧ g'.len = g.len := by
      intro xs
      induction xs with
      | nil => intro ys g ig _; exact ⟨g, rfl, ig, rfl⟩
      | cons x xs ih =>
        intro ys g ig hb
        simp only [List.length_cons] at hb
        obtain ⟨g1, e1, i1⟩ := inv_inc ig x 1 (by omega)
        obtain ⟨g2, e2, i2, l2⟩ := ih (x :: ys) g1 i1 (by simp; omega)
        refine ⟨g2, ?_, i2.perm (by simp), ?_⟩
        · simp only [List.map_cons, runs, Op.run, e1, Option.map_some, Option.bind_some]
          exact e2
        · rw [l2]
          unfold Hist.incrementBy at e1
          simp only at e1
          split at e1
          · have := (Prod.mk.inj (Option.some.inj e1)).1; rw [← this]
          split at e1
          · have := (Prod.mk.inj (Option.some.inj e1)).1; rw [← this]
          · simp at e1
    obtain ⟨m'', e2, i2, l2⟩ := hgen (k.map (repr M) ++ l) [] m.clear (inv_clear im) (by simpa using hlen)
    rw [List.append_nil] at i2
    exact ⟨m'', e2, by rw [i2.total, im.total], by rw [i2.large, im.large], l2, fun j => by rw [i2.data, im.data]⟩

end NRK.Hist
