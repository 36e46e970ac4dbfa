import Verif.Boot.BootModel
import Verif.VSpace.PageTableLemmas

/-!
# Lemmas about the boot loader's `map_generic`
-/

namespace NRK.Boot

open NRK.VSpace (Leaf Level Flags PT PD PDPT PDE PDPTE PML4 i1 i2 i3 i4 leafAt leaf1 leaf2 leaf3 fill openPD
  openPT win addr_eq fill_spec leafAt_d3 leaf3_d2 leaf2_d1 openPD_of_leaf openPT_of_leaf)

/-- A leaf of level `lv` that belongs to a mapping of `v` to `p` with rights `r`. -/
def Belongs (v p : Nat) (r : Act) (x : Nat) (q : Option (Level × Leaf)) : Prop :=
  ∃ lv, v ≤ x - x % lv.size ∧ q = some (lv, ⟨p + (x - x % lv.size - v), r.leaf lv⟩)

/-- `t'` is `t` with `s` bytes at `v` mapped to `p`, as far as addresses with the same upper bits
are concerned. -/
def MapsTo (r : Act) (t t' : PML4) (v p s : Nat) : Prop :=
  ∀ x, win x = win v →
    (v ≤ x ∧ x < v + s → Belongs v p r x (leafAt t' x)) ∧
    (¬ (v ≤ x ∧ x < v + s) → leafAt t' x = leafAt t x)

/-- One turn with 1 GiB pages. -/
theorem step3 (c : PDPTE → Nat → Bool) (r : Act) (t : PML4) (v p s : Nat) (d3' : PDPT) (m : Nat)
    (hv : v = 549755813888 * i4 v + 1073741824 * i3 v) (hs : s ≥ 1073741824)
    (h : fill c (fun a => .page ⟨a, r.leaf .pdpt⟩) 1073741824 (512 - i3 v)
      ((t (i4 v)).getD PDPT.empty) (i3 v) p s = .ok (d3', m)) :
    0 < m ∧ m ≤ s ∧ m % 4096 = 0 ∧ v + m ≤ (win v + 1) * 281474976710656 ∧
      MapsTo r t (upd t (i4 v) (some d3')) v p m := by
  obtain ⟨k, hm, hk, hms, hend, hj⟩ := fill_spec _ _ _ _ _ _ _ _ _ _ h
  have av := addr_eq v
  have hk0 : 0 < k := by
    rcases hend with h | h <;> omega
  have hidx : i3 v + k ≤ 512 := by omega
  clear h
  refine ⟨by omega, hms, by omega, by omega, fun x hx => ?_⟩
  have ax := addr_eq x
  constructor
  · intro hin
    have h4 : i4 x = i4 v := by omega
    have h3 : i3 v ≤ i3 x ∧ i3 x < i3 v + k := by omega
    have hl : leafAt (upd t (i4 v) (some d3')) x =
        some (.pdpt, ⟨p + (i3 x - i3 v) * 1073741824, r.leaf .pdpt⟩) := by
      unfold leafAt
      rw [h4, upd_same]
      show leaf3 d3' x = _
      unfold leaf3
      rw [hj, if_pos h3]
    refine ⟨.pdpt, ?_, ?_⟩
    · show v ≤ x - x % 1073741824
      omega
    · rw [hl]
      have : (i3 x - i3 v) * 1073741824 = x - x % 1073741824 - v := by omega
      show some (Level.pdpt, (⟨p + (i3 x - i3 v) * 1073741824, _⟩ : Leaf)) = some (Level.pdpt, ⟨p + (x - x % 1073741824 - v), _⟩)
      rw [this]
  · intro hout
    by_cases h4 : i4 x = i4 v
    · have h3 : ¬ (i3 v ≤ i3 x ∧ i3 x < i3 v + k) := by omega
      rw [leafAt_d3 t x]
      unfold leafAt
      rw [h4, upd_same]
      show leaf3 d3' x = _
      unfold leaf3
      rw [hj, if_neg h3]
    · unfold leafAt
      rw [upd_other _ _ h4]

/-- One turn with 2 MiB pages. -/
theorem step2 (c : PDE → Nat → Bool) (r : Act) (t : PML4) (v p s : Nat) (d2 d2' : PD) (m : Nat)
    (hd2 : openPD (((t (i4 v)).getD PDPT.empty) (i3 v)) = some d2)
    (hv : v = 549755813888 * i4 v + 1073741824 * i3 v + 2097152 * i2 v) (hs : s ≥ 2097152)
    (h : fill c (fun a => .page ⟨a, r.leaf .pd⟩) 2097152 (512 - i2 v)
      d2 (i2 v) p s = .ok (d2', m)) :
    0 < m ∧ m ≤ s ∧ m % 4096 = 0 ∧ v + m ≤ (win v + 1) * 281474976710656 ∧
      MapsTo r t (upd t (i4 v) (some (upd ((t (i4 v)).getD PDPT.empty) (i3 v) (.table d2')))) v p m := by
  obtain ⟨k, hm, hk, hms, hend, hj⟩ := fill_spec _ _ _ _ _ _ _ _ _ _ h
  have av := addr_eq v
  have hk0 : 0 < k := by
    rcases hend with h | h <;> omega
  have hidx : i2 v + k ≤ 512 := by omega
  clear h
  refine ⟨by omega, hms, by omega, by omega, fun x hx => ?_⟩
  have ax := addr_eq x
  have hsame : i4 x = i4 v → i3 x = i3 v →
      leafAt (upd t (i4 v) (some (upd ((t (i4 v)).getD PDPT.empty) (i3 v) (.table d2')))) x =
        leaf2 d2' x := by
    intro h4 h3
    unfold leafAt
    rw [h4, upd_same]
    show leaf3 _ x = _
    unfold leaf3
    rw [h3, upd_same]
  constructor
  · intro hin
    have h4 : i4 x = i4 v := by omega
    have h3 : i3 x = i3 v := by omega
    have h2 : i2 v ≤ i2 x ∧ i2 x < i2 v + k := by omega
    refine ⟨.pd, ?_, ?_⟩
    · show v ≤ x - x % 2097152
      omega
    · rw [hsame h4 h3]
      unfold leaf2
      rw [hj, if_pos h2]
      have : (i2 x - i2 v) * 2097152 = x - x % 2097152 - v := by omega
      show some (Level.pd, (⟨p + (i2 x - i2 v) * 2097152, _⟩ : Leaf)) = some (Level.pd, ⟨p + (x - x % 2097152 - v), _⟩)
      rw [this]
  · intro hout
    by_cases h4 : i4 x = i4 v
    · by_cases h3 : i3 x = i3 v
      · have h2 : ¬ (i2 v ≤ i2 x ∧ i2 x < i2 v + k) := by omega
        rw [hsame h4 h3, leafAt_d3 t x, h4, leaf3_d2 _ x d2 (by rw [h3]; exact hd2)]
        unfold leaf2
        rw [hj, if_neg h2]
      · rw [leafAt_d3 t x]
        unfold leafAt
        rw [h4, upd_same]
        show leaf3 _ x = _
        unfold leaf3
        rw [upd_other _ _ h3]
    · unfold leafAt
      rw [upd_other _ _ h4]

/-- One turn with 4 KiB pages. -/
theorem step1 (c : Option Leaf → Nat → Bool) (r : Act) (t : PML4) (v p s : Nat) (d2 : PD) (d1 d1' : PT) (m : Nat)
    (hd2 : openPD (((t (i4 v)).getD PDPT.empty) (i3 v)) = some d2)
    (hd1 : openPT (d2 (i2 v)) = some d1)
    (hv : v % 4096 = 0) (hs : s % 4096 = 0) (hs0 : 0 < s)
    (h : fill c (fun a => some ⟨a, r.leaf .pt⟩) 4096 (512 - i1 v)
      d1 (i1 v) p s = .ok (d1', m)) :
    0 < m ∧ m ≤ s ∧ m % 4096 = 0 ∧ v + m ≤ (win v + 1) * 281474976710656 ∧
      MapsTo r t (upd t (i4 v) (some (upd ((t (i4 v)).getD PDPT.empty) (i3 v)
        (.table (upd d2 (i2 v) (.table d1')))))) v p m := by
  obtain ⟨k, hm, hk, hms, hend, hj⟩ := fill_spec _ _ _ _ _ _ _ _ _ _ h
  have av := addr_eq v
  have hk0 : 0 < k := by
    rcases hend with h | h <;> omega
  have hidx : i1 v + k ≤ 512 := by omega
  clear h
  refine ⟨by omega, hms, by omega, by omega, fun x hx => ?_⟩
  have ax := addr_eq x
  have hsame : i4 x = i4 v → i3 x = i3 v → i2 x = i2 v →
      leafAt (upd t (i4 v) (some (upd ((t (i4 v)).getD PDPT.empty) (i3 v)
        (.table (upd d2 (i2 v) (.table d1')))))) x = leaf1 d1' x := by
    intro h4 h3 h2
    unfold leafAt
    rw [h4, upd_same]
    show leaf3 _ x = _
    unfold leaf3
    rw [h3, upd_same]
    show leaf2 _ x = _
    unfold leaf2
    rw [h2, upd_same]
  constructor
  · intro hin
    have h4 : i4 x = i4 v := by omega
    have h3 : i3 x = i3 v := by omega
    have h2 : i2 x = i2 v := by omega
    have h1 : i1 v ≤ i1 x ∧ i1 x < i1 v + k := by omega
    refine ⟨.pt, ?_, ?_⟩
    · show v ≤ x - x % 4096
      omega
    · rw [hsame h4 h3 h2]
      unfold leaf1
      rw [hj, if_pos h1]
      have : (i1 x - i1 v) * 4096 = x - x % 4096 - v := by omega
      show some (Level.pt, (⟨p + (i1 x - i1 v) * 4096, _⟩ : Leaf)) = some (Level.pt, ⟨p + (x - x % 4096 - v), _⟩)
      rw [this]
  · intro hout
    by_cases h4 : i4 x = i4 v
    · by_cases h3 : i3 x = i3 v
      · rw [leafAt_d3 t x, h4, leaf3_d2 _ x d2 (by rw [h3]; exact hd2)]
        by_cases h2 : i2 x = i2 v
        · have h1 : ¬ (i1 v ≤ i1 x ∧ i1 x < i1 v + k) := by omega
          rw [hsame h4 h3 h2, leaf2_d1 _ x d1 (by rw [h2]; exact hd1)]
          unfold leaf1
          rw [hj, if_neg h1]
        · unfold leafAt
          rw [h4, upd_same]
          show leaf3 _ x = _
          unfold leaf3
          rw [h3, upd_same]
          show leaf2 _ x = _
          unfold leaf2
          rw [upd_other _ _ h2]
      · rw [leafAt_d3 t x]
        unfold leafAt
        rw [h4, upd_same]
        show leaf3 _ x = _
        unfold leaf3
        rw [upd_other _ _ h3]
    · unfold leafAt
      rw [upd_other _ _ h4]

/-- Mapping `m` bytes and then the rest is mapping all. -/
theorem MapsTo.trans {r : Act} {t t1 t2 : PML4} {v p s m : Nat} (hms : m ≤ s)
    (hw : v + m < v + s → win (v + m) = win v)
    (h1 : MapsTo r t t1 v p m) (h2 : m = s → t2 = t1)
    (h3 : m < s → MapsTo r t1 t2 (v + m) (p + m) (s - m)) : MapsTo r t t2 v p s := by
  intro x hx
  by_cases he : m = s
  · rw [h2 he, ← he]; exact h1 x hx
  · have hlt : m < s := by omega
    obtain ⟨a1, b1⟩ := h1 x hx
    obtain ⟨a2, b2⟩ := h3 hlt x (by rw [hx, hw (by omega)])
    constructor
    · intro hin
      by_cases hlo : x < v + m
      · rw [b2 (by omega)]
        exact a1 ⟨hin.1, hlo⟩
      · obtain ⟨lv, hle, hq⟩ := a2 ⟨by omega, by omega⟩
        refine ⟨lv, by omega, ?_⟩
        rw [hq, show p + m + (x - x % lv.size - (v + m)) = p + (x - x % lv.size - v) by omega]
    · intro hout
      rw [b2 (by omega), b1 (by omega)]


/-- **`map_generic` maps exactly the range it is asked to map**, if it succeeds. -/
theorem mapGen_spec (r : Act) : ∀ n t v p s t',
    mapGen r n t v p s = .ok t' → 0 < s → v + s ≤ (win v + 1) * 281474976710656 →
      MapsTo r t t' v p s := by
  intro n
  induction n with
  | zero => intro t v p s t' h; cases h
  | succ n ih =>
    intro t v p s t' h hs0 hw
    have cont : ∀ t1 m, (0 < m ∧ m ≤ s ∧ m % 4096 = 0 ∧ v + m ≤ (win v + 1) * 281474976710656 ∧
        MapsTo r t t1 v p m) →
        (if m < s then mapGen r n t1 (v + m) (p + m) (s - m) else Outcome.ok t1) = .ok t' →
        MapsTo r t t' v p s := by
      intro t1 m ⟨hm0, hms, _, _, hM⟩ h
      have hwin : v + m < v + s → win (v + m) = win v := by
        intro hlt
        unfold win at *
        omega
      by_cases he : m < s
      · rw [if_pos he] at h
        refine MapsTo.trans hms hwin hM (fun e => absurd e (by omega)) (fun _ => ?_)
        have hwn : (v + m) + (s - m) ≤ (win (v + m) + 1) * 281474976710656 := by
          rw [hwin (by omega)]; omega
        exact ih _ _ _ _ _ h (by omega) hwn
      · rw [if_neg he] at h
        cases h
        rw [show s = m by omega]; exact hM
    unfold mapGen at h
    split at h
    · rename_i hal
      simp only at h
      split at h
      · rename_i hc
        split at h
        · rename_i d3' m hf
          exact cont _ _ (step3 _ r t v p s d3' m hc.2.1 hc.2.2.2 hf) h
        · cases h
        · cases h
      · split at h
        · cases h
        · rename_i d2 hd2
          split at h
          · rename_i hc
            split at h
            · rename_i d2' m hf
              exact cont _ _ (step2 _ r t v p s d2 d2' m hd2 hc.2.1 hc.2.2.2 hf) h
            · cases h
            · cases h
          · split at h
            · cases h
            · rename_i d1 hd1
              split at h
              · rename_i d1' m hf
                exact cont _ _ (step1 _ r t v p s d2 d1 d1' m hd2 hd1 hal.2.2.1 hal.2.1 hs0 hf) h
              · cases h
              · cases h
    · cases h

/-- A fill that never clashes succeeds. -/
theorem fill_ok {E : Type} (c : E → Nat → Bool) (mk : Nat → E) (step : Nat) :
    ∀ n (t : Nat → E) idx pa s, (∀ j a, idx ≤ j → j < idx + n → (j - idx + 1) * step ≤ s → c (t j) a = false) →
      ∃ q, fill c mk step n t idx pa s = .ok q := by
  intro n
  induction n with
  | zero => intro t idx pa s _; exact ⟨_, rfl⟩
  | succ n ih =>
    intro t idx pa s h
    simp only [fill]
    by_cases hs : s ≥ step
    · rw [if_pos hs, if_neg (by rw [h idx pa (Nat.le_refl _) (by omega) (by rw [Nat.sub_self]; omega)]; simp)]
      obtain ⟨q, hq⟩ := ih (upd t idx (mk pa)) (idx + 1) (pa + step) (s - step) (by
        intro j a h1 h2 h3
        rw [upd_other _ _ (by omega)]
        refine h j a (by omega) (by omega) ?_
        rw [show j - idx + 1 = (j - (idx + 1) + 1) + 1 by omega, Nat.succ_mul]
        omega)
      rw [hq]
      exact ⟨_, rfl⟩
    · rw [if_neg hs]
      exact ⟨_, rfl⟩

/-- **`map_generic` succeeds where nothing is mapped.** -/
theorem mapGen_ok (r : Act) (hr : r ≠ .none) : ∀ n t v p s, v % 4096 = 0 → p % 4096 = 0 → s % 4096 = 0 →
    0 < s → s < n * 4096 → v + s ≤ (win v + 1) * 281474976710656 →
    (∀ x, v ≤ x → x < v + s → leafAt t x = Option.none) →
    ∃ t', mapGen r n t v p s = .ok t' := by
  intro n
  induction n with
  | zero => intro t v p s _ _ _ h1 h2; omega
  | succ n ih =>
    intro t v p s hv hp hs hs0 hn hw hfree
    have cont : ∀ t1 m, (0 < m ∧ m ≤ s ∧ m % 4096 = 0 ∧ v + m ≤ (win v + 1) * 281474976710656 ∧
        MapsTo r t t1 v p m) →
        ∃ t', (if m < s then mapGen r n t1 (v + m) (p + m) (s - m) else Outcome.ok t1) = .ok t' := by
      intro t1 m ⟨hm0, hms, hm4, _, hM⟩
      by_cases he : m < s
      · rw [if_pos he]
        have hwin : win (v + m) = win v := by
          unfold win at *
          omega
        refine ih _ _ _ _ (by omega) (by omega) (by omega) (by omega) (by omega) (by rw [hwin]; omega) ?_
        intro x h1 h2
        have hwx : win x = win v := by unfold win at *; omega
        rw [((hM x hwx).2 (by omega))]
        exact hfree x (by omega) (by omega)
      · rw [if_neg he]
        exact ⟨_, rfl⟩
    have hfv := hfree v (Nat.le_refl _) (by omega)
    have av := addr_eq v
    rw [leafAt_d3] at hfv
    obtain ⟨d2, hd2, hf2⟩ := openPD_of_leaf hfv
    obtain ⟨d1, hd1, hf1⟩ := openPT_of_leaf hf2
    unfold mapGen
    rw [if_pos ⟨hp, hs, hv, hr⟩]
    simp only
    split
    · rename_i hc
      obtain ⟨⟨d3', m⟩, hf⟩ := fill_ok (fun _ _ => false) (fun a => PDPTE.page ⟨a, r.leaf .pdpt⟩) 1073741824
        (512 - i3 v) ((t (i4 v)).getD PDPT.empty) (i3 v) p s (fun _ _ _ _ _ => rfl)
      rw [hf]
      exact cont _ _ (step3 _ r t v p s d3' m hc.2.1 hc.2.2.2 hf)
    · rw [hd2]
      simp only
      split
      · rename_i hc
        obtain ⟨⟨d2', m⟩, hf⟩ := fill_ok (fun _ _ => false) (fun a => PDE.page ⟨a, r.leaf .pd⟩) 2097152
          (512 - i2 v) d2 (i2 v) p s (fun _ _ _ _ _ => rfl)
        rw [hf]
        exact cont _ _ (step2 _ r t v p s d2 d2' m hd2 hc.2.1 hc.2.2.2 hf)
      · rw [hd1]
        simp only
        obtain ⟨⟨d1', m⟩, hf⟩ := fill_ok (fun (e : Option Leaf) _ => e.isSome)
          (fun a => some ⟨a, r.leaf .pt⟩) 4096 (512 - i1 v) d1 (i1 v) p s (by
            intro j a h1 h2 h3
            have hx := hfree (v + (j - i1 v) * 4096) (by omega) (by omega)
            have ax := addr_eq (v + (j - i1 v) * 4096)
            have hwx : win (v + (j - i1 v) * 4096) = win v := by unfold win at *; omega
            have h4 : i4 (v + (j - i1 v) * 4096) = i4 v := by omega
            have h3' : i3 (v + (j - i1 v) * 4096) = i3 v := by omega
            have h2' : i2 (v + (j - i1 v) * 4096) = i2 v := by omega
            rw [leafAt_d3, h4, leaf3_d2 _ _ d2 (by rw [h3']; exact hd2),
              leaf2_d1 _ _ d1 (by rw [h2']; exact hd1)] at hx
            unfold leaf1 at hx
            rw [show i1 (v + (j - i1 v) * 4096) = j by omega] at hx
            cases e : d1 j with
            | none => rfl
            | some l => rw [e] at hx; cases hx)
        rw [hf]
        exact cont _ _ (step1 _ r t v p s d2 d1 d1' m hd2 hd1 hv hs hs0 hf)

/-- **`map_generic` panics if the first page is mapped already.** -/
theorem mapGen_taken (r : Act) (n : Nat) (t : PML4) (v p s : Nat) (hs : 4096 ≤ s)
    (h : leafAt t v ≠ Option.none) : mapGen r n t v p s = .panic := by
  cases n with
  | zero => rfl
  | succ n =>
    unfold mapGen
    split
    · simp only
      rw [leafAt_d3] at h
      generalize (t (i4 v)).getD PDPT.empty = d3 at h ⊢
      unfold leaf3 at h
      cases e3 : d3 (i3 v) with
      | none => rw [e3] at h; exact absurd rfl h
      | page l => rw [if_neg (by simp [free3])]; rfl
      | table d2 =>
        rw [e3] at h
        simp only at h
        rw [if_neg (by simp [free3])]
        simp only [openPD]
        unfold leaf2 at h
        cases e2 : d2 (i2 v) with
        | none => rw [e2] at h; exact absurd rfl h
        | page l => rw [if_neg (by simp [free2])]; rfl
        | table d1 =>
          rw [e2] at h
          simp only at h
          rw [if_neg (by simp [free2])]
          simp only [openPT]
          unfold leaf1 at h
          cases e1 : d1 (i1 v) with
          | none => rw [e1] at h; exact absurd rfl h
          | some l =>
            have av := addr_eq v
            obtain ⟨k, hk⟩ : ∃ k, 512 - i1 v = k + 1 := ⟨511 - i1 v, by omega⟩
            rw [hk]
            simp only [fill]
            rw [if_pos hs, if_pos (by rw [e1]; rfl)]
    · rfl

end NRK.Boot
