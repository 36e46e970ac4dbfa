import Verif.VSpace.RightsProps
import Verif.VSpace.PageTableModel

/-!
# Lemmas about the page table

What the three `insert_*_mappings` loops and one turn of `map_generic` do to the leaf that translates
an address.
-/

namespace NRK.VSpace

/-- The part of an address above the 48 translated bits. -/
def win (x : Nat) : Nat := x / 281474976710656

/-- An address is its window, its four indices and its offset. -/
theorem addr_eq (x : Nat) :
    x = win x * 281474976710656 + i4 x * 549755813888 + i3 x * 1073741824 + i2 x * 2097152 +
      i1 x * 4096 + x % 4096 ∧ i4 x < 512 ∧ i3 x < 512 ∧ i2 x < 512 ∧ i1 x < 512 ∧ x % 4096 < 4096 ∧
      x % 2097152 = i1 x * 4096 + x % 4096 ∧
      x % 1073741824 = i2 x * 2097152 + i1 x * 4096 + x % 4096 := by
  unfold win i4 i3 i2 i1
  omega

/-- What a `fill` that succeeds has done. -/
theorem fill_spec {E : Type} (clash : E → Nat → Bool) (mk : Nat → E) (step : Nat) :
    ∀ n (t : Nat → E) idx pa s t' m, fill clash mk step n t idx pa s = .ok (t', m) →
      ∃ k, m = k * step ∧ k ≤ n ∧ m ≤ s ∧ (k = n ∨ s < m + step) ∧
        ∀ j, t' j = if idx ≤ j ∧ j < idx + k then mk (pa + (j - idx) * step) else t j := by
  intro n
  induction n with
  | zero =>
    intro t idx pa s t' m h
    simp only [fill] at h
    cases h
    refine ⟨0, by simp, Nat.le_refl _, Nat.zero_le _, Or.inl rfl, fun j => ?_⟩
    rw [if_neg (by omega)]
  | succ n ih =>
    intro t idx pa s t' m h
    simp only [fill] at h
    split at h
    · rename_i hge
      split at h
      · cases h
      · split at h
        · rename_i t1 m1 h1
          cases h
          obtain ⟨k, rfl, hk, hm, hend, hj⟩ := ih _ _ _ _ _ _ h1
          refine ⟨k + 1, by rw [Nat.succ_mul], by omega, by omega, by omega, fun j => ?_⟩
          rw [hj j]
          by_cases hjx : j = idx
          · subst hjx
            rw [if_neg (by omega), if_pos (by omega), upd_same]
            simp
          · rw [upd_other _ _ hjx]
            by_cases hin : idx + 1 ≤ j ∧ j < idx + 1 + k
            · rw [if_pos hin, if_pos (by omega)]
              congr 1
              rw [show j - idx = (j - (idx + 1)) + 1 by omega, Nat.succ_mul]
              omega
            · rw [if_neg hin, if_neg (by omega)]
        · rename_i o ho
          exfalso
          rw [h] at ho
          exact ho _ _ rfl
    · cases h
      refine ⟨0, by simp, Nat.zero_le _, Nat.zero_le _, Or.inr (by omega), fun j => ?_⟩
      rw [if_neg (by omega)]

/-- A leaf of level `lv` that belongs to a mapping of `v` to `p` with rights `r`. -/
def Belongs (v p : Nat) (r : MapAction) (x : Nat) (q : Option (Level × Leaf)) : Prop :=
  ∃ lv, v ≤ x - x % lv.size ∧ q = some (lv, ⟨p + (x - x % lv.size - v), leafFlags lv r⟩)

/-- `t'` is `t` with `s` bytes at `v` mapped to `p`, as far as addresses with the same upper bits
are concerned. -/
def MapsTo (r : MapAction) (t t' : PML4) (v p s : Nat) : Prop :=
  ∀ x, win x = win v →
    (v ≤ x ∧ x < v + s → Belongs v p r x (leafAt t' x)) ∧
    (¬ (v ≤ x ∧ x < v + s) → leafAt t' x = leafAt t x)

theorem leafAt_d3 (t : PML4) (x : Nat) : leafAt t x = leaf3 ((t (i4 x)).getD PDPT.empty) x := by
  unfold leafAt
  cases t (i4 x) <;> rfl

theorem leaf3_d2 (d3 : PDPT) (x : Nat) (d2 : PD) (h : openPD (d3 (i3 x)) = some d2) :
    leaf3 d3 x = leaf2 d2 x := by
  unfold leaf3
  cases e : d3 (i3 x) with
  | none => rw [e] at h; cases h; rfl
  | page l => rw [e] at h; cases h
  | table d => rw [e] at h; cases h; rfl

theorem leaf2_d1 (d2 : PD) (x : Nat) (d1 : PT) (h : openPT (d2 (i2 x)) = some d1) :
    leaf2 d2 x = leaf1 d1 x := by
  unfold leaf2
  cases e : d2 (i2 x) with
  | none => rw [e] at h; cases h; rfl
  | page l => rw [e] at h; cases h
  | table d => rw [e] at h; cases h; rfl

/-- One turn with 1 GiB pages. -/
theorem step3 (r : MapAction) (t : PML4) (v p s : Nat) (d3' : PDPT) (m : Nat)
    (hv : v = i4 v * 549755813888 + i3 v * 1073741824) (hs : s ≥ 1073741824)
    (h : fill (clash3 r) (fun a => .page ⟨a, leafFlags .pdpt r⟩) 1073741824 (512 - i3 v)
      (upd ((t (i4 v)).getD PDPT.empty) (i3 v) .none) (i3 v) p s = .ok (d3', m)) :
    0 < m ∧ m ≤ s ∧ m % 4096 = 0 ∧ v + m ≤ (win v + 1) * 281474976710656 ∧
      MapsTo r t (upd t (i4 v) (some d3')) v p m := by
  obtain ⟨k, hm, hk, hms, hend, hj⟩ := fill_spec _ _ _ _ _ _ _ _ _ _ h
  have av := addr_eq v
  have hk0 : 0 < k := by
    rcases hend with h | h <;> omega
  have hidx : i3 v + k ≤ 512 := by omega
  clear h
  refine ⟨by omega, hms, by omega, by omega, fun x hx => ?_⟩
  have ax := addr_eq x
  constructor
  · intro hin
    have h4 : i4 x = i4 v := by omega
    have h3 : i3 v ≤ i3 x ∧ i3 x < i3 v + k := by omega
    have hl : leafAt (upd t (i4 v) (some d3')) x =
        some (.pdpt, ⟨p + (i3 x - i3 v) * 1073741824, leafFlags .pdpt r⟩) := by
      unfold leafAt
      rw [h4, upd_same]
      show leaf3 d3' x = _
      unfold leaf3
      rw [hj, if_pos h3]
    refine ⟨.pdpt, ?_, ?_⟩
    · show v ≤ x - x % 1073741824
      omega
    · rw [hl]
      have : (i3 x - i3 v) * 1073741824 = x - x % 1073741824 - v := by omega
      show some (Level.pdpt, (⟨p + (i3 x - i3 v) * 1073741824, _⟩ : Leaf)) = some (Level.pdpt, ⟨p + (x - x % 1073741824 - v), _⟩)
      rw [this]
  · intro hout
    by_cases h4 : i4 x = i4 v
    · have h3 : ¬ (i3 v ≤ i3 x ∧ i3 x < i3 v + k) := by omega
      rw [leafAt_d3 t x]
      unfold leafAt
      rw [h4, upd_same]
      show leaf3 d3' x = _
      unfold leaf3
      rw [hj, if_neg h3, upd_other _ _ (by omega)]
    · unfold leafAt
      rw [upd_other _ _ h4]

/-- One turn with 2 MiB pages. -/
theorem step2 (r : MapAction) (t : PML4) (v p s : Nat) (d2 d2' : PD) (m : Nat)
    (hd2 : openPD (((t (i4 v)).getD PDPT.empty) (i3 v)) = some d2)
    (hv : v = i4 v * 549755813888 + i3 v * 1073741824 + i2 v * 2097152) (hs : s ≥ 2097152)
    (h : fill (clash2 r) (fun a => .page ⟨a, leafFlags .pd r⟩) 2097152 (512 - i2 v)
      (upd d2 (i2 v) .none) (i2 v) p s = .ok (d2', m)) :
    0 < m ∧ m ≤ s ∧ m % 4096 = 0 ∧ v + m ≤ (win v + 1) * 281474976710656 ∧
      MapsTo r t (upd t (i4 v) (some (upd ((t (i4 v)).getD PDPT.empty) (i3 v) (.table d2')))) v p m := by
  obtain ⟨k, hm, hk, hms, hend, hj⟩ := fill_spec _ _ _ _ _ _ _ _ _ _ h
  have av := addr_eq v
  have hk0 : 0 < k := by
    rcases hend with h | h <;> omega
  have hidx : i2 v + k ≤ 512 := by omega
  clear h
  refine ⟨by omega, hms, by omega, by omega, fun x hx => ?_⟩
  have ax := addr_eq x
  have hsame : i4 x = i4 v → i3 x = i3 v →
      leafAt (upd t (i4 v) (some (upd ((t (i4 v)).getD PDPT.empty) (i3 v) (.table d2')))) x =
        leaf2 d2' x := by
    intro h4 h3
    unfold leafAt
    rw [h4, upd_same]
    show leaf3 _ x = _
    unfold leaf3
    rw [h3, upd_same]
  constructor
  · intro hin
    have h4 : i4 x = i4 v := by omega
    have h3 : i3 x = i3 v := by omega
    have h2 : i2 v ≤ i2 x ∧ i2 x < i2 v + k := by omega
    refine ⟨.pd, ?_, ?_⟩
    · show v ≤ x - x % 2097152
      omega
    · rw [hsame h4 h3]
      unfold leaf2
      rw [hj, if_pos h2]
      have : (i2 x - i2 v) * 2097152 = x - x % 2097152 - v := by omega
      show some (Level.pd, (⟨p + (i2 x - i2 v) * 2097152, _⟩ : Leaf)) = some (Level.pd, ⟨p + (x - x % 2097152 - v), _⟩)
      rw [this]
  · intro hout
    by_cases h4 : i4 x = i4 v
    · by_cases h3 : i3 x = i3 v
      · have h2 : ¬ (i2 v ≤ i2 x ∧ i2 x < i2 v + k) := by omega
        rw [hsame h4 h3, leafAt_d3 t x, h4, leaf3_d2 _ x d2 (by rw [h3]; exact hd2)]
        unfold leaf2
        rw [hj, if_neg h2, upd_other _ _ (by omega)]
      · rw [leafAt_d3 t x]
        unfold leafAt
        rw [h4, upd_same]
        show leaf3 _ x = _
        unfold leaf3
        rw [upd_other _ _ h3]
    · unfold leafAt
      rw [upd_other _ _ h4]

/-- One turn with 4 KiB pages. -/
theorem step1 (r : MapAction) (t : PML4) (v p s : Nat) (d2 : PD) (d1 d1' : PT) (m : Nat)
    (hd2 : openPD (((t (i4 v)).getD PDPT.empty) (i3 v)) = some d2)
    (hd1 : openPT (d2 (i2 v)) = some d1)
    (hv : v % 4096 = 0) (hs : s % 4096 = 0) (hs0 : 0 < s)
    (h : fill (clash1 r) (fun a => some ⟨a, leafFlags .pt r⟩) 4096 (512 - i1 v)
      d1 (i1 v) p s = .ok (d1', m)) :
    0 < m ∧ m ≤ s ∧ m % 4096 = 0 ∧ v + m ≤ (win v + 1) * 281474976710656 ∧
      MapsTo r t (upd t (i4 v) (some (upd ((t (i4 v)).getD PDPT.empty) (i3 v)
        (.table (upd d2 (i2 v) (.table d1')))))) v p m := by
  obtain ⟨k, hm, hk, hms, hend, hj⟩ := fill_spec _ _ _ _ _ _ _ _ _ _ h
  have av := addr_eq v
  have hk0 : 0 < k := by
    rcases hend with h | h <;> omega
  have hidx : i1 v + k ≤ 512 := by omega
  clear h
  refine ⟨by omega, hms, by omega, by omega, fun x hx => ?_⟩
  have ax := addr_eq x
  have hsame : i4 x = i4 v → i3 x = i3 v → i2 x = i2 v →
      leafAt (upd t (i4 v) (some (upd ((t (i4 v)).getD PDPT.empty) (i3 v)
        (.table (upd d2 (i2 v) (.table d1')))))) x = leaf1 d1' x := by
    intro h4 h3 h2
    unfold leafAt
    rw [h4, upd_same]
    show leaf3 _ x = _
    unfold leaf3
    rw [h3, upd_same]
    show leaf2 _ x = _
    unfold leaf2
    rw [h2, upd_same]
  constructor
  · intro hin
    have h4 : i4 x = i4 v := by omega
    have h3 : i3 x = i3 v := by omega
    have h2 : i2 x = i2 v := by omega
    have h1 : i1 v ≤ i1 x ∧ i1 x < i1 v + k := by omega
    refine ⟨.pt, ?_, ?_⟩
    · show v ≤ x - x % 4096
      omega
    · rw [hsame h4 h3 h2]
      unfold leaf1
      rw [hj, if_pos h1]
      have : (i1 x - i1 v) * 4096 = x - x % 4096 - v := by omega
      show some (Level.pt, (⟨p + (i1 x - i1 v) * 4096, _⟩ : Leaf)) = some (Level.pt, ⟨p + (x - x % 4096 - v), _⟩)
      rw [this]
  · intro hout
    by_cases h4 : i4 x = i4 v
    · by_cases h3 : i3 x = i3 v
      · rw [leafAt_d3 t x, h4, leaf3_d2 _ x d2 (by rw [h3]; exact hd2)]
        by_cases h2 : i2 x = i2 v
        · have h1 : ¬ (i1 v ≤ i1 x ∧ i1 x < i1 v + k) := by omega
          rw [hsame h4 h3 h2, leaf2_d1 _ x d1 (by rw [h2]; exact hd1)]
          unfold leaf1
          rw [hj, if_neg h1]
        · unfold leafAt
          rw [h4, upd_same]
          show leaf3 _ x = _
          unfold leaf3
          rw [h3, upd_same]
          show leaf2 _ x = _
          unfold leaf2
          rw [upd_other _ _ h2]
      · rw [leafAt_d3 t x]
        unfold leafAt
        rw [h4, upd_same]
        show leaf3 _ x = _
        unfold leaf3
        rw [upd_other _ _ h3]
    · unfold leafAt
      rw [upd_other _ _ h4]

/-- Mapping `m` bytes and then the rest is mapping all. -/
theorem MapsTo.trans {r : MapAction} {t t1 t2 : PML4} {v p s m : Nat} (hms : m ≤ s)
    (hw : v + m < v + s → win (v + m) = win v)
    (h1 : MapsTo r t t1 v p m) (h2 : m = s → t2 = t1)
    (h3 : m < s → MapsTo r t1 t2 (v + m) (p + m) (s - m)) : MapsTo r t t2 v p s := by
  intro x hx
  by_cases he : m = s
  · rw [h2 he, ← he]; exact h1 x hx
  · have hlt : m < s := by omega
    obtain ⟨a1, b1⟩ := h1 x hx
    obtain ⟨a2, b2⟩ := h3 hlt x (by rw [hx, hw (by omega)])
    constructor
    · intro hin
      by_cases hlo : x < v + m
      · rw [b2 (by omega)]
        exact a1 ⟨hin.1, hlo⟩
      · obtain ⟨lv, hle, hq⟩ := a2 ⟨by omega, by omega⟩
        refine ⟨lv, by omega, ?_⟩
        rw [hq, show p + m + (x - x % lv.size - (v + m)) = p + (x - x % lv.size - v) by omega]
    · intro hout
      rw [b2 (by omega), b1 (by omega)]

/-- **`map_generic` maps exactly the range it is asked to map**: if it succeeds, every address of the
range is translated to the corresponding address with a leaf that has the rights wanted, and no other
address is affected. -/
theorem mapGeneric_spec (env : Env) (r : MapAction) : ∀ n t v p s t',
    mapGeneric env r n t v p s = .ok t' → 0 < s → v + s ≤ (win v + 1) * 281474976710656 →
      MapsTo r t t' v p s := by
  intro n
  induction n with
  | zero => intro t v p s t' h; cases h
  | succ n ih =>
    intro t v p s t' h hs0 hw
    have cont : ∀ t1 m, (0 < m ∧ m ≤ s ∧ m % 4096 = 0 ∧ v + m ≤ (win v + 1) * 281474976710656 ∧
        MapsTo r t t1 v p m) →
        (if m = s then Outcome.ok t1 else mapGeneric env r n t1 (v + m) (p + m) (s - m)) = .ok t' →
        MapsTo r t t' v p s := by
      intro t1 m ⟨hm0, hms, _, _, hM⟩ h
      have hwin : v + m < v + s → win (v + m) = win v := by
        intro hlt
        unfold win at *
        omega
      by_cases he : m = s
      · rw [if_pos he] at h
        cases h
        rw [← he]; exact hM
      · rw [if_neg he] at h
        have hlt : m < s := by omega
        refine MapsTo.trans hms hwin hM (fun e => absurd e he) (fun _ => ?_)
        have hwn : (v + m) + (s - m) ≤ (win (v + m) + 1) * 281474976710656 := by
          rw [hwin (by omega)]; omega
        exact ih _ _ _ _ _ h (by omega) hwn
    unfold mapGeneric at h
    split at h
    · rename_i hal
      simp only at h
      split at h
      · rename_i hc
        split at h
        · rename_i d3' m hf
          have hcond : v = i4 v * 549755813888 + i3 v * 1073741824 ∧ p % 1073741824 = 0 ∧
              s ≥ 1073741824 := by
            unfold canHuge at hc
            split at hc
            · assumption
            · cases hc
          exact cont _ _ (step3 r t v p s d3' m hcond.1 hcond.2.2 hf) h
        · cases h
        · cases h
      · split at h
        · cases h
        · rename_i d2 hd2
          split at h
          · rename_i hc
            split at h
            · rename_i d2' m hf
              have hcond : v = i4 v * 549755813888 + i3 v * 1073741824 + i2 v * 2097152 ∧
                  p % 2097152 = 0 ∧ s ≥ 2097152 := by
                unfold canLarge at hc
                split at hc
                · cases hc
                · split at hc
                  · assumption
                  · cases hc
              exact cont _ _ (step2 r t v p s d2 d2' m hd2 hcond.1 hcond.2.2 hf) h
            · cases h
            · cases h
          · split at h
            · cases h
            · rename_i d1 hd1
              split at h
              · rename_i d1' m hf
                exact cont _ _ (step1 r t v p s d2 d1 d1' m hd2 hd1 hal.2.1 hal.2.2 hs0 hf) h
              · cases h
              · cases h
          · cases h
          · cases h
      · cases h
      · cases h
    · cases h

/-- What a leaf that belongs to a mapping translates to. -/
theorem resolve_of_belongs {v p : Nat} {r : MapAction} {t : PML4} {x : Nat}
    (h : Belongs v p r x (leafAt t x)) : resolve t x = .ok (p + (x - v), r.canon) := by
  obtain ⟨lv, hle, hq⟩ := h
  unfold resolve
  rw [hq]
  show Outcome.ok (p + (x - x % lv.size - v) + x % lv.size, ofFlags lv (leafFlags lv r)) = _
  have hm : x % lv.size ≤ x := Nat.mod_le _ _
  rw [c32_decode, show p + (x - x % lv.size - v) + x % lv.size = p + (x - v) by omega]

/-- No leaf covers an address of a page table that has no entry there. -/
theorem PT.allEmpty_of (t : PT) (h : ∀ i, i < 512 → t i = Option.none) : t.allEmpty = true := by
  unfold PT.allEmpty
  rw [List.all_eq_true]
  intro i hi
  rw [h i (List.mem_range.1 hi)]
  rfl

/-- Filling one entry that is not taken. -/
theorem fill_one {E : Type} (clash : E → Nat → Bool) (mk : Nat → E) (step n : Nat) (t : Nat → E)
    (idx pa : Nat) (hs : 0 < step) (hn : 0 < n) (hc : clash (t idx) pa = false) :
    fill clash mk step n t idx pa step = .ok (upd t idx (mk pa), step) := by
  obtain ⟨k, rfl⟩ : ∃ k, n = k + 1 := ⟨n - 1, by omega⟩
  have : fill clash mk step k (upd t idx (mk pa)) (idx + 1) (pa + step) (step - step) =
      .ok (upd t idx (mk pa), 0) := by
    cases k with
    | zero => rfl
    | succ k => rw [fill, if_neg (by omega)]
  rw [fill, if_pos (Nat.le_refl _), hc, this]
  show Outcome.ok (upd t idx (mk pa), 0 + step) = _
  rw [Nat.zero_add]

theorem openPD_of_leaf {d3 : PDPT} {x : Nat} (h : leaf3 d3 x = Option.none) :
    ∃ d2, openPD (d3 (i3 x)) = some d2 ∧ leaf2 d2 x = Option.none := by
  unfold leaf3 at h
  cases e : d3 (i3 x) with
  | none => exact ⟨PD.empty, rfl, rfl⟩
  | page l => rw [e] at h; cases h
  | table d => rw [e] at h; exact ⟨d, rfl, h⟩

theorem openPT_of_leaf {d2 : PD} {x : Nat} (h : leaf2 d2 x = Option.none) :
    ∃ d1, openPT (d2 (i2 x)) = some d1 ∧ leaf1 d1 x = Option.none := by
  unfold leaf2 at h
  cases e : d2 (i2 x) with
  | none => exact ⟨PT.empty, rfl, rfl⟩
  | page l => rw [e] at h; cases h
  | table d => rw [e] at h; exact ⟨d, rfl, h⟩

/-- Mapping one base page where nothing is mapped succeeds. -/
theorem map_base (env : Env) (r : MapAction) (t : PML4) (v p n : Nat) (hv : v % 4096 = 0)
    (hp : p % 4096 = 0) (hfree : leafAt t v = Option.none) :
    ∃ t', mapGeneric env r (n + 1) t v p 4096 = .ok t' ∧
      ∀ x, win x = win v → leafAt t' x = if v ≤ x ∧ x < v + 4096 then
        some (.pt, ⟨p, leafFlags .pt r⟩) else leafAt t x := by
  rw [leafAt_d3] at hfree
  obtain ⟨d2, hd2, hf2⟩ := openPD_of_leaf hfree
  obtain ⟨d1, hd1, hf1⟩ := openPT_of_leaf hf2
  have hH : canHuge env ((t (i4 v)).getD PDPT.empty) v p 4096 = .ok false := by
    unfold canHuge; rw [if_neg (by omega)]
  have hL : canLarge env d2 v p 4096 = .ok false := by
    unfold canLarge; split
    · rfl
    · rw [if_neg (by omega)]
  have hc : clash1 r (d1 (i1 v)) p = false := by
    unfold leaf1 at hf1
    cases e : d1 (i1 v) with
    | none => rfl
    | some l => rw [e] at hf1; cases hf1
  have hfill := fill_one (clash1 r) (fun a => some ⟨a, leafFlags .pt r⟩) 4096 (512 - i1 v) d1 (i1 v) p
    (by omega) (by have := addr_eq v; omega) hc
  have hs := step1 r t v p 4096 d2 d1 _ 4096 hd2 hd1 hv rfl (by omega) hfill
  refine ⟨upd t (i4 v) (some (upd ((t (i4 v)).getD PDPT.empty) (i3 v)
        (.table (upd d2 (i2 v) (.table (upd d1 (i1 v) (some ⟨p, leafFlags .pt r⟩))))))), ?_, ?_⟩
  · unfold mapGeneric
    rw [if_pos ⟨hp, hv, rfl⟩]
    simp only [hH, hd2, hL, hd1, hfill, if_true]
  · intro x hx
    obtain ⟨ha, hb⟩ := hs.2.2.2.2 x hx
    by_cases hin : v ≤ x ∧ x < v + 4096
    · rw [if_pos hin]
      have ax := addr_eq x
      have av := addr_eq v
      unfold leafAt
      rw [show i4 x = i4 v by omega, upd_same]
      show leaf3 _ x = _
      unfold leaf3
      rw [show i3 x = i3 v by omega, upd_same]
      show leaf2 _ x = _
      unfold leaf2
      rw [show i2 x = i2 v by omega, upd_same]
      show leaf1 _ x = _
      unfold leaf1
      rw [show i1 x = i1 v by omega, upd_same]
      rfl
    · rw [if_neg hin]
      exact hb hin

/-- Mapping one large page where nothing is mapped succeeds. -/
theorem map_large (env : Env) (r : MapAction) (t : PML4) (v p n : Nat) (hk : env.pages4k = false)
    (hv : v % 2097152 = 0) (hw : win v = 0)
    (hp : p % 2097152 = 0) (hfree : ∀ x, v ≤ x → x < v + 2097152 → leafAt t x = Option.none) :
    ∃ t', mapGeneric env r (n + 1) t v p 2097152 = .ok t' ∧
      ∀ x, win x = win v → leafAt t' x = if v ≤ x ∧ x < v + 2097152 then
        some (.pd, ⟨p, leafFlags .pd r⟩) else leafAt t x := by
  have hfv := hfree v (by omega) (by omega)
  have av := addr_eq v
  rw [leafAt_d3] at hfv
  obtain ⟨d2, hd2, hf2⟩ := openPD_of_leaf hfv
  have hH : canHuge env ((t (i4 v)).getD PDPT.empty) v p 2097152 = .ok false := by
    unfold canHuge; rw [if_neg (by omega)]
  have hL : canLarge env d2 v p 2097152 = .ok true := by
    unfold canLarge
    rw [hk, if_neg (by simp), if_pos ⟨by omega, hp, by omega⟩]
    cases e : d2 (i2 v) with
    | none => rfl
    | page l => unfold leaf2 at hf2; rw [e] at hf2; cases hf2
    | table d1 =>
      show Outcome.ok d1.allEmpty = .ok true
      rw [PT.allEmpty_of]
      intro i hi
      have h := hfree (v + i * 4096) (by omega) (by omega)
      have ax := addr_eq (v + i * 4096)
      have hwx : win (v + i * 4096) = 0 := by unfold win at *; omega
      rw [leafAt_d3, show i4 (v + i * 4096) = i4 v by omega,
        leaf3_d2 _ _ d2 (by rw [show i3 (v + i * 4096) = i3 v by omega]; exact hd2),
        leaf2_d1 _ _ d1 (by rw [show i2 (v + i * 4096) = i2 v by omega, e]; rfl)] at h
      unfold leaf1 at h
      rw [show i1 (v + i * 4096) = i by omega] at h
      cases e : d1 i with
      | none => rfl
      | some l => rw [e] at h; cases h
  have hfill := fill_one (clash2 r) (fun a => .page ⟨a, leafFlags .pd r⟩) 2097152 (512 - i2 v)
    (upd d2 (i2 v) .none) (i2 v) p (by omega) (by omega) (by rw [upd_same]; rfl)
  have hs := step2 r t v p 2097152 d2 _ 2097152 hd2 (by omega) (by omega) hfill
  refine ⟨upd t (i4 v) (some (upd ((t (i4 v)).getD PDPT.empty) (i3 v)
        (.table (upd (upd d2 (i2 v) .none) (i2 v) (.page ⟨p, leafFlags .pd r⟩))))), ?_, ?_⟩
  · unfold mapGeneric
    rw [if_pos ⟨by omega, by omega, by omega⟩]
    simp only [hH, hd2, hL, hfill, if_true]
  · intro x hx
    obtain ⟨ha, hb⟩ := hs.2.2.2.2 x hx
    by_cases hin : v ≤ x ∧ x < v + 2097152
    · rw [if_pos hin]
      have ax := addr_eq x
      unfold leafAt
      rw [show i4 x = i4 v by omega, upd_same]
      show leaf3 _ x = _
      unfold leaf3
      rw [show i3 x = i3 v by omega, upd_same]
      show leaf2 _ x = _
      unfold leaf2
      rw [show i2 x = i2 v by omega, upd_same]
    · rw [if_neg hin]
      exact hb hin

/-- `modify_generic` changes the leaf that translates `x`, for all addresses of that page, and
nothing else. -/
theorem modify_spec (t : PML4) (x : Nat) (act : Option MapAction) :
    (leafAt t x = Option.none → modifyGeneric t x act = .err .notMapped) ∧
    ∀ lv l, leafAt t x = some (lv, l) → ∃ t',
      modifyGeneric t x act =
        .ok (t', ⟨x - x % lv.size, l.pa, lv.size, ofFlags lv l.fl⟩) ∧
      ∀ y, win y = win x → leafAt t' y =
        if y / lv.size = x / lv.size then (newLeaf act lv l).map (fun l' => (lv, l'))
        else leafAt t y := by
  cases e4 : t (i4 x) with
  | none =>
    refine ⟨fun _ => by unfold modifyGeneric; rw [e4], fun lv l h => ?_⟩
    unfold leafAt at h; rw [e4] at h; cases h
  | some d3 =>
    have hl4 : leafAt t x = leaf3 d3 x := by unfold leafAt; rw [e4]
    have out4 : ∀ q y, i4 y ≠ i4 x → leafAt (upd t (i4 x) q) y = leafAt t y := by
      intro q y h; unfold leafAt; rw [upd_other _ _ h]
    have in4 : ∀ q y, i4 y = i4 x → leafAt (upd t (i4 x) (some q)) y = leaf3 q y := by
      intro q y h; unfold leafAt; rw [h, upd_same]
    have in4t : ∀ y, i4 y = i4 x → leafAt t y = leaf3 d3 y := by
      intro y h; unfold leafAt; rw [h, e4]
    cases e3 : d3 (i3 x) with
    | none =>
      refine ⟨fun _ => by unfold modifyGeneric; simp only [e4, e3], fun lv l h => ?_⟩
      rw [hl4] at h; unfold leaf3 at h; rw [e3] at h; cases h
    | page l3 =>
      constructor
      · intro h; rw [hl4] at h; unfold leaf3 at h; rw [e3] at h; cases h
      · intro lv l h
        rw [hl4] at h; unfold leaf3 at h; rw [e3] at h; cases h
        refine ⟨upd t (i4 x) (some (upd d3 (i3 x) (match newLeaf act .pdpt l3 with
          | some l' => PDPTE.page l'
          | Option.none => PDPTE.none))), ?_, ?_⟩
        · unfold modifyGeneric; simp only [e4, e3]; rfl
        · intro y hy
          have ax := addr_eq x; have ay := addr_eq y
          show _ = if y / 1073741824 = x / 1073741824 then _ else _
          by_cases h4 : i4 y = i4 x
          · rw [in4 _ _ h4]
            unfold leaf3
            by_cases h3 : i3 y = i3 x
            · rw [h3, upd_same, if_pos (by omega)]
              cases newLeaf act .pdpt l3 <;> rfl
            · rw [upd_other _ _ h3, if_neg (by omega), in4t y h4]
              rfl
          · rw [out4 _ _ h4, if_neg (by omega)]
    | table d2 =>
      have hl3 : leafAt t x = leaf2 d2 x := by rw [hl4]; unfold leaf3; rw [e3]
      have in3t : ∀ y, i4 y = i4 x → i3 y = i3 x → leafAt t y = leaf2 d2 y := by
        intro y h h'; rw [in4t y h]; unfold leaf3; rw [h', e3]
      have in3 : ∀ q y, i4 y = i4 x → i3 y = i3 x →
          leafAt (upd t (i4 x) (some (upd d3 (i3 x) (.table q)))) y = leaf2 q y := by
        intro q y h h'; rw [in4 _ _ h]; unfold leaf3; rw [h', upd_same]
      have out3 : ∀ q y, i4 y = i4 x → i3 y ≠ i3 x →
          leafAt (upd t (i4 x) (some (upd d3 (i3 x) q))) y = leafAt t y := by
        intro q y h h'; rw [in4 _ _ h, in4t y h]; unfold leaf3; rw [upd_other _ _ h']
      cases e2 : d2 (i2 x) with
      | none =>
        refine ⟨fun _ => by unfold modifyGeneric; simp only [e4, e3, e2], fun lv l h => ?_⟩
        rw [hl3] at h; unfold leaf2 at h; rw [e2] at h; cases h
      | page l2 =>
        constructor
        · intro h; rw [hl3] at h; unfold leaf2 at h; rw [e2] at h; cases h
        · intro lv l h
          rw [hl3] at h; unfold leaf2 at h; rw [e2] at h; cases h
          refine ⟨upd t (i4 x) (some (upd d3 (i3 x) (.table (upd d2 (i2 x) (match newLeaf act .pd l2 with
            | some l' => PDE.page l'
            | Option.none => PDE.none))))), ?_, ?_⟩
          · unfold modifyGeneric; simp only [e4, e3, e2]; rfl
          · intro y hy
            have ax := addr_eq x; have ay := addr_eq y
            show _ = if y / 2097152 = x / 2097152 then _ else _
            by_cases h4 : i4 y = i4 x
            · by_cases h3 : i3 y = i3 x
              · rw [in3 _ _ h4 h3]
                unfold leaf2
                by_cases h2 : i2 y = i2 x
                · rw [h2, upd_same, if_pos (by omega)]
                  cases newLeaf act .pd l2 <;> rfl
                · rw [upd_other _ _ h2, if_neg (by omega), in3t y h4 h3]
                  rfl
              · rw [out3 _ _ h4 h3, if_neg (by omega)]
            · rw [out4 _ _ h4, if_neg (by omega)]
      | table d1 =>
        have hl2 : leafAt t x = leaf1 d1 x := by rw [hl3]; unfold leaf2; rw [e2]
        cases e1 : d1 (i1 x) with
        | none =>
          refine ⟨fun _ => by unfold modifyGeneric; simp only [e4, e3, e2, e1], fun lv l h => ?_⟩
          rw [hl2] at h; unfold leaf1 at h; rw [e1] at h; cases h
        | some l1 =>
          constructor
          · intro h; rw [hl2] at h; unfold leaf1 at h; rw [e1] at h; cases h
          · intro lv l h
            rw [hl2] at h; unfold leaf1 at h; rw [e1] at h; cases h
            refine ⟨upd t (i4 x) (some (upd d3 (i3 x) (.table (upd d2 (i2 x)
              (.table (upd d1 (i1 x) (newLeaf act .pt l1))))))), ?_, ?_⟩
            · unfold modifyGeneric; simp only [e4, e3, e2, e1]; rfl
            · intro y hy
              have ax := addr_eq x; have ay := addr_eq y
              show _ = if y / 4096 = x / 4096 then _ else _
              by_cases h4 : i4 y = i4 x
              · by_cases h3 : i3 y = i3 x
                · rw [in3 _ _ h4 h3]
                  unfold leaf2
                  by_cases h2 : i2 y = i2 x
                  · rw [h2, upd_same]
                    show leaf1 _ y = _
                    unfold leaf1
                    by_cases h1 : i1 y = i1 x
                    · rw [h1, upd_same, if_pos (by omega)]
                    · rw [upd_other _ _ h1, if_neg (by omega), in3t y h4 h3]
                      unfold leaf2
                      rw [h2, e2]
                      rfl
                  · rw [upd_other _ _ h2, if_neg (by omega), in3t y h4 h3]
                    rfl
                · rw [out3 _ _ h4 h3, if_neg (by omega)]
              · rw [out4 _ _ h4, if_neg (by omega)]

end NRK.VSpace
