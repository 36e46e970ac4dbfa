import Verif.VSpace.DropLemmas

/-! # The pages of tables through a history: lemmas for C88 -/

namespace NRK.VSpace

theorem map_ok {α β : Type} {x : Outcome α} {f : α → β} {b : β} (h : x.map f = .ok b) :
    ∃ a, x = .ok a ∧ f a = b := by
  cases x with
  | ok a => exact ⟨a, rfl, by cases h; rfl⟩
  | err e => cases h
  | panic => cases h

theorem canHuge_empty {env : Env} {d : PDPT} {v p s : Nat} (h : canHuge env d v p s = .ok true) :
    (∀ t, d (i3 v) = .table t → t.allEmpty = true) ∧ s ≥ 1073741824 := by
  unfold canHuge at h
  split at h
  · rename_i hc
    refine ⟨fun t ht => ?_, hc.2.2⟩
    rw [ht] at h
    injection h
  · cases h

theorem canLarge_size {env : Env} {d : PD} {v p s : Nat} (h : canLarge env d v p s = .ok true) :
    env.pages4k = false ∧ s ≥ 2097152 := by
  unfold canLarge at h
  split at h
  · cases h
  · rename_i hk
    split at h
    · rename_i hc; exact ⟨by simpa using hk, hc.2.2⟩
    · cases h

theorem tab2_of_clash {r : MapAction} {e : APDPTE} {pa : Nat} (h : clash3 r e.erase pa = false) :
    tab2 e = Option.none ∧ ∀ k, sub2 e k = Option.none := by
  cases e with
  | none => exact ⟨rfl, fun _ => rfl⟩
  | page l => exact ⟨rfl, fun _ => rfl⟩
  | table a d => cases h

theorem tab1_of_clash {r : MapAction} {e : APDE} {pa : Nat} (h : clash2 r e.erase pa = false) :
    tab1 e = Option.none := by
  cases e with
  | none => rfl
  | page l => rfl
  | table a d => cases h

theorem amapStep_ok {env : Env} {pg : Nat → Nat} (hpg : ∀ a b, pg a = pg b → a = b) {r : MapAction}
    {L L' : Life} {v p s m : Nat} (h : L.Ok pg) (hv : i4 v < 128)
    (he : amapStep env pg r L v p s = .ok (L', m)) : L'.Ok pg ∧ m ≤ s := by
  unfold amapStep at he
  split at he
  case isFalse => cases he
  case isTrue hal =>
  have h0 := h.need3 hpg v hv
  obtain ⟨a, d, hr⟩ := need3_some pg L v
  generalize L.need3 pg v = M at *
  simp only at he
  rw [get3_eq hr] at he
  cases hH : canHuge env d.erase v p s with
  | err e => rw [hH] at he; cases he
  | panic => rw [hH] at he; cases he
  | ok b =>
    rw [hH] at he
    cases b with
    | true =>
      obtain ⟨hE, _⟩ := canHuge_empty hH
      obtain ⟨h1, d', hr1⟩ := h0.clear3 hv hr (fun b d2 e => hE d2.erase (by
        unfold APDPT.erase; rw [e]; rfl))
      simp only at he
      rw [get3_eq hr1] at he
      obtain ⟨⟨t', m'⟩, hf, e⟩ := map_ok he
      cases e
      refine ⟨h1.set3 hr1 fun j => ⟨?_, fun k => ?_⟩, ?_⟩
      · exact fill_keeps _ _ _ tab2 (fun e pa b hc => by
          rw [(tab2_of_clash hc).1]; rfl) _ _ _ _ _ _ _ hf j
      · exact fill_keeps _ _ _ (fun e => sub2 e k) (fun e pa b hc => by
          show sub2 _ k = sub2 _ k
          rw [(tab2_of_clash hc).2]; rfl) _ _ _ _ _ _ _ hf j
      · obtain ⟨_, _, _, hm, _⟩ := fill_spec _ _ _ _ _ _ _ _ _ _ hf
        exact hm
    | false =>
      simp only at he
      cases hn2 : M.need2 pg v with
      | none => rw [hn2] at he; cases he
      | some M2 =>
        rw [hn2] at he
        simp only at he
        obtain ⟨h2, d3, b, d2, hr2, hd2⟩ := h0.need2 hpg hv hr hn2
        rw [get2_eq hr2 hd2] at he
        cases hL : canLarge env d2.erase v p s with
        | err e => rw [hL] at he; cases he
        | panic => rw [hL] at he; cases he
        | ok c =>
          rw [hL] at he
          cases c with
          | true =>
            obtain ⟨h3, d3', d2', hr3, hd3⟩ := h2.clear2 hv hr2 hd2
            simp only at he
            rw [get2_eq hr3 hd3] at he
            obtain ⟨⟨t', m'⟩, hf, e⟩ := map_ok he
            cases e
            refine ⟨h3.set2 hr3 hd3 fun k => ?_, ?_⟩
            · exact fill_keeps _ _ _ tab1 (fun e pa b hc => by
                rw [tab1_of_clash hc]; rfl) _ _ _ _ _ _ _ hf k
            · obtain ⟨_, _, _, hm, _⟩ := fill_spec _ _ _ _ _ _ _ _ _ _ hf
              exact hm
          | false =>
            simp only at he
            cases hn1 : M2.need1 pg v with
            | none => rw [hn1] at he; cases he
            | some M3 =>
              rw [hn1] at he
              simp only at he
              obtain ⟨h3, d3', d2', c, d1, hr3, hd3, hd1⟩ := h2.need1 hpg hv hr2 hd2 hn1
              obtain ⟨⟨t', m'⟩, hf, e⟩ := map_ok he
              cases e
              refine ⟨h3.set1 hr3 hd3 hd1, ?_⟩
              obtain ⟨_, _, _, hm, _⟩ := fill_spec _ _ _ _ _ _ _ _ _ _ hf
              exact hm

theorem i4_user {v : Nat} (h : v < 70368744177664) : i4 v < 128 := by
  unfold i4; omega

theorem amap_ok {env : Env} {pg : Nat → Nat} (hpg : ∀ a b, pg a = pg b → a = b) {r : MapAction} :
    ∀ n L L' v p s, L.Ok pg → v < 70368744177664 → v + s ≤ 70368744177664 →
      amapGeneric env pg r n L v p s = .ok L' → L'.Ok pg := by
  intro n
  induction n with
  | zero => intro L L' v p s _ _ _ h; cases h
  | succ n ih =>
    intro L L' v p s h hv hs he
    unfold amapGeneric at he
    cases e : amapStep env pg r L v p s with
    | err x => rw [e] at he; cases he
    | panic => rw [e] at he; cases he
    | ok q =>
      obtain ⟨L1, m⟩ := q
      rw [e] at he
      obtain ⟨h1, hm⟩ := amapStep_ok hpg h (i4_user hv) e
      simp only at he
      by_cases c : m = s
      · rw [if_pos c] at he; cases he; exact h1
      · rw [if_neg c] at he
        exact ih _ _ _ _ _ h1 (by omega) (by omega) he

theorem amodify_ok {pg : Nat → Nat} {L L' : Life} {x : Nat} {act : Option MapAction} (h : L.Ok pg)
    (he : amodify L x act = .ok L') : L'.Ok pg := by
  unfold amodify at he
  cases e4 : L.root (i4 x) with
  | none => rw [e4] at he; cases he
  | some q =>
    obtain ⟨a, d3⟩ := q
    rw [e4] at he
    simp only at he
    cases e3 : d3 (i3 x) with
    | none => rw [e3] at he; cases he
    | page l =>
      rw [e3] at he
      cases he
      refine h.set3 e4 fun j => ?_
      by_cases ej : j = i3 x
      · subst ej
        rw [upd_same, e3]
        cases newLeaf act .pdpt l <;> exact ⟨rfl, fun _ => rfl⟩
      · rw [upd_other _ _ ej]; exact ⟨rfl, fun _ => rfl⟩
    | table b d2 =>
      rw [e3] at he
      simp only at he
      cases e2 : d2 (i2 x) with
      | none => rw [e2] at he; cases he
      | page l =>
        rw [e2] at he
        cases he
        refine h.set2 e4 e3 fun k => ?_
        by_cases ek : k = i2 x
        · subst ek
          rw [upd_same, e2]
          cases newLeaf act .pd l <;> rfl
        · rw [upd_other _ _ ek]
      | table c d1 =>
        rw [e2] at he
        simp only at he
        cases e1 : d1 (i1 x) with
        | none => rw [e1] at he; cases he
        | some l =>
          rw [e1] at he
          cases he
          exact h.set1 e4 e3 e2

/-! ### Slots of the kernel -/

theorem root_set3 (L : Life) (v : Nat) (d : APDPT) (i : Nat) (hi : i ≠ i4 v) :
    (L.set3 v d).root i = L.root i := by
  unfold Life.set3
  cases e : L.root (i4 v) with
  | none => rfl
  | some q => exact upd_other _ _ hi

theorem root_set2 (L : Life) (v : Nat) (d : APD) (i : Nat) (hi : i ≠ i4 v) :
    (L.set2 v d).root i = L.root i := by
  unfold Life.set2
  cases e : L.get3 v (i3 v) with
  | none => rfl
  | page l => rfl
  | table a t => exact root_set3 L v _ i hi

theorem root_set1 (L : Life) (v : Nat) (d : PT) (i : Nat) (hi : i ≠ i4 v) :
    (L.set1 v d).root i = L.root i := by
  unfold Life.set1
  cases e : L.get2 v (i2 v) with
  | none => rfl
  | page l => rfl
  | table a t => exact root_set2 L v _ i hi

theorem root_need3 (pg : Nat → Nat) (L : Life) (v i : Nat) (hi : i ≠ i4 v) :
    (L.need3 pg v).root i = L.root i := by
  unfold Life.need3
  cases e : L.root (i4 v) with
  | none => exact upd_other _ _ hi
  | some q => rfl

theorem root_need2 {pg : Nat → Nat} {L L' : Life} {v : Nat} (h : L.need2 pg v = some L') (i : Nat)
    (hi : i ≠ i4 v) : L'.root i = L.root i := by
  unfold Life.need2 at h
  cases e : L.get3 v (i3 v) with
  | none => rw [e] at h; cases h; exact root_set3 L v _ i hi
  | page l => rw [e] at h; cases h
  | table a t => rw [e] at h; cases h; rfl

theorem root_need1 {pg : Nat → Nat} {L L' : Life} {v : Nat} (h : L.need1 pg v = some L') (i : Nat)
    (hi : i ≠ i4 v) : L'.root i = L.root i := by
  unfold Life.need1 at h
  cases e : L.get2 v (i2 v) with
  | none => rw [e] at h; cases h; exact root_set2 L v _ i hi
  | page l => rw [e] at h; cases h
  | table a t => rw [e] at h; cases h; rfl

theorem root_clear3 (L : Life) (v i : Nat) (hi : i ≠ i4 v) :
    (L.clear3 v).root i = L.root i := by
  unfold Life.clear3
  cases e : L.get3 v (i3 v) <;> exact root_set3 L v _ i hi

theorem root_clear2 (L : Life) (v i : Nat) (hi : i ≠ i4 v) :
    (L.clear2 v).root i = L.root i := by
  unfold Life.clear2
  cases e : L.get2 v (i2 v) <;> exact root_set2 L v _ i hi

theorem root_step {env : Env} {pg : Nat → Nat} {r : MapAction} {L L' : Life} {v p s m : Nat}
    (he : amapStep env pg r L v p s = .ok (L', m)) (i : Nat) (hi : i ≠ i4 v) :
    L'.root i = L.root i := by
  unfold amapStep at he
  split at he
  case isFalse => cases he
  case isTrue hal =>
  simp only at he
  split at he
  · obtain ⟨q, _, e⟩ := map_ok he
    cases e
    rw [root_set3 _ _ _ _ hi, root_clear3 _ _ _ hi, root_need3 _ _ _ _ hi]
  · split at he
    · cases he
    · rename_i hn2
      split at he
      · obtain ⟨q, _, e⟩ := map_ok he
        cases e
        rw [root_set2 _ _ _ _ hi, root_clear2 _ _ _ hi, root_need2 hn2 _ hi, root_need3 _ _ _ _ hi]
      · split at he
        · cases he
        · rename_i hn1
          obtain ⟨q, _, e⟩ := map_ok he
          cases e
          rw [root_set1 _ _ _ _ hi, root_need1 hn1 _ hi, root_need2 hn2 _ hi,
            root_need3 _ _ _ _ hi]
      · cases he
      · cases he
  · cases he
  · cases he

theorem root_map {env : Env} {pg : Nat → Nat} (hpg : ∀ a b, pg a = pg b → a = b) {r : MapAction} :
    ∀ n L L' v p s, L.Ok pg → v < 70368744177664 → v + s ≤ 70368744177664 →
      amapGeneric env pg r n L v p s = .ok L' → ∀ i, 128 ≤ i → L'.root i = L.root i := by
  intro n
  induction n with
  | zero => intro L L' v p s _ _ _ h; cases h
  | succ n ih =>
    intro L L' v p s h hv hs he i hi
    unfold amapGeneric at he
    cases e : amapStep env pg r L v p s with
    | err x => rw [e] at he; cases he
    | panic => rw [e] at he; cases he
    | ok q =>
      obtain ⟨L1, m⟩ := q
      rw [e] at he
      obtain ⟨h1, hm⟩ := amapStep_ok hpg h (i4_user hv) e
      have hne : i ≠ i4 v := by have := i4_user hv; omega
      simp only at he
      by_cases c : m = s
      · rw [if_pos c] at he; cases he; exact root_step e i hne
      · rw [if_neg c] at he
        rw [ih _ _ _ _ _ h1 (by omega) (by omega) he i hi]
        exact root_step e i hne

theorem root_modify {L L' : Life} {x : Nat} {act : Option MapAction}
    (he : amodify L x act = .ok L') (i : Nat) (hi : i ≠ i4 x) : L'.root i = L.root i := by
  unfold amodify at he
  split at he
  · cases he
  · split at he
    · cases he
    · cases he; exact root_set3 _ _ _ _ hi
    · split at he
      · cases he
      · cases he; exact root_set2 _ _ _ _ hi
      · split at he
        · cases he
        · cases he; exact root_set1 _ _ _ _ hi

/-! ### Nothing is lost with small mappings -/

theorem lost_set3 (L : Life) (v : Nat) (d : APDPT) : (L.set3 v d).lost = L.lost := by
  unfold Life.set3; cases L.root (i4 v) <;> rfl
theorem lost_set2 (L : Life) (v : Nat) (d : APD) : (L.set2 v d).lost = L.lost := by
  unfold Life.set2
  cases L.get3 v (i3 v) with
  | table a t => exact lost_set3 _ _ _
  | _ => rfl
theorem lost_set1 (L : Life) (v : Nat) (d : PT) : (L.set1 v d).lost = L.lost := by
  unfold Life.set1
  cases L.get2 v (i2 v) with
  | table a t => exact lost_set2 _ _ _
  | _ => rfl
theorem lost_need3 (pg : Nat → Nat) (L : Life) (v : Nat) : (L.need3 pg v).lost = L.lost := by
  unfold Life.need3; cases L.root (i4 v) <;> rfl
theorem lost_need2 {pg : Nat → Nat} {L L' : Life} {v : Nat} (h : L.need2 pg v = some L') :
    L'.lost = L.lost := by
  unfold Life.need2 at h
  cases e : L.get3 v (i3 v) with
  | none => rw [e] at h; cases h; exact lost_set3 _ _ _
  | page l => rw [e] at h; cases h
  | table a t => rw [e] at h; cases h; rfl
theorem lost_need1 {pg : Nat → Nat} {L L' : Life} {v : Nat} (h : L.need1 pg v = some L') :
    L'.lost = L.lost := by
  unfold Life.need1 at h
  cases e : L.get2 v (i2 v) with
  | none => rw [e] at h; cases h; exact lost_set2 _ _ _
  | page l => rw [e] at h; cases h
  | table a t => rw [e] at h; cases h; rfl

theorem lost_step {env : Env} {pg : Nat → Nat} {r : MapAction} {L L' : Life} {v p s m : Nat}
    (hs : s < if env.pages4k then 1073741824 else 2097152) (he : amapStep env pg r L v p s = .ok (L', m)) : L'.lost = L.lost := by
  unfold amapStep at he
  split at he
  case isFalse => cases he
  case isTrue hal =>
  simp only at he
  split at he
  · rename_i hH
    have := (canHuge_empty hH).2
    split at hs <;> omega
  · split at he
    · cases he
    · rename_i hn2
      split at he
      · rename_i hL
        have := canLarge_size hL
        rw [this.1] at hs
        simp at hs
        omega
      · split at he
        · cases he
        · rename_i hn1
          obtain ⟨q, _, e⟩ := map_ok he
          cases e
          rw [lost_set1, lost_need1 hn1, lost_need2 hn2, lost_need3]
      · cases he
      · cases he
  · cases he
  · cases he

theorem lost_map {env : Env} {pg : Nat → Nat} {r : MapAction} :
    ∀ n L L' v p s, (s < if env.pages4k then 1073741824 else 2097152) →
      amapGeneric env pg r n L v p s = .ok L' → L'.lost = L.lost := by
  intro n
  induction n with
  | zero => intro L L' v p s _ h; cases h
  | succ n ih =>
    intro L L' v p s hs he
    unfold amapGeneric at he
    cases e : amapStep env pg r L v p s with
    | err x => rw [e] at he; cases he
    | panic => rw [e] at he; cases he
    | ok q =>
      obtain ⟨L1, m⟩ := q
      rw [e] at he
      simp only at he
      by_cases c : m = s
      · rw [if_pos c] at he; cases he; exact lost_step hs e
      · rw [if_neg c] at he
        rw [ih _ _ _ _ _ (by omega) he]
        exact lost_step hs e

theorem lost_modify {L L' : Life} {x : Nat} {act : Option MapAction}
    (he : amodify L x act = .ok L') : L'.lost = L.lost := by
  unfold amodify at he
  split at he
  · cases he
  · split at he
    · cases he
    · cases he; exact lost_set3 _ _ _
    · split at he
      · cases he
      · cases he; exact lost_set2 _ _ _
      · split at he
        · cases he
        · cases he; exact lost_set1 _ _ _

end NRK.VSpace
