import Verif.VSpace.DropInv

/-! # Forgetting the pages of tables gives `PageTableModel.lean`: lemmas for C88 -/

namespace NRK.VSpace

theorem erase_upd4 (t : APML4) (i a : Nat) (d : APDPT) :
    APML4.erase (upd t i (some (a, d))) = upd t.erase i (some d.erase) := by
  funext x
  by_cases e : x = i
  · subst e; simp [APML4.erase]
  · simp [APML4.erase, upd, e]

theorem erase_upd3 (d : APDPT) (i : Nat) (e : APDPTE) :
    APDPT.erase (upd d i e) = upd d.erase i e.erase := by
  funext x
  by_cases h : x = i
  · subst h; simp [APDPT.erase]
  · simp [APDPT.erase, upd, h]

theorem erase_upd2 (d : APD) (i : Nat) (e : APDE) :
    APD.erase (upd d i e) = upd d.erase i e.erase := by
  funext x
  by_cases h : x = i
  · subst h; simp [APD.erase]
  · simp [APD.erase, upd, h]

theorem erase_at {t : APML4} {i a : Nat} {d : APDPT} (h : t i = some (a, d)) :
    t.erase i = some d.erase := by
  simp [APML4.erase, h]

theorem fill_erase {E F : Type} (f : E → F) (clash : F → Nat → Bool) (mk : Nat → E) (step : Nat) :
    ∀ n t idx pa s,
      (fill (fun e => clash (f e)) mk step n t idx pa s).map (fun q => ((fun j => f (q.1 j)), q.2)) =
        fill clash (fun a => f (mk a)) step n (fun j => f (t j)) idx pa s := by
  intro n
  induction n with
  | zero => intro t idx pa s; rfl
  | succ n ih =>
    intro t idx pa s
    unfold fill
    by_cases hs : s ≥ step
    · rw [if_pos hs, if_pos hs]
      by_cases hc : clash (f (t idx)) pa = true
      · rw [if_pos hc, if_pos hc]; rfl
      · rw [if_neg hc, if_neg hc]
        have hu : (fun j => f ((upd t idx (mk pa)) j)) = upd (fun j => f (t j)) idx (f (mk pa)) := by
          funext x
          by_cases e : x = idx
          · subst e; simp
          · simp [upd, e]
        have := ih (upd t idx (mk pa)) (idx + 1) (pa + step) (s - step)
        rw [hu] at this
        rw [← this]
        cases fill (fun e => clash (f e)) mk step n (upd t idx (mk pa)) (idx + 1) (pa + step)
          (s - step) with
        | ok q => rfl
        | err e => rfl
        | panic => rfl
    · rw [if_neg hs, if_neg hs]; rfl

/-- One round of `mapGeneric`. -/
def mapStep (env : Env) (r : MapAction) (t : PML4) (v p s : Nat) : Outcome (PML4 × Nat) :=
  if p % 4096 = 0 ∧ v % 4096 = 0 ∧ s % 4096 = 0 then
    let d3 := (t (i4 v)).getD PDPT.empty
    match canHuge env d3 v p s with
    | .ok true =>
      (fill (clash3 r) (fun a => .page ⟨a, leafFlags .pdpt r⟩) 1073741824 (512 - i3 v)
        (upd d3 (i3 v) .none) (i3 v) p s).map fun q => (upd t (i4 v) (some q.1), q.2)
    | .ok false =>
      match openPD (d3 (i3 v)) with
      | Option.none => .panic
      | some d2 =>
        match canLarge env d2 v p s with
        | .ok true =>
          (fill (clash2 r) (fun a => .page ⟨a, leafFlags .pd r⟩) 2097152 (512 - i2 v)
            (upd d2 (i2 v) .none) (i2 v) p s).map fun q =>
              (upd t (i4 v) (some (upd d3 (i3 v) (.table q.1))), q.2)
        | .ok false =>
          match openPT (d2 (i2 v)) with
          | Option.none => .panic
          | some d1 =>
            (fill (clash1 r) (fun a => some ⟨a, leafFlags .pt r⟩) 4096 (512 - i1 v)
              d1 (i1 v) p s).map fun q =>
                (upd t (i4 v) (some (upd d3 (i3 v) (.table (upd d2 (i2 v) (.table q.1))))), q.2)
        | .err e => .err e
        | .panic => .panic
    | .err e => .err e
    | .panic => .panic
  else .panic

theorem mapGeneric_step (env : Env) (r : MapAction) (n : Nat) (t : PML4) (v p s : Nat) :
    mapGeneric env r (n + 1) t v p s =
      match mapStep env r t v p s with
      | .ok (t', m) => if m = s then .ok t' else mapGeneric env r n t' (v + m) (p + m) (s - m)
      | .err e => .err e
      | .panic => .panic := by
  rw [mapGeneric]
  unfold mapStep
  by_cases hal : p % 4096 = 0 ∧ v % 4096 = 0 ∧ s % 4096 = 0
  · rw [if_pos hal, if_pos hal]
    simp only
    cases canHuge env ((t (i4 v)).getD PDPT.empty) v p s with
    | err e => rfl
    | panic => rfl
    | ok b =>
      cases b with
      | true =>
        simp only
        cases fill (clash3 r) (fun a => .page ⟨a, leafFlags .pdpt r⟩) 1073741824 (512 - i3 v)
          (upd ((t (i4 v)).getD PDPT.empty) (i3 v) .none) (i3 v) p s <;> rfl
      | false =>
        simp only
        cases openPD ((t (i4 v)).getD PDPT.empty (i3 v)) with
        | none => rfl
        | some d2 =>
          simp only
          cases canLarge env d2 v p s with
          | err e => rfl
          | panic => rfl
          | ok c =>
            cases c with
            | true =>
              simp only
              cases fill (clash2 r) (fun a => .page ⟨a, leafFlags .pd r⟩) 2097152 (512 - i2 v)
                (upd d2 (i2 v) .none) (i2 v) p s <;> rfl
            | false =>
              simp only
              cases openPT (d2 (i2 v)) with
              | none => rfl
              | some d1 =>
                simp only
                cases fill (clash1 r) (fun a => some ⟨a, leafFlags .pt r⟩) 4096 (512 - i1 v)
                  d1 (i1 v) p s <;> rfl
  · rw [if_neg hal, if_neg hal]

theorem need3_erase (pg : Nat → Nat) (L : Life) (v : Nat) :
    ∃ a d, (L.need3 pg v).root (i4 v) = some (a, d) ∧
      d.erase = (L.root.erase (i4 v)).getD PDPT.empty ∧
      ∀ x, upd (L.need3 pg v).root.erase (i4 v) x = upd L.root.erase (i4 v) x := by
  unfold Life.need3
  cases e : L.root (i4 v) with
  | some q => exact ⟨q.1, q.2, e, by simp [APML4.erase, e], fun _ => rfl⟩
  | none =>
    refine ⟨_, _, upd_same _ _ _, by simp [APML4.erase, e]; rfl, fun x => ?_⟩
    show upd (APML4.erase (upd L.root (i4 v) _)) (i4 v) x = _
    rw [erase_upd4, upd_upd]

theorem need2_erase {pg : Nat → Nat} {L : Life} {v a : Nat} {d : APDPT}
    (hr : L.root (i4 v) = some (a, d)) :
    (L.need2 pg v = Option.none ∧ openPD (d.erase (i3 v)) = Option.none) ∨
    ∃ L2 d' b d2, L.need2 pg v = some L2 ∧ L2.root (i4 v) = some (a, d') ∧
      d' (i3 v) = .table b d2 ∧ openPD (d.erase (i3 v)) = some d2.erase ∧
      (∀ y, upd d'.erase (i3 v) y = upd d.erase (i3 v) y) ∧
      ∀ x, upd L2.root.erase (i4 v) x = upd L.root.erase (i4 v) x := by
  unfold Life.need2
  rw [get3_eq hr]
  cases e : d (i3 v) with
  | page l => exact .inl ⟨rfl, by simp [APDPT.erase, e, APDPTE.erase, openPD]⟩
  | table b d2 =>
    exact .inr ⟨L, d, b, d2, rfl, hr, e, by simp [APDPT.erase, e, APDPTE.erase, openPD],
      fun _ => rfl, fun _ => rfl⟩
  | none =>
    refine .inr ⟨_, upd d (i3 v) (.table (pg L.n) APD.empty), pg L.n, APD.empty, rfl, ?_,
      upd_same _ _ _, ?_, fun y => ?_, fun x => ?_⟩
    · rw [set3_eq hr]; exact upd_same _ _ _
    · simp [APDPT.erase, e, APDPTE.erase, openPD]; rfl
    · rw [erase_upd3, upd_upd]
    · rw [set3_eq hr]
      show upd (APML4.erase (upd L.root (i4 v) _)) (i4 v) x = _
      rw [erase_upd4, upd_upd]

theorem need1_erase {pg : Nat → Nat} {L : Life} {v a b : Nat} {d : APDPT} {d2 : APD}
    (hr : L.root (i4 v) = some (a, d)) (h2 : d (i3 v) = .table b d2) :
    (L.need1 pg v = Option.none ∧ openPT (d2.erase (i2 v)) = Option.none) ∨
    ∃ L3 d' d2' c d1, L.need1 pg v = some L3 ∧ L3.root (i4 v) = some (a, d') ∧
      d' (i3 v) = .table b d2' ∧ d2' (i2 v) = .table c d1 ∧
      openPT (d2.erase (i2 v)) = some d1 ∧
      (∀ z, upd d2'.erase (i2 v) z = upd d2.erase (i2 v) z) ∧
      (∀ y, upd d'.erase (i3 v) y = upd d.erase (i3 v) y) ∧
      ∀ x, upd L3.root.erase (i4 v) x = upd L.root.erase (i4 v) x := by
  unfold Life.need1
  rw [get2_eq hr h2]
  cases e : d2 (i2 v) with
  | page l => exact .inl ⟨rfl, by simp [APD.erase, e, APDE.erase, openPT]⟩
  | table c d1 =>
    exact .inr ⟨L, d, d2, c, d1, rfl, hr, h2, e, by simp [APD.erase, e, APDE.erase, openPT],
      fun _ => rfl, fun _ => rfl, fun _ => rfl⟩
  | none =>
    refine .inr ⟨_, upd d (i3 v) (.table b (upd d2 (i2 v) (.table (pg L.n) PT.empty))),
      upd d2 (i2 v) (.table (pg L.n) PT.empty), pg L.n, PT.empty, rfl, ?_,
      upd_same _ _ _, upd_same _ _ _, ?_, fun z => ?_,
      fun y => ?_, fun x => ?_⟩
    · rw [set2_eq hr h2]; exact upd_same _ _ _
    · simp [APD.erase, e, APDE.erase, openPT]
    · rw [erase_upd2, upd_upd]
    · rw [erase_upd3, upd_upd]
    · rw [set2_eq hr h2]
      show upd (APML4.erase (upd L.root (i4 v) _)) (i4 v) x = _
      rw [erase_upd4, upd_upd]

theorem clear3_root {L : Life} {v a : Nat} {d : APDPT} (hr : L.root (i4 v) = some (a, d)) :
    (L.clear3 v).root = upd L.root (i4 v) (some (a, upd d (i3 v) .none)) := by
  unfold Life.clear3
  rw [get3_eq hr, set3_eq hr]
  cases d (i3 v) <;> rfl

theorem clear2_root {L : Life} {v a b : Nat} {d : APDPT} {d2 : APD}
    (hr : L.root (i4 v) = some (a, d)) (h2 : d (i3 v) = .table b d2) :
    (L.clear2 v).root = upd L.root (i4 v) (some (a, upd d (i3 v)
      (.table b (upd d2 (i2 v) .none)))) := by
  unfold Life.clear2
  rw [get2_eq hr h2, set2_eq hr h2]
  cases d2 (i2 v) <;> rfl

theorem map_map {α β γ : Type} (x : Outcome α) (f : α → β) (g : β → γ) :
    (x.map f).map g = x.map fun a => g (f a) := by
  cases x <;> rfl

theorem map_congr {α β : Type} (x : Outcome α) {f g : α → β} (h : ∀ a, f a = g a) :
    x.map f = x.map g := by
  rw [show f = g from funext h]

theorem step_erase (env : Env) (pg : Nat → Nat) (r : MapAction) (L : Life) (v p s : Nat) :
    (amapStep env pg r L v p s).map (fun q => (q.1.root.erase, q.2)) =
      mapStep env r L.root.erase v p s := by
  unfold amapStep mapStep
  by_cases hal : p % 4096 = 0 ∧ v % 4096 = 0 ∧ s % 4096 = 0
  · rw [if_pos hal, if_pos hal]
    obtain ⟨a, d, hr, hd, hu⟩ := need3_erase pg L v
    generalize L.need3 pg v = M at *
    simp only
    rw [get3_eq hr, ← hd]
    cases canHuge env d.erase v p s with
    | err e => rfl
    | panic => rfl
    | ok b =>
      cases b with
      | true =>
        simp only
        have hr1 : (M.clear3 v).root (i4 v) = some (a, upd d (i3 v) .none) := by
          rw [clear3_root hr]; exact upd_same _ _ _
        rw [get3_eq hr1, map_map]
        have hf := fill_erase APDPTE.erase (clash3 r) (fun a => .page ⟨a, leafFlags .pdpt r⟩)
          1073741824 (512 - i3 v) (upd d (i3 v) .none) (i3 v) p s
        rw [show (fun j => APDPTE.erase (upd d (i3 v) .none j)) = upd d.erase (i3 v) .none from
          erase_upd3 d (i3 v) .none] at hf
        rw [show (fun a => APDPTE.erase (.page ⟨a, leafFlags .pdpt r⟩)) =
          (fun a => PDPTE.page ⟨a, leafFlags .pdpt r⟩) from rfl] at hf
        rw [← hf, map_map]
        refine map_congr _ fun q => ?_
        rw [set3_eq hr1]
        show (APML4.erase (upd (M.clear3 v).root (i4 v) (some (a, q.1))), q.2) = _
        rw [clear3_root hr, upd_upd, erase_upd4, hu]
        rfl
      | false =>
        simp only
        rcases need2_erase (pg := pg) hr with ⟨hn, ho⟩ | ⟨M2, d', b, d2, hn, hr2, hd2, ho, hu3, hu4⟩
        · rw [hn, ho]; rfl
        · rw [hn, ho]
          simp only
          rw [get2_eq hr2 hd2]
          cases canLarge env d2.erase v p s with
          | err e => rfl
          | panic => rfl
          | ok c =>
            cases c with
            | true =>
              simp only
              have hr3 : (M2.clear2 v).root (i4 v) = some (a, upd d' (i3 v)
                  (.table b (upd d2 (i2 v) .none))) := by
                rw [clear2_root hr2 hd2]; exact upd_same _ _ _
              have hd3 : (upd d' (i3 v) (.table b (upd d2 (i2 v) .none))) (i3 v) =
                .table b (upd d2 (i2 v) .none) := upd_same _ _ _
              rw [get2_eq hr3 hd3, map_map]
              have hf := fill_erase APDE.erase (clash2 r) (fun a => .page ⟨a, leafFlags .pd r⟩)
                2097152 (512 - i2 v) (upd d2 (i2 v) .none) (i2 v) p s
              rw [show (fun j => APDE.erase (upd d2 (i2 v) .none j)) = upd d2.erase (i2 v) .none from
                erase_upd2 d2 (i2 v) .none] at hf
              rw [show (fun a => APDE.erase (.page ⟨a, leafFlags .pd r⟩)) =
                (fun a => PDE.page ⟨a, leafFlags .pd r⟩) from rfl] at hf
              rw [← hf, map_map]
              refine map_congr _ fun q => ?_
              rw [set2_eq hr3 hd3]
              show (APML4.erase (upd (M2.clear2 v).root (i4 v) _), q.2) = _
              rw [clear2_root hr2 hd2, upd_upd, erase_upd4, hu4, hu, upd_upd, erase_upd3, hu3]
              rfl
            | false =>
              simp only
              rcases need1_erase (pg := pg) hr2 hd2 with
                ⟨hn1, ho1⟩ | ⟨M3, e3, e2, c, d1, hn1, hr3, he3, he2, ho1, hv2, hv3, hv4⟩
              · rw [hn1, ho1]; rfl
              · rw [hn1, ho1]
                simp only
                have hg : M3.get1 v = d1 := by
                  unfold Life.get1; rw [get2_eq hr3 he3, he2]
                rw [hg, map_map]
                refine map_congr _ fun q => ?_
                rw [set1_eq hr3 he3 he2]
                show (APML4.erase (upd M3.root (i4 v) _), q.2) = _
                rw [erase_upd4, hv4, hu4, hu, erase_upd3, hv3, hu3]
                show (upd L.root.erase (i4 v) (some (upd d.erase (i3 v)
                  (.table (APD.erase (upd e2 (i2 v) (.table c q.1)))))), q.2) = _
                rw [erase_upd2, hv2]
                rfl
  · rw [if_neg hal, if_neg hal]; rfl

theorem map_erase (env : Env) (pg : Nat → Nat) (r : MapAction) : ∀ n L v p s,
    (amapGeneric env pg r n L v p s).map (fun L' => L'.root.erase) =
      mapGeneric env r n L.root.erase v p s := by
  intro n
  induction n with
  | zero => intro L v p s; rfl
  | succ n ih =>
    intro L v p s
    rw [mapGeneric_step, ← step_erase env pg r L v p s]
    unfold amapGeneric
    cases amapStep env pg r L v p s with
    | err e => rfl
    | panic => rfl
    | ok q =>
      obtain ⟨L1, m⟩ := q
      show Outcome.map _ (if m = s then _ else _) = if m = s then _ else _
      by_cases c : m = s
      · rw [if_pos c, if_pos c]; rfl
      · rw [if_neg c, if_neg c]; exact ih _ _ _ _

theorem modify_erase (L : Life) (x : Nat) (act : Option MapAction) :
    (amodify L x act).map (fun L' => L'.root.erase) =
      (modifyGeneric L.root.erase x act).map (fun q => q.1) := by
  unfold amodify modifyGeneric
  cases e4 : L.root (i4 x) with
  | none => simp [APML4.erase, e4, Outcome.map]
  | some q =>
    obtain ⟨a, d3⟩ := q
    rw [erase_at e4]
    simp only
    cases e3 : d3 (i3 x) with
    | none => simp [APDPT.erase, e3, APDPTE.erase, Outcome.map]
    | page l =>
      rw [show d3.erase (i3 x) = .page l by simp [APDPT.erase, e3, APDPTE.erase]]
      simp only [Outcome.map]
      rw [set3_eq e4]
      show Outcome.ok (APML4.erase (upd L.root (i4 x) _)) = _
      rw [erase_upd4, erase_upd3]
      cases newLeaf act .pdpt l <;> rfl
    | table b d2 =>
      rw [show d3.erase (i3 x) = .table d2.erase by simp [APDPT.erase, e3, APDPTE.erase]]
      simp only
      cases e2 : d2 (i2 x) with
      | none => simp [APD.erase, e2, APDE.erase, Outcome.map]
      | page l =>
        rw [show d2.erase (i2 x) = .page l by simp [APD.erase, e2, APDE.erase]]
        simp only [Outcome.map]
        rw [set2_eq e4 e3]
        show Outcome.ok (APML4.erase (upd L.root (i4 x) _)) = _
        rw [erase_upd4, erase_upd3]
        simp only [APDPTE.erase]
        rw [erase_upd2]
        cases newLeaf act .pd l <;> rfl
      | table c d1 =>
        rw [show d2.erase (i2 x) = .table d1 by simp [APD.erase, e2, APDE.erase]]
        simp only
        cases e1 : d1 (i1 x) with
        | none => rfl
        | some l =>
          simp only [Outcome.map]
          rw [set1_eq e4 e3 e2]
          show Outcome.ok (APML4.erase (upd L.root (i4 x) _)) = _
          rw [erase_upd4, erase_upd3]
          simp only [APDPTE.erase]
          rw [erase_upd2]
          rfl

end NRK.VSpace
