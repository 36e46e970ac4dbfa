import Verif.Tlb.RackLemmas

/-! # Every step keeps the invariant -/

namespace NRK.Tlb.Rack

/-- Steps that leave all shootdowns alone. -/
theorem Inv.quiet {g : Cfg} {s : St} (h : Inv g s) (i : Nat) (u' : Cpu) (tlb' : Nat → Nat → Option Entry)
    (queue' rqueue' : Nat → List Nat)
    (htlb : ∀ c p e, tlb' c p = some e → s.tlb c p = some e)
    (hfl : ∀ p e, tlb' i p = some e → Flushes (s.cpu i) p → Flushes u' p)
    (hown : ∀ k r c p e, s.log[k]? = some (.unmap r) → r.Has p → tlb' c p = some e → e.len ≤ k →
      CpuOwes s.objs s.robjs (g.mach i) i (s.cpu i) k c p →
      CpuOwes s.objs s.robjs (g.mach i) i u' k c p)
    (hb : BaseOk s.log s.robjs u') (hl : LocOk s.objs u')
    (hs : ∀ id, u'.serve = some id → ∃ o, s.robjs[id]? = some o ∧ (∀ l, u'.loc = some l → l.r = o.range) ∧
      ∀ c ∈ o.cores, ∀ p e, o.range.Has p → tlb' c p = some e → e.len ≤ o.pos →
        (∃ l, u'.loc = some l ∧ LocOwes s.objs i l c p) ∨ Flushes (upd s.cpu i u' c) p)
    (hw : WorkOk s.objs i u')
    (hq : ∀ c id, id ∈ queue' c → ∃ o, s.objs[id]? = some o ∧ o.target = c) :
    Inv g { s with cpu := upd s.cpu i u', tlb := tlb', queue := queue', rqueue := rqueue' } :=
  h.next i u' rfl rfl rfl htlb hfl (fun _ _ _ _ _ _ h => .inl h) (fun _ _ _ _ _ _ _ _ _ h => .inl h)
    (fun _ o h => ⟨o, h, rfl, rfl⟩) (fun _ o h => ⟨o, h, rfl, rfl, rfl⟩)
    (fun k r c p e a b c' d f => .inl (hown k r c p e a b c' d f)) h.robj hb hl hs hw hq

/-- The condition for serving, when only the run of `shootdown` changes. -/
theorem serve_change {g : Cfg} {s : St} (h : Inv g s) (i : Nat) {b : Base} {sv : Option Nat} {l l' : Loc}
    {wk wk' : Option Work} {tlb' : Nat → Nat → Option Entry} (hp : s.cpu i = ⟨b, sv, some l, wk⟩)
    (htlb : ∀ c p e, tlb' c p = some e → s.tlb c p = some e) (hr : l'.r = l.r)
    (hnf : ∀ p e, tlb' i p = some e → Flushes (s.cpu i) p → Flushes ⟨b, sv, some l', wk'⟩ p)
    (howe : ∀ c p e, l.r.Has p → tlb' c p = some e → LocOwes s.objs i l c p → LocOwes s.objs i l' c p) :
    ∀ id, (Cpu.mk b sv (some l') wk').serve = some id →
      ∃ o, s.robjs[id]? = some o ∧ (∀ l0, (Cpu.mk b sv (some l') wk').loc = some l0 → l0.r = o.range) ∧
      ∀ c ∈ o.cores, ∀ p e, o.range.Has p → tlb' c p = some e → e.len ≤ o.pos →
        (∃ l0, (Cpu.mk b sv (some l') wk').loc = some l0 ∧ LocOwes s.objs i l0 c p) ∨
        Flushes (upd s.cpu i ⟨b, sv, some l', wk'⟩ c) p := by
  intro id hid
  have hS := h.serve i
  rw [hp] at hS
  obtain ⟨o, o1, o2, o3⟩ := hS id hid
  refine ⟨o, o1, ?_, ?_⟩
  · intro l0 e
    cases e
    exact hr.trans (o2 l rfl)
  · intro c hc p e hpr he hle
    rcases o3 c hc p e hpr (htlb c p e he) hle with ⟨l0, e0, h0⟩ | hf
    · cases e0
      exact .inl ⟨l', rfl, howe c p e (by rw [o2 l rfl]; exact hpr) he h0⟩
    · right
      rw [upd_apply]
      split
      · next ec => subst ec; exact hnf p e he hf
      · exact hf

/-- What a core owes, when only the run of `shootdown` changes. -/
theorem owes_change {g : Cfg} {s : St} (h : Inv g s) (i : Nat) {b : Base} {sv : Option Nat} {l l' : Loc}
    {wk wk' : Option Work} {tlb' : Nat → Nat → Option Entry} (hp : s.cpu i = ⟨b, sv, some l, wk⟩)
    (howe : ∀ c p e, l.r.Has p → tlb' c p = some e → LocOwes s.objs i l c p → LocOwes s.objs i l' c p) :
    ∀ k r c p e, s.log[k]? = some (.unmap r) → r.Has p → tlb' c p = some e → e.len ≤ k →
      CpuOwes s.objs s.robjs (g.mach i) i (s.cpu i) k c p →
      CpuOwes s.objs s.robjs (g.mach i) i ⟨b, sv, some l', wk'⟩ k c p := by
  intro k r c p e hk hr he _ ho
  have hB := h.base i
  rw [hp] at ho hB
  cases b with
  | user => exact ho.elim
  | rem r' k' hs todo pend => exact absurd hB.2.1 (by simp)
  | wait r' k' pend =>
    obtain ⟨h1, h2⟩ := ho
    have h1 : k' = k := h1
    subst h1
    obtain ⟨b1, b2, _⟩ := hB
    have : r' = r := by rw [b1] at hk; cases hk; rfl
    subst this
    refine ⟨rfl, ?_⟩
    rcases h2 with h2 | ⟨h2, l0, e0, h3⟩
    · exact .inl h2
    · cases e0
      exact .inr ⟨h2, l', rfl, howe c p e (by rw [b2 l h2 rfl]; exact hr) he h3⟩

theorem base_change {log : List POp} {robjs : List RObj} {b : Base} {sv : Option Nat} {l l' : Loc}
    {wk wk' : Option Work} (h : BaseOk log robjs ⟨b, sv, some l, wk⟩) (hr : l'.r = l.r) :
    BaseOk log robjs ⟨b, sv, some l', wk'⟩ := by
  cases b with
  | user => trivial
  | rem r' k' hs todo pend => exact absurd h.2.1 (by simp)
  | wait r' k' pend =>
    obtain ⟨h1, h2, h3⟩ := h
    refine ⟨h1, fun l0 hs e => ?_, h3⟩
    cases e
    exact hr.trans (h2 l hs rfl)

theorem no_flush {s : St} {i : Nat} {b : Base} {sv : Option Nat} {l : Option Loc} {wk : Option Work}
    (hp : s.cpu i = ⟨b, sv, l, wk⟩) (hw : ∀ fl, wk ≠ some (.flushing fl)) (p : Nat) :
    ¬ Flushes (s.cpu i) p := by
  rintro ⟨fl, h, _⟩
  rw [hp] at h
  exact hw fl h

theorem page_drop {s : St} {c p q x : Nat} {e : Entry}
    (h : upd s.tlb c (upd (s.tlb c) x none) q p = some e) : s.tlb q p = some e := by
  rw [upd_apply] at h
  split at h
  · next eq =>
    subst eq
    rw [upd_apply] at h
    split at h
    · cases h
    · exact h
  · exact h

theorem page_gone {s : St} {c p x : Nat} {e : Entry}
    (h : upd s.tlb c (upd (s.tlb c) x none) c p = some e) : p ≠ x := by
  rw [upd_same] at h
  intro eq
  rw [eq, upd_same] at h
  cases h

theorem all_drop {s : St} {c p q : Nat} {e : Entry}
    (h : upd s.tlb c (fun _ => none) q p = some e) : s.tlb q p = some e := by
  rw [upd_apply] at h
  split at h
  · cases h
  · exact h

theorem all_gone {s : St} {c p : Nat} {e : Entry} (h : upd s.tlb c (fun _ => none) c p = some e) : False := by
  rw [upd_same] at h
  cases h

/-- Steps of a run of `shootdown` that leave the shootdowns alone. -/
theorem Inv.locStep {g : Cfg} {s : St} (h : Inv g s) (i : Nat) {b : Base} {sv : Option Nat} {l l' : Loc}
    {wk wk' : Option Work} (tlb' : Nat → Nat → Option Entry) (queue' : Nat → List Nat)
    (hp : s.cpu i = ⟨b, sv, some l, wk⟩)
    (htlb : ∀ c p e, tlb' c p = some e → s.tlb c p = some e) (hr : l'.r = l.r)
    (hpend : ∀ id ∈ l'.pend, id ∈ l.pend)
    (hnf : ∀ p e, tlb' i p = some e → Flushes (s.cpu i) p → Flushes ⟨b, sv, some l', wk'⟩ p)
    (howe : ∀ c p e, l.r.Has p → tlb' c p = some e → LocOwes s.objs i l c p → LocOwes s.objs i l' c p)
    (hw : WorkOk s.objs i ⟨b, sv, some l', wk'⟩)
    (hq : ∀ c id, id ∈ queue' c → ∃ o, s.objs[id]? = some o ∧ o.target = c) :
    Inv g { s with cpu := upd s.cpu i ⟨b, sv, some l', wk'⟩, tlb := tlb', queue := queue' } := by
  have hB := h.base i
  have hL := h.loc i
  rw [hp] at hB hL
  refine h.quiet i _ tlb' queue' s.rqueue htlb hnf (owes_change h i hp howe) (base_change hB hr) ?_
    (serve_change h i hp htlb hr hnf howe) hw hq
  intro l0 e id hid
  cases e
  obtain ⟨o, o1, o2⟩ := hL l rfl id (hpend id hid)
  exact ⟨o, o1, o2.trans hr.symm⟩

/-- Steps of a core that only take its work item further. -/
theorem Inv.workStep {g : Cfg} {s : St} (h : Inv g s) (i : Nat) {b : Base} {sv : Option Nat}
    {l : Option Loc} {wk wk' : Option Work} (tlb' : Nat → Nat → Option Entry) (queue' : Nat → List Nat)
    (hp : s.cpu i = ⟨b, sv, l, wk⟩)
    (htlb : ∀ c p e, tlb' c p = some e → s.tlb c p = some e)
    (hnf : ∀ p e, tlb' i p = some e → Flushes (s.cpu i) p → Flushes ⟨b, sv, l, wk'⟩ p)
    (hw : WorkOk s.objs i ⟨b, sv, l, wk'⟩)
    (hq : ∀ c id, id ∈ queue' c → ∃ o, s.objs[id]? = some o ∧ o.target = c) :
    Inv g { s with cpu := upd s.cpu i ⟨b, sv, l, wk'⟩, tlb := tlb', queue := queue' } := by
  have hB := h.base i
  have hL := h.loc i
  have hS := h.serve i
  rw [hp] at hB hL hS
  refine h.quiet i _ tlb' queue' s.rqueue htlb hnf ?_ ?_ hL ?_ hw hq
  · intro k r c p e _ _ _ _ ho
    rw [hp] at ho
    exact ho
  · exact hB
  · intro id hid
    obtain ⟨o, o1, o2, o3⟩ := hS id hid
    refine ⟨o, o1, o2, fun c hc p e hpr he hle => ?_⟩
    rcases o3 c hc p e hpr (htlb c p e he) hle with h1 | hf
    · exact .inl h1
    · right
      rw [upd_apply]
      split
      · next ec => subst ec; exact hnf p e he hf
      · exact hf

theorem work_none {objs : List Obj} {i : Nat} {b : Base} {sv : Option Nat} {l : Option Loc}
    {wk : Option Work} (h : ∀ id, wk ≠ some (.popped id) ∧ wk ≠ some (.requeue id)) :
    WorkOk objs i ⟨b, sv, l, wk⟩ := by
  intro id hid
  rcases hid with e | e
  · exact absurd e (h id).1
  · exact absurd e (h id).2

theorem que_pop {s : St} {i id : Nat} {q : List Nat} (hq : s.queue i = id :: q)
    (h : ∀ c id, id ∈ s.queue c → ∃ o, s.objs[id]? = some o ∧ o.target = c) :
    ∀ c id, id ∈ upd s.queue i q c → ∃ o, s.objs[id]? = some o ∧ o.target = c := by
  intro c id' hc
  rw [upd_apply] at hc
  split at hc
  · next e =>
    subst e
    exact h c id' (by rw [hq]; exact List.mem_cons_of_mem _ hc)
  · exact h c id' hc

theorem work_popped {s : St} {i id : Nat} {q : List Nat} {b : Base} {sv : Option Nat} {l : Option Loc}
    {wk : Option Work} (hq : s.queue i = id :: q) (hwk : wk = some (.popped id) ∨ wk = some (.requeue id))
    (h : ∀ c id, id ∈ s.queue c → ∃ o, s.objs[id]? = some o ∧ o.target = c) :
    WorkOk s.objs i ⟨b, sv, l, wk⟩ := by
  intro id' hid
  have hid : wk = some (.popped id') ∨ wk = some (.requeue id') := hid
  have : id' = id := by
    rcases hwk with e | e <;> rw [e] at hid <;> simpa [eq_comm] using hid
  subst this
  exact h i id' (by rw [hq]; exact List.mem_cons_self)

theorem get_set_ne {α : Type} {l : List α} {i j : Nat} {a : α} (h : j ≠ i) : (l.set i a)[j]? = l[j]? := by
  rw [List.getElem?_set_ne (Ne.symm h)]

theorem get_set_self {α : Type} {l : List α} {i : Nat} {a b : α} (h : l[i]? = some b) :
    (l.set i a)[i]? = some a := by
  rw [List.getElem?_set_self (lt_of_get h)]

theorem Reach.inv {g : Cfg} {s : St} (h : Reach g s) : Inv g s := by
  induction h with
  | init =>
    refine ⟨fun _ _ _ => rfl, fun _ h => (nomatch h), fun _ _ _ _ _ h => (nomatch h), fun _ _ h => (nomatch h),
      fun _ => trivial, fun _ _ h => (nomatch h), fun _ _ h => (nomatch h), ?_, fun _ _ h => (nomatch h)⟩
    intro i id h
    rcases h with h | h <;> cases h
  | @step s s' _ hst h =>
    cases hst with
    | activate c hc h1 h2 =>
      refine ⟨?_, ?_, ?_, h.robj, h.base, h.loc, ?_, h.work, h.que⟩
      · intro c' p ha
        have ha : upd s.act c true c' = false := ha
        show upd s.tlb c (fun _ => none) c' p = none
        by_cases e : c' = c
        · subst e; rw [upd_same]
        · rw [upd_other _ _ e] at ha ⊢; exact h.inact c' p ha
      · intro c' ha
        have ha : upd s.act c true c' = true := ha
        by_cases e : c' = c
        · subst e; exact ⟨h1, h2⟩
        · rw [upd_other _ _ e] at ha; exact h.actm c' ha
      · intro k r c' p e hk hr he hle
        exact h.main k r c' p e hk hr (all_drop he) hle
      · intro i id hid
        obtain ⟨o, o1, o2, o3⟩ := h.serve i id hid
        exact ⟨o, o1, o2, fun c' hc' p e hp he hle => o3 c' hc' p e hp (all_drop he) hle⟩
    | fill c p w ha hpt =>
      have key : ∀ c' p' e, upd s.tlb c (upd (s.tlb c) p
          (some ⟨w, s.log.length, s.applied (g.node c)⟩)) c' p' = some e →
          s.tlb c' p' = some e ∨ e.len = s.log.length := by
        intro c' p' e he
        rw [upd_apply] at he
        split at he
        · next eq =>
          subst eq
          rw [upd_apply] at he
          split at he
          · cases he; exact .inr rfl
          · exact .inl he
        · exact .inl he
      refine ⟨?_, h.actm, ?_, h.robj, h.base, h.loc, ?_, h.work, h.que⟩
      · intro c' p' hc'
        show upd s.tlb c _ c' p' = none
        have e : c' ≠ c := fun e => by rw [e, ha] at hc'; cases hc'
        rw [upd_other _ _ e]
        exact h.inact c' p' hc'
      · intro k r c' p' e hk hr he hle
        rcases key c' p' e he with h1 | h1
        · exact h.main k r c' p' e hk hr h1 hle
        · have := lt_of_get hk
          have hk : s.log[k]? = some (.unmap r) := hk
          have := lt_of_get hk
          omega
      · intro i id hid
        obtain ⟨o, o1, o2, o3⟩ := h.serve i id hid
        refine ⟨o, o1, o2, fun c' hc' p' e hp he hle => ?_⟩
        rcases key c' p' e he with h1 | h1
        · exact o3 c' hc' p' e hp h1 hle
        · have := lt_of_get (h.robj id o o1)
          omega
    | sync n k h1 h2 => exact ⟨h.inact, h.actm, h.main, h.robj, h.base, h.loc, h.serve, h.work, h.que⟩
    | map i r hp ha hm =>
      have hold : ∀ (k : Nat) (r' : Rng), s.log[k]? = some (.unmap r') →
          (s.log ++ [.map r s.log.length])[k]? = some (.unmap r') := fun k r' hk => by
        rw [List.getElem?_append_left (lt_of_get hk)]; exact hk
      refine ⟨h.inact, h.actm, ?_, fun id o ho => hold _ _ (h.robj id o ho), ?_, h.loc, h.serve, h.work, h.que⟩
      · intro k r' c p e hk hr he hle
        have hk : (s.log ++ [.map r s.log.length])[k]? = some (.unmap r') := hk
        by_cases hlt : k < s.log.length
        · rw [List.getElem?_append_left hlt] at hk
          exact h.main k r' c p e hk hr he hle
        · rw [List.getElem?_append_right (by omega)] at hk
          cases hx : k - s.log.length with
          | zero => rw [hx] at hk; simp at hk
          | succ n => rw [hx] at hk; simp at hk
      · intro j
        have hB := h.base j
        revert hB
        unfold BaseOk
        cases (s.cpu j).base with
        | user => exact id
        | rem r' k' hs todo pend => exact fun ⟨b1, b2⟩ => ⟨hold _ _ b1, b2⟩
        | wait r' k' pend => exact fun ⟨b1, b2⟩ => ⟨hold _ _ b1, b2⟩
    | unmap i r w hs hp ha hm ht =>
      have hold : ∀ (k : Nat) (r' : Rng), s.log[k]? = some (.unmap r') →
          (s.log ++ [.unmap r])[k]? = some (.unmap r') := fun k r' hk => by
        rw [List.getElem?_append_left (lt_of_get hk)]; exact hk
      have hnf : ∀ c p, Flushes (s.cpu c) p → Flushes (upd s.cpu i { Cpu.user with
          base := .rem r s.log.length hs (List.range' 1 (g.machines - 1)) [] } c) p := by
        intro c p hf
        rw [upd_apply]
        split
        · next e => subst e; exact absurd hf (no_flush hp (by simp) p)
        · exact hf
      refine ⟨h.inact, h.actm, ?_, fun id o ho => hold _ _ (h.robj id o ho), ?_, ?_, ?_, ?_, h.que⟩
      · intro k r' c p e hk hr he hle
        have hk : (s.log ++ [.unmap r])[k]? = some (.unmap r') := hk
        by_cases hlt : k < s.log.length
        · rw [List.getElem?_append_left hlt] at hk
          rcases h.main k r' c p e hk hr he hle with ⟨j, hj⟩ | hf
          · refine .inl ⟨j, ?_⟩
            show CpuOwes s.objs s.robjs (g.mach j) j (upd s.cpu i _ j) k c p
            rw [upd_apply]
            split
            · next e => subst e; rw [hp] at hj; exact hj.elim
            · exact hj
          · exact .inr (hnf c p hf)
        · have hk' := lt_of_get hk
          rw [List.length_append, List.length_singleton] at hk'
          have hke : k = s.log.length := by omega
          refine .inl ⟨i, ?_⟩
          show CpuOwes s.objs s.robjs (g.mach i) i (upd s.cpu i _ i) k c p
          rw [upd_same]
          have hact : s.act c = true := by
            cases hx : s.act c with
            | true => rfl
            | false =>
              have := h.inact c p hx
              have he : s.tlb c p = some e := he
              rw [this] at he
              cases he
          refine ⟨hke.symm, .inr (.inl ⟨g.mach c, ?_, (ht _ _).2 ⟨hact, rfl⟩⟩)⟩
          have := h.actm c hact
          rw [List.mem_range'_1]
          omega
      · intro j
        show BaseOk (s.log ++ [.unmap r]) s.robjs (upd s.cpu i _ j)
        rw [upd_apply]
        split
        · exact ⟨by simp, rfl, fun _ h => (nomatch h)⟩
        · have hB := h.base j
          revert hB
          unfold BaseOk
          cases (s.cpu j).base with
          | user => exact id
          | rem r' k' hs todo pend => exact fun ⟨b1, b2⟩ => ⟨hold _ _ b1, b2⟩
          | wait r' k' pend => exact fun ⟨b1, b2⟩ => ⟨hold _ _ b1, b2⟩
      · intro j
        show LocOk s.objs (upd s.cpu i _ j)
        rw [upd_apply]
        split
        · exact fun _ h => (nomatch h)
        · exact h.loc j
      · intro j id hid
        have hid : (upd s.cpu i _ j).serve = some id := hid
        by_cases e : j = i
        · subst e
          rw [upd_same] at hid
          cases hid
        · rw [upd_other _ _ e] at hid
          obtain ⟨o, o1, o2, o3⟩ := h.serve j id hid
          refine ⟨o, o1, ?_, ?_⟩
          · intro l hl
            have hl : (upd s.cpu i _ j).loc = some l := hl
            rw [upd_other _ _ e] at hl
            exact o2 l hl
          · intro c hc p e' hp' he hle
            rcases o3 c hc p e' hp' he hle with ⟨l, l1, l2⟩ | hf
            · refine .inl ⟨l, ?_, l2⟩
              show (upd s.cpu i _ j).loc = some l
              rw [upd_other _ _ e]
              exact l1
            · exact .inr (hnf c p hf)
      · intro j
        show WorkOk s.objs j (upd s.cpu i _ j)
        rw [upd_apply]
        split
        · exact work_none (by simp [Cpu.user])
        · exact h.work j
    | remSkip i r k hs m todo pend hp hm =>
      have hB := h.base i
      rw [hp] at hB
      refine h.quiet i _ s.tlb s.queue s.rqueue (fun _ _ _ h => h)
        (fun p _ _ hf => absurd hf (no_flush hp (by simp) p)) ?_ hB (fun _ h => (nomatch h))
        (fun _ h => (nomatch h)) (work_none (by simp)) h.que
      intro k' r' c p e _ _ _ _ ho
      rw [hp] at ho
      obtain ⟨h1, h2⟩ := ho
      refine ⟨h1, ?_⟩
      rcases h2 with h2 | ⟨n, h2, h3⟩ | h2
      · exact .inl h2
      · rcases List.mem_cons.1 h2 with h4 | h4
        · subst h4
          rcases hm with hm | hm
          · subst hm; exact .inl h3
          · rw [hm] at h3; cases h3
        · exact .inr (.inl ⟨n, h4, h3⟩)
      · exact .inr (.inr h2)
    | remEnqueue i r k hs m todo pend hp hm hq =>
      have hB := h.base i
      rw [hp] at hB
      have hnf : ∀ p, ¬ Flushes (s.cpu i) p := no_flush hp (by simp)
      have hun : ∀ c id, RUnacked s.robjs c id → RUnacked (s.robjs ++ [⟨r, k, hs m, false⟩]) c id := by
        rintro c id ⟨o, o1, o2⟩
        exact ⟨o, by rw [List.getElem?_append_left (lt_of_get o1)]; exact o1, o2⟩
      have hget : ∀ (id : Nat) (o : RObj), s.robjs[id]? = some o →
          (s.robjs ++ [⟨r, k, hs m, false⟩])[id]? = some o := fun id o o1 => by
        rw [List.getElem?_append_left (lt_of_get o1)]; exact o1
      have hnew : (s.robjs ++ [⟨r, k, hs m, false⟩])[s.robjs.length]? = some ⟨r, k, hs m, false⟩ := by
        rw [List.getElem?_append_right (Nat.le_refl _)]; simp
      refine h.next i ⟨.rem r k hs todo (pend ++ [s.robjs.length]), none, none, none⟩ rfl rfl rfl
        (fun _ _ _ h => h) (fun p _ _ hf => absurd hf (hnf p))
        (fun _ _ _ _ _ _ h => .inl h) (fun c id _ _ _ _ _ _ _ h => .inl (hun c id h))
        (fun _ o h => ⟨o, h, rfl, rfl⟩) (fun id o h => ⟨o, hget id o h, rfl, rfl, rfl⟩) ?_ ?_ ?_
        (fun _ h => (nomatch h)) (fun _ h => (nomatch h)) (work_none (by simp)) h.que
      · intro k' r' c p e _ _ _ _ ho
        rw [hp] at ho
        obtain ⟨h1, h2⟩ := ho
        refine .inl ⟨h1, ?_⟩
        rcases h2 with h2 | ⟨n, h2, h3⟩ | ⟨id, h2, h3⟩
        · exact .inl h2
        · rcases List.mem_cons.1 h2 with h4 | h4
          · subst h4
            exact .inr (.inr ⟨s.robjs.length, List.mem_append.2 (.inr List.mem_cons_self),
              _, hnew, h3, rfl⟩)
          · exact .inr (.inl ⟨n, h4, h3⟩)
        · exact .inr (.inr ⟨id, List.mem_append.2 (.inl h2), hun c id h3⟩)
      · intro id o ho
        have ho : (s.robjs ++ [⟨r, k, hs m, false⟩])[id]? = some o := ho
        by_cases hlt : id < s.robjs.length
        · rw [List.getElem?_append_left hlt] at ho
          exact h.robj id o ho
        · have := lt_of_get ho
          rw [List.length_append, List.length_singleton] at this
          have : id = s.robjs.length := by omega
          subst this
          rw [hnew] at ho
          cases ho
          exact hB.1
      · refine ⟨hB.1, rfl, ?_⟩
        intro id hid
        rcases List.mem_append.1 hid with h1 | h1
        · obtain ⟨o, o1, o2⟩ := hB.2.2 id h1
          exact ⟨o, hget id o o1, o2⟩
        · rw [List.mem_singleton.1 h1]
          exact ⟨_, hnew, rfl, rfl⟩
    | remFull i r k hs m todo pend hp hm hq =>
      exact h.workStep i s.tlb s.queue hp (fun _ _ _ h => h)
        (fun p _ _ hf => absurd hf (no_flush hp (by simp) p)) (work_none (by simp)) h.que
    | remDone i r k hs pend hp =>
      have hB := h.base i
      rw [hp] at hB
      refine h.quiet i _ s.tlb s.queue s.rqueue (fun _ _ _ h => h)
        (fun p _ _ hf => absurd hf (no_flush hp (by simp) p)) ?_ ?_ ?_
        (fun _ h => (nomatch h)) (work_none (by simp)) h.que
      · intro k' r' c p e _ _ _ _ ho
        rw [hp] at ho
        obtain ⟨h1, h2⟩ := ho
        refine ⟨h1, ?_⟩
        rcases h2 with h2 | ⟨n, h2, h3⟩ | h2
        · exact .inr ⟨rfl, _, rfl, .inr (.inl h2)⟩
        · cases h2
        · exact .inl h2
      · refine ⟨hB.1, ?_, hB.2.2⟩
        intro l _ e
        cases e
        rfl
      · intro l e id hid
        cases e
        cases hid
    | enqSkip i b sv r todo pend hp =>
      refine h.locStep i s.tlb s.queue hp (fun _ _ _ h => h) rfl (fun _ h => h)
        (fun p _ _ hf => absurd hf (no_flush hp (by simp) p)) ?_ (work_none (by simp)) h.que
      rintro c p e - - (h1 | h1 | h1)
      · exact .inl h1
      · rcases List.mem_cons.1 h1 with h2 | h2
        · exact .inr (.inr h2)
        · exact .inr (.inl h2)
      · exact .inr (.inr h1)
    | enqueue i b sv r c todo pend hp hc hq =>
      have hB := h.base i
      have hL := h.loc i
      have hS := h.serve i
      rw [hp] at hB hL hS
      have hnf : ∀ p, ¬ Flushes (s.cpu i) p := no_flush hp (by simp)
      have hun : ∀ c' id, Unacked s.objs c' id → Unacked (s.objs ++ [⟨r, c, false⟩]) c' id :=
        fun c' id hu => hu.append
      have hget : ∀ (id : Nat) (o : Obj), s.objs[id]? = some o →
          (s.objs ++ [⟨r, c, false⟩])[id]? = some o := fun id o o1 => get_append o1
      have hnew : (s.objs ++ [⟨r, c, false⟩])[s.objs.length]? = some ⟨r, c, false⟩ := by
        rw [List.getElem?_append_right (Nat.le_refl _)]; simp
      have howe : ∀ c' p, LocOwes s.objs i (.enq r (c :: todo) pend) c' p →
          LocOwes (s.objs ++ [⟨r, c, false⟩]) i (.enq r todo (pend ++ [s.objs.length])) c' p := by
        rintro c' p (⟨id, h1, h2⟩ | h1 | h1)
        · exact .inl ⟨id, List.mem_append.2 (.inl h1), hun c' id h2⟩
        · rcases List.mem_cons.1 h1 with h2 | h2
          · subst h2
            exact .inl ⟨_, List.mem_append.2 (.inr List.mem_cons_self), _, hnew, rfl, rfl⟩
          · exact .inr (.inl h2)
        · exact .inr (.inr h1)
      refine h.next i ⟨b, sv, some (.enq r todo (pend ++ [s.objs.length])), none⟩ rfl rfl rfl
        (fun _ _ _ h => h) (fun p _ _ hf => absurd hf (hnf p))
        (fun c' id _ _ _ _ h => .inl (hun c' id h)) (fun c id _ _ _ _ _ _ _ h => .inl h)
        (fun id o h => ⟨o, hget id o h, rfl, rfl⟩) (fun id o h => ⟨o, h, rfl, rfl, rfl⟩) ?_ h.robj
        (base_change hB rfl) ?_ ?_ (work_none (by simp)) ?_
      · intro k' r' c' p e _ _ _ _ ho
        rw [hp] at ho
        cases b with
        | user => exact ho.elim
        | rem r'' k'' hs todo pend => exact absurd hB.2.1 (by simp)
        | wait r'' k'' pend' =>
          obtain ⟨h1, h2⟩ := ho
          refine .inl ⟨h1, ?_⟩
          rcases h2 with h2 | ⟨h2, l0, e0, h3⟩
          · exact .inl h2
          · cases e0
            exact .inr ⟨h2, _, rfl, howe c' p h3⟩
      · intro l e id hid
        cases e
        rcases List.mem_append.1 hid with h1 | h1
        · obtain ⟨o, o1, o2⟩ := hL _ rfl id h1
          exact ⟨o, hget id o o1, o2⟩
        · rw [List.mem_singleton.1 h1]
          exact ⟨_, hnew, rfl⟩
      · intro id hid
        obtain ⟨o, o1, o2, o3⟩ := hS id hid
        refine ⟨o, o1, ?_, ?_⟩
        · intro l e
          cases e
          exact (o2 (.enq r (c :: todo) pend) rfl :)
        · intro c' hc' p e hpr he hle
          rcases o3 c' hc' p e hpr he hle with ⟨l0, e0, h0⟩ | hf
          · cases e0
            exact .inl ⟨_, rfl, howe c' p h0⟩
          · right
            show Flushes (upd s.cpu i _ c') p
            rw [upd_apply]
            split
            · next ec => subst ec; exact absurd hf (hnf p)
            · exact hf
      · intro c' id hid
        have hid : id ∈ upd s.queue c (s.queue c ++ [s.objs.length]) c' := hid
        rw [upd_apply] at hid
        split at hid
        · next ec =>
          subst ec
          rcases List.mem_append.1 hid with h1 | h1
          · obtain ⟨o, o1, o2⟩ := h.que c' id h1
            exact ⟨o, hget id o o1, o2⟩
          · rw [List.mem_singleton.1 h1]
            exact ⟨_, hnew, rfl⟩
        · obtain ⟨o, o1, o2⟩ := h.que c' id hid
          exact ⟨o, hget id o o1, o2⟩
    | full i b sv r c todo pend hp hc hq =>
      exact h.workStep i s.tlb s.queue hp (fun _ _ _ h => h)
        (fun p _ _ hf => absurd hf (no_flush hp (by simp) p)) (work_none (by simp)) h.que
    | enqDone i b sv r pend hp =>
      refine h.locStep i s.tlb s.queue hp (fun _ _ _ h => h) rfl (fun _ h => h)
        (fun p _ _ hf => absurd hf (no_flush hp (by simp) p)) ?_ (work_none (by simp)) h.que
      rintro c p e hr - (h1 | h1 | h1)
      · exact .inl h1
      · cases h1
      · exact .inr ⟨h1, flushOf_has r p hr⟩
    | selfPage i b sv r x l pend hp =>
      refine h.locStep i _ s.queue hp (fun _ _ _ h => page_drop h) rfl (fun _ h => h)
        (fun p _ _ hf => absurd hf (no_flush hp (by simp) p)) ?_ (work_none (by simp)) h.que
      rintro c p e hr he (h1 | ⟨h1, h2⟩)
      · exact .inl h1
      · subst h1
        have hne := page_gone he
        rcases List.mem_cons.1 h2 with h3 | h3
        · exact absurd h3 hne
        · exact .inr ⟨rfl, h3⟩
    | selfAll i b sv r pend hp =>
      refine h.locStep i _ s.queue hp (fun _ _ _ h => all_drop h) rfl (fun _ h => h)
        (fun p _ _ hf => absurd hf (no_flush hp (by simp) p)) ?_ (work_none (by simp)) h.que
      rintro c p e hr he (h1 | ⟨h1, h2⟩)
      · exact .inl h1
      · subst h1
        exact (all_gone he).elim
    | selfDone i b sv r pend hp =>
      refine h.locStep i s.tlb s.queue hp (fun _ _ _ h => h) rfl (fun _ h => h)
        (fun p _ _ hf => absurd hf (no_flush hp (by simp) p)) ?_ (work_none (by simp)) h.que
      rintro c p e hr he (h1 | ⟨h1, h2⟩)
      · exact .inl h1
      · cases h2
    | waitPop i b sv r pend id q hp hq =>
      exact h.workStep i s.tlb _ hp (fun _ _ _ h => h)
        (fun p _ _ hf => absurd hf (no_flush hp (by simp) p)) (work_popped hq (.inl rfl) h.que)
        (que_pop hq h.que)
    | waitDrain i b sv r as bs id o hp ho ha =>
      refine h.locStep i s.tlb s.queue hp (fun _ _ _ h => h) rfl ?_
        (fun p _ _ hf => absurd hf (no_flush hp (by simp) p)) ?_ (work_none (by simp)) h.que
      · intro id' hid
        show id' ∈ as ++ id :: bs
        rcases List.mem_append.1 hid with h1 | h1
        · exact List.mem_append.2 (.inl h1)
        · exact List.mem_append.2 (.inr (List.mem_cons_of_mem _ h1))
      · rintro c p e hr he (⟨id', h1, h2⟩ | h1)
        · refine .inl ⟨id', ?_, h2⟩
          have h1 : id' ∈ as ++ id :: bs := h1
          show id' ∈ as ++ bs
          rcases List.mem_append.1 h1 with h3 | h3
          · exact List.mem_append.2 (.inl h3)
          · rcases List.mem_cons.1 h3 with h4 | h4
            · subst h4
              obtain ⟨o', p1, _, p3⟩ := h2
              rw [ho] at p1
              cases p1
              rw [ha] at p3
              cases p3
            · exact List.mem_append.2 (.inr h4)
        · exact h1.elim
    | waitDone i b sv r hp =>
      have hB := h.base i
      have hS := h.serve i
      rw [hp] at hB hS
      have hnf : ∀ p, ¬ Flushes (s.cpu i) p := no_flush hp (by simp)
      have hno : ∀ c p, ¬ LocOwes s.objs i (.wait r []) c p := by
        rintro c p (⟨id, h1, _⟩ | h1)
        · cases h1
        · exact h1
      refine h.quiet i _ s.tlb s.queue s.rqueue (fun _ _ _ h => h)
        (fun p _ _ hf => absurd hf (hnf p)) ?_ ?_ (fun _ h => (nomatch h)) ?_ (work_none (by simp)) h.que
      · intro k' r' c p e _ _ _ _ ho
        rw [hp] at ho
        cases b with
        | user => exact ho.elim
        | rem r'' k'' hs todo pend => exact ho
        | wait r'' k'' pend' =>
          obtain ⟨h1, h2⟩ := ho
          refine ⟨h1, ?_⟩
          rcases h2 with h2 | ⟨h2, l0, e0, h3⟩
          · exact .inl h2
          · cases e0
            exact absurd h3 (hno c p)
      · cases b with
        | user => trivial
        | rem r'' k'' hs todo pend => exact ⟨hB.1, rfl, hB.2.2⟩
        | wait r'' k'' pend' => exact ⟨hB.1, fun _ _ h => (nomatch h), hB.2.2⟩
      · intro id hid
        obtain ⟨o, o1, o2, o3⟩ := hS id hid
        refine ⟨o, o1, fun _ h => (nomatch h), ?_⟩
        intro c hc p e hpr he hle
        rcases o3 c hc p e hpr he hle with ⟨l0, e0, h0⟩ | hf
        · cases e0
          exact absurd h0 (hno c p)
        · right
          rw [upd_apply]
          split
          · next ec => subst ec; exact absurd hf (hnf p)
          · exact hf
    | served i b id o hp ho =>
      have hB := h.base i
      have hS := h.serve i
      rw [hp] at hB hS
      have hnf : ∀ p, ¬ Flushes (s.cpu i) p := no_flush hp (by simp)
      have hself : (s.robjs.set id { o with acked := true })[id]? = some { o with acked := true } :=
        get_set_self ho
      have hkeep : ∀ c p, Flushes (s.cpu c) p → Flushes (upd s.cpu i ⟨b, none, none, none⟩ c) p := by
        intro c p hf
        rw [upd_apply]
        split
        · next ec => subst ec; exact absurd hf (hnf p)
        · exact hf
      have hR : ∀ (c id' : Nat) (o' : RObj) p e, s.robjs[id']? = some o' → o'.range.Has p →
          s.tlb c p = some e → e.len ≤ o'.pos → RUnacked s.robjs c id' →
          RUnacked (s.robjs.set id { o with acked := true }) c id' ∨
          Flushes (upd s.cpu i ⟨b, none, none, none⟩ c) p := by
        intro c id' o' p e ho' hpr he hle hu
        by_cases ei : id' = id
        · subst ei
          obtain ⟨o1, p1, p2, p3⟩ := hu
          rw [ho] at p1 ho'
          cases p1
          cases ho'
          obtain ⟨o2, q1, q2, q3⟩ := hS id' rfl
          rw [ho] at q1
          cases q1
          rcases q3 c p2 p e hpr he hle with ⟨l, h1, _⟩ | hf
          · cases h1
          · exact .inr (hkeep c p hf)
        · obtain ⟨o1, p1, p2⟩ := hu
          exact .inl ⟨o1, by rw [get_set_ne ei]; exact p1, p2⟩
      have hgR : ∀ (id' : Nat) (o' : RObj), s.robjs[id']? = some o' →
          ∃ o'', (s.robjs.set id { o with acked := true })[id']? = some o'' ∧ o''.range = o'.range ∧
            o''.pos = o'.pos ∧ o''.cores = o'.cores := by
        intro id' o' ho'
        by_cases ei : id' = id
        · subst ei
          rw [ho] at ho'
          cases ho'
          exact ⟨_, hself, rfl, rfl, rfl⟩
        · exact ⟨o', by rw [get_set_ne ei]; exact ho', rfl, rfl, rfl⟩
      refine h.next i ⟨b, none, none, none⟩ rfl rfl rfl (fun _ _ _ h => h)
        (fun p _ _ hf => absurd hf (hnf p)) (fun _ _ _ _ _ _ h => .inl h) hR
        (fun id o h => ⟨o, h, rfl, rfl⟩) hgR ?_ ?_ ?_ (fun _ h => (nomatch h)) (fun _ h => (nomatch h))
        (work_none (by simp)) h.que
      · intro k r c p e hk hr he hle hown
        rw [hp] at hown
        cases b with
        | user => exact hown.elim
        | rem r'' k'' hs todo pend =>
          obtain ⟨h1, h2⟩ := hown
          have h1 : k'' = k := h1
          subst h1
          obtain ⟨b1, _, b2⟩ := hB
          have : r'' = r := by rw [b1] at hk; cases hk; rfl
          subst this
          rcases h2 with h2 | h2 | ⟨id', h2, h3⟩
          · exact .inl ⟨rfl, .inl h2⟩
          · exact .inl ⟨rfl, .inr (.inl h2)⟩
          · obtain ⟨o', o1, o2, o3⟩ := b2 id' h2
            rcases hR c id' o' p e o1 (by rw [o2]; exact hr) he (by omega) h3 with h4 | h4
            · exact .inl ⟨rfl, .inr (.inr ⟨id', h2, h4⟩)⟩
            · exact .inr h4
        | wait r'' k'' pend' =>
          obtain ⟨h1, h2⟩ := hown
          have h1 : k'' = k := h1
          subst h1
          obtain ⟨b1, _, b2⟩ := hB
          have : r'' = r := by rw [b1] at hk; cases hk; rfl
          subst this
          rcases h2 with ⟨id', h2, h3⟩ | ⟨h2, _⟩
          · obtain ⟨o', o1, o2, o3⟩ := b2 id' h2
            rcases hR c id' o' p e o1 (by rw [o2]; exact hr) he (by omega) h3 with h4 | h4
            · exact .inl ⟨rfl, .inl ⟨id', h2, h4⟩⟩
            · exact .inr h4
          · cases h2
      · intro id' o' ho'
        have ho' : (s.robjs.set id { o with acked := true })[id']? = some o' := ho'
        by_cases ei : id' = id
        · subst ei
          rw [hself] at ho'
          cases ho'
          exact h.robj id' o ho
        · rw [get_set_ne ei] at ho'
          exact h.robj id' o' ho'
      · have hpd : ∀ (r : Rng) (k : Nat) (pend : List Nat),
            (∀ id ∈ pend, ∃ o, s.robjs[id]? = some o ∧ o.range = r ∧ o.pos = k) →
            ∀ id' ∈ pend, ∃ o', (s.robjs.set id { o with acked := true })[id']? = some o' ∧
              o'.range = r ∧ o'.pos = k := by
          intro r k pend hx id' hid
          obtain ⟨o', o1, o2, o3⟩ := hx id' hid
          obtain ⟨o'', q1, q2, q3, _⟩ := hgR id' o' o1
          exact ⟨o'', q1, q2.trans o2, q3.trans o3⟩
        cases b with
        | user => trivial
        | rem r'' k'' hs todo pend => exact ⟨hB.1, rfl, hpd _ _ _ hB.2.2⟩
        | wait r'' k'' pend' => exact ⟨hB.1, fun _ _ h => (nomatch h), hpd _ _ _ hB.2.2⟩
    | remPop i r k pend id q hp hq =>
      exact h.workStep i s.tlb _ hp (fun _ _ _ h => h)
        (fun p _ _ hf => absurd hf (no_flush hp (by simp) p)) (work_popped hq (.inl rfl) h.que)
        (que_pop hq h.que)
    | serve i b id q o hp hb hq ho =>
      have hB := h.base i
      rw [hp] at hB
      refine h.quiet i _ s.tlb s.queue _ (fun _ _ _ h => h)
        (fun p _ _ hf => absurd hf (no_flush hp (by simp) p)) ?_ ?_ ?_ ?_ (work_none (by simp)) h.que
      · intro k' r' c p e _ _ _ _ hown
        rw [hp] at hown
        cases b with
        | user => exact hown.elim
        | rem r'' k'' hs todo pend => exact hown
        | wait r'' k'' pend' =>
          obtain ⟨h1, h2⟩ := hown
          refine ⟨h1, ?_⟩
          rcases h2 with h2 | ⟨_, _, e0, _⟩
          · exact .inl h2
          · cases e0
      · cases b with
        | user => trivial
        | rem r'' k'' hs todo pend => exact absurd rfl (hb r'' k'' hs todo pend)
        | wait r'' k'' pend' => exact ⟨hB.1, fun _ h => (nomatch h), hB.2.2⟩
      · intro l e id' hid
        cases e
        cases hid
      · intro id' e
        cases e
        refine ⟨o, ho, ?_, fun c hc p _ _ _ _ => .inl ⟨_, rfl, .inr (.inl hc)⟩⟩
        intro l e
        cases e
        rfl
    | remDrain i r k as bs id o hp ho ha =>
      have hB := h.base i
      rw [hp] at hB
      refine h.quiet i _ s.tlb s.queue s.rqueue (fun _ _ _ h => h)
        (fun p _ _ hf => absurd hf (no_flush hp (by simp) p)) ?_ ?_ (fun _ h => (nomatch h))
        (fun _ h => (nomatch h)) (work_none (by simp)) h.que
      · intro k' r' c p e _ _ _ _ hown
        rw [hp] at hown
        obtain ⟨h1, h2⟩ := hown
        refine ⟨h1, ?_⟩
        rcases h2 with ⟨id', h2, h3⟩ | ⟨_, _, e0, _⟩
        · refine .inl ⟨id', ?_, h3⟩
          rcases List.mem_append.1 h2 with h4 | h4
          · exact List.mem_append.2 (.inl h4)
          · rcases List.mem_cons.1 h4 with h5 | h5
            · subst h5
              obtain ⟨o', p1, _, p3⟩ := h3
              rw [ho] at p1
              cases p1
              rw [ha] at p3
              cases p3
            · exact List.mem_append.2 (.inr h5)
        · cases e0
      · refine ⟨hB.1, fun _ _ h => (nomatch h), fun id' hid => hB.2.2 id' ?_⟩
        rcases List.mem_append.1 hid with h1 | h1
        · exact List.mem_append.2 (.inl h1)
        · exact List.mem_append.2 (.inr (List.mem_cons_of_mem _ h1))
    | finish i r k hp =>
      refine h.quiet i _ s.tlb s.queue s.rqueue (fun _ _ _ h => h)
        (fun p _ _ hf => absurd hf (no_flush hp (by simp) p)) ?_ trivial (fun _ h => (nomatch h))
        (fun _ h => (nomatch h)) (work_none (by simp)) h.que
      intro k' r' c p e _ _ _ _ hown
      rw [hp] at hown
      obtain ⟨h1, h2⟩ := hown
      rcases h2 with ⟨id', h2, h3⟩ | ⟨_, _, e0, _⟩
      · cases h2
      · cases e0
    | irq c id q hp hq =>
      exact h.workStep c s.tlb _ hp (fun _ _ _ h => h)
        (fun p _ _ hf => absurd hf (no_flush hp (by simp) p)) (work_popped hq (.inl rfl) h.que)
        (que_pop hq h.que)
    | ack c b sv l id o hp ho =>
      have hB := h.base c
      have hL := h.loc c
      have hS := h.serve c
      have hW := h.work c id (by rw [hp]; exact .inl rfl)
      rw [hp] at hB hL hS
      obtain ⟨o', w1, w2⟩ := hW
      rw [ho] at w1
      cases w1
      have hnf : ∀ p, ¬ Flushes (s.cpu c) p := no_flush hp (by simp)
      have hself : (s.objs.set id { o with acked := true })[id]? = some { o with acked := true } :=
        get_set_self ho
      have hO : ∀ c' id' o' p, s.objs[id']? = some o' → o'.range.Has p → Unacked s.objs c' id' →
          Unacked (s.objs.set id { o with acked := true }) c' id' ∨
          Flushes (upd s.cpu c ⟨b, sv, l, some (.flushing (flushOf o.range))⟩ c') p := by
        intro c' id' o' p ho' hpr hu
        by_cases ei : id' = id
        · subst ei
          obtain ⟨o1, p1, p2, p3⟩ := hu
          rw [ho] at p1 ho'
          cases p1
          cases ho'
          have : c' = c := p2.symm.trans w2
          subst this
          right
          rw [upd_same]
          exact ⟨_, rfl, flushOf_has _ _ hpr⟩
        · obtain ⟨o1, p1, p2⟩ := hu
          exact .inl ⟨o1, by rw [get_set_ne ei]; exact p1, p2⟩
      have hgO : ∀ (id' : Nat) (o' : Obj), s.objs[id']? = some o' →
          ∃ o'', (s.objs.set id { o with acked := true })[id']? = some o'' ∧ o''.range = o'.range ∧
            o''.target = o'.target := by
        intro id' o' ho'
        by_cases ei : id' = id
        · subst ei
          rw [ho] at ho'
          cases ho'
          exact ⟨_, hself, rfl, rfl⟩
        · exact ⟨o', by rw [get_set_ne ei]; exact ho', rfl, rfl⟩
      have hloc : ∀ l0 c' p, l = some l0 → l0.r.Has p → LocOwes s.objs c l0 c' p →
          LocOwes (s.objs.set id { o with acked := true }) c l0 c' p ∨
          Flushes (upd s.cpu c ⟨b, sv, l, some (.flushing (flushOf o.range))⟩ c') p := by
        intro l0 c' p e0 hpr hlo
        refine hlo.keep (fun id' hid' hun => ?_)
        obtain ⟨q, q1, q2⟩ := hL l0 e0 id' hid'
        exact hO c' id' q p q1 (by rw [q2]; exact hpr) hun
      refine h.next c ⟨b, sv, l, some (.flushing (flushOf o.range))⟩ rfl rfl rfl (fun _ _ _ h => h)
        (fun p _ _ hf => absurd hf (hnf p)) hO (fun _ _ _ _ _ _ _ _ _ h => .inl h) hgO
        (fun id o h => ⟨o, h, rfl, rfl, rfl⟩) ?_ h.robj hB ?_ ?_ (work_none (by simp)) ?_
      · intro k r c' p e hk hr he hle hown
        rw [hp] at hown
        cases b with
        | user => exact hown.elim
        | rem r'' k'' hs todo pend => exact .inl hown
        | wait r'' k'' pend' =>
          obtain ⟨h1, h2⟩ := hown
          have h1 : k'' = k := h1
          subst h1
          obtain ⟨b1, b3, b2⟩ := hB
          have : r'' = r := by rw [b1] at hk; cases hk; rfl
          subst this
          rcases h2 with h2 | ⟨h2, l0, e0, h3⟩
          · exact .inl ⟨rfl, .inl h2⟩
          · rcases hloc l0 c' p e0 (by rw [b3 l0 h2 e0]; exact hr) h3 with h4 | h4
            · exact .inl ⟨rfl, .inr ⟨h2, l0, e0, h4⟩⟩
            · exact .inr h4
      · intro l0 e0 id' hid'
        obtain ⟨q, q1, q2⟩ := hL l0 e0 id' hid'
        obtain ⟨q', r1, r2, _⟩ := hgO id' q q1
        exact ⟨q', r1, r2.trans q2⟩
      · intro id' hid'
        obtain ⟨q, q1, q2, q3⟩ := hS id' hid'
        refine ⟨q, q1, q2, fun c' hc' p e hpr he hle => ?_⟩
        rcases q3 c' hc' p e hpr he hle with ⟨l0, e0, h0⟩ | hf
        · rcases hloc l0 c' p e0 (by rw [q2 l0 e0]; exact hpr) h0 with h4 | h4
          · exact .inl ⟨l0, e0, h4⟩
          · exact .inr h4
        · right
          show Flushes (upd s.cpu c _ c') p
          rw [upd_apply]
          split
          · next ec => subst ec; exact absurd hf (hnf p)
          · exact hf
      · intro c' id' hid'
        obtain ⟨q, q1, q2⟩ := h.que c' id' hid'
        obtain ⟨q', r1, _, r2⟩ := hgO id' q q1
        exact ⟨q', r1, r2.trans q2⟩
    | flushPage c b sv l x ps hp =>
      refine h.workStep c _ s.queue hp (fun _ _ _ h => page_drop h) ?_ (work_none (by simp)) h.que
      rintro p e he ⟨fl, h1, h2⟩
      rw [hp] at h1
      cases h1
      refine ⟨_, rfl, ?_⟩
      rcases List.mem_cons.1 h2 with h3 | h3
      · exact absurd h3 (page_gone he)
      · exact h3
    | flushAll c b sv l hp =>
      exact h.workStep c _ s.queue hp (fun _ _ _ h => all_drop h) (fun p e he _ => (all_gone he).elim)
        (work_none (by simp)) h.que
    | flushDone c b sv l hp =>
      refine h.workStep c s.tlb s.queue hp (fun _ _ _ h => h) ?_ (work_none (by simp)) h.que
      rintro p e he ⟨fl, h1, h2⟩
      rw [hp] at h1
      cases h1
      cases h2
    | eagerPop c id q hp hq =>
      exact h.workStep c s.tlb _ hp (fun _ _ _ h => h)
        (fun p _ _ hf => absurd hf (no_flush hp (by simp) p)) (work_popped hq (.inr rfl) h.que)
        (que_pop hq h.que)
    | eagerPush c id hp hq =>
      refine h.workStep c s.tlb _ hp (fun _ _ _ h => h)
        (fun p _ _ hf => absurd hf (no_flush hp (by simp) p)) (work_none (by simp)) ?_
      intro c' id' hid
      rw [upd_apply] at hid
      split at hid
      · next e =>
        subst e
        rcases List.mem_append.1 hid with h1 | h1
        · exact h.que c' id' h1
        · rw [List.mem_singleton.1 h1]
          exact h.work c' id (by rw [hp]; exact .inr rfl)
      · exact h.que c' id' hid
    | eagerFull c id hp hq =>
      exact h.workStep c s.tlb s.queue hp (fun _ _ _ h => h)
        (fun p _ _ hf => absurd hf (no_flush hp (by simp) p)) (work_none (by simp)) h.que

end NRK.Tlb.Rack
