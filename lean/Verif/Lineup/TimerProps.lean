import Verif.Lineup.SchedModel

/-!
# Property C53: timers of the user-level scheduler
-/

namespace NRK.Lineup.Sched

/-! ## Specification -/

/-- The list of sleeping threads of a core, each with its deadline, is in descending order (the
earliest deadline is the last), without duplicates. -/
def Desc (l : List (Nat × Nat)) : Prop := l.Pairwise later

/-- The clock does not go back. -/
def Monotone (clock : Nat → Nat) : Prop := ∀ i, clock i ≤ clock (i + 1)

/-! ## The list stays sorted -/

theorem later_trans {x y z : Nat × Nat} (h : later x y) (h' : later y z) : later x z := by
  unfold later at *; omega

theorem later_total {x y : Nat × Nat} (h : x ≠ y) (h' : ¬ later x y) : later y x := by
  unfold later at *
  have : ¬ (x.1 = y.1 ∧ x.2 = y.2) := fun e => h (Prod.ext e.1 e.2)
  omega

theorem insertDesc_mem {x : Nat × Nat} {l l' : List (Nat × Nat)} (h : insertDesc x l = some l')
    (y : Nat × Nat) : y ∈ l' ↔ y = x ∨ y ∈ l := by
  induction l generalizing l' with
  | nil => simp only [insertDesc, Option.some.injEq] at h; subst h; simp
  | cons z l ih =>
    simp only [insertDesc] at h
    split at h
    · cases h
    · split at h
      · cases h; simp
      · cases hr : insertDesc x l with
        | none => rw [hr] at h; cases h
        | some l'' =>
          rw [hr] at h; cases h
          have := ih hr
          simp only [List.mem_cons, this]
          grind

theorem insertDesc_desc {x : Nat × Nat} {l l' : List (Nat × Nat)} (h : insertDesc x l = some l')
    (hl : Desc l) : Desc l' := by
  induction l generalizing l' with
  | nil => simp only [insertDesc, Option.some.injEq] at h; subst h; simp [Desc]
  | cons z l ih =>
    simp only [insertDesc] at h
    have hz := List.pairwise_cons.1 hl
    split at h
    · cases h
    · rename_i hne
      split at h
      · rename_i hlt
        cases h
        refine List.pairwise_cons.2 ⟨?_, hl⟩
        intro y hy
        rcases List.mem_cons.1 hy with e | e
        · rw [e]; exact hlt
        · exact later_trans hlt (hz.1 y e)
      · rename_i hge
        cases hr : insertDesc x l with
        | none => rw [hr] at h; cases h
        | some l'' =>
          rw [hr] at h; cases h
          refine List.pairwise_cons.2 ⟨?_, ih hr hz.2⟩
          intro y hy
          rcases (insertDesc_mem hr y).1 hy with e | e
          · rw [e]; exact later_total hne hge
          · exact hz.1 y e

theorem insertDesc_none {x : Nat × Nat} {l : List (Nat × Nat)} (hl : Desc l) :
    insertDesc x l = none ↔ x ∈ l := by
  induction l with
  | nil => simp [insertDesc]
  | cons z l ih =>
    have hz := List.pairwise_cons.1 hl
    have ih := ih hz.2
    simp only [insertDesc]
    by_cases e : x = z
    · simp [e]
    · by_cases hlt : later x z
      · simp only [e, hlt, if_false, if_true, List.mem_cons, false_or]
        constructor
        · nofun
        · intro hm
          have h1 := hz.1 x hm
          unfold later at h1 hlt; omega
      · simp only [e, hlt, if_false, List.mem_cons, false_or]
        rw [← ih]
        cases insertDesc x l <;> simp

theorem wakeJoiners_waiting (s : St) (l : List (Nat × Nat)) :
    (s.wakeJoiners l).waiting = s.waiting := by
  induction l generalizing s with
  | nil => rfl
  | cons x l ih => obtain ⟨t, c⟩ := x; exact ih _

theorem wake_desc {s s' : St} {r : Nat} (hs : ∀ c, Desc (s.waiting c)) (h : s.wake r = .ok s') :
    ∀ c, Desc (s'.waiting c) := by
  unfold St.wake at h
  split at h
  · cases h
  · cases h
    intro c
    simp only [St.markRunnable, St.waitRemove, upd_apply]
    split
    · exact (hs _).filter _
    · exact hs c

theorem wakeAll_desc {s s' : St} {l : List Nat} (hs : ∀ c, Desc (s.waiting c))
    (h : s.wakeAll l = .ok s') : ∀ c, Desc (s'.waiting c) := by
  induction l generalizing s with
  | nil => cases h; exact hs
  | cons r l ih =>
    simp only [St.wakeAll] at h
    cases hr : s.wake r <;> rw [hr] at h <;> first | cases h | skip
    exact ih (wake_desc hs hr) h

theorem checkLoop_desc {c : Nat} {clock : Nat → Nat} {i f : Nat} {s : St}
    (hs : ∀ c, Desc (s.waiting c)) : ∀ b, Desc ((St.checkLoop c clock i f s).waiting b) := by
  induction f generalizing i s with
  | zero => exact hs
  | succ f ih =>
    simp only [St.checkLoop]
    split
    · exact hs
    · split
      · apply ih
        intro b
        simp only [St.markRunnable, upd_apply]
        split
        · exact (hs _).sublist (List.dropLast_sublist _)
        · exact hs b
      · exact hs

theorem spawn_waiting {s s' : St} {c : Nat} {irq u : Option Nat}
    (h : s.spawn c irq = .ok (s', u)) : s'.waiting = s.waiting := by
  simp only [St.spawn] at h
  split at h
  · cases h
  · split at h
    · split at h <;> cases h <;> rfl
    · cases h; rfl

theorem handle_desc {s s' : St} {t : Nat} {r : Option Req} {x : Resume}
    (hs : ∀ c, Desc (s.waiting c)) (h : s.handle t r = .ok (s', x)) :
    ∀ c, Desc (s'.waiting c) := by
  unfold St.handle at h
  split at h
  · cases h
  · rename_i th hth
    split at h
    · cases h
      rw [wakeJoiners_waiting]; exact hs
    · cases h; exact hs
    · rename_i r
      cases hr : s.wake r <;> rw [hr] at h <;> cases h
      exact wake_desc hs hr
    · split at h
      · cases h
      · split at h <;> cases h <;> exact hs
    · rename_i l
      cases hr : s.wakeAll l <;> rw [hr] at h <;> cases h
      exact wakeAll_desc hs hr
    · rename_i d
      simp only [St.waitInsert] at h
      cases hi : insertDesc (d, t) (s.waiting th.affinity) <;> rw [hi] at h <;> cases h
      intro c
      simp only [upd_apply]
      split
      · exact insertDesc_desc hi (hs _)
      · exact hs c
    · split at h <;> cases h <;> exact hs
    · rename_i c irq
      split at h
      · rename_i s'' u hu
        cases h
        rw [spawn_waiting hu]; exact hs
      · cases h
      · cases h
      · cases h

theorem act_desc {s s' : St} {a : Act} (hs : ∀ c, Desc (s.waiting c)) (h : s.act a = .ok s') :
    ∀ c, Desc (s'.waiting c) := by
  cases a with
  | start c irq =>
    simp only [St.act] at h
    split at h
    · rename_i s'' u hu; cases h; rw [spawn_waiting hu]; exact hs
    · cases h
    · cases h
  | interrupt c v =>
    simp only [St.act, St.interrupt] at h
    split at h <;> cases h <;> exact hs
  | check c clock => cases h; exact checkLoop_desc hs
  | dispatch c =>
    simp only [St.act, St.dispatch] at h
    split at h
    · cases h; exact hs
    · cases h; exact hs
    · split at h <;> cases h; exact hs
  | yield c r =>
    simp only [St.act, St.yield] at h
    split at h
    · cases h; exact hs
    · split at h
      · rename_i hh
        have hd := handle_desc hs hh
        split at h <;> cases h
        exact hd
      · rename_i hh
        have hd := handle_desc hs hh
        cases h; exact hd
      · rename_i hh
        have hd := handle_desc hs hh
        cases h; exact hd
      · cases h
      · cases h

/-- The list of sleeping threads is sorted in every reachable state, so that the contract of
`binary_search_by` applies. -/
theorem waiting_sorted {s : St} (r : Reach s) (c : Nat) : Desc (s.waiting c) := by
  induction r generalizing c with
  | init => exact .nil
  | step a _ h ih => exact act_desc (fun c => ih c) h c

/-! ## The check -/

theorem getLast?_dropLast {α : Type} {l : List α} {x : α} (h : l.getLast? = some x) :
    l = l.dropLast ++ [x] := by
  rw [List.getLast?_eq_some_iff] at h
  obtain ⟨l', rfl⟩ := h
  simp

theorem checkLoop_spec {c : Nat} {clock : Nat → Nat} {i f : Nat} {s : St}
    (hf : (s.waiting c).length ≤ f) :
    ∃ woken : List (Nat × Nat),
      s.waiting c = (St.checkLoop c clock i f s).waiting c ++ woken.reverse ∧
      (St.checkLoop c clock i f s).queue c = s.queue c ++ woken.map (·.2) ∧
      (∀ j (h : j < woken.length), woken[j].1 ≤ clock (i + j)) ∧
      (∀ e, ((St.checkLoop c clock i f s).waiting c).getLast? = some e →
        clock (i + woken.length) < e.1) ∧
      (∀ b, b ≠ c → (St.checkLoop c clock i f s).waiting b = s.waiting b ∧
        (St.checkLoop c clock i f s).queue b = s.queue b) := by
  induction f generalizing i s with
  | zero =>
    have : s.waiting c = [] := List.length_eq_zero_iff.1 (by omega)
    refine ⟨[], by simp [St.checkLoop], by simp [St.checkLoop], by simp, ?_, ?_⟩
    · intro e he; simp [St.checkLoop, this] at he
    · intro b _; exact ⟨rfl, rfl⟩
  | succ f ih =>
    simp only [St.checkLoop]
    cases hl : (s.waiting c).getLast? with
    | none =>
      refine ⟨[], by simp, by simp, by simp, ?_, ?_⟩
      · intro e he; simp only [hl] at he; cases he
      · intro b _; exact ⟨rfl, rfl⟩
    | some e =>
      obtain ⟨d, t⟩ := e
      simp only
      by_cases hd : d ≤ clock i
      · rw [if_pos hd]
        have hsplit := getLast?_dropLast hl
        have hlen : (s.waiting c).dropLast.length ≤ f := by
          have : (s.waiting c).dropLast.length = (s.waiting c).length - 1 := List.length_dropLast
          omega
        obtain ⟨w, w1, w2, w3, w4, w5⟩ := ih (i := i + 1)
          (s := { s with waiting := upd s.waiting c (s.waiting c).dropLast }.markRunnable t c)
          (by simp only [St.markRunnable, upd_same]; exact hlen)
        simp only [St.markRunnable, upd_same] at w1 w2 w3 w4 w5
        refine ⟨(d, t) :: w, ?_, ?_, ?_, ?_, ?_⟩
        · rw [hsplit]
          conv => lhs; rw [w1]
          simp [St.markRunnable]
        · simp only [St.markRunnable]; rw [w2]; simp
        · intro j hj
          cases j with
          | zero => simpa using hd
          | succ j =>
            have hj : j < w.length := by simpa using hj
            have := w3 j hj
            simp only [List.getElem_cons_succ]
            rw [show i + (j + 1) = i + 1 + j by omega]; exact this
        · intro e he
          have := w4 e he
          simp only [List.length_cons]
          rw [show i + (w.length + 1) = i + 1 + w.length by omega]; exact this
        · intro b hb
          have := w5 b hb
          simp only [St.markRunnable, upd_other _ _ hb] at this ⊢
          exact this
      · rw [if_neg hd]
        refine ⟨[], by simp, by simp, by simp, ?_, ?_⟩
        · intro e he
          rw [hl] at he; cases he
          simp only [List.length_nil, Nat.add_zero]; omega
        · intro b _; exact ⟨rfl, rfl⟩

/-- C53.  A check on core `c` makes a list `woken` of sleeping threads runnable, in this order, and
leaves the others asleep: it wakes only threads whose deadline the clock shows to have passed;
earlier deadlines come first; if the clock does not go back, every thread whose deadline had passed
at the beginning of the check is woken; and other cores are not touched. -/
theorem c53_check {s : St} (r : Reach s) (c : Nat) (clock : Nat → Nat) :
    ∃ woken : List (Nat × Nat),
      (∀ e, e ∈ s.waiting c ↔ e ∈ (s.check c clock).waiting c ∨ e ∈ woken) ∧
      (∀ e, e ∈ woken → e ∉ (s.check c clock).waiting c) ∧
      (s.check c clock).queue c = s.queue c ++ woken.map (·.2) ∧
      (∀ j (h : j < woken.length), woken[j].1 ≤ clock j) ∧
      woken.Pairwise (fun a b => a.1 ≤ b.1) ∧
      (Monotone clock → ∀ e, e ∈ (s.check c clock).waiting c → clock 0 < e.1) ∧
      (∀ b, b ≠ c → (s.check c clock).waiting b = s.waiting b ∧
        (s.check c clock).queue b = s.queue b) := by
  obtain ⟨w, w1, w2, w3, w4, w5⟩ :=
    checkLoop_spec (c := c) (clock := clock) (i := 0) (s := s) (Nat.le_refl _)
  have hd := waiting_sorted r c
  unfold St.check
  rw [w1] at hd
  have hd' := List.pairwise_append.1 hd
  refine ⟨w, ?_, ?_, w2, ?_, ?_, ?_, w5⟩
  · intro e
    have : e ∈ s.waiting c ↔
        e ∈ (St.checkLoop c clock 0 (s.waiting c).length s).waiting c ++ w.reverse := by
      rw [← w1]
    rw [this]; simp
  · intro e he hm
    have := hd'.2.2 e hm e (by simpa using he)
    unfold later at this; omega
  · intro j hj; simpa using w3 j hj
  · have := hd'.2.1
    rw [List.pairwise_reverse] at this
    refine this.imp ?_
    intro a b h; unfold later at h; omega
  · intro hm e he
    have hlast : ∃ x, ((St.checkLoop c clock 0 (s.waiting c).length s).waiting c).getLast? = some x
        := by
      cases hx : ((St.checkLoop c clock 0 (s.waiting c).length s).waiting c).getLast? with
      | none => rw [List.getLast?_eq_none_iff] at hx; rw [hx] at he; cases he
      | some x => exact ⟨x, rfl⟩
    obtain ⟨x, hx⟩ := hlast
    have h1 := w4 x hx
    have h2 : x.1 ≤ e.1 := by
      have hs := getLast?_dropLast hx
      rw [hs] at hd' he
      rcases List.mem_append.1 he with h | h
      · have := (List.pairwise_append.1 hd'.1).2.2 e h x (by simp)
        unfold later at this; omega
      · rw [List.mem_singleton] at h; rw [h]; exact Nat.le_refl _
    have h3 : ∀ k, clock 0 ≤ clock k := by
      intro k
      induction k with
      | zero => exact Nat.le_refl _
      | succ k ih => exact Nat.le_trans ih (hm k)
    have := h3 (0 + w.length)
    omega

end NRK.Lineup.Sched
