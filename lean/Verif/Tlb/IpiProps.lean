import Verif.Tlb.IpiModel

/-! # C69: work announced to a core is done -/

namespace NRK.Tlb.Ipi

/-! ## Specification -/

/-- The requests that were sent. -/
def posted : List Ev → List Nat
  | [] => []
  | .post id :: evs => id :: posted evs
  | _ :: evs => posted evs

/-- The core runs the user program and no interrupt waits: it will not look at its queue. -/
def Quiet (c : Core) : Prop := c.kernel = false ∧ c.waiting = false

/-- How many requests were sent while the interrupt of an earlier one still waited. -/
def merged (c : Core) : List Ev → Nat
  | [] => 0
  | .post id :: evs => (if c.waiting then 1 else 0) + merged (step c (.post id)) evs
  | e :: evs => merged (step c e) evs

/-! ## Theorems -/

theorem run_cons (c : Core) (e : Ev) (evs : List Ev) : run c (e :: evs) = run (step c e) evs := rfl

theorem step_split (c : Core) (e : Ev) (he : ∀ id, e ≠ .post id) :
    (step c e).done ++ (step c e).queue = c.done ++ c.queue := by
  cases e with
  | post id => exact absurd rfl (he id)
  | enter => rfl
  | leave => rfl
  | interrupt =>
    show (if _ then _ else _ : Core).done ++ (if _ then _ else _ : Core).queue = _
    split
    · unfold dequeue
      cases hq : c.queue with
      | nil => simp [hq]
      | cons id q => simp [hq]
    · rfl

/-- **C69**: requests are done in the order they were sent, none is lost, none is done twice. -/
theorem c69_order (evs : List Ev) :
    (run Core.init evs).done ++ (run Core.init evs).queue = posted evs := by
  suffices h : ∀ (evs : List Ev) (c : Core),
      (run c evs).done ++ (run c evs).queue = c.done ++ c.queue ++ posted evs by
    have := h evs Core.init
    simpa [Core.init] using this
  intro evs
  induction evs with
  | nil => intro c; simp [run, posted]
  | cons e evs ih =>
    intro c
    rw [run_cons, ih]
    by_cases he : ∃ id, e = .post id
    · obtain ⟨id, rfl⟩ := he
      simp [step, posted, List.append_assoc]
    · have he : ∀ id, e ≠ .post id := fun id h => he ⟨id, h⟩
      rw [step_split c e he]
      cases e with
      | post id => exact absurd rfl (he id)
      | enter => rfl
      | leave => rfl
      | interrupt => rfl

theorem step_count (c : Core) (e : Ev) (he : ∀ id, e ≠ .post id) (n : Nat)
    (h : c.queue.length = n + (if c.waiting then 1 else 0)) :
    (step c e).queue.length = n + (if (step c e).waiting then 1 else 0) := by
  cases e with
  | post id => exact absurd rfl (he id)
  | enter => exact h
  | leave => exact h
  | interrupt =>
    show (if _ then _ else _ : Core).queue.length = n + (if (if _ then _ else _ : Core).waiting then 1 else 0)
    split
    · next hc =>
      rw [hc.2] at h
      unfold dequeue
      cases hq : c.queue with
      | nil => rw [hq] at h; simp at h
      | cons id q =>
        rw [hq] at h
        simp at h
        simp [h]
    · exact h

/-- **C69**, exactly: when the core runs the user program and no interrupt waits, as many requests are
left undone as were sent while an interrupt already waited. -/
theorem c69_left (evs : List Ev) (hq : Quiet (run Core.init evs)) :
    (run Core.init evs).queue.length = merged Core.init evs := by
  suffices h : ∀ (evs : List Ev) (c : Core) (n : Nat), c.queue.length = n + (if c.waiting then 1 else 0) →
      (run c evs).queue.length = n + merged c evs + (if (run c evs).waiting then 1 else 0) by
    have := h evs Core.init 0 rfl
    rw [hq.2] at this
    simpa using this
  intro evs
  induction evs with
  | nil => intro c n h; exact h
  | cons e evs ih =>
    intro c n h
    rw [run_cons]
    by_cases he : ∃ id, e = .post id
    · obtain ⟨id, rfl⟩ := he
      rw [ih (step c (.post id)) (n + (if c.waiting then 1 else 0))]
      · simp only [merged]
        omega
      · simp [step, h]
    · have he : ∀ id, e ≠ .post id := fun id h => he ⟨id, h⟩
      rw [ih (step c e) n (step_count c e he n h)]
      cases e with
      | post id => exact absurd rfl (he id)
      | enter => rfl
      | leave => rfl
      | interrupt => rfl

/-- **C69** if no request is sent while the interrupt of another one waits: when the core runs the user
program and no interrupt waits, all requests have been done.  Missing: requests that come together; see
`c69_merged`. -/
theorem c69_done_partial (evs : List Ev) (hm : merged Core.init evs = 0) (hq : Quiet (run Core.init evs)) :
    (run Core.init evs).done = posted evs := by
  have h1 := c69_left evs hq
  rw [hm] at h1
  have h2 := c69_order evs
  rw [List.length_eq_zero_iff.1 h1, List.append_nil] at h2
  exact h2

/-- A core that runs the user program takes a waiting interrupt, which does the first request. -/
theorem c69_taken (id : Nat) (q d : List Nat) :
    step ⟨id :: q, true, false, d⟩ .interrupt = ⟨q, false, false, d ++ [id]⟩ := rfl

/-- A request that was left is not done before another one is sent, whatever the core does. -/
theorem c69_stuck (c : Core) (hq : c.waiting = false) (evs : List Ev) (hp : posted evs = []) :
    (run c evs).done = c.done ∧ (run c evs).queue = c.queue ∧ (run c evs).waiting = false := by
  induction evs generalizing c with
  | nil => exact ⟨rfl, rfl, hq⟩
  | cons e evs ih =>
    rw [run_cons]
    cases e with
    | post id => cases hp
    | enter => exact ih (step c .enter) hq hp
    | leave => exact ih (step c .leave) hq hp
    | interrupt =>
      have hs : step c .interrupt = c := if_neg (by simp [hq])
      rw [hs]
      exact ih c hq hp

/-- **C69** is false when two requests reach a core while it is in the kernel: one interrupt waits, the
handler does one request, and the other one stays in the queue for as long as no further request is sent;
the core that sent it waits for ever. -/
theorem c69_merged (a b : Nat) :
    Quiet (run Core.init [.enter, .post a, .post b, .leave, .interrupt]) ∧
    (run Core.init [.enter, .post a, .post b, .leave, .interrupt]).done = [a] ∧
    ∀ evs, posted evs = [] →
      (run (run Core.init [.enter, .post a, .post b, .leave, .interrupt]) evs).done = [a] ∧
      (run (run Core.init [.enter, .post a, .post b, .leave, .interrupt]) evs).queue = [b] := by
  refine ⟨⟨rfl, rfl⟩, rfl, fun evs hp => ?_⟩
  obtain ⟨h1, h2, _⟩ := c69_stuck (run Core.init [.enter, .post a, .post b, .leave, .interrupt]) rfl evs hp
  exact ⟨h1, h2⟩

/-- The hypotheses of `c69_done_partial` are met by a run with three requests. -/
example (a b c : Nat) :
    let evs : List Ev := [.post a, .interrupt, .enter, .post b, .leave, .interrupt, .post c, .enter, .leave,
      .interrupt]
    merged Core.init evs = 0 ∧ Quiet (run Core.init evs) ∧ posted evs = [a, b, c] :=
  ⟨rfl, ⟨rfl, rfl⟩, rfl⟩

end NRK.Tlb.Ipi
