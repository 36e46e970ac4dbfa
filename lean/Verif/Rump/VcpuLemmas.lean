import Verif.Rump.VcpuSpec

namespace NRK.Rump.Vcpu
open Spec

theorem acts_nowrap (m : Mutex) (n : Nat) (x : Th) (l : List Act) :
    x.acts (m.nowrap n ++ l) = ({ x with has := m.id :: x.has } : Th).acts l := by
  induction n with
  | zero => rfl
  | succ n ih =>
    show x.acts (m.nowrap n ++ l) = _
    exact ih

theorem mem_trace_nowrap (m : Mutex) (n : Nat) (x : Th) (l : List Act) (p : Act × Th) :
    p ∈ x.trace (m.nowrap n ++ l) ↔
      (p = (.spin m.id, x) ∧ 0 < n) ∨ p = (.take m.id, x) ∨
        p ∈ ({ x with has := m.id :: x.has } : Th).trace l := by
  induction n with
  | zero =>
    show p ∈ (Act.take m.id, x) :: _ ↔ _
    simp only [List.mem_cons, Nat.lt_irrefl, and_false, false_or]
    rfl
  | succ n ih =>
    show p ∈ (Act.spin m.id, x) :: x.trace (m.nowrap n ++ l) ↔ _
    rw [List.mem_cons, ih]
    constructor
    · rintro (h | ⟨h, _⟩ | h)
      · exact .inl ⟨h, Nat.succ_pos n⟩
      · exact .inl ⟨h, Nat.succ_pos n⟩
      · exact .inr h
    · rintro (⟨h, _⟩ | h)
      · exact .inl h
      · exact .inr (.inr h)

theorem acts_nowrap' (m : Mutex) (n : Nat) (x : Th) :
    x.acts (m.nowrap n) = .ok { x with has := m.id :: x.has } := by
  have := acts_nowrap m n x []
  rwa [List.append_nil] at this

theorem mem_trace_nowrap' (m : Mutex) (n : Nat) (x : Th) (p : Act × Th) :
    p ∈ x.trace (m.nowrap n) ↔ (p = (.spin m.id, x) ∧ 0 < n) ∨ p = (.take m.id, x) := by
  have := mem_trace_nowrap m n x [] p
  rw [List.append_nil] at this
  rw [this]
  simp [Th.trace]

/-- Whenever the thread waits it has no virtual CPU. -/
def Quiet (x : Th) (l : List Act) : Prop := ∀ p ∈ x.trace l, Waits p.1 → p.2.cpu = none

theorem quiet_nil (x : Th) : Quiet x [] := fun _ hp => absurd hp (List.not_mem_nil)

theorem quiet_cons {x : Th} {a : Act} {l : List Act} :
    Quiet x (a :: l) ↔ (Waits a → x.cpu = none) ∧ ∀ y, x.act a = .ok y → Quiet y l := by
  unfold Quiet
  simp only [Th.trace, List.mem_cons]
  constructor
  · intro h
    refine ⟨fun w => h (a, x) (.inl rfl) w, fun y hy p hp => h p (.inr ?_)⟩
    rw [hy]; exact hp
  · rintro ⟨h1, h2⟩ p (rfl | hp)
    · exact h1
    · cases hy : x.act a with
      | ok y => rw [hy] at hp; exact h2 y hy p hp
      | err e => rw [hy] at hp; exact absurd hp (List.not_mem_nil)
      | panic => rw [hy] at hp; exact absurd hp (List.not_mem_nil)

theorem quiet_nowrap {m : Mutex} {n : Nat} {x : Th} {l : List Act}
    (h : Quiet { x with has := m.id :: x.has } l) : Quiet x (m.nowrap n ++ l) := by
  intro p hp w
  rcases (mem_trace_nowrap m n x l p).1 hp with ⟨rfl, _⟩ | rfl | hp
  · rcases w with w | w <;> cases w
  · rcases w with w | w <;> cases w
  · exact h p hp w

theorem quiet_nowrap' {m : Mutex} {n : Nat} {x : Th} : Quiet x (m.nowrap n) := by
  have := quiet_nowrap (m := m) (n := n) (x := x) (quiet_nil _)
  rwa [List.append_nil] at this

theorem not_waits {a : Act} (h1 : a ≠ .block) (h2 : a ≠ .sleep) : ¬ Waits a := fun h => h.elim h1 h2

/-- Taking a mutex with `enter`. -/
theorem enter_cases {m : Mutex} {held : Bool} {n : Nat} {l : List Act} (h : m.enter held n = .ok l) :
    l = m.nowrap n ∨ l = [.take m.id] ∨ l = [.setRid 0, .unsched 0 none, .block, .take m.id, .sched none] := by
  unfold Mutex.enter at h
  cases hs : m.spin <;> rw [hs] at h
  · cases hk : m.kmutex <;> rw [hk] at h
    · exact absurd h (by simp)
    · cases held
      · simp at h; exact .inr (.inl h.symm)
      · simp at h; exact .inr (.inr h.symm)
  · simp at h; exact .inl h.symm

theorem acts_append (x : Th) (l k : List Act) :
    x.acts (l ++ k) = match x.acts l with
      | .ok y => y.acts k
      | .err e => .err e
      | .panic => .panic := by
  induction l generalizing x with
  | nil => rfl
  | cons a l ih =>
    have e : ∀ l, x.acts (a :: l) = match x.act a with
      | .ok s => s.acts l | .err e => .err e | .panic => .panic := fun _ => rfl
    rw [List.cons_append, e, e]
    cases h : x.act a with
    | ok y => exact ih y
    | err e => rfl
    | panic => rfl

theorem mem_trace_append {x : Th} {l k : List Act} {p : Act × Th} (h : p ∈ x.trace (l ++ k)) :
    p ∈ x.trace l ∨ ∃ y, x.acts l = .ok y ∧ p ∈ y.trace k := by
  induction l generalizing x with
  | nil => exact .inr ⟨x, rfl, h⟩
  | cons a l ih =>
    have h : p ∈ (a, x) :: match x.act a with | .ok s => s.trace (l ++ k) | _ => [] := h
    rcases List.mem_cons.1 h with h | h
    · exact .inl (List.mem_cons.2 (.inl h))
    · cases hy : x.act a with
      | ok y =>
        rw [hy] at h
        rcases ih h with h' | ⟨z, hz, h'⟩
        · left
          show p ∈ (a, x) :: match x.act a with | .ok s => s.trace l | _ => []
          rw [hy]; exact List.mem_cons.2 (.inr h')
        · right
          refine ⟨z, ?_, h'⟩
          unfold Th.acts; rw [hy]; exact hz
      | err e => rw [hy] at h; exact absurd h (List.not_mem_nil)
      | panic => rw [hy] at h; exact absurd h (List.not_mem_nil)

theorem quiet_append {x : Th} {l k : List Act} (h : Quiet x l) (hk : ∀ y, x.acts l = .ok y → Quiet y k) :
    Quiet x (l ++ k) := by
  intro p hp w
  rcases mem_trace_append hp with hp | ⟨y, hy, hp⟩
  · exact h p hp w
  · exact hk y hy p hp w

theorem enter_acts {m : Mutex} {held : Bool} {n : Nat} {l : List Act} (h : m.enter held n = .ok l) (x : Th) (d : Nat)
    (hc : x.cpu = some d) :
    ∃ y, x.acts l = .ok y ∧ y.cpu = some d ∧ y.has = m.id :: x.has := by
  obtain ⟨cpu, rid, has⟩ := x
  cases hc
  rcases enter_cases h with rfl | rfl | rfl
  · exact ⟨_, acts_nowrap' m n _, rfl, rfl⟩
  · exact ⟨_, rfl, rfl, rfl⟩
  · exact ⟨⟨some d, d, m.id :: has⟩, by simp [Th.acts, Th.act], rfl, rfl⟩

theorem enter_quiet {m : Mutex} {held : Bool} {n : Nat} {l : List Act} (h : m.enter held n = .ok l) (x : Th) :
    Quiet x l := by
  rcases enter_cases h with rfl | rfl | rfl
  · exact quiet_nowrap'
  · exact quiet_cons.2 ⟨fun w => absurd w (not_waits (by simp) (by simp)), fun y _ => quiet_nil y⟩
  · intro p hp w
    obtain ⟨cpu, rid, has⟩ := x
    cases cpu <;> simp [Th.trace, Th.act] at hp
    · rcases hp with rfl | rfl <;> rcases w with w | w <;> cases w
    · rcases hp with rfl | rfl | rfl | rfl | rfl <;> first | rfl | (rcases w with w | w <;> cases w)

/-- Waiting on a condition variable. -/
theorem cvWait_cases {m : Mutex} {timed : Bool} {n : Nat} {l : List Act} (h : m.cvWait timed n = .ok l) :
    ∃ w, (w = .block ∨ w = .sleep) ∧
      ((m.spin = true ∧ m.kmutex = true ∧
        l = [.setRid 0, .unsched 0 (some m.id), .leave m.id, w, .sched (some m.id)] ++ m.nowrap n) ∨
      ((m.spin = false ∨ m.kmutex = false) ∧ (m.spin = true ∨ m.kmutex = true) ∧
        l = [.setRid 0, .unsched 0 (some m.id), .leave m.id, w] ++ (m.nowrap n ++ [.sched (some m.id)]))) := by
  refine ⟨if timed then .sleep else .block, by cases timed <;> simp, ?_⟩
  unfold Mutex.cvWait Mutex.cvScheduleEnter Mutex.cvMutexEnter at h
  cases hs : m.spin <;> cases hk : m.kmutex <;> rw [hs, hk] at h <;> simp at h
  · exact .inr ⟨.inl rfl, .inr rfl, h.symm⟩
  · exact .inr ⟨.inr rfl, .inl rfl, h.symm⟩
  · exact .inl ⟨rfl, rfl, h.symm⟩

end NRK.Rump.Vcpu
