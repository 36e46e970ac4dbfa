import Verif.Lineup.SemModel
import Verif.Sync.Count

/-!
# Property C51: the user-level semaphore
-/

namespace NRK.Lineup.Sem

open NRK.Sync

/-! ## Specification -/

/-- The number of `up` operations. -/
def ups (h : List Ev) : Nat := h.count .up

/-- The number of completed `down` operations. -/
def downs (h : List Ev) : Nat := h.count .down

/-- The permits given since the last `down` (the latest event is the first of the list). -/
def fresh (k : Int) : List Ev → Int
  | [] => k
  | .up :: h => fresh k h + 1
  | .down :: _ => 0

/-! ## Invariant -/

def Pc.inM : Pc → Bool
  | .upAdd | .upSignal | .leave | .downTest | .downSub _ => true
  | _ => false

/-- Has an unused signal. -/
def Pc.owed : Pc → Bool
  | .upSignal | .woken | .downSub true => true
  | _ => false

/-- Will take the permits, or pass them on. -/
def Pc.taker : Pc → Bool
  | .upSignal | .woken | .downSub _ => true
  | _ => false

structure Inv (n : Nat) (k : Int) (s : St) : Prop where
  lt : ∀ t, s.pc t ≠ .idle → t < n
  mutex : ∀ t, s.mutex = some t ↔ (s.pc t).inM = true
  sleep : ∀ t, t ∈ s.waiters ↔ s.pc t = .asleep
  nodup : s.waiters.Nodup
  fastPos : ∀ t, s.pc t = .downSub false → 0 < s.count
  fastSum : (s.fast : Int) + max s.count 0 ≤ max k 0 + s.ups
  slowSum : s.slow + cnt n (fun t => (s.pc t).owed) ≤ s.ups
  lost : s.waiters ≠ [] → 0 < s.count → ∃ t, (s.pc t).taker = true
  ups : s.ups = Sem.ups s.hist
  downs : s.fast + s.slow = Sem.downs s.hist
  count : s.count = fresh k s.hist

theorem Inv.init (n : Nat) (k : Int) : Inv n k (St.init k) where
  lt := fun t h => absurd rfl h
  mutex := fun t => ⟨nofun, nofun⟩
  sleep := fun t => ⟨nofun, nofun⟩
  nodup := .nil
  fastPos := nofun
  fastSum := by simp [St.init]
  slowSum := by simp [St.init, Pc.owed, cnt]
  lost := fun h => absurd rfl h
  ups := rfl
  downs := rfl
  count := rfl

theorem cnt_to {n : Nat} (f : Nat → Pc) (t : Nat) (p q : Pc) (ht : t < n) (h : f t = q) :
    cnt n (fun u => (upd f t p u).owed) + (if q.owed then 1 else 0) =
      cnt n (fun u => (f u).owed) + (if p.owed then 1 else 0) := by
  have := cnt_change (p := fun u => (upd f t p u).owed) (q := fun u => (f u).owed) t ht
    (fun u hu => by simp only [upd_other _ _ hu])
  simpa [upd_same, h] using this

theorem Inv.step {D : Nat → Prop} {n : Nat} {k : Int} {s s' : St} (I : Inv n k s)
    (st : Step D n s s') : Inv n k s' := by
  obtain ⟨i1, i2, i3, i4, i5, i6, i7, i8, i9, i10, i11⟩ := I
  cases st with
  | upWake t u l ht h hc hw =>
    have hu : s.pc u = .asleep := (i3 u).1 (by rw [hw]; simp)
    have ne : t ≠ u := by intro e; subst e; rw [h] at hu; cases hu
    have hun : u < n := i1 u (by rw [hu]; nofun)
    have c1 := cnt_to s.pc u .woken _ hun hu
    have c2 := cnt_to (upd s.pc u .woken) t .leave .upSignal ht (by rw [upd_other _ _ ne]; exact h)
    rw [hw] at i4
    have hul : u ∉ l := by
      intro hm
      have := (List.nodup_append.1 i4).2.2 u hm u (by simp)
      exact this rfl
    constructor <;> simp only [St.to]
    · intro a ha
      by_cases e : a = u
      · rw [e]; exact hun
      · by_cases e' : a = t
        · rw [e']; exact ht
        · rw [upd_other _ _ e', upd_other _ _ e] at ha; exact i1 a ha
    · grind [upd, Pc.inM]
    · intro a
      have := i3 a
      rw [hw] at this
      grind [upd]
    · exact (List.nodup_append.1 i4).1
    · grind [upd]
    · exact i6
    · simp (decide := true) only [if_true, if_false] at c1 c2; omega
    · intro _ _; exact ⟨u, by rw [upd_other _ _ ne.symm, upd_same]; rfl⟩
    · exact i9
    · exact i10
    · exact i11
  | downSub t b ht h =>
    have c := cnt_to s.pc t .leave _ ht h
    constructor <;> simp only [St.to]
    · grind [upd]
    · grind [upd, Pc.inM]
    · grind [upd]
    · exact i4
    · grind [upd, Pc.inM]
    · cases b <;> grind
    · cases b <;> simp (decide := true) only [if_true, if_false] at c ⊢ <;> grind
    · intro _ hc; omega
    · simpa [Sem.ups] using i9
    · cases b <;> simp [Sem.downs] at i10 ⊢ <;> omega
    · simp [fresh]
  | upAdd t ht h =>
    have c := cnt_to s.pc t .upSignal _ ht h
    constructor <;> simp only [St.to]
    · grind [upd]
    · grind [upd, Pc.inM]
    · grind [upd]
    · exact i4
    · grind [upd, Pc.inM]
    · grind
    · simp (decide := true) only [if_true, if_false] at c ⊢; omega
    · intro _ hc; exact ⟨t, by rw [upd_same]; rfl⟩
    · simpa [Sem.ups] using i9
    · simpa [Sem.downs] using i10
    · simp [fresh, i11]
  | downWait t ht h hc =>
    have c := cnt_to s.pc t .asleep _ ht h
    have hn : t ∉ s.waiters := by rw [i3, h]; nofun
    constructor <;> simp only [St.to]
    · grind [upd]
    · grind [upd, Pc.inM]
    · grind [upd]
    · rw [List.nodup_append]
      refine ⟨i4, by simp, ?_⟩
      intro a ha b hb e
      rw [List.mem_singleton] at hb
      subst hb; subst e; exact hn ha
    · grind [upd, Pc.inM]
    · exact i6
    · simp (decide := true) only [if_true, if_false] at c ⊢; omega
    · intro _ hc'; omega
    · exact i9
    · exact i10
    · exact i11
  | up t ht h | down t ht hd h | upEnter t ht h hm | upNone t ht h hc | upEmpty t ht h hc hw
  | leave t ht h | downEnter t ht h hm | downFast t ht h hc | downAgain t ht h hm =>
    have c := fun p => cnt_to s.pc t p _ ht h
    constructor <;> simp only [St.to]
    · grind [upd]
    · grind [upd, Pc.inM]
    · grind [upd]
    · exact i4
    · grind [upd, Pc.inM]
    · exact i6
    · first
        | (have c := c .upEnter; simp (decide := true) only [if_true, if_false] at c ⊢; omega)
        | (have c := c .upAdd; simp (decide := true) only [if_true, if_false] at c ⊢; omega)
        | (have c := c .leave; simp (decide := true) only [if_true, if_false] at c ⊢; omega)
        | (have c := c .idle; simp (decide := true) only [if_true, if_false] at c ⊢; omega)
        | (have c := c .downEnter; simp (decide := true) only [if_true, if_false] at c ⊢; omega)
        | (have c := c .downTest; simp (decide := true) only [if_true, if_false] at c ⊢; omega)
        | (have c := c (.downSub false)
           simp (decide := true) only [if_true, if_false] at c ⊢; omega)
        | (have c := c (.downSub true)
           simp (decide := true) only [if_true, if_false] at c ⊢; omega)
    · first
        | (intro _ hc'; omega)
        | (intro hw' _; exact absurd hw hw')
        | (intro _ _; exact ⟨t, by rw [upd_same]; rfl⟩)
        | (intro h1 h2
           obtain ⟨a, ha⟩ := i8 h1 h2
           refine ⟨a, ?_⟩
           have : a ≠ t := by intro e; subst e; rw [h] at ha; cases ha
           rw [upd_other _ _ this]; exact ha)
    · exact i9
    · exact i10
    · exact i11

theorem Reach.inv {D : Nat → Prop} {n : Nat} {k : Int} {s : St} (r : Reach D n k s) :
    Inv n k s := by
  induction r with
  | init => exact Inv.init n k
  | step _ st ih => exact ih.step st

/-- With one thread that calls `down`. -/
structure Single (D : Nat → Prop) (k : Int) (s : St) : Prop where
  own : ∀ t, s.pc t = .downEnter ∨ s.pc t = .downTest ∨ s.pc t = .asleep ∨ s.pc t = .woken ∨
    s.pc t = .downSub true ∨ s.pc t = .downSub false → D t
  pos : ∀ t, s.pc t = .woken ∨ s.pc t = .downSub true → 0 < s.count
  sum : (s.fast + s.slow : Int) + max s.count 0 ≤ max k 0 + s.ups

theorem Single.step {D : Nat → Prop} {n : Nat} {k : Int} {s s' : St}
    (hD : ∀ t u, D t → D u → t = u) (I : Inv n k s) (S : Single D k s) (st : Step D n s s') :
    Single D k s' := by
  obtain ⟨s1, s2, s3⟩ := S
  cases st with
  | upWake t u l ht h hc hw =>
    have hu : s.pc u = .asleep := (I.sleep u).1 (by rw [hw]; simp)
    constructor <;> simp only [St.to]
    · intro a ha
      by_cases e : a = u
      · rw [e]; exact s1 u (.inr (.inr (.inl hu)))
      · by_cases e' : a = t
        · rw [e', upd_same] at ha; simp at ha
        · rw [upd_other _ _ e', upd_other _ _ e] at ha; exact s1 a ha
    · intro _ _; exact hc
    · exact s3
  | downSub t b ht h =>
    have hp : 0 < s.count := by
      cases b with
      | true => exact s2 t (.inr h)
      | false => exact I.fastPos t h
    have dt : D t := s1 t (by cases b <;> simp [h])
    constructor <;> simp only [St.to]
    · grind [upd]
    · intro a ha
      by_cases e : a = t
      · rw [e, upd_same] at ha; simp at ha
      · rw [upd_other _ _ e] at ha
        exact absurd (hD a t (s1 a (by grind)) dt) e
    · cases b <;> grind
  | _ =>
    constructor <;> simp only [St.to] <;> first | exact s3 | grind [upd]

theorem Reach.single {D : Nat → Prop} {n : Nat} {k : Int} {s : St}
    (hD : ∀ t u, D t → D u → t = u) (r : Reach D n k s) : Single D k s := by
  induction r with
  | init => exact ⟨by simp [St.init], by simp [St.init], by simp [St.init]⟩
  | step r st ih => exact ih.step hD r.inv st

/-! ## Theorems -/

/-- C51, for one thread that calls `down` and any number of threads that call `up`: the number of
completed `down`s never exceeds the initial value plus the number of `up`s.  Missing: several
threads that call `down`, for which it is false (`c51_two_downs_for_one_up`). -/
theorem c51_one_consumer_partial {D : Nat → Prop} {n : Nat} {k : Int} {s : St}
    (hD : ∀ t u, D t → D u → t = u) (r : Reach D n k s) :
    (downs s.hist : Int) ≤ max k 0 + ups s.hist := by
  have S := (r.single hD).sum
  rw [← r.inv.ups, ← r.inv.downs]
  omega

/-- C51, any number of threads: what the code does guarantee. -/
theorem c51_bound_partial {D : Nat → Prop} {n : Nat} {k : Int} {s : St} (r : Reach D n k s) :
    (downs s.hist : Int) ≤ max k 0 + 2 * ups s.hist := by
  have h1 := r.inv.fastSum
  have h2 := r.inv.slowSum
  rw [← r.inv.ups, ← r.inv.downs]
  omega

/-- C51: if nobody has called `up`, at most the initial value of `down`s complete, for any number
of threads. -/
theorem c51_no_up {D : Nat → Prop} {n : Nat} {k : Int} {s : St} (r : Reach D n k s)
    (h : ups s.hist = 0) : (downs s.hist : Int) ≤ max k 0 := by
  have := c51_bound_partial r
  omega

/-- C51: a `down` blocks only when no permit was given since the last completed `down`.  Missing:
the permits that were left at that time are lost (`c51_permits_lost`). -/
theorem c51_blocks_partial {D : Nat → Prop} {n : Nat} {k : Int} {s s' : St} (r : Reach D n k s)
    (st : Step D n s s') {t : Nat} (h : s.pc t = .downTest) (h' : s'.pc t = .asleep) :
    fresh k s.hist ≤ 0 := by
  have I := r.inv
  have other : ∀ (a : Nat) (p : Pc), p ≠ .asleep → upd s.pc a p t ≠ .asleep := by
    intro a p hp
    by_cases e : t = a
    · subst e; rw [upd_same]; exact hp
    · rw [upd_other _ _ e, h]; nofun
  cases st with
  | downWait a ha hp hc => rw [← I.count]; exact hc
  | upWake a u l ha hp hc hw =>
    exfalso
    have h' : upd (upd s.pc u .woken) a .leave t = .asleep := h'
    by_cases e : t = a
    · subst e; rw [upd_same] at h'; cases h'
    · rw [upd_other _ _ e] at h'
      exact other u .woken nofun h'
  | _ => exact absurd h' (other _ _ nofun)

/-- C51: conversely a `down` that finds a permit given since the last completed `down` does not
block. -/
theorem c51_does_not_block {D : Nat → Prop} {n : Nat} {k : Int} {s s' : St} (r : Reach D n k s)
    (st : Step D n s s') {t : Nat} (h : s.pc t = .downTest) (hf : 0 < fresh k s.hist) :
    s'.pc t ≠ .asleep := by
  intro h'
  have := c51_blocks_partial r st h h'
  omega

/-- C51: no waiter is lost.  If a thread waits although permits were given since the last completed
`down`, some thread is about to take them or to wake a waiter. -/
theorem c51_no_waiter_lost {D : Nat → Prop} {n : Nat} {k : Int} {s : St} (r : Reach D n k s)
    {t : Nat} (h : s.pc t = .asleep) (hf : 0 < fresh k s.hist) :
    ∃ u, s.pc u = .upSignal ∨ s.pc u = .woken ∨ ∃ b, s.pc u = .downSub b := by
  have I := r.inv
  obtain ⟨u, hu⟩ := I.lost (List.ne_nil_of_mem ((I.sleep t).2 h)) (by rw [I.count]; exact hf)
  refine ⟨u, ?_⟩
  cases hp : s.pc u <;> rw [hp] at hu <;> simp_all [Pc.taker]

/-! ## Witnesses -/

/-- Non-vacuity: thread 1 waits, thread 0 calls `up`, thread 1 completes. -/
theorem example_run : ∃ s, Reach (· = 1) 2 0 s ∧ downs s.hist = 1 ∧ ups s.hist = 1 := by
  have r := Reach.init (D := (· = 1)) (n := 2) (k := 0)
  have r := r.step (.down _ 1 (by decide) rfl rfl)
  have r := r.step (.downEnter _ 1 (by decide) rfl rfl)
  have r := r.step (.downWait _ 1 (by decide) rfl (by decide))
  have r := r.step (.up _ 0 (by decide) rfl)
  have r := r.step (.upEnter _ 0 (by decide) rfl rfl)
  have r := r.step (.upAdd _ 0 (by decide) rfl)
  have r := r.step (.upWake _ 0 1 [] (by decide) rfl (by decide) rfl)
  have r := r.step (.leave _ 0 (by decide) rfl)
  have r := r.step (.downAgain _ 1 (by decide) rfl rfl)
  have r := r.step (.downSub _ 1 true (by decide) rfl)
  exact ⟨_, r, rfl, rfl⟩

/-- Finding.  Two `down`s complete for one `up` of a semaphore with value 0: between the signal
and the moment the woken thread has the mutex another thread takes the permit, and the woken thread
does not look at the count again (`if` instead of `while`, line 66). -/
theorem c51_two_downs_for_one_up :
    ∃ s, Reach (fun _ => True) 3 0 s ∧ downs s.hist = 2 ∧ ups s.hist = 1 := by
  have r := Reach.init (D := fun _ => True) (n := 3) (k := 0)
  have r := r.step (.down _ 1 (by decide) trivial rfl)
  have r := r.step (.downEnter _ 1 (by decide) rfl rfl)
  have r := r.step (.downWait _ 1 (by decide) rfl (by decide))
  have r := r.step (.up _ 0 (by decide) rfl)
  have r := r.step (.upEnter _ 0 (by decide) rfl rfl)
  have r := r.step (.upAdd _ 0 (by decide) rfl)
  have r := r.step (.upWake _ 0 1 [] (by decide) rfl (by decide) rfl)
  have r := r.step (.leave _ 0 (by decide) rfl)
  have r := r.step (.down _ 2 (by decide) trivial rfl)
  have r := r.step (.downEnter _ 2 (by decide) rfl rfl)
  have r := r.step (.downFast _ 2 (by decide) rfl (by decide))
  have r := r.step (.downSub _ 2 false (by decide) rfl)
  have r := r.step (.leave _ 2 (by decide) rfl)
  have r := r.step (.downAgain _ 1 (by decide) rfl rfl)
  have r := r.step (.downSub _ 1 true (by decide) rfl)
  exact ⟨_, r, rfl, rfl⟩

/-- Finding.  A `down` takes all permits at once (`self.count -= self.count`, line 69): of a
semaphore with value 5 only one `down` completes, the second blocks. -/
theorem c51_permits_lost :
    ∃ s, Reach (fun _ => True) 2 5 s ∧ downs s.hist = 1 ∧ ups s.hist = 0 ∧ s.pc 1 = .asleep := by
  have r := Reach.init (D := fun _ => True) (n := 2) (k := 5)
  have r := r.step (.down _ 0 (by decide) trivial rfl)
  have r := r.step (.downEnter _ 0 (by decide) rfl rfl)
  have r := r.step (.downFast _ 0 (by decide) rfl (by decide))
  have r := r.step (.downSub _ 0 false (by decide) rfl)
  have r := r.step (.leave _ 0 (by decide) rfl)
  have r := r.step (.down _ 1 (by decide) trivial rfl)
  have r := r.step (.downEnter _ 1 (by decide) rfl rfl)
  have r := r.step (.downWait _ 1 (by decide) rfl (by decide))
  exact ⟨_, r, rfl, rfl, rfl⟩

end NRK.Lineup.Sem
