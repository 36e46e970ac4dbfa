import Verif.Sync.RwLockModel
import Verif.Sync.Count

/-!
# C16: the file system's reader-writer lock
-/

namespace NRK.Sync.FsRw

/-- The thread's slot is incremented on its behalf. -/
def Pc.counted : Pc → Bool
  | .rdIncd | .rdBack | .reading => true
  | _ => false

/-- The thread took the write lock and has not given it back. -/
def Pc.owner : Pc → Bool
  | .wrScan _ | .writing | .crashedW => true
  | _ => false

structure LockInv (N n : Nat) (slot : Nat → Nat) (s : St) : Prop where
  bounded : Bounded N s
  count : ∀ k, s.rlock k = cnt N (fun t => (s.pc t).counted && slot t == k)
  owner : ∀ t, (s.pc t).owner = true → s.wlock = true
  unique : ∀ t t', (s.pc t).owner = true → (s.pc t').owner = true → t = t'
  scan : ∀ t k, s.pc t = .wrScan k → ∀ t', slot t' < k → s.pc t' ≠ .reading
  writing : ∀ t, s.pc t = .writing → ∀ t', slot t' < n → s.pc t' ≠ .reading
  noCrash : ∀ t, s.pc t ≠ .crashedR

theorem inv_init (N n : Nat) (slot : Nat → Nat) : LockInv N n slot St.init := by
  refine ⟨fun _ _ => rfl, ?_, by simp [St.init, Pc.owner], by simp [St.init, Pc.owner],
    by simp [St.init], by simp [St.init], by simp [St.init]⟩
  intro k
  rw [cnt_none]
  · rfl
  · simp [St.init, Pc.counted]

/-- A step of one thread that leaves all counters and its being counted alone. -/
theorem count_same {N : Nat} {slot : Nat → Nat} {s : St} {t : Nat} {p : Pc}
    (hp : p.counted = (s.pc t).counted) (k : Nat) :
    cnt N (fun u => (upd s.pc t p u).counted && slot u == k)
      = cnt N (fun u => (s.pc u).counted && slot u == k) := by
  apply cnt_congr
  intro u _
  rw [upd_apply]
  split
  · rename_i q; subst q; rw [hp]
  · rfl

theorem lt_of_ne_idle {N : Nat} {s : St} (hb : Bounded N s) {t : Nat} (h : s.pc t ≠ .idle) : t < N := by
  apply Classical.byContradiction
  intro hn
  exact h (hb t (by omega))

theorem count_upd {N : Nat} {slot : Nat → Nat} {s : St} {t : Nat} (p : Pc) (ht : t < N) (k : Nat) :
    cnt N (fun u => (upd s.pc t p u).counted && slot u == k)
        + (if (s.pc t).counted && slot t == k then 1 else 0)
      = cnt N (fun u => (s.pc u).counted && slot u == k)
        + (if p.counted && slot t == k then 1 else 0) := by
  have := cnt_change (n := N) (p := fun u => (upd s.pc t p u).counted && slot u == k)
    (q := fun u => (s.pc u).counted && slot u == k) t ht (by
      intro u hu; simp only [upd_other _ _ hu])
  simpa using this

theorem count_inc {N n : Nat} {slot : Nat → Nat} {s : St} (h : LockInv N n slot s) {t : Nat} {p : Pc}
    (hi : s.pc t ≠ .idle) (h1 : (s.pc t).counted = false) (h2 : p.counted = true) (k : Nat) :
    upd s.rlock (slot t) (s.rlock (slot t) + 1) k
      = cnt N (fun u => (upd s.pc t p u).counted && slot u == k) := by
  have := count_upd (slot := slot) (s := s) p (lt_of_ne_idle h.bounded hi) k
  rw [h1, h2] at this
  have hc := h.count k
  by_cases q : k = slot t
  · subst q
    rw [upd_same]
    simp only [Bool.false_and, Bool.false_eq_true, if_false, BEq.rfl, Bool.and_self, if_true] at this
    omega
  · rw [upd_other _ _ q]
    have hne : (slot t == k) = false := by simp; exact fun e => q e.symm
    rw [hne] at this
    simp only [Bool.false_and, Bool.and_false, Bool.false_eq_true, if_false] at this
    omega

theorem count_dec {N n : Nat} {slot : Nat → Nat} {s : St} (h : LockInv N n slot s) {t : Nat} {p : Pc}
    (h1 : (s.pc t).counted = true) (h2 : p.counted = false) :
    0 < s.rlock (slot t) ∧
    ∀ k, upd s.rlock (slot t) (s.rlock (slot t) - 1) k
      = cnt N (fun u => (upd s.pc t p u).counted && slot u == k) := by
  have hi : s.pc t ≠ .idle := by intro q; rw [q] at h1; cases h1
  have hpos : 0 < s.rlock (slot t) := by
    rw [h.count]
    exact cnt_pos (lt_of_ne_idle h.bounded hi) (by simp [h1])
  refine ⟨hpos, ?_⟩
  intro k
  have := count_upd (slot := slot) (s := s) p (lt_of_ne_idle h.bounded hi) k
  rw [h1, h2] at this
  have hc := h.count k
  by_cases q : k = slot t
  · subst q
    rw [upd_same]
    simp only [Bool.false_and, Bool.false_eq_true, if_false, BEq.rfl, Bool.and_self, if_true] at this
    omega
  · rw [upd_other _ _ q]
    have hne : (slot t == k) = false := by simp; exact fun e => q e.symm
    rw [hne] at this
    simp only [Bool.false_and, Bool.and_false, Bool.false_eq_true, if_false] at this
    omega

theorem inv_step {N n : Nat} {slot : Nat → Nat} {s s' : St} (h : LockInv N n slot s)
    (hs : Step n slot s s') (hb : Bounded N s') : LockInv N n slot s' := by
  have base : ∀ (t : Nat) (p : Pc), (s.pc t).owner = false → p.owner = false → p ≠ .crashedR →
      (p = .reading → s.wlock = false) →
      (∀ u, (upd s.pc t p u).owner = true → s.wlock = true) ∧
      (∀ u u', (upd s.pc t p u).owner = true → (upd s.pc t p u').owner = true → u = u') ∧
      (∀ u k, upd s.pc t p u = .wrScan k → ∀ t', slot t' < k → upd s.pc t p t' ≠ .reading) ∧
      (∀ u, upd s.pc t p u = .writing → ∀ t', slot t' < n → upd s.pc t p t' ≠ .reading) ∧
      (∀ u, upd s.pc t p u ≠ .crashedR) := by
    intro t p h1 h2 h3 h4
    have ow : ∀ u, (upd s.pc t p u).owner = true → u ≠ t ∧ (s.pc u).owner = true := by
      intro u hu
      rw [upd_apply] at hu
      split at hu
      · rw [h2] at hu; cases hu
      · rename_i q; exact ⟨q, hu⟩
    refine ⟨fun u hu => h.owner u (ow u hu).2,
      fun u u' hu hu' => h.unique u u' (ow u hu).2 (ow u' hu').2, ?_, ?_, ?_⟩
    · intro u k hu t' hk
      have hou := ow u (by rw [hu]; rfl)
      rw [upd_other _ _ hou.1] at hu
      have hw := h.owner u hou.2
      rw [upd_apply]
      split
      · intro q; have := h4 q; rw [hw] at this; cases this
      · exact h.scan u k hu t' hk
    · intro u hu t' hk
      have hou := ow u (by rw [hu]; rfl)
      rw [upd_other _ _ hou.1] at hu
      have hw := h.owner u hou.2
      rw [upd_apply]
      split
      · intro q; have := h4 q; rw [hw] at this; cases this
      · exact h.writing u hu t' hk
    · intro u
      rw [upd_apply]
      split
      · exact h3
      · exact h.noCrash u
  have baseW : ∀ (t : Nat) (p : Pc), (∀ u, (s.pc u).owner = true → u = t) → p ≠ .crashedR → p ≠ .reading →
      (∀ u u', (upd s.pc t p u).owner = true → (upd s.pc t p u').owner = true → u = u') ∧
      ((∀ k, p = .wrScan k → ∀ t', slot t' < k → s.pc t' ≠ .reading) →
        ∀ u k, upd s.pc t p u = .wrScan k → ∀ t', slot t' < k → upd s.pc t p t' ≠ .reading) ∧
      ((p = .writing → ∀ t', slot t' < n → s.pc t' ≠ .reading) →
        ∀ u, upd s.pc t p u = .writing → ∀ t', slot t' < n → upd s.pc t p t' ≠ .reading) ∧
      (∀ u, upd s.pc t p u ≠ .crashedR) := by
    intro t p hu hc hr
    have ow : ∀ u, (upd s.pc t p u).owner = true → u = t := by
      intro u hu'
      by_cases hq : u = t
      · exact hq
      · rw [upd_other _ _ hq] at hu'; exact hu u hu'
    refine ⟨fun u u' h1 h2 => (ow u h1).trans (ow u' h2).symm, ?_, ?_, ?_⟩
    · intro hk u k h1 t' h2
      have := ow u (by rw [h1]; rfl)
      subst this
      rw [upd_same] at h1
      rw [upd_apply]
      split
      · exact hr
      · exact hk k h1 t' h2
    · intro hk u h1 t' h2
      have := ow u (by rw [h1]; rfl)
      subst this
      rw [upd_same] at h1
      rw [upd_apply]
      split
      · exact hr
      · exact hk h1 t' h2
    · intro u
      rw [upd_apply]
      split
      · exact hc
      · exact h.noCrash u
  have cinc := fun t p => count_inc (t := t) (p := p) h
  have cdec := fun t p => count_dec (t := t) (p := p) h
  have own1 : ∀ t, (s.pc t).owner = true → ∀ u, (s.pc u).owner = true → u = t :=
    fun t ht u hu => h.unique u t hu ht
  cases hs with
  | readCall t ht =>
    obtain ⟨a, b, c, d, e⟩ := base t .rdWait (by rw [ht]; rfl) rfl (by simp) (by simp)
    exact ⟨hb, fun k => by rw [h.count k]; exact (count_same (by rw [ht]; rfl) k).symm, a, b, c, d, e⟩
  | readSpin t ht hw =>
    obtain ⟨a, b, c, d, e⟩ := base t .rdTry (by rw [ht]; rfl) rfl (by simp) (by simp)
    exact ⟨hb, fun k => by rw [h.count k]; exact (count_same (by rw [ht]; rfl) k).symm, a, b, c, d, e⟩
  | readInc t ht =>
    obtain ⟨a, b, c, d, e⟩ := base t .rdIncd (by rw [ht]; rfl) rfl (by simp) (by simp)
    exact ⟨hb, cinc t _ (by rw [ht]; simp) (by rw [ht]; rfl) rfl, a, b, c, d, e⟩
  | readOk t ht hw =>
    obtain ⟨a, b, c, d, e⟩ := base t .reading (by rw [ht]; rfl) rfl (by simp) (fun _ => hw)
    exact ⟨hb, fun k => by rw [h.count k]; exact (count_same (by rw [ht]; rfl) k).symm, a, b, c, d, e⟩
  | readFail t ht hw =>
    obtain ⟨a, b, c, d, e⟩ := base t .rdBack (by rw [ht]; rfl) rfl (by simp) (by simp)
    exact ⟨hb, fun k => by rw [h.count k]; exact (count_same (by rw [ht]; rfl) k).symm, a, b, c, d, e⟩
  | readDec t ht =>
    obtain ⟨a, b, c, d, e⟩ := base t .rdWait (by rw [ht]; rfl) rfl (by simp) (by simp)
    exact ⟨hb, (cdec t _ (by rw [ht]; rfl) rfl).2, a, b, c, d, e⟩
  | readUnlock t ht =>
    obtain ⟨hpos, hc⟩ := cdec t .idle (by rw [ht]; rfl) rfl
    have hne : ¬ s.rlock (slot t) = 0 := by omega
    simp only [if_neg hne] at hb ⊢
    obtain ⟨a, b, c, d, e⟩ := base t .idle (by rw [ht]; rfl) rfl (by simp) (by simp)
    exact ⟨hb, hc, a, b, c, d, e⟩
  | writeCall t ht =>
    obtain ⟨a, b, c, d, e⟩ := base t .wrWait (by rw [ht]; rfl) rfl (by simp) (by simp)
    exact ⟨hb, fun k => by rw [h.count k]; exact (count_same (by rw [ht]; rfl) k).symm, a, b, c, d, e⟩
  | writeCas t ht hw =>
    have hno : ∀ u, (s.pc u).owner = true → u = t := by
      intro u hu; have := h.owner u hu; rw [hw] at this; cases this
    obtain ⟨b, c, d, e⟩ := baseW t (.wrScan 0) hno (by simp) (by simp)
    exact ⟨hb, fun k => by rw [h.count k]; exact (count_same (by rw [ht]; rfl) k).symm,
      fun _ _ => rfl, b, c (by intro k hk t' hlt; cases hk; omega), d (by simp), e⟩
  | scanOk t k ht hk hz =>
    obtain ⟨b, c, d, e⟩ := baseW t (.wrScan (k + 1)) (own1 t (by rw [ht]; rfl)) (by simp) (by simp)
    refine ⟨hb, fun k => by rw [h.count k]; exact (count_same (by rw [ht]; rfl) k).symm,
      fun _ _ => h.owner t (by rw [ht]; rfl), b, c ?_, d (by simp), e⟩
    intro k' hk' t' hlt
    cases hk'
    by_cases hq : slot t' = k
    · intro hr
      have hc := h.count k
      rw [hz] at hc
      have := cnt_eq_zero hc.symm (lt_of_ne_idle h.bounded (t := t') (by rw [hr]; simp))
      simp [hr, Pc.counted, hq] at this
    · exact h.scan t k ht t' (by omega)
  | scanRetry t k ht hk hz =>
    obtain ⟨b, c, d, e⟩ := baseW t (.wrScan 0) (own1 t (by rw [ht]; rfl)) (by simp) (by simp)
    exact ⟨hb, fun k => by rw [h.count k]; exact (count_same (by rw [ht]; rfl) k).symm,
      fun _ _ => h.owner t (by rw [ht]; rfl), b, c (by intro k hk t' hlt; cases hk; omega), d (by simp), e⟩
  | scanDone t k ht hk =>
    obtain ⟨b, c, d, e⟩ := baseW t .writing (own1 t (by rw [ht]; rfl)) (by simp) (by simp)
    exact ⟨hb, fun k => by rw [h.count k]; exact (count_same (by rw [ht]; rfl) k).symm,
      fun _ _ => h.owner t (by rw [ht]; rfl), b, c (by simp),
      d (fun _ t' hlt => h.scan t k ht t' (by omega)), e⟩
  | writeUnlock t ht hw =>
    obtain ⟨b, c, d, e⟩ := baseW t .idle (own1 t (by rw [ht]; rfl)) (by simp) (by simp)
    refine ⟨hb, fun k => by rw [h.count k]; exact (count_same (by rw [ht]; rfl) k).symm,
      ?_, b, c (by simp), d (by simp), e⟩
    intro u hu
    dsimp only at hu
    rw [upd_apply] at hu
    split at hu
    · cases hu
    · rename_i q; exact absurd (own1 t (by rw [ht]; rfl) u hu) q
  | writeUnlockFail t ht =>
    obtain ⟨b, c, d, e⟩ := baseW t .crashedW (own1 t (by rw [ht]; rfl)) (by simp) (by simp)
    exact ⟨hb, fun k => by rw [h.count k]; exact (count_same (by rw [ht]; rfl) k).symm,
      fun _ _ => h.owner t (by rw [ht]; rfl), b, c (by simp), d (by simp), e⟩

theorem reach_inv {N n : Nat} {slot : Nat → Nat} {s : St} (h : Reach N n slot s) :
    LockInv N n slot s := by
  induction h with
  | init => exact inv_init N n slot
  | step _ hs hb ih => exact inv_step ih hs hb

theorem held_step {n : Nat} {slot : Nat → Nat} {s s' : St}
    (h : s.wlock = true → ∃ t, (s.pc t).owner = true) (hs : Step n slot s s') :
    s'.wlock = true → ∃ t, (s'.pc t).owner = true := by
  have other : ∀ (t : Nat) (p : Pc), (s.pc t).owner = false → s.wlock = true →
      ∃ u, (upd s.pc t p u).owner = true := by
    intro t p ho hw
    obtain ⟨u, hu⟩ := h hw
    refine ⟨u, ?_⟩
    rw [upd_other _ _ (by intro q; rw [q, ho] at hu; cases hu)]
    exact hu
  have own : ∀ (t : Nat) (p : Pc), p.owner = true → ∃ u, (upd s.pc t p u).owner = true :=
    fun t p hp => ⟨t, by rw [upd_same]; exact hp⟩
  cases hs with
  | readCall t h1 => exact other t _ (by rw [h1]; rfl)
  | readSpin t h1 _ => exact other t _ (by rw [h1]; rfl)
  | readInc t h1 => exact other t _ (by rw [h1]; rfl)
  | readOk t h1 _ => exact other t _ (by rw [h1]; rfl)
  | readFail t h1 _ => exact other t _ (by rw [h1]; rfl)
  | readDec t h1 => exact other t _ (by rw [h1]; rfl)
  | readUnlock t h1 => exact other t _ (by rw [h1]; rfl)
  | writeCall t h1 => exact other t _ (by rw [h1]; rfl)
  | writeCas t h1 _ => exact fun _ => own t _ rfl
  | scanOk t k h1 _ _ => exact fun _ => own t _ rfl
  | scanRetry t k h1 _ _ => exact fun _ => own t _ rfl
  | scanDone t k h1 _ => exact fun _ => own t _ rfl
  | writeUnlock t h1 _ => exact fun hw => by cases hw
  | writeUnlockFail t h1 => exact fun _ => own t _ rfl

/-! ## Property theorems -/

/-- **C16**, for systems in which every thread's slot is among those a writer checks: while a
thread holds the lock for writing, no other thread holds it, neither for reading nor for
writing. -/
theorem c16_exclusion_partial (N n : Nat) (slot : Nat → Nat) (hslot : ∀ t, slot t < n) (s : St)
    (h : Reach N n slot s) (t t' : Nat) (hw : s.pc t = .writing) :
    s.pc t' ≠ .reading ∧ (s.pc t' = .writing → t' = t) := by
  have hi := reach_inv h
  refine ⟨hi.writing t hw t' (hslot t'), ?_⟩
  intro hw'
  exact hi.unique t' t (by rw [hw']; rfl) (by rw [hw]; rfl)

/-- **C16** Two writers exclude each other on every machine. -/
theorem c16_writers_exclude_each_other (N n : Nat) (slot : Nat → Nat) (s : St)
    (h : Reach N n slot s) (t t' : Nat) (hw : s.pc t = .writing) (hw' : s.pc t' = .writing) :
    t = t' :=
  (reach_inv h).unique t t' (by rw [hw]; rfl) (by rw [hw']; rfl)

/-- **C16** Giving back a read lock never panics. -/
theorem c16_read_unlock_never_panics (N n : Nat) (slot : Nat → Nat) (s : St)
    (h : Reach N n slot s) (t : Nat) : s.pc t ≠ .crashedR :=
  (reach_inv h).noCrash t

/-- **C16** Nothing leaks: the write lock is taken only while some writer is acquiring or holding it
(or crashed doing so), a reader slot counts only readers that are inside or backing off; so once
all threads are outside, the lock is as new and can be acquired again. -/
theorem c16_released (N n : Nat) (slot : Nat → Nat) (s : St) (h : Reach N n slot s) :
    (s.wlock = true → ∃ t, (∃ k, s.pc t = .wrScan k) ∨ s.pc t = .writing ∨ s.pc t = .crashedW) ∧
    (∀ k, s.rlock k ≠ 0 →
      ∃ t, slot t = k ∧ (s.pc t = .rdIncd ∨ s.pc t = .rdBack ∨ s.pc t = .reading)) ∧
    ((∀ t, s.pc t = .idle) → s.wlock = St.init.wlock ∧ s.rlock = St.init.rlock) := by
  have hw : s.wlock = true → ∃ t, (s.pc t).owner = true := by
    induction h with
    | init => intro q; cases q
    | step _ hs _ ih => exact held_step ih hs
  have hi := reach_inv h
  have h1 : s.wlock = true →
      ∃ t, (∃ k, s.pc t = .wrScan k) ∨ s.pc t = .writing ∨ s.pc t = .crashedW := by
    intro q
    obtain ⟨t, ht⟩ := hw q
    refine ⟨t, ?_⟩
    cases hp : s.pc t <;> simp [hp, Pc.owner] at ht ⊢
  have h2 : ∀ k, s.rlock k ≠ 0 →
      ∃ t, slot t = k ∧ (s.pc t = .rdIncd ∨ s.pc t = .rdBack ∨ s.pc t = .reading) := by
    intro k hk
    rw [hi.count] at hk
    obtain ⟨t, _, ht⟩ := cnt_exists (Nat.pos_of_ne_zero hk)
    simp only [Bool.and_eq_true, beq_iff_eq] at ht
    refine ⟨t, ht.2, ?_⟩
    have := ht.1
    cases hp : s.pc t <;> simp [hp, Pc.counted] at this ⊢
  refine ⟨h1, h2, ?_⟩
  intro hidle
  constructor
  · cases hq : s.wlock with
    | false => rfl
    | true =>
      obtain ⟨t, ht⟩ := h1 hq
      rw [hidle t] at ht
      simp at ht
  · funext k
    apply Classical.byContradiction
    intro hk
    obtain ⟨t, _, ht⟩ := h2 k hk
    rw [hidle t] at ht
    simp at ht

/-- **C16 is false of the code** on a machine with more cores than one NUMA node has: the writer
waits only for the first `CORES_PER_NUMA_NODE` reader slots, but readers use their machine-wide
core number.  A reader on core `n` and a writer hold the lock at the same time, for every `n`. -/
theorem c16_reader_on_other_node_not_excluded (n : Nat) :
    ∃ s, Reach 2 n (fun t => n + t) s ∧ s.pc 0 = .reading ∧ s.pc 1 = .writing := by
  have bnd : ∀ (p0 p1 : Pc) (w : Bool) (r : Nat → Nat),
      Bounded 2 ⟨w, r, upd (upd (fun _ => .idle) 0 p0) 1 p1⟩ := by
    intro p0 p1 w r t ht
    have h0 : t ≠ 0 := by omega
    have h1 : t ≠ 1 := by omega
    show upd (upd (fun _ => Pc.idle) 0 p0) 1 p1 t = .idle
    rw [upd_other _ _ h1, upd_other _ _ h0]
  let R : Nat → Nat := upd (fun _ => 0) n 1
  let st : Bool → (Nat → Nat) → Pc → Pc → St :=
    fun w r p0 p1 => ⟨w, r, upd (upd (fun _ => .idle) 0 p0) 1 p1⟩
  have h0 : ∀ w r p0 p1 p, { st w r p0 p1 with pc := upd (st w r p0 p1).pc 0 p } = st w r p p1 := by
    intro w r p0 p1 p
    simp only [st]
    rw [upd_comm _ _ _ (by decide : (1 : Nat) ≠ 0), upd_upd]
  have init : st false (fun _ => 0) .idle .idle = St.init := by
    simp only [st, St.init]
    congr 1
    funext t
    simp only [upd_apply]
    split
    · rfl
    · split <;> rfl
  have r0 : Reach 2 n (fun t => n + t) (st false (fun _ => 0) .idle .idle) := by
    rw [init]; exact Reach.init
  have pc0 : ∀ w r p0 p1, (st w r p0 p1).pc 0 = p0 := by intros; rfl
  have pc1 : ∀ w r p0 p1, (st w r p0 p1).pc 1 = p1 := by intros; rfl
  have r1 : Reach 2 n (fun t => n + t) (st false (fun _ => 0) .rdWait .idle) := by
    refine r0.step ?_ (bnd _ _ _ _)
    have := Step.readCall (n := n) (slot := fun t => n + t) (st false (fun _ => 0) .idle .idle) 0 rfl
    rw [h0] at this; exact this
  have r2 : Reach 2 n (fun t => n + t) (st false (fun _ => 0) .rdTry .idle) := by
    refine r1.step ?_ (bnd _ _ _ _)
    have := Step.readSpin (n := n) (slot := fun t => n + t) (st false (fun _ => 0) .rdWait .idle) 0 rfl rfl
    rw [h0] at this; exact this
  have r3 : Reach 2 n (fun t => n + t) (st false R .rdIncd .idle) := by
    refine r2.step ?_ (bnd _ _ _ _)
    have := Step.readInc (n := n) (slot := fun t => n + t) (st false (fun _ => 0) .rdTry .idle) 0 rfl
    simp only [st, Nat.add_zero] at this ⊢
    rw [upd_comm _ _ _ (by decide : (1 : Nat) ≠ 0), upd_upd] at this
    exact this
  have r4 : Reach 2 n (fun t => n + t) (st false R .reading .idle) := by
    refine r3.step ?_ (bnd _ _ _ _)
    have := Step.readOk (n := n) (slot := fun t => n + t) (st false R .rdIncd .idle) 0 rfl rfl
    rw [h0] at this; exact this
  have r5 : Reach 2 n (fun t => n + t) (st false R .reading .wrWait) := by
    refine r4.step ?_ (bnd _ _ _ _)
    have := Step.writeCall (n := n) (slot := fun t => n + t) (st false R .reading .idle) 1 rfl
    simp only [st, upd_upd] at this ⊢; exact this
  have r6 : Reach 2 n (fun t => n + t) (st true R .reading (.wrScan 0)) := by
    refine r5.step ?_ (bnd _ _ _ _)
    have := Step.writeCas (n := n) (slot := fun t => n + t) (st false R .reading .wrWait) 1 rfl rfl
    simp only [st, upd_upd] at this ⊢; exact this
  have r7 : ∀ k, k ≤ n → Reach 2 n (fun t => n + t) (st true R .reading (.wrScan k)) := by
    intro k
    induction k with
    | zero => intro _; exact r6
    | succ k ih =>
      intro hk
      refine (ih (by omega)).step ?_ (bnd _ _ _ _)
      have hR : R k = 0 := by
        simp only [R]
        rw [upd_other _ _ (by omega)]
      have := Step.scanOk (n := n) (slot := fun t => n + t) (st true R .reading (.wrScan k)) 1 k rfl
        (by omega) hR
      simp only [st, upd_upd] at this ⊢; exact this
  have r8 : Reach 2 n (fun t => n + t) (st true R .reading .writing) := by
    refine (r7 n (Nat.le_refl _)).step ?_ (bnd _ _ _ _)
    have := Step.scanDone (n := n) (slot := fun t => n + t) (st true R .reading (.wrScan n)) 1 n rfl
      (by omega)
    simp only [st, upd_upd] at this ⊢; exact this
  exact ⟨_, r8, rfl, rfl⟩

/-- **C16** Finding: a writer that holds the lock correctly can panic when it gives it back, since
the weak compare-exchange may fail spuriously. -/
theorem c16_write_unlock_may_panic :
    ∃ s s', Reach 1 0 (fun t => t) s ∧ s.pc 0 = .writing ∧ s.wlock = true ∧
      Step 0 (fun t => t) s s' ∧ s'.pc 0 = .crashedW := by
  have b : ∀ (w : Bool) (r : Nat → Nat) (f : Nat → Pc), (∀ t, 1 ≤ t → f t = .idle) → Bounded 1 ⟨w, r, f⟩ :=
    fun _ _ _ h => h
  have u : ∀ (f : Nat → Pc) (p : Pc), (∀ t, 1 ≤ t → f t = .idle) →
      ∀ t, 1 ≤ t → upd f 0 p t = .idle := by
    intro f p h t ht
    rw [upd_other _ _ (by omega)]; exact h t ht
  have i : ∀ t, 1 ≤ t → St.init.pc t = .idle := fun _ _ => rfl
  have r1 := (Reach.init (N := 1) (n := 0) (slot := fun t => t)).step (Step.writeCall _ 0 rfl) (b _ _ _ (u _ _ i))
  have r2 := r1.step (Step.writeCas _ 0 rfl rfl) (b _ _ _ (u _ _ (u _ _ i)))
  have r3 := r2.step (Step.scanDone _ 0 0 rfl (by omega)) (b _ _ _ (u _ _ (u _ _ (u _ _ i))))
  exact ⟨_, _, r3, rfl, rfl, Step.writeUnlockFail _ 0 rfl, rfl⟩

/-- Non-vacuity of `c16_exclusion_partial`: a reachable state in which a writer holds the lock. -/
example : ∃ s, Reach 1 0 (fun t => t) s ∧ s.pc 0 = .writing := by
  obtain ⟨s, _, h, hw, _⟩ := c16_write_unlock_may_panic
  exact ⟨s, h, hw⟩

end NRK.Sync.FsRw
