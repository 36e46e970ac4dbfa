import Verif.Tlb.RackProps

/-! # C68: concrete runs, and where the code falls short -/

namespace NRK.Tlb.Rack

def pg (p : Nat) : Rng := ⟨p, 1⟩

theorem pg_has (p q : Nat) : (pg p).Has q ↔ q = p := by
  unfold pg Rng.Has
  dsimp only
  omega

/-- Two clients with one core each: core 0 on machine 1, core 1 on machine 2. -/
def two (cap rcap : Nat) (node : Nat → Nat) : Cfg := ⟨3, cap, rcap, fun c => c + 1, node⟩

def handles : Nat → List Nat := fun m => if m = 1 then [0] else if m = 2 then [1] else []

theorem handles_ok (m c : Nat) :
    c ∈ handles m ↔ upd (upd (fun _ => false) 0 true) 1 true c = true ∧ c + 1 = m := by
  unfold handles
  by_cases h1 : m = 1
  · subst h1
    by_cases h : c = 0
    · subst h; simp [upd]
    · simp [h]
  · by_cases h2 : m = 2
    · subst h2
      by_cases h : c = 1
      · subst h; simp [upd]
      · simp [h]
    · simp only [h1, h2, if_false]
      constructor
      · intro h; cases h
      · rintro ⟨ha, hb⟩
        simp only [upd] at ha
        split at ha
        · omega
        · split at ha
          · omega
          · cases ha

/-- Core 0 maps a page, core 1 reads the translation, core 0 unmaps the page.  Both machines flush; core 0
is about to return. -/
theorem reach_end (cap rcap : Nat) (hr : 0 < rcap) (node : Nat → Nat) :
    ∃ s, Reach (two cap rcap node) s ∧ s.cpu 0 = ⟨.wait (pg 5) 1 [], none, none, none⟩ ∧
      s.cpu 1 = Cpu.user ∧ s.act 1 = true ∧ s.log = [.map (pg 5) 0, .unmap (pg 5)] ∧ s.tlb 1 5 = none ∧
      s.applied = upd (upd (upd (fun _ => 0) (node 0) 1) (node 1) 1) (node 0) 2 := by
  have r1 : Reach (two cap rcap node) _ := Reach.init.step
    (.activate _ 0 rfl (show 1 ≤ 0 + 1 by omega) (show 0 + 1 < 3 by omega))
  have r2 := r1.step (.activate _ 1 rfl (show 1 ≤ 1 + 1 by omega) (show 1 + 1 < 3 by omega))
  have r3 := r2.step (.map _ 0 (pg 5) rfl rfl (fun _ _ => rfl))
  have r4 := r3.step (.sync _ (node 1) 1 (by
    show upd (fun _ => 0) (node 0) 1 (node 1) ≤ 1
    unfold upd
    split
    · exact Nat.le_refl _
    · exact Nat.zero_le _) (Nat.le_refl _))
  have r5 := r4.step (.fill _ 1 5 0 rfl (by
    show ptAt (List.take (upd _ (node 1) 1 (node 1)) _) 5 = some 0
    rw [upd_same]
    rfl))
  have r6 := r5.step (.unmap _ 0 (pg 5) 0 handles rfl rfl (by
    intro p hp
    rw [pg_has] at hp
    subst hp
    rfl) handles_ok)
  have r7 := r6.step (.remSkip _ 0 (pg 5) 1 handles 1 [2] [] rfl (.inl rfl))
  have r8 := r7.step (.remEnqueue _ 0 (pg 5) 1 handles 2 [] [] rfl
    (by rintro (h | h) <;> cases h) hr)
  have r9 := r8.step (.remDone _ 0 (pg 5) 1 handles [0] rfl)
  have r10 := r9.step (.enqSkip _ 0 _ _ (pg 5) [] [] rfl)
  have r11 := r10.step (.enqDone _ 0 _ _ (pg 5) [] rfl)
  have r12 := r11.step (.selfPage _ 0 _ _ (pg 5) 5 [] [] rfl)
  have r13 := r12.step (.selfDone _ 0 _ _ (pg 5) [] rfl)
  have r14 := r13.step (.waitDone _ 0 _ _ (pg 5) rfl)
  have r15 := r14.step (.serve _ 1 .user 0 [] ⟨pg 5, 1, [1], false⟩ rfl (fun _ _ _ _ _ h => (nomatch h)) rfl rfl)
  have r16 := r15.step (.enqSkip _ 1 _ _ (pg 5) [] [] rfl)
  have r17 := r16.step (.enqDone _ 1 _ _ (pg 5) [] rfl)
  have r18 := r17.step (.selfPage _ 1 _ _ (pg 5) 5 [] [] rfl)
  have r19 := r18.step (.selfDone _ 1 _ _ (pg 5) [] rfl)
  have r20 := r19.step (.waitDone _ 1 _ _ (pg 5) rfl)
  have r21 := r20.step (.served _ 1 _ 0 ⟨pg 5, 1, [1], false⟩ rfl rfl)
  have r22 := r21.step (.remDrain _ 0 (pg 5) 1 [] [] 0 ⟨pg 5, 1, [1], true⟩ rfl rfl rfl)
  exact ⟨_, r22, rfl, rfl, rfl, rfl, rfl, rfl⟩

/-- The hypotheses of `c68_after_return_partial` and `c68_one_replica_partial` are met: an unmap of two
machines comes to its return. -/
theorem c68_sample (cap rcap : Nat) (hr : 0 < rcap) (node : Nat → Nat) :
    ∃ s s', Reach (two cap rcap node) s ∧ Unmapping s 0 (pg 5) 1 ∧ Step (two cap rcap node) s s' ∧
      s'.cpu 0 = Cpu.user ∧ s'.cpu 1 = Cpu.user ∧ s'.act 1 = true ∧
      ptAt (s.log.take 1) 5 = some 0 := by
  obtain ⟨s, r, h0, h1, h2, h3, _⟩ := reach_end cap rcap hr node
  refine ⟨s, _, r, .inr ⟨[], by rw [h0]⟩, .finish s 0 (pg 5) 1 h0, ?_, ?_, h2, by rw [h3]; rfl⟩
  · show upd s.cpu 0 Cpu.user 0 = Cpu.user
    rw [upd_same]
  · show upd s.cpu 0 Cpu.user 1 = Cpu.user
    rw [upd_other _ _ (by decide)]
    exact h1

/-- **C68** is false of every rack with two clients: each has its own replicas of the page table.  Core 0
unmaps a page; the core of the other machine flushes it; the call returns.  The other core then reads the
translation again from the replica of its machine, which has not applied the unmap, and uses it. -/
theorem c68_two_machines (cap rcap : Nat) (hr : 0 < rcap) :
    ∃ s s' t e, Reach (two cap rcap id) s ∧ Unmapping s 0 (pg 5) 1 ∧ Step (two cap rcap id) s s' ∧
      s'.cpu 0 = Cpu.user ∧ Steps (two cap rcap id) s' t ∧ t.cpu 1 = Cpu.user ∧ t.tlb 1 5 = some e ∧
      ptAt (s.log.take 1) 5 = some e.w ∧ ptAt t.log 5 = none := by
  obtain ⟨s, r, h0, h1, h2, h3, h4, h5⟩ := reach_end cap rcap hr id
  have hfin : Step (two cap rcap id) s _ := .finish s 0 (pg 5) 1 h0
  refine ⟨s, _, _, ⟨0, 2, 1⟩, r, .inr ⟨[], by rw [h0]⟩, hfin, ?_,
    .tail (.refl _) (.fill _ 1 5 0 h2 ?_), ?_, ?_, by rw [h3]; rfl, ?_⟩
  · show upd s.cpu 0 Cpu.user 0 = Cpu.user
    rw [upd_same]
  · show ptAt (List.take (s.applied 1) s.log) 5 = some 0
    rw [h3, h5]
    decide +kernel
  · show upd s.cpu 0 Cpu.user 1 = Cpu.user
    rw [upd_other _ _ (by decide)]
    exact h1
  · show upd s.tlb 1 (upd (s.tlb 1) 5 (some ⟨0, s.log.length, s.applied 1⟩)) 1 5 = some ⟨0, 2, 1⟩
    rw [upd_same, upd_same, h3, h5]
    decide +kernel
  · show ptAt s.log 5 = none
    rw [h3]
    decide +kernel

/-! ## The queue of a machine -/

/-- One core on machine 2, all others on machine 1. -/
def many (cap rcap : Nat) : Cfg := ⟨3, cap, rcap, fun c => if c = 0 then 2 else 1, fun c => if c = 0 then 2 else 1⟩

theorem many_mach (cap rcap n : Nat) : (many cap rcap).mach (n + 1) = 1 := by
  show (if n + 1 = 0 then 2 else 1) = 1
  rw [if_neg (by omega)]

/-- `n` cores of machine 1, and core 0, have an executor. -/
theorem reach_active (cap rcap n : Nat) :
    ∃ s, Reach (many cap rcap) s ∧ s.log = [] ∧ (∀ c, s.cpu c = Cpu.user) ∧ (∀ m, s.rqueue m = []) ∧
      ∀ c, s.act c = true ↔ c ≤ n := by
  induction n with
  | zero =>
    have r1 : Reach (many cap rcap) _ := Reach.init.step
      (.activate _ 0 rfl (show 1 ≤ 2 by omega) (show 2 < 3 by omega))
    refine ⟨_, r1, rfl, fun _ => rfl, fun _ => rfl, fun c => ?_⟩
    show upd (fun _ => false) 0 true c = true ↔ c ≤ 0
    unfold upd
    split
    · next e => simp [e]
    · next e => simp [e]
  | succ n ih =>
    obtain ⟨s, r, h1, h2, h3, h4⟩ := ih
    have hf : s.act (n + 1) = false := by
      cases hx : s.act (n + 1) with
      | false => rfl
      | true => have := (h4 _).1 hx; omega
    have hm : (many cap rcap).mach (n + 1) = 1 := many_mach cap rcap n
    have r1 := r.step (.activate s (n + 1) hf (by rw [hm]; exact Nat.le_refl _) (by rw [hm]; exact (show 1 < 3 by omega)))
    refine ⟨_, r1, h1, h2, h3, fun c => ?_⟩
    show upd s.act (n + 1) true c = true ↔ c ≤ n + 1
    rw [upd_apply]
    split
    · next e => simp [e]
    · next e => rw [h4]; omega

/-- The pages 1 to `n` were mapped; the first `j` cores have unmapped theirs and sent requests to machine 2. -/
theorem reach_asked (cap rcap n j : Nat) (hj : j ≤ n) (hr : j ≤ rcap) :
    ∃ s, Reach (many cap rcap) s ∧ (∀ c, j < c → s.cpu c = Cpu.user) ∧ (s.rqueue 2).length = j ∧
      (∀ c, s.act c = true ↔ c ≤ n) ∧ ∀ p, j < p → p ≤ n → ptAt s.log p = some 0 := by
  induction j with
  | zero =>
    obtain ⟨s, r, h1, h2, h3, h4⟩ := reach_active cap rcap n
    have r1 := r.step (.map s 0 ⟨1, n⟩ (h2 0) ((h4 0).2 (Nat.zero_le _)) (fun p _ => by rw [h1]; rfl))
    refine ⟨_, r1, fun c _ => h2 c, ?_, h4, ?_⟩
    · show (s.rqueue 2).length = 0
      rw [h3]; rfl
    · intro p hp hn
      show ptAt (s.log ++ [.map ⟨1, n⟩ s.log.length]) p = some 0
      rw [h1]
      exact if_pos (show 1 ≤ p ∧ p < 1 + n by omega)
  | succ j ih =>
    obtain ⟨s, r, h1, h2, h3, h4⟩ := ih (by omega) (by omega)
    let hs : Nat → List Nat := fun m => if m = 2 then [0] else if m = 1 then List.range' 1 n else []
    have hok : ∀ m c, c ∈ hs m ↔ s.act c = true ∧ (many cap rcap).mach c = m := by
      intro m c
      rw [h3]
      show c ∈ (if m = 2 then [0] else if m = 1 then List.range' 1 n else []) ↔
        c ≤ n ∧ (if c = 0 then 2 else 1) = m
      by_cases e2 : m = 2
      · rw [if_pos e2, List.mem_singleton, e2]
        by_cases ec : c = 0
        · simp [ec]
        · simp [ec]
      · rw [if_neg e2]
        by_cases e1 : m = 1
        · rw [if_pos e1, List.mem_range'_1, e1]
          by_cases ec : c = 0
          · simp [ec]
          · rw [if_neg ec]; omega
        · rw [if_neg e1]
          constructor
          · intro h; cases h
          · rintro ⟨_, hb⟩
            split at hb <;> omega
    have hm : (many cap rcap).mach (j + 1) = 1 := many_mach cap rcap j
    have r1 := r.step (.unmap s (j + 1) (pg (j + 1)) 0 hs (h1 _ (by omega)) ((h3 _).2 (by omega))
      (fun p hp => by
        rw [pg_has] at hp
        subst hp
        exact h4 _ (by omega) (by omega)) hok)
    have r2 := r1.step (.remSkip _ (j + 1) (pg (j + 1)) s.log.length hs 1 [2] [] (upd_same _ _ _) (.inl hm.symm))
    have r3 := r2.step (.remEnqueue _ (j + 1) (pg (j + 1)) s.log.length hs 2 [] [] (upd_same _ _ _)
      (by
        rintro (h | h)
        · rw [hm] at h; cases h
        · cases h) (show (s.rqueue 2).length < rcap by omega))
    refine ⟨_, r3, ?_, ?_, h3, ?_⟩
    · intro c hc
      show upd (upd (upd s.cpu (j + 1) _) (j + 1) _) (j + 1) _ c = Cpu.user
      rw [upd_other _ _ (by omega), upd_other _ _ (by omega), upd_other _ _ (by omega)]
      exact h1 c (by omega)
    · show (upd s.rqueue 2 (s.rqueue 2 ++ [_]) 2).length = j + 1
      rw [upd_same, List.length_append, List.length_singleton, h2]
    · intro p hp hn
      show ptAt (s.log ++ [.unmap (pg (j + 1))]) p = some 0
      rw [ptAt_append]
      show (if (pg (j + 1)).Has p then none else ptAt s.log p) = some 0
      rw [if_neg (by rw [pg_has]; omega)]
      exact h4 p (by omega) hn

/-- The queue of a machine has room for a fixed number of requests.  If that many cores of other machines
unmap memory at the same time, the next one panics inside the system call, for every capacity, and never
returns. -/
theorem c68_full_queue (cap rcap : Nat) :
    ∃ s i r k, Reach (many cap rcap) s ∧ Unmapping s i r k ∧ (s.cpu i).work = some .dead ∧
      ∀ t, Steps (many cap rcap) s t → t.cpu i ≠ Cpu.user := by
  obtain ⟨s, r, h1, h2, h3, h4⟩ := reach_asked cap rcap (rcap + 1) rcap (by omega) (Nat.le_refl _)
  let hs : Nat → List Nat := fun m => if m = 2 then [0] else if m = 1 then List.range' 1 (rcap + 1) else []
  have hok : ∀ m c, c ∈ hs m ↔ s.act c = true ∧ (many cap rcap).mach c = m := by
    intro m c
    rw [h3]
    show c ∈ (if m = 2 then [0] else if m = 1 then List.range' 1 (rcap + 1) else []) ↔
      c ≤ rcap + 1 ∧ (if c = 0 then 2 else 1) = m
    by_cases e2 : m = 2
    · rw [if_pos e2, List.mem_singleton, e2]
      by_cases ec : c = 0
      · simp [ec]
      · simp [ec]
    · rw [if_neg e2]
      by_cases e1 : m = 1
      · rw [if_pos e1, List.mem_range'_1, e1]
        by_cases ec : c = 0
        · simp [ec]
        · rw [if_neg ec]; omega
      · rw [if_neg e1]
        constructor
        · intro h; cases h
        · rintro ⟨_, hb⟩
          split at hb <;> omega
  have hm : (many cap rcap).mach (rcap + 1) = 1 := many_mach cap rcap rcap
  have r1 := r.step (.unmap s (rcap + 1) (pg (rcap + 1)) 0 hs (h1 _ (by omega)) ((h3 _).2 (by omega))
    (fun p hp => by
      rw [pg_has] at hp
      subst hp
      exact h4 _ (by omega) (by omega)) hok)
  have r2 := r1.step (.remSkip _ (rcap + 1) (pg (rcap + 1)) s.log.length hs 1 [2] [] (upd_same _ _ _)
    (.inl hm.symm))
  have r3 := r2.step (.remFull _ (rcap + 1) (pg (rcap + 1)) s.log.length hs 2 [] [] (upd_same _ _ _)
    (by
      rintro (h | h)
      · rw [hm] at h; cases h
      · cases h) (show ¬ (s.rqueue 2).length < rcap by omega))
  have hd : (upd (upd (upd s.cpu (rcap + 1) { Cpu.user with
      base := .rem (pg (rcap + 1)) s.log.length hs [1, 2] [] }) (rcap + 1)
      ⟨.rem (pg (rcap + 1)) s.log.length hs [2] [], none, none, none⟩) (rcap + 1)
      ⟨.rem (pg (rcap + 1)) s.log.length hs [2] [], none, none, some .dead⟩ (rcap + 1)).work = some .dead := by
    rw [upd_same]
  refine ⟨_, rcap + 1, pg (rcap + 1), s.log.length, r3, .inl ⟨hs, [2], [], ?_⟩, hd, ?_⟩
  · show (upd (upd (upd s.cpu (rcap + 1) _) (rcap + 1) _) (rcap + 1) _ (rcap + 1)).base = _
    rw [upd_same]
  · intro t ht e
    have := (c68_dead hd ht).1
    rw [e] at this
    cases this

end NRK.Tlb.Rack
