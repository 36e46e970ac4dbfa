import Verif.Tlb.TlbProps

/-! # Executions of the shootdown protocol -/

namespace NRK.Tlb

/-- One base page. -/
def pg (p : Nat) : Rng := ⟨p, 1⟩

theorem pg_has (p q : Nat) : (pg p).Has q ↔ q = p := by unfold pg Rng.Has; dsimp only; omega

/-- Cores 0 and 1 run the process, mapping 0 is at page 5 and core 1 has used it; `app` are the positions
of the replicas. -/
def started (app : Nat → Nat) (q : List Item) : St :=
  { log := [.map (pg 5) 0], applied := app, tlb := upd (fun _ _ => none) 1 (upd (fun _ => none) 5 (some 0)),
    act := upd (upd (fun _ => false) 0 true) 1 true, pc := fun _ => .user, objs := [],
    queue := upd (fun _ => []) 1 q }

theorem act2 (c : Nat) : c ∈ [1] ↔ upd (upd (fun _ => false) 0 true) 1 true c = true ∧ c ≠ 0 := by
  simp only [upd]
  by_cases h1 : c = 1
  · subst h1; simp
  · by_cases h0 : c = 0
    · subst h0; simp
    · simp [h1, h0]

/-- Start on one replica per node, the node of core 1 having caught up. -/
theorem reach_started (cap : Nat) (node : Nat → Nat) :
    ∃ app, Reach cap node (started app []) ∧ app (node 0) = 1 ∧ app (node 1) = 1 := by
  have r0 : Reach cap node St.init := .init
  have r1 := r0.step (.activate _ 0 rfl)
  have r2 := r1.step (.activate _ 1 rfl)
  have r3 := r2.step (.map _ 0 (pg 5) rfl rfl (fun _ _ => rfl))
  have r4 := r3.step (.sync _ (node 1) 1 (by
    show upd (fun _ => 0) (node 0) 1 (node 1) ≤ 1
    rw [upd_apply]; split <;> simp) (by exact Nat.le_refl _))
  have r5 := r4.step (.fill _ 1 5 0 rfl (by
    show ptAt (List.take (upd (upd (fun _ => 0) (node 0) 1) (node 1) 1 (node 1)) [.map (pg 5) 0]) 5 = some 0
    rw [upd_same]
    decide +kernel))
  refine ⟨upd (upd (fun _ => 0) (node 0) 1) (node 1) 1, ?_, ?_, upd_same _ _ _⟩
  · refine (congrArg (Reach cap node) ?_).mp r5
    unfold started
    congr 1
    · funext c p
      simp only [upd, St.init]
      repeat' (first | rfl | split)
    · funext c; simp [upd, St.init]
  · rw [upd_apply]; split
    · rfl
    · rw [upd_same]

/-- The state after the unmap by core 0 was sent, its own flush done, with the request in the queue of
core 1. -/
def asked (app : Nat → Nat) (q : List Item) : St :=
  { log := [.map (pg 5) 0, .unmap (pg 5)], applied := app,
    tlb := upd (upd (fun _ _ => none) 1 (upd (fun _ => none) 5 (some 0))) 0 (upd (fun _ => none) 5 none),
    act := upd (upd (fun _ => false) 0 true) 1 true,
    pc := upd (fun _ => .user) 0 (.wait (pg 5) 0 [0]), objs := [⟨pg 5, 1, false⟩],
    queue := upd (fun _ => []) 1 q }

theorem reach_asked {cap : Nat} {node : Nat → Nat} {app : Nat → Nat} {q : List Item}
    (h : Reach cap node (started app q)) :
    Reach cap node (asked (upd app (node 0) 2) (push cap q (.shoot 0))) := by
  have r1 := h.step (.unmap _ 0 (pg 5) 0 [1] rfl rfl (by
    intro p hp
    rw [pg_has] at hp
    subst hp
    rfl) act2)
  have r2 := r1.step (.enqueue _ 0 (pg 5) 0 1 [] [] rfl)
  have r3 := r2.step (.enqDone _ 0 (pg 5) 0 [0] (by rfl))
  have r4 := r3.step (.selfPage _ 0 (pg 5) 0 5 [] [0] (by rfl))
  have r5 := r4.step (.selfDone _ 0 (pg 5) 0 [0] (by rfl))
  refine (congrArg (Reach cap node) ?_).mp r5
  unfold asked started
  simp only [upd_upd]
  congr 1

/-- The state after core 1 has handled the request. -/
def served (app : Nat → Nat) : St :=
  { log := [.map (pg 5) 0, .unmap (pg 5)], applied := app, tlb := fun _ _ => none,
    act := upd (upd (fun _ => false) 0 true) 1 true,
    pc := upd (fun _ => .user) 0 (.wait (pg 5) 0 [0]), objs := [⟨pg 5, 1, true⟩],
    queue := fun _ => [] }

theorem reach_served {cap : Nat} {node : Nat → Nat} {app : Nat → Nat}
    (h : Reach cap node (asked app [.shoot 0])) : Reach cap node (served app) := by
  have r1 := h.step (.irq _ 1 (.shoot 0) [] rfl rfl)
  have r2 := r1.step (.ack _ 1 0 .user ⟨pg 5, 1, false⟩ rfl rfl)
  have r3 := r2.step (.flushPage _ 1 5 [] .user rfl)
  have r4 := r3.step (.flushDone _ 1 .user rfl)
  refine (congrArg (Reach cap node) ?_).mp r4
  unfold asked served
  simp only [upd_upd]
  congr 1
  · funext c p
    simp only [upd]
    by_cases h1 : c = 1
    · subst h1; simp
    · by_cases h0 : c = 0
      · subst h0; simp
      · simp [h0, h1]
  · funext c
    simp only [upd, Ret.pc]
    by_cases h1 : c = 1
    · subst h1; simp
    · by_cases h0 : c = 0
      · subst h0; simp
      · simp [h0, h1]
  · funext c
    simp only [upd]
    split <;> rfl

/-- The hypotheses of `c43_after_return_partial` are met: on one replica an unmap with another core comes
to its return, for every capacity of the queues above zero. -/
example (cap : Nat) (hc : 0 < cap) : ∃ s s' : St, Reach cap (fun _ => 0) s ∧ Unmapping s 0 (pg 5) 0 ∧
    Step cap (fun _ => 0) s s' ∧ s'.pc 0 = .user ∧ s'.act 1 = true ∧ s'.pc 1 = .user := by
  obtain ⟨app, r, _⟩ := reach_started cap (fun _ => 0)
  have r := reach_asked r
  unfold push at r
  rw [if_pos (by simpa using hc)] at r
  have r := reach_served r
  have r2 := r.step (.drain _ 0 (pg 5) 0 [] [] 0 ⟨pg 5, 1, true⟩ rfl rfl rfl)
  exact ⟨_, _, r2, .inr (.inr (.inl ⟨[], rfl⟩)), .finish _ 0 (pg 5) 0 rfl, rfl, rfl, rfl⟩

/-- **C43** is false with two replicas.  Cores 0 and 1 are on different nodes.  Core 0 unmaps a page,
core 1 serves the request, core 0 returns; core 1 then loads the translation again from the page table of
its own node, which has not seen the unmap, and uses it. -/
theorem c43_two_replicas (cap : Nat) (hc : 0 < cap) : ∃ s s' t : St, Reach cap id s ∧ Unmapping s 0 (pg 5) 0 ∧
    Step cap id s s' ∧ s'.pc 0 = .user ∧ Steps cap id s' t ∧ t.pc 1 = .user ∧ t.tlb 1 5 = some 0 ∧
    t.pt (id 0) 5 = none := by
  obtain ⟨app, r, h0, h1⟩ := reach_started cap id
  have r := reach_asked r
  unfold push at r
  rw [if_pos (by simpa using hc)] at r
  have r := reach_served r
  have r2 := r.step (.drain _ 0 (pg 5) 0 [] [] 0 ⟨pg 5, 1, true⟩ rfl rfl rfl)
  refine ⟨_, _, _, r2, .inr (.inr (.inl ⟨[], rfl⟩)), .finish _ 0 (pg 5) 0 rfl, rfl,
    .tail (.refl _) (.fill _ 1 5 0 rfl ?_), rfl, rfl, ?_⟩
  · show ptAt (List.take (upd app 0 2 1) [.map (pg 5) 0, .unmap (pg 5)]) 5 = some 0
    have h1 : app 1 = 1 := h1
    have : upd app 0 2 1 = app 1 := upd_other _ _ (by decide)
    rw [this, h1]
    decide +kernel
  · show ptAt (List.take (upd app 0 2 0) [.map (pg 5) 0, .unmap (pg 5)]) 5 = none
    rw [upd_same]
    decide +kernel

theorem reach_filled (cap : Nat) (k : Nat) (hk : k ≤ cap) : ∃ app,
    Reach cap (fun _ => 0) (started app (List.replicate k .advance)) := by
  induction k with
  | zero =>
    obtain ⟨app, r, _⟩ := reach_started cap (fun _ => 0)
    exact ⟨app, r⟩
  | succ k ih =>
    obtain ⟨app, r⟩ := ih (by omega)
    have r := r.step (.advanceReplica _ 1)
    refine ⟨app, (congrArg (Reach cap (fun _ => 0)) ?_).mp r⟩
    unfold started
    simp only [upd_upd, upd_same]
    unfold push
    rw [if_pos (by simp; omega), ← List.replicate_succ']

/-- A request that does not fit into the target's queue is dropped without notice, and the system call
never returns, on one replica as well, for every capacity. -/
theorem c43_queue_full_hangs (cap : Nat) : ∃ s : St, Reach cap (fun _ => 0) s ∧ Unmapping s 0 (pg 5) 0 ∧
    ∀ t, Steps cap (fun _ => 0) s t → t.pc 0 ≠ .user := by
  obtain ⟨app, r⟩ := reach_filled cap cap (Nat.le_refl _)
  have r := reach_asked r
  unfold push at r
  rw [if_neg (by simp)] at r
  refine ⟨_, r, .inr (.inr (.inl ⟨[0], rfl⟩)), ?_⟩
  intro t ht
  have hl : Lost (asked (upd app 0 2) (List.replicate cap .advance)) 0 0 := by
    refine ⟨⟨_, rfl, List.mem_singleton.2 rfl⟩, ⟨_, rfl, rfl⟩, ?_, ?_, ?_⟩
    · intro c hc
      have hc : Item.shoot 0 ∈ upd (fun _ => []) 1 (List.replicate cap Item.advance) c := hc
      rw [upd_apply] at hc
      split at hc
      · exact absurd (List.eq_of_mem_replicate hc) (by simp)
      · cases hc
    · intro c ret e
      have e : upd (fun _ => Pc.user) 0 (.wait (pg 5) 0 [0]) c = .popped (.shoot 0) ret := e
      rw [upd_apply] at e
      split at e <;> cases e
    · intro c e
      have e : upd (fun _ => Pc.user) 0 (.wait (pg 5) 0 [0]) c = .requeue (.shoot 0) := e
      rw [upd_apply] at e
      split at e <;> cases e
  have hl : Lost t 0 0 := by
    induction ht with
    | refl => exact hl
    | tail _ h2 ih => exact ih.step h2
  intro e
  obtain ⟨⟨x, hx, _⟩, _⟩ := hl
  rw [e] at hx
  cases hx

/-- The acknowledgement comes before the flush: a core can return from the unmap while a target still has
the translation in its TLB, but that target is in the kernel. -/
theorem c43_acknowledged_before_flush (cap : Nat) (hc : 0 < cap) : ∃ s : St, Reach cap (fun _ => 0) s ∧
    s.pc 0 = .user ∧ s.log = [.map (pg 5) 0, .unmap (pg 5)] ∧ s.tlb 1 5 = some 0 ∧ s.pc 1 ≠ .user := by
  obtain ⟨app, r, _⟩ := reach_started cap (fun _ => 0)
  have r := reach_asked r
  unfold push at r
  rw [if_pos (by simpa using hc)] at r
  have r1 := r.step (.irq _ 1 (.shoot 0) [] rfl rfl)
  have r2 := r1.step (.ack _ 1 0 .user ⟨pg 5, 1, false⟩ rfl rfl)
  have r3 := r2.step (.drain _ 0 (pg 5) 0 [] [] 0 ⟨pg 5, 1, true⟩ rfl rfl rfl)
  have r4 := r3.step (.finish _ 0 (pg 5) 0 rfl)
  exact ⟨_, r4, rfl, rfl, rfl, fun e => (nomatch (show Pc.flushing (.pages [5]) .user = .user from e))⟩

end NRK.Tlb
