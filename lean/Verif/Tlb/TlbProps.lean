import Verif.Tlb.TlbLemmas

/-!
# Property theorems about TLB shootdown (C43) and its interrupts (C44)

A translation is *used* when a core that runs user code finds it in its TLB.  Mappings have numbers that
are never used twice, so "mapping `w` at page `p`" means the same thing forever.
-/

namespace NRK.Tlb

/-- Core `i` is inside the unmap system call for mapping `w` on the pages `r`; it may be serving another
core's request at the same time. -/
def Unmapping (s : St) (i : Nat) (r : Rng) (w : Nat) : Prop :=
  (∃ todo pend, s.pc i = .enq r w todo pend) ∨ (∃ fl pend, s.pc i = .self r w fl pend) ∨
  (∃ pend, s.pc i = .wait r w pend) ∨ (∃ it pend, s.pc i = .popped it (.wait r w pend)) ∨
  (∃ fl pend, s.pc i = .flushing fl (.wait r w pend))

theorem unmapping_of_shoot {s : St} {i : Nat} {x : Shoot} (h : (s.pc i).shoot = some x) :
    Unmapping s i x.r x.w := by
  unfold Unmapping
  generalize s.pc i = pc at h
  cases pc with
  | user => cases h
  | enq r w todo pend => cases h; exact .inl ⟨todo, pend, rfl⟩
  | self r w fl pend => cases h; exact .inr (.inl ⟨fl, pend, rfl⟩)
  | wait r w pend => cases h; exact .inr (.inr (.inl ⟨pend, rfl⟩))
  | popped it ret =>
    cases ret with
    | user => cases h
    | wait r w pend => cases h; exact .inr (.inr (.inr (.inl ⟨it, pend, rfl⟩)))
  | flushing fl ret =>
    cases ret with
    | user => cases h
    | wait r w pend => cases h; exact .inr (.inr (.inr (.inr ⟨fl, pend, rfl⟩)))
  | requeue it => cases h

theorem shoot_of_unmapping {s : St} {i : Nat} {r : Rng} {w : Nat} (h : Unmapping s i r w) :
    ∃ x, (s.pc i).shoot = some x ∧ x.r = r ∧ x.w = w := by
  rcases h with ⟨a, b, h⟩ | ⟨a, b, h⟩ | ⟨a, h⟩ | ⟨a, b, h⟩ | ⟨a, b, h⟩ <;> rw [h] <;>
    exact ⟨_, rfl, rfl, rfl⟩

/-- **C43**, at every moment.  If all cores use one replica of the page table, then a core that runs user
code can use a translation only if it is in the page table, or a core is still inside the unmap call that
removed it.  Missing: more than one replica, where the statement is false (`c43_two_replicas`). -/
theorem c43_one_replica_partial {cap n : Nat} {node : Nat → Nat} (hn : ∀ c, node c = n) {s : St}
    (h : Reach cap node s) {c p w : Nat} (hu : s.pc c = .user) (ht : s.tlb c p = some w) :
    s.pt n p = some w ∨ ∃ i r, r.Has p ∧ Unmapping s i r w := by
  have hi := h.inv hn
  rw [hi.pt]
  rcases hi.main c p w ht with h1 | ⟨i, x, hx, h1, h2, _⟩ | h1
  · exact .inl h1
  · subst h1
    exact .inr ⟨i, x.r, h2, unmapping_of_shoot hx⟩
  · rw [hu] at h1
    exact h1.elim

/-! ## After the return -/

/-- Any number of steps. -/
inductive Steps (cap : Nat) (node : Nat → Nat) : St → St → Prop where
  | refl (s : St) : Steps cap node s s
  | tail {s t u : St} : Steps cap node s t → Step cap node t u → Steps cap node s u

theorem Steps.reach {cap : Nat} {node : Nat → Nat} {s t : St} (h : Steps cap node s t)
    (hs : Reach cap node s) : Reach cap node t := by
  induction h with
  | refl => exact hs
  | tail _ h2 ih => exact .step ih h2

/-- How a step changes log and shootdowns under way. -/
theorem Step.effect {cap : Nat} {node : Nat → Nat} {s s' : St} (h : Step cap node s s') :
    (s'.log = s.log ∧ ∀ i x', (s'.pc i).shoot = some x' → ∃ x, (s.pc i).shoot = some x ∧ x.r = x'.r ∧ x.w = x'.w) ∨
    (∃ r, s'.log = s.log ++ [.map r s.log.length] ∧ s'.pc = s.pc ∧ ∀ p, r.Has p → ptAt s.log p = none) ∨
    (∃ i r w todo, s'.log = s.log ++ [.unmap r] ∧ s'.pc = upd s.pc i (.enq r w todo []) ∧
      s.pc i = .user ∧ ∀ p, r.Has p → ptAt s.log p = some w) := by
  have same : ∀ (i : Nat) (pc' : Pc) (x0 : Option Shoot), (s.pc i).shoot = x0 →
      (∀ x', pc'.shoot = some x' → ∃ x, x0 = some x ∧ x.r = x'.r ∧ x.w = x'.w) →
      ∀ j x', (upd s.pc i pc' j).shoot = some x' → ∃ x, (s.pc j).shoot = some x ∧ x.r = x'.r ∧ x.w = x'.w := by
    intro i pc' x0 h0 hx j x' hj
    by_cases e : j = i
    · rw [e, upd_same] at hj
      rw [e, h0]
      exact hx x' hj
    · rw [upd_other _ _ e] at hj
      exact ⟨x', hj, rfl, rfl⟩
  cases h with
  | activate => exact .inl ⟨rfl, fun i x' h => ⟨x', h, rfl, rfl⟩⟩
  | fill => exact .inl ⟨rfl, fun i x' h => ⟨x', h, rfl, rfl⟩⟩
  | sync => exact .inl ⟨rfl, fun i x' h => ⟨x', h, rfl, rfl⟩⟩
  | map i r hp ha h => exact .inr (.inl ⟨r, rfl, rfl, h⟩)
  | unmap i r w todo hp ha h ht => exact .inr (.inr ⟨i, r, w, todo, rfl, rfl, hp, h⟩)
  | enqueue i r w c todo pend hp =>
    exact .inl ⟨rfl, same i _ _ (congrArg Pc.shoot hp) (fun x' h => by cases h; exact ⟨_, rfl, rfl, rfl⟩)⟩
  | enqDone i r w pend hp =>
    exact .inl ⟨rfl, same i _ _ (congrArg Pc.shoot hp) (fun x' h => by cases h; exact ⟨_, rfl, rfl, rfl⟩)⟩
  | selfPage i r w p l pend hp =>
    exact .inl ⟨rfl, same i _ _ (congrArg Pc.shoot hp) (fun x' h => by cases h; exact ⟨_, rfl, rfl, rfl⟩)⟩
  | selfAll i r w pend hp =>
    exact .inl ⟨rfl, same i _ _ (congrArg Pc.shoot hp) (fun x' h => by cases h; exact ⟨_, rfl, rfl, rfl⟩)⟩
  | selfDone i r w pend hp =>
    exact .inl ⟨rfl, same i _ _ (congrArg Pc.shoot hp) (fun x' h => by cases h; exact ⟨_, rfl, rfl, rfl⟩)⟩
  | waitPop i r w pend it q hp hq =>
    exact .inl ⟨rfl, same i _ _ (congrArg Pc.shoot hp) (fun x' h => by cases h; exact ⟨_, rfl, rfl, rfl⟩)⟩
  | drain i r w as bs id o hp ho ha =>
    exact .inl ⟨rfl, same i _ _ (congrArg Pc.shoot hp) (fun x' h => by cases h; exact ⟨_, rfl, rfl, rfl⟩)⟩
  | finish i r w hp => exact .inl ⟨rfl, same i _ _ (congrArg Pc.shoot hp) (fun x' h => by cases h)⟩
  | irq c it q hp hq => exact .inl ⟨rfl, same c _ _ (congrArg Pc.shoot hp) (fun x' h => by cases h)⟩
  | ack c id ret o hp ho =>
    exact .inl ⟨rfl, same c _ _ (congrArg Pc.shoot hp) (fun x' h => ⟨x', h, rfl, rfl⟩)⟩
  | advance c ret hp =>
    exact .inl ⟨rfl, same c _ _ (congrArg Pc.shoot hp) (fun x' h => ⟨x', (ret.pc_shoot).symm.trans h, rfl, rfl⟩)⟩
  | flushPage c p l ret hp =>
    exact .inl ⟨rfl, same c _ _ (congrArg Pc.shoot hp) (fun x' h => ⟨x', h, rfl, rfl⟩)⟩
  | flushAll c ret hp =>
    exact .inl ⟨rfl, same c _ _ (congrArg Pc.shoot hp) (fun x' h => ⟨x', h, rfl, rfl⟩)⟩
  | flushDone c ret hp =>
    exact .inl ⟨rfl, same c _ _ (congrArg Pc.shoot hp) (fun x' h => ⟨x', (ret.pc_shoot).symm.trans h, rfl, rfl⟩)⟩
  | eagerPop c it q hp hq => exact .inl ⟨rfl, same c _ _ (congrArg Pc.shoot hp) (fun x' h => by cases h)⟩
  | eagerPush c id hp => exact .inl ⟨rfl, same c _ _ (congrArg Pc.shoot hp) (fun x' h => by cases h)⟩
  | eagerAdvance c hp => exact .inl ⟨rfl, same c _ _ (congrArg Pc.shoot hp) (fun x' h => by cases h)⟩
  | advanceReplica c => exact .inl ⟨rfl, fun i x' h => ⟨x', h, rfl, rfl⟩⟩

/-- Numbers of mappings are below the length of the log; a mapping being removed is not in the table,
and no page of it is being removed by two cores. -/
structure Inv2 (s : St) : Prop where
  lt : ∀ p w, ptAt s.log p = some w → w < s.log.length
  gone : ∀ i x p, (s.pc i).shoot = some x → x.r.Has p → x.w < s.log.length ∧ ptAt s.log p ≠ some x.w
  uniq : ∀ i j x y p, (s.pc i).shoot = some x → (s.pc j).shoot = some y → x.w = y.w → x.r.Has p →
    y.r.Has p → i = j

theorem Reach.inv2 {cap : Nat} {node : Nat → Nat} {s : St} (h : Reach cap node s) : Inv2 s := by
  induction h with
  | init => exact ⟨fun _ _ h => (nomatch h), fun _ _ _ h => (nomatch h), fun _ _ _ _ _ h => (nomatch h)⟩
  | @step s s' _ hs ih =>
    rcases hs.effect with ⟨hl, hp⟩ | ⟨r, hl, hp, hm⟩ | ⟨i, r, w, todo, hl, hp, hu, hm⟩
    · refine ⟨by rw [hl]; exact ih.lt, ?_, ?_⟩
      · intro i x' p hx hr
        obtain ⟨x, h1, h2, h3⟩ := hp i x' hx
        rw [hl, ← h3]
        exact ih.gone i x p h1 (by rw [h2]; exact hr)
      · intro i j x' y' p hx hy hw hr1 hr2
        obtain ⟨x, h1, h2, h3⟩ := hp i x' hx
        obtain ⟨y, g1, g2, g3⟩ := hp j y' hy
        exact ih.uniq i j x y p h1 g1 (by rw [h3, g3]; exact hw) (by rw [h2]; exact hr1) (by rw [g2]; exact hr2)
    · have hpt : ∀ p, ptAt s'.log p = if r.Has p then some s.log.length else ptAt s.log p := by
        intro p; rw [hl, ptAt_append]; rfl
      have hlen : s'.log.length = s.log.length + 1 := by rw [hl]; simp
      refine ⟨?_, ?_, by rw [hp]; exact ih.uniq⟩
      · intro p w hw
        rw [hpt] at hw
        split at hw
        · cases hw; omega
        · have := ih.lt p w hw; omega
      · intro i x p hx hr
        rw [hp] at hx
        obtain ⟨h1, h2⟩ := ih.gone i x p hx hr
        refine ⟨by omega, ?_⟩
        rw [hpt]
        split
        · intro e; have := Option.some.inj e; omega
        · exact h2
    · have hpt : ∀ p, ptAt s'.log p = if r.Has p then none else ptAt s.log p := by
        intro p; rw [hl, ptAt_append]; rfl
      have hlen : s'.log.length = s.log.length + 1 := by rw [hl]; simp
      have hsh : ∀ j x, (s'.pc j).shoot = some x →
          (j = i ∧ x.r = r ∧ x.w = w) ∨ (j ≠ i ∧ (s.pc j).shoot = some x) := by
        intro j x hx
        rw [hp] at hx
        by_cases e : j = i
        · rw [e, upd_same] at hx
          cases hx
          exact .inl ⟨e, rfl, rfl⟩
        · rw [upd_other _ _ e] at hx
          exact .inr ⟨e, hx⟩
      refine ⟨?_, ?_, ?_⟩
      · intro p v hv
        rw [hpt] at hv
        split at hv
        · cases hv
        · have := ih.lt p v hv; omega
      · intro j x p hx hr
        rw [hpt]
        rcases hsh j x hx with ⟨_, h1, h2⟩ | ⟨_, h1⟩
        · rw [h1] at hr
          rw [h2, if_pos hr]
          exact ⟨by have := ih.lt p w (hm p hr); omega, (by simp)⟩
        · obtain ⟨g1, g2⟩ := ih.gone j x p h1 hr
          refine ⟨by omega, ?_⟩
          split
          · simp
          · exact g2
      · intro j k x y p hx hy hw h1 h2
        rcases hsh j x hx with ⟨e1, a1, a2⟩ | ⟨e1, a1⟩ <;> rcases hsh k y hy with ⟨e2, b1, b2⟩ | ⟨e2, b1⟩
        · rw [e1, e2]
        · have := (ih.gone k y p b1 h2).2
          rw [← hw, a2] at this
          rw [a1] at h1
          exact absurd (hm p h1) this
        · have := (ih.gone j x p a1 h1).2
          rw [hw, b2] at this
          rw [b1] at h2
          exact absurd (hm p h2) this
        · exact ih.uniq j k x y p a1 b1 hw h1 h2

/-- Mapping `w` is over at page `p`. -/
def Over (s : St) (p w : Nat) : Prop :=
  w < s.log.length ∧ ptAt s.log p ≠ some w ∧ ∀ i x, (s.pc i).shoot = some x → x.w = w → ¬ x.r.Has p

theorem Over.step {cap : Nat} {node : Nat → Nat} {s s' : St} {p w : Nat} (h : Over s p w)
    (hs : Step cap node s s') : Over s' p w := by
  obtain ⟨h1, h2, h3⟩ := h
  rcases hs.effect with ⟨hl, hp⟩ | ⟨r, hl, hp, hm⟩ | ⟨i, r, v, todo, hl, hp, hu, hm⟩
  · refine ⟨by rw [hl]; exact h1, by rw [hl]; exact h2, ?_⟩
    intro i x' hx hw
    obtain ⟨x, g1, g2, g3⟩ := hp i x' hx
    rw [← g2]
    exact h3 i x g1 (g3.trans hw)
  · refine ⟨by rw [hl]; simp; omega, ?_, by rw [hp]; exact h3⟩
    rw [hl, ptAt_append]
    show (if r.Has p then some s.log.length else ptAt s.log p) ≠ some w
    split
    · intro e; cases e; omega
    · exact h2
  · refine ⟨by rw [hl]; simp; omega, ?_, ?_⟩
    · rw [hl, ptAt_append]
      show (if r.Has p then none else ptAt s.log p) ≠ some w
      split
      · simp
      · exact h2
    · intro j x hx hw hr
      rw [hp] at hx
      by_cases e : j = i
      · rw [e, upd_same] at hx
        cases hx
        have hw : v = w := hw
        subst hw
        exact h2 (hm p hr)
      · rw [upd_other _ _ e] at hx
        exact h3 j x hx hw hr

/-- **C43**.  If all cores use one replica of the page table: let core `i` return from the unmap of mapping
`w` on the pages `r`.  From then on, whatever any core does, no core that runs user code can use the
translation of a page of `r` by that mapping.  Missing: more than one replica (`c43_two_replicas`). -/
theorem c43_after_return_partial {cap n : Nat} {node : Nat → Nat} (hn : ∀ c, node c = n) {s s' t : St}
    (h : Reach cap node s) {i : Nat} {r : Rng} {w : Nat} (hm : Unmapping s i r w)
    (hs : Step cap node s s') (hret : s'.pc i = .user) (ht : Steps cap node s' t)
    {c p : Nat} (hp : r.Has p) (hu : t.pc c = .user) : t.tlb c p ≠ some w := by
  obtain ⟨x, hx, hxr, hxw⟩ := shoot_of_unmapping hm
  have hover : Over s' p w := by
    have h2 := h.inv2
    obtain ⟨g1, g2⟩ := h2.gone i x p hx (by rw [hxr]; exact hp)
    rw [hxw] at g1 g2
    rcases hs.effect with ⟨hl, hpc⟩ | ⟨_, _, hpc, _⟩ | ⟨j, _, _, _, _, hpc, hju, _⟩
    · refine ⟨by rw [hl]; exact g1, by rw [hl]; exact g2, ?_⟩
      intro j y' hy hyw hyr
      obtain ⟨y, f1, f2, f3⟩ := hpc j y' hy
      have : i = j := h2.uniq i j x y p hx f1 (by rw [hxw, f3, hyw]) (by rw [hxr]; exact hp) (by rw [f2]; exact hyr)
      subst this
      rw [hret] at hy
      cases hy
    · rw [hpc] at hret
      rw [hret] at hx
      cases hx
    · rw [hpc] at hret
      by_cases e : i = j
      · rw [e, upd_same] at hret; cases hret
      · rw [upd_other _ _ e] at hret
        rw [hret] at hx
        cases hx
  have hover : Over t p w := by
    clear hu
    induction ht with
    | refl => exact hover
    | tail _ h2 ih => exact ih.step h2
  have hrt : Reach cap node t := ht.reach (.step h hs)
  intro e
  rcases (hrt.inv hn).main c p w e with h1 | ⟨j, y, hy, h1, h2, _⟩ | h1
  · exact hover.2.1 h1
  · exact hover.2.2 j y hy h1 h2
  · rw [hu] at h1; exact h1

/-! ## A full queue -/

/-- Core `i` waits for a request that nobody will find. -/
def Lost (s : St) (i id : Nat) : Prop :=
  (∃ x, (s.pc i).shoot = some x ∧ id ∈ x.pend) ∧ (∃ o, s.objs[id]? = some o ∧ o.acked = false) ∧
  (∀ c, Item.shoot id ∉ s.queue c) ∧
  (∀ c ret, s.pc c ≠ .popped (.shoot id) ret) ∧ ∀ c, s.pc c ≠ .requeue (.shoot id)

/-- Steps of core `j` that neither take nor add nor acknowledge the request. -/
theorem Lost.keep {s s' : St} {i id j : Nat} {pc' : Pc} (h : Lost s i id)
    (hpc : s'.pc = upd s.pc j pc') (hobj : ∃ o, s'.objs[id]? = some o ∧ o.acked = false)
    (hq : ∀ c, Item.shoot id ∈ s'.queue c → Item.shoot id ∈ s.queue c)
    (hp : ∀ ret, pc' ≠ .popped (.shoot id) ret) (hr : pc' ≠ .requeue (.shoot id))
    (hsh : ∀ x, (s.pc j).shoot = some x → id ∈ x.pend → ∃ x', pc'.shoot = some x' ∧ id ∈ x'.pend) :
    Lost s' i id := by
  obtain ⟨⟨x, hx, hid⟩, h2, h3, h4, h5⟩ := h
  refine ⟨?_, hobj, fun c hc => h3 c (hq c hc), ?_, ?_⟩
  · rw [hpc]
    by_cases e : i = j
    · subst e
      rw [upd_same]
      exact hsh x hx hid
    · rw [upd_other _ _ e]
      exact ⟨x, hx, hid⟩
  · intro c ret
    rw [hpc]
    by_cases e : c = j
    · rw [e, upd_same]; exact hp ret
    · rw [upd_other _ _ e]; exact h4 c ret
  · intro c
    rw [hpc]
    by_cases e : c = j
    · rw [e, upd_same]; exact hr
    · rw [upd_other _ _ e]; exact h5 c

theorem pop_mem {queue : Nat → List Item} {j : Nat} {it jt : Item} {q : List Item} (hq : queue j = it :: q)
    (c : Nat) (h : jt ∈ upd queue j q c) : jt ∈ queue c := by
  by_cases e : c = j
  · subst e; rw [upd_same] at h; rw [hq]; exact List.mem_cons_of_mem _ h
  · rw [upd_other _ _ e] at h; exact h

theorem Lost.step {cap : Nat} {node : Nat → Nat} {s s' : St} {i id : Nat} (h : Lost s i id)
    (hs : Step cap node s s') : Lost s' i id := by
  have hfree : ∀ c it q, s.queue c = it :: q → it ≠ .shoot id := by
    intro c it q hq e
    refine h.2.2.1 c ?_
    rw [hq, e]
    exact List.mem_cons_self
  cases hs with
  | activate => exact h
  | fill => exact h
  | sync => exact h
  | map => exact h
  | unmap j r w todo hp =>
    exact h.keep rfl h.2.1 (fun _ h => h) (by simp) (by simp) (by rw [hp]; intro x hx; cases hx)
  | enqueue j r w c todo pend hp =>
    obtain ⟨o, ho, hoa⟩ := h.2.1
    have hlt := (List.getElem?_eq_some_iff.1 ho).1
    refine h.keep rfl ⟨o, get_append ho, hoa⟩ ?_ (by simp) (by simp) ?_
    · intro d hd
      have hd : Item.shoot id ∈ upd s.queue c (push cap (s.queue c) (.shoot s.objs.length)) d := hd
      by_cases e : d = c
      · subst e
        rw [upd_same] at hd
        rcases push_mem hd with hd | hd
        · exact hd
        · cases hd; omega
      · rw [upd_other _ _ e] at hd; exact hd
    · rw [hp]
      intro x hx hid
      cases hx
      exact ⟨_, rfl, List.mem_append_left _ hid⟩
  | enqDone j r w pend hp =>
    exact h.keep rfl h.2.1 (fun _ h => h) (by simp) (by simp)
      (by rw [hp]; intro x hx hid; cases hx; exact ⟨_, rfl, hid⟩)
  | selfPage j r w p l pend hp =>
    exact h.keep rfl h.2.1 (fun _ h => h) (by simp) (by simp)
      (by rw [hp]; intro x hx hid; cases hx; exact ⟨_, rfl, hid⟩)
  | selfAll j r w pend hp =>
    exact h.keep rfl h.2.1 (fun _ h => h) (by simp) (by simp)
      (by rw [hp]; intro x hx hid; cases hx; exact ⟨_, rfl, hid⟩)
  | selfDone j r w pend hp =>
    exact h.keep rfl h.2.1 (fun _ h => h) (by simp) (by simp)
      (by rw [hp]; intro x hx hid; cases hx; exact ⟨_, rfl, hid⟩)
  | waitPop j r w pend it q hp hq =>
    refine h.keep rfl h.2.1 (fun c => pop_mem hq c) ?_ (by simp)
      (by rw [hp]; intro x hx hid; cases hx; exact ⟨_, rfl, hid⟩)
    intro ret e
    cases e
    exact hfree j _ q hq rfl
  | drain j r w as bs id' o hp ho ha =>
    refine h.keep rfl h.2.1 (fun _ h => h) (by simp) (by simp) ?_
    rw [hp]
    intro x hx hid
    cases hx
    refine ⟨_, rfl, ?_⟩
    rcases List.mem_append.1 hid with h1 | h1
    · exact List.mem_append_left _ h1
    · rcases List.mem_cons.1 h1 with h2 | h2
      · subst h2
        obtain ⟨o', g1, g2⟩ := h.2.1
        rw [ho] at g1
        cases g1
        rw [ha] at g2
        cases g2
      · exact List.mem_append_right _ h2
  | finish j r w hp =>
    refine h.keep rfl h.2.1 (fun _ h => h) (by simp) (by simp) ?_
    rw [hp]
    intro x hx hid
    cases hx
    cases hid
  | irq j it q hp hq =>
    refine h.keep rfl h.2.1 (fun c => pop_mem hq c) ?_ (by simp) (by rw [hp]; intro x hx; cases hx)
    intro ret e
    cases e
    exact hfree j _ q hq rfl
  | ack j id' ret o hp ho =>
    have hne : id' ≠ id := by intro e; subst e; exact h.2.2.2.1 j ret hp
    obtain ⟨o', g1, g2⟩ := h.2.1
    refine h.keep rfl ⟨o', ?_, g2⟩ (fun _ h => h) (by simp) (by simp) (by rw [hp]; exact fun x hx hid => ⟨x, hx, hid⟩)
    show (s.objs.set id' _)[id]? = some o'
    rw [List.getElem?_set_ne hne]
    exact g1
  | advance j ret hp =>
    exact h.keep rfl h.2.1 (fun _ h => h) (by cases ret <;> simp [Ret.pc]) (by cases ret <;> simp [Ret.pc])
      (by rw [hp]; exact fun x hx hid => ⟨x, (ret.pc_shoot).trans hx, hid⟩)
  | flushPage j p l ret hp =>
    exact h.keep rfl h.2.1 (fun _ h => h) (by simp) (by simp) (by rw [hp]; exact fun x hx hid => ⟨x, hx, hid⟩)
  | flushAll j ret hp =>
    exact h.keep rfl h.2.1 (fun _ h => h) (by simp) (by simp) (by rw [hp]; exact fun x hx hid => ⟨x, hx, hid⟩)
  | flushDone j ret hp =>
    exact h.keep rfl h.2.1 (fun _ h => h) (by cases ret <;> simp [Ret.pc]) (by cases ret <;> simp [Ret.pc])
      (by rw [hp]; exact fun x hx hid => ⟨x, (ret.pc_shoot).trans hx, hid⟩)
  | eagerPop j it q hp hq =>
    refine h.keep rfl h.2.1 (fun c => pop_mem hq c) (by simp) ?_ (by rw [hp]; intro x hx; cases hx)
    intro e
    cases e
    exact hfree j _ q hq rfl
  | eagerPush j id' hp =>
    have hne : id' ≠ id := by intro e; subst e; exact h.2.2.2.2 j hp
    refine h.keep rfl h.2.1 ?_ (by simp) (by simp) (by rw [hp]; intro x hx; cases hx)
    intro d hd
    have hd : Item.shoot id ∈ upd s.queue j (push cap (s.queue j) (.shoot id')) d := hd
    by_cases e : d = j
    · subst e
      rw [upd_same] at hd
      rcases push_mem hd with hd | hd
      · exact hd
      · cases hd; exact absurd rfl hne
    · rw [upd_other _ _ e] at hd; exact hd
  | eagerAdvance j hp =>
    exact h.keep rfl h.2.1 (fun _ h => h) (by simp) (by simp) (by rw [hp]; intro x hx; cases hx)
  | advanceReplica j =>
    refine ⟨h.1, h.2.1, ?_, h.2.2.2⟩
    intro d hd
    have hd : Item.shoot id ∈ upd s.queue j (push cap (s.queue j) .advance) d := hd
    by_cases e : d = j
    · subst e
      rw [upd_same] at hd
      rcases push_mem hd with hd | hd
      · exact h.2.2.1 d hd
      · cases hd
    · rw [upd_other _ _ e] at hd; exact h.2.2.1 d hd

/-! ## The interrupts -/

theorem destinations_spec (apic : Nat → Nat) (me : Nat) (cores : List Nat) (d d' : Nat → BitVec 16)
    (h : destinations apic me cores d = .ok d') (k a : Nat) (ha : a < 16) :
    (d' k).getLsbD a = true ↔
      (d k).getLsbD a = true ∨ ∃ c ∈ cores, c ≠ me ∧ cluster (apic c) = k ∧ address (apic c) = a := by
  induction cores generalizing d with
  | nil => cases h; simp
  | cons c cs ih =>
    unfold destinations at h
    split at h
    · next e =>
      rw [ih d h]
      simp [e]
    · next e =>
      split at h
      · rw [ih _ h]
        by_cases hk : k = cluster (apic c)
        · subst hk
          rw [upd_same]
          have : (d (cluster (apic c)) ||| 1#16 <<< address (apic c)).getLsbD a = true ↔
              (d (cluster (apic c))).getLsbD a = true ∨ address (apic c) = a := by
            simp only [BitVec.getLsbD_or, BitVec.getLsbD_shiftLeft, Bool.or_eq_true]
            have : ((decide (a < 16) && !decide (a < address (apic c)) &&
                (1#16).getLsbD (a - address (apic c))) = true) ↔ address (apic c) = a := by
              simp [ha, BitVec.getLsbD_one]
              omega
            rw [this]
          rw [this]
          constructor
          · rintro ((h1 | h1) | ⟨c', h1, h2⟩)
            · exact .inl h1
            · exact .inr ⟨c, List.mem_cons_self, e, rfl, h1⟩
            · exact .inr ⟨c', List.mem_cons_of_mem _ h1, h2⟩
          · rintro (h1 | ⟨c', h1, h2, h3, h4⟩)
            · exact .inl (.inl h1)
            · rcases List.mem_cons.1 h1 with rfl | h1
              · exact .inl (.inr h4)
              · exact .inr ⟨c', h1, h2, h3, h4⟩
        · rw [upd_other _ _ hk]
          constructor
          · rintro (h1 | ⟨c', h1, h2⟩)
            · exact .inl h1
            · exact .inr ⟨c', List.mem_cons_of_mem _ h1, h2⟩
          · rintro (h1 | ⟨c', h1, h2, h3, h4⟩)
            · exact .inl h1
            · rcases List.mem_cons.1 h1 with rfl | h1
              · exact absurd h3.symm hk
              · exact .inr ⟨c', h1, h2, h3, h4⟩
      · cases h

theorem destinations_bound (apic : Nat → Nat) (me : Nat) (cores : List Nat) (d d' : Nat → BitVec 16)
    (h : destinations apic me cores d = .ok d') (c : Nat) (hc : c ∈ cores) (hm : c ≠ me) :
    cluster (apic c) < 16 := by
  induction cores generalizing d with
  | nil => cases hc
  | cons c' cs ih =>
    unfold destinations at h
    rcases List.mem_cons.1 hc with rfl | hc
    · rw [if_neg hm] at h
      split at h
      · assumption
      · cases h
    · split at h
      · exact ih d h hc
      · split at h
        · exact ih _ h hc
        · cases h

theorem low4 (b : BitVec 16) : (b.extractLsb' 0 4 != 0#4) = true ↔ ∃ a, a < 4 ∧ b.getLsbD a = true := by
  rw [bne_iff_ne]
  constructor
  · intro h
    by_cases hx : ∃ a, a < 4 ∧ b.getLsbD a = true
    · exact hx
    · refine absurd (BitVec.eq_of_getLsbD_eq (fun i hi => ?_)) h
      rw [BitVec.getLsbD_extractLsb']
      simp [hi]
      cases hb : b.getLsbD i with
      | false => rfl
      | true => exact absurd ⟨i, hi, hb⟩ hx
  · rintro ⟨a, ha, hb⟩ e
    have : (b.extractLsb' 0 4).getLsbD a = false := by rw [e]; simp
    rw [BitVec.getLsbD_extractLsb'] at this
    simp [ha, hb] at this

/-- What the code does, exactly: core `c` gets the interrupt if and only if its interrupt controller's
cluster and address are those of a target, and a target in the same cluster has an address below four. -/
theorem c44_exact_partial (apic : Nat → Nat) (me : Nat) (cores : List Nat) (msgs : List (Nat × BitVec 16))
    (h : shootdownIpis apic me cores = .ok msgs) (c : Nat) :
    Delivered msgs apic c ↔
      (∃ t ∈ cores, t ≠ me ∧ cluster (apic t) = cluster (apic c) ∧ address (apic t) = address (apic c)) ∧
      ∃ t ∈ cores, t ≠ me ∧ cluster (apic t) = cluster (apic c) ∧ address (apic t) < 4 := by
  unfold shootdownIpis at h
  cases hd : destinations apic me cores (fun _ => 0) with
  | err e => rw [hd] at h; cases h
  | panic => rw [hd] at h; cases h
  | ok d =>
    rw [hd] at h
    obtain rfl : sendIpis d = msgs := by cases h; rfl
    have hspec := destinations_spec apic me cores _ d hd
    have haddr : ∀ x, address x < 16 := fun x => Nat.mod_lt _ (by decide)
    unfold Delivered sendIpis
    constructor
    · rintro ⟨m, hm, h1, h2⟩
      rw [List.mem_map] at hm
      obtain ⟨k, hk, rfl⟩ := hm
      rw [List.mem_filter, low4] at hk
      have h1 : k = cluster (apic c) := h1
      subst h1
      obtain ⟨_, a, ha, hb⟩ := hk
      rcases (hspec _ _ (haddr (apic c))).1 h2 with h3 | ⟨t, h3, h4, h5, h6⟩
      · simp at h3
      rcases (hspec _ a (by omega)).1 hb with g3 | ⟨u, g3, g4, g5, g6⟩
      · simp at g3
      exact ⟨⟨t, h3, h4, h5, h6⟩, u, g3, g4, g5, by omega⟩
    · rintro ⟨⟨t, h3, h4, h5, h6⟩, u, g3, g4, g5, g6⟩
      have hb := destinations_bound apic me cores _ d hd t h3 h4
      refine ⟨(cluster (apic c), d (cluster (apic c))), ?_, rfl, ?_⟩
      · rw [List.mem_map]
        refine ⟨_, ?_, rfl⟩
        rw [List.mem_filter, low4]
        refine ⟨List.mem_range.2 (by omega), address (apic u), g6, ?_⟩
        exact (hspec _ _ (haddr _)).2 (.inr ⟨u, g3, g4, g5, rfl⟩)
      · exact (hspec _ _ (haddr _)).2 (.inr ⟨t, h3, h4, h5, h6⟩)

/-- **C44**, no other core: if the interrupt controllers have different ids (below 2^20), only targets are
interrupted, and never the core itself. -/
theorem c44_only_targets (apic : Nat → Nat) (me : Nat) (cores : List Nat) (msgs : List (Nat × BitVec 16))
    (h : shootdownIpis apic me cores = .ok msgs) (hlt : ∀ c, apic c < 1048576)
    (hinj : ∀ a b, apic a = apic b → a = b) (c : Nat) (hd : Delivered msgs apic c) : c ∈ cores ∧ c ≠ me := by
  obtain ⟨⟨t, h1, h2, h3, h4⟩, _⟩ := (c44_exact_partial apic me cores msgs h c).1 hd
  have : t = c := by
    refine hinj t c ?_
    have := hlt t
    have := hlt c
    unfold cluster at h3
    unfold address at h4
    omega
  subst this
  exact ⟨h1, h2⟩

/-- **C44**, each target, under a condition: a target is interrupted if some target of its cluster has an
address below four.  Missing: the other targets, which get no interrupt (`c44_no_interrupt`). -/
theorem c44_reaches_partial (apic : Nat → Nat) (me : Nat) (cores : List Nat) (msgs : List (Nat × BitVec 16))
    (h : shootdownIpis apic me cores = .ok msgs) (c : Nat) (hc : c ∈ cores) (hm : c ≠ me)
    (hlow : ∃ t ∈ cores, t ≠ me ∧ cluster (apic t) = cluster (apic c) ∧ address (apic t) < 4) :
    Delivered msgs apic c :=
  (c44_exact_partial apic me cores msgs h c).2 ⟨⟨c, hc, hm, rfl, rfl⟩, hlow⟩

/-- The code gives a result for every set of cores in the first sixteen clusters. -/
theorem c44_total (apic : Nat → Nat) (me : Nat) (cores : List Nat)
    (hlt : ∀ c ∈ cores, apic c < 256) : ∃ msgs, shootdownIpis apic me cores = .ok msgs := by
  have : ∀ d, ∃ d', destinations apic me cores d = .ok d' := by
    induction cores with
    | nil => exact fun d => ⟨d, rfl⟩
    | cons c cs ih =>
      intro d
      unfold destinations
      have ih := ih (fun c hc => hlt c (List.mem_cons_of_mem _ hc))
      split
      · exact ih d
      · rw [if_pos (by have := hlt c List.mem_cons_self; unfold cluster; omega)]
        exact ih _
  obtain ⟨d, hd⟩ := this (fun _ => 0)
  exact ⟨sendIpis d, by unfold shootdownIpis; rw [hd]; rfl⟩

/-- **C44** is false of the code: with the controllers' ids equal to the core numbers, core 0 asks cores 4
to 15 and none of them is interrupted. -/
theorem c44_no_interrupt (cores : List Nat) (h : ∀ c ∈ cores, 4 ≤ c ∧ c < 16) :
    shootdownIpis id 0 cores = .ok [] := by
  obtain ⟨msgs, hm⟩ := c44_total id 0 cores (fun c hc => by have := h c hc; show c < 256; omega)
  rw [hm]
  congr
  have hx := c44_exact_partial id 0 cores msgs hm
  have : ∀ m ∈ msgs, False := by
    intro m hmem
    unfold shootdownIpis at hm
    cases hd : destinations id 0 cores (fun _ => 0) with
    | err e => rw [hd] at hm; cases hm
    | panic => rw [hd] at hm; cases hm
    | ok d =>
      rw [hd] at hm
      obtain rfl : sendIpis d = msgs := by cases hm; rfl
      unfold sendIpis at hmem
      rw [List.mem_map] at hmem
      obtain ⟨k, hk, rfl⟩ := hmem
      rw [List.mem_filter, low4] at hk
      obtain ⟨_, a, ha, hb⟩ := hk
      rcases (destinations_spec id 0 cores _ d hd k a (by omega)).1 hb with h1 | ⟨t, h1, _, _, h4⟩
      · simp at h1
      · have := h t h1
        unfold address id at h4
        omega
  cases msgs with
  | nil => rfl
  | cons m _ => exact (this m List.mem_cons_self).elim

/-- The hypotheses are met: cores 0 to 20 of a machine, asked by core 2. -/
example : ∃ msgs, shootdownIpis id 2 (List.range 21) = .ok msgs ∧ Delivered msgs id 20 ∧ Delivered msgs id 9 ∧
    ¬ Delivered msgs id 2 ∧ ¬ Delivered msgs id 21 := by
  obtain ⟨msgs, hm⟩ := c44_total id 2 (List.range 21) (fun c hc => by have := List.mem_range.1 hc; show c < 256; omega)
  refine ⟨msgs, hm, ?_, ?_, ?_, ?_⟩
  · exact c44_reaches_partial _ _ _ _ hm 20 (by decide) (by decide) ⟨17, by decide, by decide, by decide, by decide⟩
  · exact c44_reaches_partial _ _ _ _ hm 9 (by decide) (by decide) ⟨1, by decide, by decide, by decide, by decide⟩
  · rw [c44_exact_partial _ _ _ _ hm]; decide
  · rw [c44_exact_partial _ _ _ _ hm]; decide

end NRK.Tlb
