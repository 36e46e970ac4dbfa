import Verif.Tlb.RackCalls

/-! # C68: an unmap on a rack reaches the cores of all machines -/

namespace NRK.Tlb.Rack

/-- Core `i` is in the system call that removed the range `r`; the removal has place `k` in the log. -/
def Unmapping (s : St) (i : Nat) (r : Rng) (k : Nat) : Prop :=
  (∃ hs todo pend, (s.cpu i).base = .rem r k hs todo pend) ∨ (∃ pend, (s.cpu i).base = .wait r k pend)

theorem Unmapping.call {s : St} {i : Nat} {r : Rng} {k : Nat} (h : Unmapping s i r k) :
    (s.cpu i).base.call = some (r, k) := by
  rcases h with ⟨_, _, _, h⟩ | ⟨_, h⟩ <;> rw [h] <;> rfl

theorem unmapping_of_call {s : St} {i : Nat} {r : Rng} {k : Nat} (h : (s.cpu i).base.call = some (r, k)) :
    Unmapping s i r k := by
  unfold Unmapping
  cases hb : (s.cpu i).base with
  | user => rw [hb] at h; cases h
  | rem r' k' hs todo pend => rw [hb] at h; cases h; exact .inl ⟨_, _, _, rfl⟩
  | wait r' k' pend => rw [hb] at h; cases h; exact .inr ⟨_, rfl⟩

/-- **C68**, at every moment: a core that runs user code, on any machine, can use a translation that was
read before an unmap of the page only while a core is still in that unmap. -/
theorem c68_flushed {g : Cfg} {s : St} (h : Reach g s) {k : Nat} {r : Rng}
    (hk : s.log[k]? = some (.unmap r)) {c p : Nat} (hp : r.Has p) (hu : s.cpu c = Cpu.user) {e : Entry}
    (he : s.tlb c p = some e) : k < e.len ∨ ∃ i, Unmapping s i r k := by
  by_cases hle : e.len ≤ k
  · rcases h.inv.main k r c p e hk hp he hle with ⟨i, hi⟩ | ⟨fl, hf, _⟩
    · refine .inr ⟨i, ?_⟩
      have hB := h.inv.base i
      revert hi hB
      unfold CpuOwes BaseOk Unmapping
      cases (s.cpu i).base with
      | user => exact fun h _ => h.elim
      | rem r' k' hs todo pend =>
        rintro ⟨h1, _⟩ ⟨h2, _⟩
        subst h1
        rw [h2] at hk
        cases hk
        exact .inl ⟨_, _, _, rfl⟩
      | wait r' k' pend =>
        rintro ⟨h1, _⟩ ⟨h2, _⟩
        subst h1
        rw [h2] at hk
        cases hk
        exact .inr ⟨_, rfl⟩
    · rw [hu] at hf
      cases hf
  · exact .inl (by omega)

/-- The unmap is in the log. -/
theorem Unmapping.logged {g : Cfg} {s : St} (h : Reach g s) {i : Nat} {r : Rng} {k : Nat}
    (hm : Unmapping s i r k) : s.log[k]? = some (.unmap r) := by
  have hB := h.inv.base i
  unfold BaseOk at hB
  rcases hm with ⟨_, _, _, h⟩ | ⟨_, h⟩ <;> rw [h] at hB <;> exact hB.1

theorem Over.of_return {g : Cfg} {s s' : St} (h : Reach g s) {i : Nat} {r : Rng} {k : Nat}
    (hm : Unmapping s i r k) (hs : Step g s s') (hret : s'.cpu i = Cpu.user) : Over s' k := by
  have h2 := h.inv2
  have hlt := h2.lt i r k hm.call
  have huser : (s'.cpu i).base.call = none := by rw [hret]; rfl
  rcases hs.effect with ⟨hl, hc⟩ | ⟨r', hl, hc⟩ | ⟨j, r', hs, todo, w, hl, hu, _, hc⟩
  · refine ⟨by rw [hl]; exact hlt, fun j r' hj => ?_⟩
    have := h2.uniq i j r r' k hm.call (hc j _ hj)
    subst this
    rw [huser] at hj
    cases hj
  · rw [hc, hm.call] at huser
    cases huser
  · have hji : i ≠ j := fun e => by
      have := hm.call
      rw [e, hu] at this
      cases this
    rw [hc, upd_other _ _ hji, hm.call] at huser
    cases huser

/-- **C68**, after the return of the unmap and ever after: the translations of the range in the TLB of a
core that runs user code, on any machine, were all read from a page table after the unmap was recorded.
If such a translation still is the removed one, then the replica of that core had not yet applied the
unmap when it was read.  Missing: that this does not happen; see `c68_two_machines`. -/
theorem c68_after_return_partial {g : Cfg} {s s' t : St} (h : Reach g s) {i : Nat} {r : Rng} {k : Nat}
    (hm : Unmapping s i r k) (hs : Step g s s') (hret : s'.cpu i = Cpu.user) (ht : Steps g s' t)
    {c p : Nat} (hp : r.Has p) (hu : t.cpu c = Cpu.user) {e : Entry} (he : t.tlb c p = some e) :
    k < e.len ∧ (ptAt (s.log.take k) p = some e.w → e.app ≤ k) := by
  have hr' : Reach g s' := .step h hs
  have hr := ht.reach hr'
  have hover := (Over.of_return h hm hs hret).steps ht
  have hlog0 := hm.logged h
  obtain ⟨l1, e1⟩ := hs.log_prefix
  obtain ⟨l2, e2⟩ := ht.log_prefix
  have hlog : t.log = s.log ++ (l1 ++ l2) := by rw [e2, e1, List.append_assoc]
  have hk : t.log[k]? = some (.unmap r) := by
    rw [hlog, List.getElem?_append_left (lt_of_get hlog0)]
    exact hlog0
  refine ⟨?_, ?_⟩
  · rcases c68_flushed hr hk hp hu he with h1 | ⟨j, hj⟩
    · exact h1
    · exact absurd hj.call (hover.2 j r)
  · intro hw
    have hi := hr.inv2
    obtain ⟨_, _, hpt⟩ := hi.ent c p e he
    have hw' : ptAt (t.log.take k) p = some e.w := by
      rw [hlog, List.take_append_of_le_length (by have := lt_of_get hlog0; omega)]
      exact hw
    obtain ⟨j, rj, j1, _, _⟩ := ptAt_some _ _ _ hw'
    obtain ⟨j', rj', j1', _, j3'⟩ := ptAt_some _ _ _ hpt
    have hjk : j < k := by
      have := lt_of_get j1
      rw [List.length_take] at this
      omega
    have gj : t.log[j]? = some (.map rj e.w) := by
      rw [List.getElem?_take_of_lt hjk] at j1
      exact j1
    have hj'a : j' < e.app := by
      have := lt_of_get j1'
      rw [List.length_take] at this
      omega
    have gj' : t.log[j']? = some (.map rj' e.w) := by
      rw [List.getElem?_take_of_lt hj'a] at j1'
      exact j1'
    have hjj : j' = j := (hi.num j' _ _ gj').symm.trans (hi.num j _ _ gj)
    by_cases ha : e.app ≤ k
    · exact ha
    · exact absurd hp (j3' k r (by omega) (by rw [List.getElem?_take_of_lt (by omega)]; exact hk))

/-- If all cores use one replica, it has applied the whole log. -/
theorem Reach.one {g : Cfg} {n : Nat} (hn : ∀ c, g.node c = n) {s : St} (h : Reach g s) :
    s.applied n = s.log.length ∧ ∀ c p e, s.tlb c p = some e → e.app = e.len := by
  induction h with
  | init => exact ⟨rfl, fun _ _ _ h => (nomatch h)⟩
  | @step s s' hr hst ih =>
    refine ⟨?_, ?_⟩
    · have hle := applied_effect hst hr.inv2.app n
      cases hst with
      | sync m k h1 h2 =>
        show upd s.applied m k n = s.log.length
        have hle : upd s.applied m k n ≤ s.log.length := hle
        rw [upd_apply] at hle ⊢
        split
        · next e => subst e; omega
        · exact ih.1
      | map i r | unmap i r =>
        show upd s.applied (g.node i) (s.log.length + 1) n = (s.log ++ [_]).length
        rw [hn i, upd_same, List.length_append, List.length_singleton]
      | _ => exact ih.1
    · intro c p e he
      rcases tlb_effect hst c p e he with h1 | ⟨_, h2, _⟩
      · exact ih.2 c p e h1
      · rw [h2]
        show s.applied (g.node c) = s.log.length
        rw [hn c]
        exact ih.1

/-- **C68** if all cores use one replica of the page table: after the return of the unmap, no core of any
machine that runs user code can use the removed mapping. -/
theorem c68_one_replica_partial {g : Cfg} {n : Nat} (hn : ∀ c, g.node c = n) {s s' t : St} (h : Reach g s)
    {i : Nat} {r : Rng} {k : Nat} (hm : Unmapping s i r k) (hs : Step g s s') (hret : s'.cpu i = Cpu.user)
    (ht : Steps g s' t) {c p w : Nat} (hp : r.Has p) (hw : ptAt (s.log.take k) p = some w)
    (hu : t.cpu c = Cpu.user) {e : Entry} (he : t.tlb c p = some e) : e.w ≠ w := by
  intro hew
  obtain ⟨h1, h2⟩ := c68_after_return_partial h hm hs hret ht hp hu he
  have h3 := h2 (by rw [hew]; exact hw)
  have h4 := ((ht.reach (.step h hs)).one hn).2 c p e he
  omega

/-! ## Requests are not lost -/

/-- Where the requests to other machines are. -/
structure RInv (g : Cfg) (s : St) : Prop where
  hs : ∀ i r k hs todo pend, (s.cpu i).base = .rem r k hs todo pend → ∀ m c, c ∈ hs m → g.mach c = m
  rq : ∀ m id, id ∈ s.rqueue m → ∃ o, s.robjs[id]? = some o ∧ ∀ c ∈ o.cores, g.mach c = m
  sv : ∀ i id, (s.cpu i).serve = some id → ∃ o, s.robjs[id]? = some o ∧ ∀ c ∈ o.cores, g.mach c = g.mach i
  kept : ∀ (id : Nat) (o : RObj), s.robjs[id]? = some o → o.acked = false →
    (∃ m, id ∈ s.rqueue m) ∨ ∃ i, (s.cpu i).serve = some id

theorem RInv.same {g : Cfg} {s s' : St} (h : RInv g s) (i : Nat) (u' : Cpu) (hr : s'.robjs = s.robjs)
    (hq : s'.rqueue = s.rqueue) (hcpu : s'.cpu = upd s.cpu i u') (hsv : u'.serve = (s.cpu i).serve)
    (hb : ∀ r k hs todo pend, u'.base = .rem r k hs todo pend →
      ∃ todo' pend', (s.cpu i).base = .rem r k hs todo' pend') : RInv g s' := by
  have hserve : ∀ j, (s'.cpu j).serve = (s.cpu j).serve := by
    intro j
    rw [hcpu, upd_apply]
    split
    · next e => rw [e]; exact hsv
    · rfl
  refine ⟨?_, by rw [hq, hr]; exact h.rq, ?_, ?_⟩
  · intro j r k hs todo pend hj
    rw [hcpu, upd_apply] at hj
    split at hj
    · obtain ⟨todo', pend', h1⟩ := hb r k hs todo pend hj
      exact h.hs i r k hs todo' pend' h1
    · exact h.hs j r k hs todo pend hj
  · intro j id hj
    rw [hserve] at hj
    rw [hr]
    exact h.sv j id hj
  · intro id o ho ha
    rw [hr] at ho
    rcases h.kept id o ho ha with h1 | ⟨j, h1⟩
    · exact .inl (by rw [hq]; exact h1)
    · exact .inr ⟨j, by rw [hserve]; exact h1⟩

theorem Reach.rinv {g : Cfg} {s : St} (h : Reach g s) : RInv g s := by
  induction h with
  | init =>
    exact ⟨fun _ _ _ _ _ _ h => (nomatch h), fun _ _ h => (nomatch h), fun _ _ h => (nomatch h),
      fun _ _ h => (nomatch h)⟩
  | @step s s' _ hst h =>
    cases hst with
    | activate | fill | sync | map => exact ⟨h.hs, h.rq, h.sv, h.kept⟩
    | unmap i r w hs hp ha hm ht =>
      refine ⟨?_, h.rq, ?_, ?_⟩
      · intro j r' k' hs' todo' pend' hj
        have hj : (upd s.cpu i _ j).base = .rem r' k' hs' todo' pend' := hj
        rw [upd_apply] at hj
        split at hj
        · cases hj
          exact fun m c hc => ((ht m c).1 hc).2
        · exact h.hs j r' k' hs' todo' pend' hj
      · intro j id hj
        have hj : (upd s.cpu i _ j).serve = some id := hj
        rw [upd_apply] at hj
        split at hj
        · cases hj
        · exact h.sv j id hj
      · intro id o ho hac
        rcases h.kept id o ho hac with h1 | ⟨j, h1⟩
        · exact .inl h1
        · refine .inr ⟨j, ?_⟩
          show (upd s.cpu i _ j).serve = some id
          rw [upd_apply]
          split
          · next e => subst e; rw [hp] at h1; cases h1
          · exact h1
    | remEnqueue i r k hs m todo pend hp hm hq =>
      have hB := h.hs i r k hs (m :: todo) pend (by rw [hp])
      have hget : ∀ (id : Nat) (o : RObj), s.robjs[id]? = some o →
          (s.robjs ++ [⟨r, k, hs m, false⟩])[id]? = some o := fun id o o1 => by
        rw [List.getElem?_append_left (lt_of_get o1)]; exact o1
      have hnew : (s.robjs ++ [⟨r, k, hs m, false⟩])[s.robjs.length]? = some ⟨r, k, hs m, false⟩ := by
        rw [List.getElem?_append_right (Nat.le_refl _)]; simp
      refine ⟨?_, ?_, ?_, ?_⟩
      · intro j r' k' hs' todo' pend' hj
        have hj : (upd s.cpu i _ j).base = .rem r' k' hs' todo' pend' := hj
        rw [upd_apply] at hj
        split at hj
        · cases hj; exact hB
        · exact h.hs j r' k' hs' todo' pend' hj
      · intro m' id hid
        have hid : id ∈ upd s.rqueue m (s.rqueue m ++ [s.robjs.length]) m' := hid
        rw [upd_apply] at hid
        have old : id ∈ s.rqueue m' → ∃ o, (s.robjs ++ [⟨r, k, hs m, false⟩])[id]? = some o ∧
            ∀ c ∈ o.cores, g.mach c = m' := fun h1 => by
          obtain ⟨o, o1, o2⟩ := h.rq m' id h1
          exact ⟨o, hget id o o1, o2⟩
        split at hid
        · next e =>
          subst e
          rcases List.mem_append.1 hid with h1 | h1
          · exact old h1
          · rw [List.mem_singleton.1 h1]
            exact ⟨_, hnew, fun c hc => hB m' c hc⟩
        · exact old hid
      · intro j id hj
        have hj : (upd s.cpu i _ j).serve = some id := hj
        rw [upd_apply] at hj
        split at hj
        · cases hj
        · obtain ⟨o, o1, o2⟩ := h.sv j id hj
          exact ⟨o, hget id o o1, o2⟩
      · intro id o ho hac
        have ho : (s.robjs ++ [⟨r, k, hs m, false⟩])[id]? = some o := ho
        by_cases hlt : id < s.robjs.length
        · rw [List.getElem?_append_left hlt] at ho
          rcases h.kept id o ho hac with ⟨m', h1⟩ | ⟨j, h1⟩
          · refine .inl ⟨m', ?_⟩
            show id ∈ upd s.rqueue m (s.rqueue m ++ [s.robjs.length]) m'
            rw [upd_apply]
            split
            · next e => subst e; exact List.mem_append.2 (.inl h1)
            · exact h1
          · refine .inr ⟨j, ?_⟩
            show (upd s.cpu i _ j).serve = some id
            rw [upd_apply]
            split
            · next e => subst e; rw [hp] at h1; cases h1
            · exact h1
        · have := lt_of_get ho
          rw [List.length_append, List.length_singleton] at this
          have : id = s.robjs.length := by omega
          refine .inl ⟨m, ?_⟩
          show id ∈ upd s.rqueue m (s.rqueue m ++ [s.robjs.length]) m
          rw [upd_same, this]
          exact List.mem_append.2 (.inr List.mem_cons_self)
    | served i b id o hp ho =>
      have hget : ∀ (id' : Nat) (o' : RObj), s.robjs[id']? = some o' →
          ∃ o'', (s.robjs.set id { o with acked := true })[id']? = some o'' ∧ o''.cores = o'.cores := by
        intro id' o' ho'
        by_cases ei : id' = id
        · subst ei
          rw [ho] at ho'
          cases ho'
          exact ⟨_, get_set_self ho, rfl⟩
        · exact ⟨o', by rw [get_set_ne ei]; exact ho', rfl⟩
      refine ⟨?_, ?_, ?_, ?_⟩
      · intro j r' k' hs' todo' pend' hj
        have hj : (upd s.cpu i _ j).base = .rem r' k' hs' todo' pend' := hj
        rw [upd_apply] at hj
        split at hj
        · exact h.hs i r' k' hs' todo' pend' (by rw [hp]; exact hj)
        · exact h.hs j r' k' hs' todo' pend' hj
      · intro m id' hid
        obtain ⟨o', o1, o2⟩ := h.rq m id' hid
        obtain ⟨o'', q1, q2⟩ := hget id' o' o1
        exact ⟨o'', q1, by rw [q2]; exact o2⟩
      · intro j id' hj
        have hj : (upd s.cpu i _ j).serve = some id' := hj
        rw [upd_apply] at hj
        split at hj
        · cases hj
        · obtain ⟨o', o1, o2⟩ := h.sv j id' hj
          obtain ⟨o'', q1, q2⟩ := hget id' o' o1
          exact ⟨o'', q1, by rw [q2]; exact o2⟩
      · intro id' o' ho' hac
        have ho' : (s.robjs.set id { o with acked := true })[id']? = some o' := ho'
        by_cases ei : id' = id
        · subst ei
          rw [get_set_self ho] at ho'
          cases ho'
          cases hac
        · rw [get_set_ne ei] at ho'
          rcases h.kept id' o' ho' hac with h1 | ⟨j, h1⟩
          · exact .inl h1
          · refine .inr ⟨j, ?_⟩
            show (upd s.cpu i _ j).serve = some id'
            rw [upd_apply]
            split
            · next e =>
              subst e
              rw [hp] at h1
              cases h1
              exact absurd rfl ei
            · exact h1
    | serve i b id q o hp hb hq ho =>
      have hmem : ∀ m id', id' ∈ upd s.rqueue (g.mach i) q m → id' ∈ s.rqueue m := by
        intro m id' hid
        rw [upd_apply] at hid
        split at hid
        · next e => rw [e, hq]; exact List.mem_cons_of_mem _ hid
        · exact hid
      refine ⟨?_, fun m id' hid => h.rq m id' (hmem m id' hid), ?_, ?_⟩
      · intro j r' k' hs' todo' pend' hj
        have hj : (upd s.cpu i _ j).base = .rem r' k' hs' todo' pend' := hj
        rw [upd_apply] at hj
        split at hj
        · exact absurd hj (hb r' k' hs' todo' pend')
        · exact h.hs j r' k' hs' todo' pend' hj
      · intro j id' hj
        have hj : (upd s.cpu i _ j).serve = some id' := hj
        rw [upd_apply] at hj
        split at hj
        · next e =>
          cases hj
          rw [e]
          exact h.rq (g.mach i) id (by rw [hq]; exact List.mem_cons_self)
        · exact h.sv j id' hj
      · intro id' o' ho' hac
        rcases h.kept id' o' ho' hac with ⟨m, h1⟩ | ⟨j, h1⟩
        · by_cases em : m = g.mach i
          · rw [em, hq] at h1
            rcases List.mem_cons.1 h1 with h2 | h2
            · refine .inr ⟨i, ?_⟩
              show (upd s.cpu i _ i).serve = some id'
              rw [upd_same, h2]
            · refine .inl ⟨g.mach i, ?_⟩
              show id' ∈ upd s.rqueue (g.mach i) q (g.mach i)
              rw [upd_same]
              exact h2
          · refine .inl ⟨m, ?_⟩
            show id' ∈ upd s.rqueue (g.mach i) q m
            rw [upd_other _ _ em]
            exact h1
        · refine .inr ⟨j, ?_⟩
          show (upd s.cpu i _ j).serve = some id'
          rw [upd_apply]
          split
          · next e => subst e; rw [hp] at h1; cases h1
          · exact h1
    | _ =>
      refine h.same _ _ rfl rfl rfl ?_ ?_
      · simp only [‹s.cpu _ = _›]
        try rfl
      · rw [‹s.cpu _ = _›]
        intro r k hs todo pend e
        first
          | exact ⟨_, _, e⟩
          | (cases e; done)
          | (cases e; exact ⟨_, _, rfl⟩)

/-- Where the requests to other cores are. -/
def LInv (s : St) : Prop :=
  ∀ (id : Nat) (o : Obj), s.objs[id]? = some o → o.acked = false →
    id ∈ s.queue o.target ∨ (s.cpu o.target).work = some (.popped id) ∨
    (s.cpu o.target).work = some (.requeue id) ∨ (s.cpu o.target).work = some .dead

theorem LInv.same {s s' : St} (h : LInv s) (i : Nat) (u' : Cpu) (ho : s'.objs = s.objs)
    (hq : s'.queue = s.queue) (hcpu : s'.cpu = upd s.cpu i u')
    (hw : u'.work = (s.cpu i).work ∨ (s.cpu i).work = none ∨ ∃ fl, (s.cpu i).work = some (.flushing fl)) :
    LInv s' := by
  intro id o hg ha
  rw [ho] at hg
  rw [hq, hcpu]
  rcases h id o hg ha with h1 | h1
  · exact .inl h1
  · right
    rw [upd_apply]
    split
    · next e =>
      rw [e] at h1
      rcases hw with hw | hw | ⟨fl, hw⟩
      · rw [hw]; exact h1
      · rw [hw] at h1
        rcases h1 with h1 | h1 | h1 <;> cases h1
      · rw [hw] at h1
        rcases h1 with h1 | h1 | h1 <;> cases h1
    · exact h1

theorem LInv.pop {s s' : St} (h : LInv s) (i id : Nat) (q : List Nat) (u' : Cpu) (ho : s'.objs = s.objs)
    (hq : s.queue i = id :: q) (hq' : s'.queue = upd s.queue i q) (hcpu : s'.cpu = upd s.cpu i u')
    (hold : (s.cpu i).work = none) (hw : u'.work = some (.popped id) ∨ u'.work = some (.requeue id)) :
    LInv s' := by
  intro id' o hg ha
  rw [ho] at hg
  rw [hq', hcpu]
  rcases h id' o hg ha with h1 | h1
  · by_cases e : o.target = i
    · rw [e, upd_same, upd_same]
      rw [e, hq] at h1
      rcases List.mem_cons.1 h1 with h2 | h2
      · subst h2
        rcases hw with hw | hw
        · exact .inr (.inl hw)
        · exact .inr (.inr (.inl hw))
      · exact .inl h2
    · rw [upd_other _ _ e]
      exact .inl h1
  · right
    rw [upd_apply]
    split
    · next e =>
      rw [e, hold] at h1
      rcases h1 with h1 | h1 | h1 <;> cases h1
    · exact h1

theorem Reach.linv {g : Cfg} {s : St} (h : Reach g s) : LInv s := by
  induction h with
  | init => exact fun _ _ h => (nomatch h)
  | @step s s' _ hst h =>
    cases hst with
    | activate | fill | sync | map => exact h
    | enqueue i b sv r c todo pend hp hc hq =>
      intro id o hg ha
      have hg : (s.objs ++ [⟨r, c, false⟩])[id]? = some o := hg
      show id ∈ upd s.queue c (s.queue c ++ [s.objs.length]) o.target ∨ (upd s.cpu i _ o.target).work = _ ∨
        (upd s.cpu i _ o.target).work = _ ∨ (upd s.cpu i _ o.target).work = _
      by_cases hlt : id < s.objs.length
      · rw [List.getElem?_append_left hlt] at hg
        rcases h id o hg ha with h1 | h1
        · left
          rw [upd_apply]
          split
          · next e => rw [e] at h1; exact List.mem_append.2 (.inl h1)
          · exact h1
        · right
          rw [upd_apply]
          split
          · next e =>
            rw [e, hp] at h1
            rcases h1 with h1 | h1 | h1 <;> cases h1
          · exact h1
      · have := lt_of_get hg
        rw [List.length_append, List.length_singleton] at this
        have : id = s.objs.length := by omega
        subst this
        simp at hg
        subst hg
        left
        rw [upd_same]
        exact List.mem_append.2 (.inr List.mem_cons_self)
    | waitPop i b sv r pend id q hp hq => exact h.pop i id q _ rfl hq rfl rfl (by rw [hp]) (.inl rfl)
    | remPop i r k pend id q hp hq => exact h.pop i id q _ rfl hq rfl rfl (by rw [hp]) (.inl rfl)
    | irq i id q hp hq => exact h.pop i id q _ rfl hq rfl rfl (by rw [hp]; rfl) (.inl rfl)
    | eagerPop i id q hp hq => exact h.pop i id q _ rfl hq rfl rfl (by rw [hp]; rfl) (.inr rfl)
    | ack c b sv l id o hp ho =>
      intro id' o' hg ha
      have hg : (s.objs.set id { o with acked := true })[id']? = some o' := hg
      by_cases ei : id' = id
      · subst ei
        rw [get_set_self ho] at hg
        cases hg
        cases ha
      · rw [get_set_ne ei] at hg
        rcases h id' o' hg ha with h1 | h1
        · exact .inl h1
        · right
          show (upd s.cpu c _ o'.target).work = _ ∨ (upd s.cpu c _ o'.target).work = _ ∨
            (upd s.cpu c _ o'.target).work = _
          rw [upd_apply]
          split
          · next e =>
            rw [e, hp] at h1
            rcases h1 with h1 | h1 | h1 <;> cases h1
            exact absurd rfl ei
          · exact h1
    | eagerPush c id hp hq =>
      intro id' o' hg ha
      show id' ∈ upd s.queue c (s.queue c ++ [id]) o'.target ∨ (upd s.cpu c _ o'.target).work = _ ∨
        (upd s.cpu c _ o'.target).work = _ ∨ (upd s.cpu c _ o'.target).work = _
      by_cases e : o'.target = c
      · rw [e, upd_same]
        left
        rcases h id' o' hg ha with h1 | h1
        · rw [e] at h1
          exact List.mem_append.2 (.inl h1)
        · rw [e, hp] at h1
          rcases h1 with h1 | h1 | h1 <;> cases h1
          exact List.mem_append.2 (.inr List.mem_cons_self)
      · rw [upd_other _ _ e, upd_other _ _ e]
        exact h id' o' hg ha
    | eagerFull c id hp hq =>
      intro id' o' hg ha
      rcases h id' o' hg ha with h1 | h1
      · exact .inl h1
      · right
        show (upd s.cpu c _ o'.target).work = _ ∨ (upd s.cpu c _ o'.target).work = _ ∨
          (upd s.cpu c _ o'.target).work = _
        by_cases e : o'.target = c
        · rw [e, upd_same]
          exact .inr (.inr rfl)
        · rw [upd_other _ _ e]
          exact h1
    | flushPage | flushAll | flushDone =>
      refine h.same _ _ rfl rfl rfl (.inr (.inr ?_))
      rw [‹s.cpu _ = _›]
      exact ⟨_, rfl⟩
    | _ =>
      refine h.same _ _ rfl rfl rfl (.inr (.inl ?_))
      simp only [‹s.cpu _ = _›]
      try rfl

/-- **C68**: while an unmap waits for another machine, its request is in the queue of that machine, or a
core of that machine is at work on it: it is never lost. -/
theorem c68_request_kept {g : Cfg} {s : St} (h : Reach g s) {id : Nat} {o : RObj}
    (ho : s.robjs[id]? = some o) (ha : o.acked = false) {c : Nat} (hc : c ∈ o.cores) :
    id ∈ s.rqueue (g.mach c) ∨ ∃ j, g.mach j = g.mach c ∧ (s.cpu j).serve = some id := by
  have hi := h.rinv
  rcases hi.kept id o ho ha with ⟨m, h1⟩ | ⟨j, h1⟩
  · obtain ⟨o', o1, o2⟩ := hi.rq m id h1
    rw [ho] at o1
    cases o1
    rw [o2 c hc]
    exact .inl h1
  · obtain ⟨o', o1, o2⟩ := hi.sv j id h1
    rw [ho] at o1
    cases o1
    exact .inr ⟨j, (o2 c hc).symm, h1⟩

/-- **C68**: the same for the requests inside a machine, unless the core they are for has panicked. -/
theorem c68_local_request_kept {g : Cfg} {s : St} (h : Reach g s) {id : Nat} {o : Obj}
    (ho : s.objs[id]? = some o) (ha : o.acked = false) (hd : (s.cpu o.target).work ≠ some .dead) :
    id ∈ s.queue o.target ∨ (s.cpu o.target).work = some (.popped id) ∨
    (s.cpu o.target).work = some (.requeue id) := by
  rcases h.linv id o ho ha with h1 | h1 | h1 | h1
  · exact .inl h1
  · exact .inr (.inl h1)
  · exact .inr (.inr h1)
  · exact absurd h1 hd

/-- **C68**: a core that has panicked does not go on. -/
theorem c68_dead {g : Cfg} {s t : St} {i : Nat} (h : (s.cpu i).work = some .dead) (ht : Steps g s t) :
    (t.cpu i).work = some .dead ∧ (t.cpu i).base = (s.cpu i).base := by
  induction ht with
  | refl => exact ⟨h, rfl⟩
  | @tail t u _ h2 ih =>
    obtain ⟨h1, h3⟩ := ih
    rw [← h3]
    have key : ∀ (j : Nat) (w w' : Cpu), t.cpu j = w → w.work ≠ some .dead →
        (upd t.cpu j w' i).work = some .dead ∧ (upd t.cpu j w' i).base = (t.cpu i).base := by
      intro j w w' hw hne
      rw [upd_apply]
      split
      · next e => rw [e, hw] at h1; exact absurd h1 hne
      · exact ⟨h1, rfl⟩
    cases h2 with
    | activate | fill | sync | map => exact ⟨h1, rfl⟩
    | _ => exact key _ _ _ ‹t.cpu _ = _› (by simp [Cpu.user])

end NRK.Tlb.Rack
