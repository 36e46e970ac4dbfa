import Verif.Tlb.TlbModel

/-! # Invariant of the shootdown protocol on one replica -/

namespace NRK.Tlb

theorem flushOf_has (r : Rng) (p : Nat) (h : r.Has p) : (flushOf r).Has p := by
  unfold flushOf
  split
  · trivial
  · show p ∈ List.range' r.start r.len
    rw [List.mem_range'_1]
    exact h

theorem ptAt_append (log : List POp) (op : POp) : ptAt (log ++ [op]) = ptStep (ptAt log) op := by
  simp [ptAt, List.foldl_append]

/-- The shootdown a core has under way: range, mapping, targets not yet asked, own flush and requests
that were not yet seen acknowledged. -/
structure Shoot where
  r : Rng
  w : Nat
  todo : List Nat
  own : Flush
  pend : List Nat

def Ret.shoot : Ret → Option Shoot
  | .user => none
  | .wait r w pend => some ⟨r, w, [], .pages [], pend⟩

def Pc.shoot : Pc → Option Shoot
  | .user => none
  | .enq r w todo pend => some ⟨r, w, todo, flushOf r, pend⟩
  | .self r w fl pend => some ⟨r, w, [], fl, pend⟩
  | .wait r w pend => some ⟨r, w, [], .pages [], pend⟩
  | .popped _ ret => ret.shoot
  | .flushing _ ret => ret.shoot
  | .requeue _ => none

theorem Ret.pc_shoot (ret : Ret) : ret.pc.shoot = ret.shoot := by cases ret <;> rfl

def Pc.Flushes : Pc → Nat → Prop
  | .flushing fl _, p => fl.Has p
  | _, _ => False

theorem Ret.pc_flushes (ret : Ret) (p : Nat) : ¬ ret.pc.Flushes p := by cases ret <;> exact id

def Unacked (objs : List Obj) (c id : Nat) : Prop :=
  ∃ o, objs[id]? = some o ∧ o.target = c ∧ o.acked = false

/-- Core `i`, in the shootdown `x`, will see to it that core `c` forgets page `p` of mapping `w`. -/
def Owes (objs : List Obj) (i : Nat) (x : Shoot) (c p w : Nat) : Prop :=
  x.w = w ∧ x.r.Has p ∧ (c ∈ x.todo ∨ (c = i ∧ x.own.Has p) ∨ ∃ id ∈ x.pend, Unacked objs c id)

def Owed (s : St) (c p w : Nat) : Prop :=
  (∃ i x, (s.pc i).shoot = some x ∧ Owes s.objs i x c p w) ∨ (s.pc c).Flushes p

structure Inv (n : Nat) (s : St) : Prop where
  app : s.applied n = s.log.length
  inact : ∀ c p, s.act c = false → s.tlb c p = none
  main : ∀ c p w, s.tlb c p = some w → ptAt s.log p = some w ∨ Owed s c p w
  pend : ∀ i x id, (s.pc i).shoot = some x → id ∈ x.pend → ∃ o, s.objs[id]? = some o ∧ o.range = x.r
  que : ∀ c id, Item.shoot id ∈ s.queue c → ∃ o, s.objs[id]? = some o ∧ o.target = c
  pop : ∀ c id ret, s.pc c = .popped (.shoot id) ret → ∃ o, s.objs[id]? = some o ∧ o.target = c
  req : ∀ c id, s.pc c = .requeue (.shoot id) → ∃ o, s.objs[id]? = some o ∧ o.target = c

theorem Inv.pt {n : Nat} {s : St} (h : Inv n s) : s.pt n = ptAt s.log := by
  unfold St.pt
  rw [h.app, List.take_length]

theorem push_mem {cap : Nat} {q : List Item} {it jt : Item} (h : jt ∈ push cap q it) : jt ∈ q ∨ jt = it := by
  unfold push at h
  split at h
  · simpa using h
  · exact .inl h

/-- A step that changes one program counter, keeping its shootdown, and at most takes pages out of TLBs. -/
theorem Owed.move {s : St} {i c p w : Nat} {pc' : Pc} {tlb' : Nat → Nat → Option Nat}
    {queue' : Nat → List Item}
    (hsh : pc'.shoot = (s.pc i).shoot) (hfl : c = i → (s.pc i).Flushes p → pc'.Flushes p)
    (h : Owed s c p w) : Owed { s with pc := upd s.pc i pc', tlb := tlb', queue := queue' } c p w := by
  rcases h with ⟨j, x, hx, ho⟩ | hf
  · refine .inl ⟨j, x, ?_, ho⟩
    show (upd s.pc i pc' j).shoot = some x
    rw [upd_apply]
    split
    · next e => rw [hsh, ← e]; exact hx
    · exact hx
  · refine .inr ?_
    show (upd s.pc i pc' c).Flushes p
    rw [upd_apply]
    split
    · next e => subst e; exact hfl rfl hf
    · exact hf

theorem shoot_upd {s : St} {i j : Nat} {pc' : Pc} {x : Shoot} (hsh : pc'.shoot = (s.pc i).shoot)
    (h : (upd s.pc i pc' j).shoot = some x) : (s.pc j).shoot = some x := by
  rw [upd_apply] at h
  split at h
  · next e => rw [e, ← hsh]; exact h
  · exact h

theorem Unacked.append {objs : List Obj} {c id : Nat} {o : Obj} (h : Unacked objs c id) :
    Unacked (objs ++ [o]) c id := by
  obtain ⟨o', h1, h2⟩ := h
  refine ⟨o', ?_, h2⟩
  rw [List.getElem?_append_left (List.getElem?_eq_some_iff.1 h1).1]
  exact h1

theorem get_append {objs : List Obj} {id : Nat} {o o' : Obj} (h : objs[id]? = some o) :
    (objs ++ [o'])[id]? = some o := by
  rw [List.getElem?_append_left (List.getElem?_eq_some_iff.1 h).1]
  exact h

/-- Steps that leave the log, the positions, the active cores and the shootdowns alone. -/
theorem Inv.move {n : Nat} {s : St} (h : Inv n s) (i : Nat) (pc' : Pc) (tlb' : Nat → Nat → Option Nat)
    (queue' : Nat → List Item) (hsh : pc'.shoot = (s.pc i).shoot)
    (htlb : ∀ c p w, tlb' c p = some w → s.tlb c p = some w)
    (hfl : ∀ p w, tlb' i p = some w → (s.pc i).Flushes p → pc'.Flushes p)
    (hq : ∀ c id, Item.shoot id ∈ queue' c → ∃ o, s.objs[id]? = some o ∧ o.target = c)
    (hpop : ∀ id ret, pc' = .popped (.shoot id) ret → ∃ o, s.objs[id]? = some o ∧ o.target = i)
    (hreq : ∀ id, pc' = .requeue (.shoot id) → ∃ o, s.objs[id]? = some o ∧ o.target = i) :
    Inv n { s with pc := upd s.pc i pc', tlb := tlb', queue := queue' } := by
  constructor
  · exact h.app
  · intro c p ha
    cases hc : tlb' c p with
    | none => exact hc
    | some w =>
      have := htlb c p w hc
      rw [h.inact c p ha] at this
      cases this
  · intro c p w ht
    rcases h.main c p w (htlb c p w ht) with h1 | h1
    · exact .inl h1
    · refine .inr (h1.move hsh ?_)
      intro e hf
      subst e
      exact hfl p w ht hf
  · intro j x id hx hid
    exact h.pend j x id (shoot_upd hsh hx) hid
  · exact hq
  · intro c id ret hc
    have hc : upd s.pc i pc' c = .popped (.shoot id) ret := hc
    by_cases e : c = i
    · rw [e, upd_same] at hc; rw [e]; exact hpop id ret hc
    · rw [upd_other _ _ e] at hc; exact h.pop c id ret hc
  · intro c id hc
    have hc : upd s.pc i pc' c = .requeue (.shoot id) := hc
    by_cases e : c = i
    · rw [e, upd_same] at hc; rw [e]; exact hreq id hc
    · rw [upd_other _ _ e] at hc; exact h.req c id hc

/-- A step of a core inside its own shootdown to the state `pc'` with the shootdown `x'`. -/
theorem Inv.own {n : Nat} {s : St} (h : Inv n s) (i : Nat) (pc' : Pc) (tlb' : Nat → Nat → Option Nat)
    (x : Shoot) (hx : (s.pc i).shoot = some x) (hnf : ∀ p, ¬ (s.pc i).Flushes p)
    (hnp : (∀ it ret, pc' ≠ .popped it ret) ∧ ∀ it, pc' ≠ .requeue it)
    (htlb : ∀ c p w, tlb' c p = some w → s.tlb c p = some w)
    (hpd : ∀ x' id, pc'.shoot = some x' → id ∈ x'.pend → x'.r = x.r ∧ id ∈ x.pend)
    (how : ∀ c p w, tlb' c p = some w → Owes s.objs i x c p w →
      ∃ x', pc'.shoot = some x' ∧ Owes s.objs i x' c p w) :
    Inv n { s with pc := upd s.pc i pc', tlb := tlb' } := by
  constructor
  · exact h.app
  · intro c p ha
    cases hc : tlb' c p with
    | none => exact hc
    | some w =>
      have := htlb c p w hc
      rw [h.inact c p ha] at this
      cases this
  · intro c p w ht
    have ht : tlb' c p = some w := ht
    rcases h.main c p w (htlb c p w ht) with h1 | h1
    · exact .inl h1
    refine .inr ?_
    rcases h1 with ⟨j, y, hy, ho⟩ | hf
    · by_cases e : j = i
      · subst e
        rw [hx] at hy
        obtain rfl := Option.some.inj hy
        obtain ⟨x', h2, h3⟩ := how c p w ht ho
        exact .inl ⟨j, x', by show (upd s.pc j pc' j).shoot = _; rw [upd_same]; exact h2, h3⟩
      · exact .inl ⟨j, y, by show (upd s.pc i pc' j).shoot = _; rw [upd_other _ _ e]; exact hy, ho⟩
    · refine .inr ?_
      show (upd s.pc i pc' c).Flushes p
      by_cases e : c = i
      · subst e; exact absurd hf (hnf p)
      · rw [upd_other _ _ e]; exact hf
  · intro j y id hy hid
    have hy : (upd s.pc i pc' j).shoot = some y := hy
    by_cases e : j = i
    · subst e
      rw [upd_same] at hy
      obtain ⟨h1, h2⟩ := hpd y id hy hid
      rw [h1]
      exact h.pend j x id hx h2
    · rw [upd_other _ _ e] at hy
      exact h.pend j y id hy hid
  · exact h.que
  · intro c id ret hc
    have hc : upd s.pc i pc' c = .popped (.shoot id) ret := hc
    by_cases e : c = i
    · subst e; rw [upd_same] at hc; exact absurd hc (hnp.1 _ _)
    · rw [upd_other _ _ e] at hc; exact h.pop c id ret hc
  · intro c id hc
    have hc : upd s.pc i pc' c = .requeue (.shoot id) := hc
    by_cases e : c = i
    · subst e; rw [upd_same] at hc; exact absurd hc (hnp.2 _)
    · rw [upd_other _ _ e] at hc; exact h.req c id hc

theorem Inv.init (n : Nat) : Inv n St.init :=
  ⟨rfl, fun _ _ _ => rfl, fun _ _ _ h => (nomatch h), fun _ _ _ h => (nomatch h),
   fun _ _ h => (nomatch h), fun _ _ _ h => (nomatch h), fun _ _ h => (nomatch h)⟩

theorem tlb_upd_none {tlb : Nat → Nat → Option Nat} {i q : Nat} (c p w : Nat)
    (h : upd tlb i (upd (tlb i) q none) c p = some w) : tlb c p = some w ∧ ¬ (c = i ∧ p = q) := by
  rw [upd_apply] at h
  split at h
  · next e =>
    rw [upd_apply] at h
    split at h
    · cases h
    · next e2 => subst e; exact ⟨h, fun e3 => e2 e3.2⟩
  · next e => exact ⟨h, fun e3 => e e3.1⟩

theorem tlb_upd_all {tlb : Nat → Nat → Option Nat} {i : Nat} (c p w : Nat)
    (h : upd tlb i (fun _ => none) c p = some w) : tlb c p = some w ∧ c ≠ i := by
  rw [upd_apply] at h
  split at h
  · cases h
  · next e => exact ⟨h, e⟩

theorem Inv.step {cap n : Nat} {node : Nat → Nat} (hn : ∀ c, node c = n) {s s' : St} (h : Inv n s)
    (hs : Step cap node s s') : Inv n s' := by
  cases hs with
  | activate c hc =>
    refine ⟨h.app, ?_, ?_, h.pend, h.que, h.pop, h.req⟩
    · intro d p hd
      show upd s.tlb c (fun _ => none) d p = none
      rw [upd_apply]
      split
      · rfl
      · next e =>
        have hd : upd s.act c true d = false := hd
        rw [upd_other _ _ e] at hd
        exact h.inact d p hd
    · intro d p w hd
      exact h.main d p w (tlb_upd_all d p w hd).1
  | fill c p w ha hp =>
    rw [hn, h.pt] at hp
    refine ⟨h.app, ?_, ?_, h.pend, h.que, h.pop, h.req⟩
    · intro d q hd
      show upd s.tlb c (upd (s.tlb c) p (some w)) d q = none
      rw [upd_other]
      · exact h.inact d q hd
      · intro e; rw [e] at hd; exact absurd (ha.symm.trans hd) (by decide)
    · intro d q v hd
      have hd : upd s.tlb c (upd (s.tlb c) p (some w)) d q = some v := hd
      by_cases e : d = c
      · rw [e, upd_same] at hd
        rw [e]
        by_cases e2 : q = p
        · rw [e2, upd_same] at hd
          rw [e2, ← hd]
          exact .inl hp
        · rw [upd_other _ _ e2] at hd
          exact h.main _ _ _ hd
      · rw [upd_other _ _ e] at hd
        exact h.main _ _ _ hd
  | sync m k h1 h2 =>
    refine ⟨?_, h.inact, h.main, h.pend, h.que, h.pop, h.req⟩
    show upd s.applied m k n = s.log.length
    rw [upd_apply]
    split
    · next e => subst e; have := h.app; omega
    · exact h.app
  | map i r hp ha hm =>
    refine ⟨?_, h.inact, ?_, h.pend, h.que, h.pop, h.req⟩
    · show upd s.applied (node i) (s.log.length + 1) n = (s.log ++ [_]).length
      rw [hn, upd_same]; simp
    · intro c p w ht
      rcases h.main c p w ht with h1 | h1
      · refine .inl ?_
        show ptAt (s.log ++ [_]) p = some w
        rw [ptAt_append]
        show (if r.Has p then some s.log.length else ptAt s.log p) = some w
        split
        · next hr => rw [hm p hr] at h1; cases h1
        · exact h1
      · exact .inr h1
  | unmap i r w todo hp ha hm ht =>
    have hsh : (s.pc i).shoot = none := by rw [hp]; rfl
    refine ⟨?_, h.inact, ?_, ?_, h.que, ?_, ?_⟩
    · show upd s.applied (node i) (s.log.length + 1) n = (s.log ++ [_]).length
      rw [hn, upd_same]; simp
    · intro c p v hv
      rcases h.main c p v hv with h1 | h1
      · show ptAt (s.log ++ [_]) p = some v ∨ _
        rw [ptAt_append]
        by_cases hr : r.Has p
        · refine .inr (.inl ⟨i, ⟨r, w, todo, flushOf r, []⟩, ?_, ?_, hr, ?_⟩)
          · show (upd s.pc i _ i).shoot = _
            rw [upd_same]; rfl
          · have := hm p hr
            rw [h1] at this
            exact (Option.some.inj this).symm
          · by_cases e : c = i
            · exact .inr (.inl ⟨e, flushOf_has r p hr⟩)
            · refine .inl ((ht c).2 ⟨?_, e⟩)
              cases hc : s.act c with
              | true => rfl
              | false => have hv : s.tlb c p = some v := hv
                         rw [h.inact c p hc] at hv; cases hv
        · refine .inl ?_
          show (if r.Has p then none else ptAt s.log p) = some v
          rw [if_neg hr]; exact h1
      · refine .inr ?_
        rcases h1 with ⟨j, y, hy, ho⟩ | hf
        · have e : j ≠ i := by intro e; subst e; rw [hsh] at hy; cases hy
          exact .inl ⟨j, y, by show (upd s.pc i _ j).shoot = _; rw [upd_other _ _ e]; exact hy, ho⟩
        · have e : c ≠ i := by intro e; subst e; rw [hp] at hf; exact hf
          exact .inr (by show (upd s.pc i _ c).Flushes p; rw [upd_other _ _ e]; exact hf)
    · intro j y id hy hid
      have hy : (upd s.pc i (.enq r w todo []) j).shoot = some y := hy
      by_cases e : j = i
      · subst e; rw [upd_same] at hy; cases hy; cases hid
      · rw [upd_other _ _ e] at hy; exact h.pend j y id hy hid
    · intro c id ret hc
      have hc : upd s.pc i (.enq r w todo []) c = .popped (.shoot id) ret := hc
      by_cases e : c = i
      · subst e; rw [upd_same] at hc; cases hc
      · rw [upd_other _ _ e] at hc; exact h.pop c id ret hc
    · intro c id hc
      have hc : upd s.pc i (.enq r w todo []) c = .requeue (.shoot id) := hc
      by_cases e : c = i
      · subst e; rw [upd_same] at hc; cases hc
      · rw [upd_other _ _ e] at hc; exact h.req c id hc
  | enqueue i r w c todo pend hp =>
    have hsh : (s.pc i).shoot = some ⟨r, w, c :: todo, flushOf r, pend⟩ := by rw [hp]; rfl
    have hlen : (s.objs ++ [⟨r, c, false⟩])[s.objs.length]? = some ⟨r, c, false⟩ := by simp
    refine ⟨h.app, h.inact, ?_, ?_, ?_, ?_, ?_⟩
    · intro d p v hv
      rcases h.main d p v hv with h1 | h1
      · exact .inl h1
      refine .inr ?_
      rcases h1 with ⟨j, y, hy, h2, h3, ho⟩ | hf
      · by_cases e : j = i
        · subst e
          rw [hsh] at hy
          obtain rfl := Option.some.inj hy
          refine .inl ⟨j, ⟨r, w, todo, flushOf r, pend ++ [s.objs.length]⟩, ?_, h2, h3, ?_⟩
          · show (upd s.pc j _ j).shoot = _
            rw [upd_same]; rfl
          · rcases ho with ho | ho | ⟨id, hid, ho⟩
            · rcases List.mem_cons.1 ho with rfl | ho
              · exact .inr (.inr ⟨s.objs.length, by simp, _, hlen, rfl, rfl⟩)
              · exact .inl ho
            · exact .inr (.inl ho)
            · exact .inr (.inr ⟨id, List.mem_append_left _ hid, ho.append⟩)
        · refine .inl ⟨j, y, by show (upd s.pc i _ j).shoot = _; rw [upd_other _ _ e]; exact hy, h2, h3, ?_⟩
          rcases ho with ho | ho | ⟨id, hid, ho⟩
          · exact .inl ho
          · exact .inr (.inl ho)
          · exact .inr (.inr ⟨id, hid, ho.append⟩)
      · have e : d ≠ i := by intro e; subst e; rw [hp] at hf; exact hf
        exact .inr (by show (upd s.pc i _ d).Flushes p; rw [upd_other _ _ e]; exact hf)
    · intro j y id hy hid
      have hy : (upd s.pc i (.enq r w todo (pend ++ [s.objs.length])) j).shoot = some y := hy
      by_cases e : j = i
      · subst e
        rw [upd_same] at hy
        cases hy
        rcases List.mem_append.1 hid with hid | hid
        · obtain ⟨o, h1, h2⟩ := h.pend j _ id hsh hid
          exact ⟨o, get_append h1, h2⟩
        · rw [List.mem_singleton] at hid
          subst hid
          exact ⟨_, hlen, rfl⟩
      · rw [upd_other _ _ e] at hy
        obtain ⟨o, h1, h2⟩ := h.pend j y id hy hid
        exact ⟨o, get_append h1, h2⟩
    · intro d id hd
      have hd : Item.shoot id ∈ upd s.queue c (push cap (s.queue c) (.shoot s.objs.length)) d := hd
      by_cases e : d = c
      · subst e
        rw [upd_same] at hd
        rcases push_mem hd with hd | hd
        · obtain ⟨o, h1, h2⟩ := h.que d id hd
          exact ⟨o, get_append h1, h2⟩
        · cases hd
          exact ⟨_, hlen, rfl⟩
      · rw [upd_other _ _ e] at hd
        obtain ⟨o, h1, h2⟩ := h.que d id hd
        exact ⟨o, get_append h1, h2⟩
    · intro d id ret hc
      have hc : upd s.pc i (.enq r w todo (pend ++ [s.objs.length])) d = .popped (.shoot id) ret := hc
      by_cases e : d = i
      · subst e; rw [upd_same] at hc; cases hc
      · rw [upd_other _ _ e] at hc
        obtain ⟨o, h1, h2⟩ := h.pop d id ret hc
        exact ⟨o, get_append h1, h2⟩
    · intro d id hc
      have hc : upd s.pc i (.enq r w todo (pend ++ [s.objs.length])) d = .requeue (.shoot id) := hc
      by_cases e : d = i
      · subst e; rw [upd_same] at hc; cases hc
      · rw [upd_other _ _ e] at hc
        obtain ⟨o, h1, h2⟩ := h.req d id hc
        exact ⟨o, get_append h1, h2⟩
  | enqDone i r w pend hp =>
    refine h.own i _ s.tlb ⟨r, w, [], flushOf r, pend⟩ (by rw [hp]; rfl) (by rw [hp]; exact fun _ => id)
      ⟨fun _ _ e => (nomatch e), fun _ e => (nomatch e)⟩ (fun _ _ _ h => h) ?_ ?_
    · intro x' id hx hid; cases hx; exact ⟨rfl, hid⟩
    · intro c p v _ ho; exact ⟨_, rfl, ho⟩
  | selfPage i r w q l pend hp =>
    refine h.own i _ _ ⟨r, w, [], .pages (q :: l), pend⟩ (by rw [hp]; rfl) (by rw [hp]; exact fun _ => id)
      ⟨fun _ _ e => (nomatch e), fun _ e => (nomatch e)⟩ (fun c p v h => (tlb_upd_none c p v h).1) ?_ ?_
    · intro x' id hx hid; cases hx; exact ⟨rfl, hid⟩
    · intro c p v ht ⟨h1, h2, ho⟩
      refine ⟨_, rfl, h1, h2, ?_⟩
      rcases ho with ho | ⟨e, ho⟩ | ho
      · exact .inl ho
      · refine .inr (.inl ⟨e, ?_⟩)
        rcases List.mem_cons.1 ho with h3 | h3
        · exact absurd ⟨e, h3⟩ (tlb_upd_none c p v ht).2
        · exact h3
      · exact .inr (.inr ho)
  | selfAll i r w pend hp =>
    refine h.own i _ _ ⟨r, w, [], .all, pend⟩ (by rw [hp]; rfl) (by rw [hp]; exact fun _ => id)
      ⟨fun _ _ e => (nomatch e), fun _ e => (nomatch e)⟩ (fun c p v h => (tlb_upd_all c p v h).1) ?_ ?_
    · intro x' id hx hid; cases hx; exact ⟨rfl, hid⟩
    · intro c p v ht ⟨h1, h2, ho⟩
      refine ⟨_, rfl, h1, h2, ?_⟩
      rcases ho with ho | ⟨e, ho⟩ | ho
      · exact .inl ho
      · exact absurd e (tlb_upd_all c p v ht).2
      · exact .inr (.inr ho)
  | selfDone i r w pend hp =>
    refine h.own i _ s.tlb ⟨r, w, [], .pages [], pend⟩ (by rw [hp]; rfl) (by rw [hp]; exact fun _ => id)
      ⟨fun _ _ e => (nomatch e), fun _ e => (nomatch e)⟩ (fun _ _ _ h => h) ?_ ?_
    · intro x' id hx hid; cases hx; exact ⟨rfl, hid⟩
    · intro c p v _ ho; exact ⟨_, rfl, ho⟩
  | waitPop i r w pend it q hp hq =>
    refine h.move i _ s.tlb _ (by rw [hp]; rfl) (fun _ _ _ h => h) (fun p _ _ hf => by rw [hp] at hf; exact hf.elim)
      ?_ ?_ (fun _ e => by cases e)
    · intro c id hc
      by_cases e : c = i
      · subst e; rw [upd_same] at hc
        exact h.que c id (by rw [hq]; exact List.mem_cons_of_mem _ hc)
      · rw [upd_other _ _ e] at hc; exact h.que c id hc
    · intro id ret e
      cases e
      exact h.que i id (by rw [hq]; exact List.mem_cons_self)
  | drain i r w as bs id o hp ho ha =>
    refine h.own i _ s.tlb ⟨r, w, [], .pages [], as ++ id :: bs⟩ (by rw [hp]; rfl) (by rw [hp]; exact fun _ => (nomatch ·))
      ⟨fun _ _ e => (nomatch e), fun _ e => (nomatch e)⟩ (fun _ _ _ h => h) ?_ ?_
    · intro x' id' hx hid
      cases hx
      refine ⟨rfl, ?_⟩
      rcases List.mem_append.1 hid with h1 | h1
      · exact List.mem_append_left _ h1
      · exact List.mem_append_right _ (List.mem_cons_of_mem _ h1)
    · intro c p v _ ⟨h1, h2, h3⟩
      refine ⟨_, rfl, h1, h2, ?_⟩
      rcases h3 with h3 | h3 | ⟨id', h3, h4⟩
      · exact .inl h3
      · exact .inr (.inl h3)
      · refine .inr (.inr ⟨id', ?_, h4⟩)
        rcases List.mem_append.1 h3 with h5 | h5
        · exact List.mem_append_left _ h5
        · rcases List.mem_cons.1 h5 with h6 | h6
          · subst h6
            obtain ⟨o', g1, _, g3⟩ := h4
            rw [ho] at g1
            cases g1
            rw [ha] at g3
            cases g3
          · exact List.mem_append_right _ h6
  | finish i r w hp =>
    refine h.own i _ s.tlb ⟨r, w, [], .pages [], []⟩ (by rw [hp]; rfl) (by rw [hp]; exact fun _ => (nomatch ·))
      ⟨fun _ _ e => (nomatch e), fun _ e => (nomatch e)⟩ (fun _ _ _ h => h) ?_ ?_
    · intro x' id' hx hid; cases hx
    · intro c p v _ ⟨_, _, h3⟩
      rcases h3 with h3 | ⟨_, h3⟩ | ⟨_, h3, _⟩ <;> cases h3
  | irq c it q hp hq =>
    refine h.move c _ s.tlb _ (by rw [hp]; rfl) (fun _ _ _ h => h) (fun p _ _ hf => by rw [hp] at hf; exact hf.elim)
      ?_ ?_ (fun _ e => by cases e)
    · intro d id hc
      by_cases e : d = c
      · subst e; rw [upd_same] at hc
        exact h.que d id (by rw [hq]; exact List.mem_cons_of_mem _ hc)
      · rw [upd_other _ _ e] at hc; exact h.que d id hc
    · intro id ret e
      cases e
      exact h.que c id (by rw [hq]; exact List.mem_cons_self)
  | ack c id ret o hp ho =>
    obtain ⟨o', h1, h2⟩ := h.pop c id ret hp
    rw [ho] at h1
    obtain rfl := Option.some.inj h1
    have hset : ∀ (d : Nat) (o' : Obj), s.objs[d]? = some o' →
        ∃ o'', (s.objs.set id { o with acked := true })[d]? = some o'' ∧ o''.target = o'.target ∧ o''.range = o'.range := by
      intro d o' hd
      by_cases e : id = d
      · subst e
        rw [ho] at hd
        obtain rfl := Option.some.inj hd
        exact ⟨_, List.getElem?_set_self (List.getElem?_eq_some_iff.1 ho).1, rfl, rfl⟩
      · exact ⟨o', by rw [List.getElem?_set_ne e]; exact hd, rfl, rfl⟩
    have hsh : ∀ j, (upd s.pc c (.flushing (flushOf o.range) ret) j).shoot = (s.pc j).shoot := by
      intro j
      rw [upd_apply]
      split
      · next e => subst e; rw [hp]; rfl
      · rfl
    refine ⟨h.app, h.inact, ?_, ?_, ?_, ?_, ?_⟩
    · intro d p w hd
      rcases h.main d p w hd with g | g
      · exact .inl g
      refine .inr ?_
      rcases g with ⟨j, y, hy, g2, g3, g⟩ | hf
      · by_cases e : d = c ∧ ∃ id' ∈ y.pend, id' = id
        · obtain ⟨rfl, _, h3, rfl⟩ := e
          refine .inr ?_
          show (upd s.pc d _ d).Flushes p
          rw [upd_same]
          obtain ⟨o', f1, f2⟩ := h.pend j y _ hy h3
          rw [ho] at f1
          obtain rfl := Option.some.inj f1
          exact flushOf_has _ _ (by rw [f2]; exact g3)
        · refine .inl ⟨j, y, (hsh j).trans hy, g2, g3, ?_⟩
          rcases g with g | g | ⟨id', g4, o', g5, g6, g7⟩
          · exact .inl g
          · exact .inr (.inl g)
          · refine .inr (.inr ⟨id', g4, o', ?_, g6, g7⟩)
            have hne : id ≠ id' := by
              intro e2
              subst e2
              rw [ho] at g5
              obtain rfl := Option.some.inj g5
              exact e ⟨g6.symm.trans h2, id, g4, rfl⟩
            show (s.objs.set id _)[id']? = some o'
            rw [List.getElem?_set_ne hne]; exact g5
      · have e : d ≠ c := by intro e; subst e; rw [hp] at hf; exact hf
        exact .inr (by show (upd s.pc c _ d).Flushes p; rw [upd_other _ _ e]; exact hf)
    · intro j y id' hy hid
      obtain ⟨o', f1, f2⟩ := h.pend j y id' ((hsh j).symm.trans hy) hid
      obtain ⟨o'', f3, _, f4⟩ := hset _ _ f1
      exact ⟨o'', f3, f4.trans f2⟩
    · intro d id' hd
      obtain ⟨o', f1, f2⟩ := h.que d id' hd
      obtain ⟨o'', f3, f4, _⟩ := hset _ _ f1
      exact ⟨o'', f3, f4.trans f2⟩
    · intro d id' ret' hd
      have hd : upd s.pc c (.flushing (flushOf o.range) ret) d = .popped (.shoot id') ret' := hd
      by_cases e : d = c
      · subst e; rw [upd_same] at hd; cases hd
      · rw [upd_other _ _ e] at hd
        obtain ⟨o', f1, f2⟩ := h.pop d id' ret' hd
        obtain ⟨o'', f3, f4, _⟩ := hset _ _ f1
        exact ⟨o'', f3, f4.trans f2⟩
    · intro d id' hd
      have hd : upd s.pc c (.flushing (flushOf o.range) ret) d = .requeue (.shoot id') := hd
      by_cases e : d = c
      · subst e; rw [upd_same] at hd; cases hd
      · rw [upd_other _ _ e] at hd
        obtain ⟨o', f1, f2⟩ := h.req d id' hd
        obtain ⟨o'', f3, f4, _⟩ := hset _ _ f1
        exact ⟨o'', f3, f4.trans f2⟩
  | advance c ret hp =>
    exact h.move c _ s.tlb s.queue (by rw [hp]; exact ret.pc_shoot) (fun _ _ _ h => h)
      (fun p _ _ hf => by rw [hp] at hf; exact hf.elim) h.que
      (fun _ _ e => by cases ret <;> cases e) (fun _ e => by cases ret <;> cases e)
  | flushPage c q l ret hp =>
    refine h.move c _ _ s.queue (by rw [hp]; rfl) (fun d p v h => (tlb_upd_none d p v h).1) ?_ h.que
      (fun _ _ e => by cases e) (fun _ e => by cases e)
    intro p w ht hf
    rw [hp] at hf
    rcases List.mem_cons.1 hf with h1 | h1
    · exact absurd ⟨rfl, h1⟩ (tlb_upd_none c p w ht).2
    · exact h1
  | flushAll c ret hp =>
    refine h.move c _ _ s.queue (by rw [hp]; rfl) (fun d p v h => (tlb_upd_all d p v h).1) ?_ h.que
      (fun _ _ e => by cases e) (fun _ e => by cases e)
    intro p w ht hf
    exact absurd rfl (tlb_upd_all c p w ht).2
  | flushDone c ret hp =>
    exact h.move c _ s.tlb s.queue (by rw [hp]; exact ret.pc_shoot) (fun _ _ _ h => h)
      (fun p _ _ hf => by rw [hp] at hf; cases hf) h.que
      (fun _ _ e => by cases ret <;> cases e) (fun _ e => by cases ret <;> cases e)
  | eagerPop c it q hp hq =>
    refine h.move c _ s.tlb _ (by rw [hp]; rfl) (fun _ _ _ h => h) (fun p _ _ hf => by rw [hp] at hf; exact hf.elim)
      ?_ (fun _ _ e => by cases e) ?_
    · intro d id hc
      by_cases e : d = c
      · subst e; rw [upd_same] at hc
        exact h.que d id (by rw [hq]; exact List.mem_cons_of_mem _ hc)
      · rw [upd_other _ _ e] at hc; exact h.que d id hc
    · intro id e
      cases e
      exact h.que c id (by rw [hq]; exact List.mem_cons_self)
  | eagerPush c id hp =>
    refine h.move c _ s.tlb _ (by rw [hp]; rfl) (fun _ _ _ h => h) (fun p _ _ hf => by rw [hp] at hf; exact hf.elim)
      ?_ (fun _ _ e => by cases e) (fun _ e => by cases e)
    intro d id' hd
    by_cases e : d = c
    · subst e
      rw [upd_same] at hd
      rcases push_mem hd with hd | hd
      · exact h.que d id' hd
      · cases hd; exact h.req d id hp
    · rw [upd_other _ _ e] at hd; exact h.que d id' hd
  | eagerAdvance c hp =>
    exact h.move c _ s.tlb s.queue (by rw [hp]; rfl) (fun _ _ _ h => h)
      (fun p _ _ hf => by rw [hp] at hf; exact hf.elim) h.que
      (fun _ _ e => by cases e) (fun _ e => by cases e)
  | advanceReplica c =>
    refine ⟨h.app, h.inact, h.main, h.pend, ?_, h.pop, h.req⟩
    intro d id hd
    have hd : Item.shoot id ∈ upd s.queue c (push cap (s.queue c) .advance) d := hd
    by_cases e : d = c
    · subst e
      rw [upd_same] at hd
      rcases push_mem hd with hd | hd
      · exact h.que d id hd
      · cases hd
    · rw [upd_other _ _ e] at hd; exact h.que d id hd

theorem Reach.inv {cap n : Nat} {node : Nat → Nat} (hn : ∀ c, node c = n) {s : St}
    (h : Reach cap node s) : Inv n s := by
  induction h with
  | init => exact Inv.init n
  | step _ hs ih => exact ih.step hn hs

end NRK.Tlb
