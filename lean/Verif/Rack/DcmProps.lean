import Verif.Rack.DcmModel

/-!
# Property theorems about resource requests (C48)

`Orderly s s'` restricts arrivals: an assignment may come before its request has put its ids into the
table only if it is for the first id of a request for at least two resources.
-/

namespace NRK.Rack.Dcm

/-- The arrival, if this step is one, is not too early. -/
def OrderlyArrival (s s' : St) : Prop :=
  ∀ n r id, s.reqs n = some r → r.base ≤ id → id < r.base + r.total → s.sent id = none → s'.sent id ≠ none →
    r.inserted = true ∨ (id = r.base ∧ 2 ≤ r.total)

inductive OReach : St → Prop where
  | init : OReach St.init
  | step {s s' : St} : OReach s → Step s s' → OrderlyArrival s s' → OReach s'

theorem OReach.reach {s : St} (h : OReach s) : Reach s := by
  induction h with
  | init => exact .init
  | step _ hs _ ih => exact .step ih hs

/-- What was sent for the resources of numbers `a` to `b - 1` of a request. -/
def sentFor (s : St) (base a b : Nat) : List Nat := (List.range' a (b - a)).map fun i => (s.sent (base + i)).getD 0

/-- What holds of a request, in terms of the table, the cells and what was sent, at its own ids. -/
def ReqOk (s : St) (r : Req) : Prop :=
  0 < r.total ∧
  (r.inserted = true →
    r.received ≤ r.total ∧ r.forCores = sentFor s r.base 0 (min r.received r.cores) ∧
    r.forMem = sentFor s r.base r.cores r.received ∧ (∀ i, i < r.received → s.sent (r.base + i) ≠ none) ∧
    ∀ i, r.received ≤ i → i < r.total → s.table (r.base + i) = some (.own (r.base + i)) ∧
      s.cell (.own (r.base + i)) = (s.sent (r.base + i)).getD 0) ∧
  (r.inserted = false →
    r.forCores = [] ∧ r.forMem = [] ∧ (∀ i, i < r.total → s.cell (.own (r.base + i)) = 0) ∧
    (∀ i, 0 < i → i < r.total → s.sent (r.base + i) = none ∧ s.table (r.base + i) = none) ∧
    ((s.sent r.base = none ∧ s.table r.base = none) ∨
      (2 ≤ r.total ∧ ∃ v, s.sent r.base = some v ∧ s.table r.base = some (.early r.base) ∧
        s.cell (.early r.base) = v)))

structure Inv (s : St) : Prop where
  disj : ∀ m n r q, s.reqs m = some r → s.reqs n = some q → m ≠ n →
    r.base + r.total ≤ q.base ∨ q.base + q.total ≤ r.base
  req : ∀ n r, s.reqs n = some r → ReqOk s r
  issued : ∀ id, (∀ n r, s.reqs n = some r → ¬ (r.base ≤ id ∧ id < r.base + r.total)) →
    s.sent id = none ∧ s.table id = none ∧ s.cell (.own id) = 0
  ent : ∀ id c, s.table id = some c → c = .own id ∨ c = .early id
  pos : ∀ id v, s.sent id = some v → v ≠ 0

theorem sentFor_congr {s s' : St} {base a b n : Nat} (hb : b ≤ n)
    (h : ∀ i, i < n → s'.sent (base + i) = s.sent (base + i)) : sentFor s' base a b = sentFor s base a b := by
  unfold sentFor
  refine List.map_congr_left ?_
  intro i hi
  rw [List.mem_range'_1] at hi
  rw [h i (by omega)]

/-- A step elsewhere leaves a request alone. -/
theorem ReqOk.frame {s s' : St} {r : Req} (h : ReqOk s r)
    (ht : ∀ i, i < r.total → s'.table (r.base + i) = s.table (r.base + i))
    (hs : ∀ i, i < r.total → s'.sent (r.base + i) = s.sent (r.base + i))
    (ho : ∀ i, i < r.total → s'.cell (.own (r.base + i)) = s.cell (.own (r.base + i)))
    (he : ∀ i, i < r.total → s'.cell (.early (r.base + i)) = s.cell (.early (r.base + i))) : ReqOk s' r := by
  obtain ⟨h0, h1, h2⟩ := h
  refine ⟨h0, ?_, ?_⟩
  · intro hi
    obtain ⟨g1, g2, g3, g4, g5⟩ := h1 hi
    refine ⟨g1, ?_, ?_, ?_, ?_⟩
    · rw [sentFor_congr (n := r.total) (by omega) hs]; exact g2
    · rw [sentFor_congr (n := r.total) g1 hs]; exact g3
    · intro i hi; rw [hs i (by omega)]; exact g4 i hi
    · intro i hi1 hi2; rw [ht i hi2, hs i hi2, ho i hi2]; exact g5 i hi1 hi2
  · intro hi
    obtain ⟨g1, g2, g3, g4, g5⟩ := h2 hi
    refine ⟨g1, g2, ?_, ?_, ?_⟩
    · intro i hi; rw [ho i hi]; exact g3 i hi
    · intro i hi1 hi2; rw [hs i hi2, ht i hi2]; exact g4 i hi1 hi2
    · have a := hs 0 h0
      have b := ht 0 h0
      have c := he 0 h0
      simp only [Nat.add_zero] at a b c
      rw [a, b, c]
      exact g5

theorem insertLoop_none (cell : Cell → Nat) (is : List Nat) (table : Nat → Option Cell) (r : Req)
    (hnd : is.Nodup) (h : ∀ i ∈ is, table (r.base + i) = none) :
    (insertLoop cell is (table, r)).2 = r ∧ ∀ x, (insertLoop cell is (table, r)).1 x =
      if r.base ≤ x ∧ x - r.base ∈ is then some (.own x) else table x := by
  induction is generalizing table with
  | nil => exact ⟨rfl, fun x => by simp [insertLoop]⟩
  | cons i is ih =>
    rw [List.nodup_cons] at hnd
    unfold insertLoop
    rw [h i List.mem_cons_self]
    have hi : ∀ j ∈ is, upd table (r.base + i) (some (Cell.own (r.base + i))) (r.base + j) = none := by
      intro j hj
      rw [upd_other]
      · exact h j (List.mem_cons_of_mem _ hj)
      · intro e
        have : j = i := by omega
        subst this
        exact hnd.1 hj
    obtain ⟨h1, h2⟩ := ih _ hnd.2 hi
    refine ⟨h1, ?_⟩
    intro x
    show (insertLoop cell is (upd table (r.base + i) (some (Cell.own (r.base + i))), r)).1 x = _
    rw [h2 x]
    by_cases hx : x = r.base + i
    · subst hx
      rw [upd_same]
      rw [if_pos (c := r.base ≤ r.base + i ∧ r.base + i - r.base ∈ i :: is) (by simp)]
      split <;> rfl
    · rw [upd_other _ _ hx]
      have : (r.base ≤ x ∧ x - r.base ∈ i :: is) ↔ (r.base ≤ x ∧ x - r.base ∈ is) := by
        rw [List.mem_cons]
        constructor
        · rintro ⟨a, b | b⟩
          · omega
          · exact ⟨a, b⟩
        · rintro ⟨a, b⟩; exact ⟨a, .inr b⟩
      simp only [this]

/-- The loop on an orderly request. -/
theorem insertLoop_ok {s : St} {r : Req} (h : ReqOk s r) (hi : r.inserted = false) :
    (∀ x, (insertLoop s.cell (List.range r.total) (s.table, r)).1 x =
      if r.base ≤ x ∧ x < r.base + r.total then some (.own x) else s.table x) ∧
    (insertLoop s.cell (List.range r.total) (s.table, r)).2 =
      match s.sent r.base with
      | none => r
      | some v => r.push 0 v := by
  obtain ⟨h0, _, h2⟩ := h
  obtain ⟨g1, g2, g3, g4, g5⟩ := h2 hi
  have hr : List.range r.total = 0 :: List.range' 1 (r.total - 1) := by
    rw [List.range_eq_range']
    obtain ⟨k, hk⟩ : ∃ k, r.total = k + 1 := ⟨r.total - 1, by omega⟩
    rw [hk]
    rfl
  have hmem : ∀ x, (r.base ≤ x ∧ x - r.base ∈ List.range r.total) ↔ (r.base ≤ x ∧ x < r.base + r.total) := by
    intro x
    rw [List.mem_range]
    omega
  rcases g5 with ⟨e1, e2⟩ | ⟨e0, v, e1, e2, e3⟩
  · rw [e1]
    have := insertLoop_none s.cell (List.range r.total) s.table r List.nodup_range (by
      intro i hi
      rw [List.mem_range] at hi
      rcases Nat.eq_zero_or_pos i with rfl | hp
      · exact e2
      · exact (g4 i hp hi).2)
    refine ⟨?_, this.1⟩
    intro x
    rw [this.2 x]
    simp only [hmem]
  · rw [e1, hr]
    unfold insertLoop
    rw [Nat.add_zero, e2]
    dsimp only
    rw [e3]
    have hbase : (r.push 0 v).base = r.base := by unfold Req.push; split <;> rfl
    have hb1 : s.table (r.base + 1) = none := (g4 1 (by omega) (by omega)).2
    have key := insertLoop_none s.cell (List.range' 1 (r.total - 1))
      (upd (upd s.table r.base (some (.own r.base))) (r.base + 1) none) (r.push 0 v) List.nodup_range' (by
        intro i hi
        rw [List.mem_range'_1] at hi
        rw [hbase, upd_apply]
        split
        · rfl
        · rw [upd_other _ _ (by omega)]
          exact (g4 i (by omega) (by omega)).2)
    refine ⟨?_, key.1⟩
    intro x
    rw [key.2 x, hbase]
    have hm' : (r.base ≤ x ∧ x - r.base ∈ List.range' 1 (r.total - 1)) ↔ (r.base < x ∧ x < r.base + r.total) := by
      rw [List.mem_range'_1]
      omega
    simp only [hm']
    by_cases hx : r.base < x ∧ x < r.base + r.total
    · rw [if_pos hx, if_pos (by omega)]
    · rw [if_neg hx]
      by_cases hxb : x = r.base
      · subst hxb
        rw [upd_other _ _ (by omega), upd_same, if_pos (by omega)]
      · rw [if_neg (by omega), upd_other _ _ (by omega), upd_other _ _ hxb]

theorem sentFor_succ {s : St} {base a b : Nat} (h : a ≤ b) :
    sentFor s base a (b + 1) = sentFor s base a b ++ [(s.sent (base + b)).getD 0] := by
  unfold sentFor
  rw [show b + 1 - a = (b - a) + 1 by omega, List.range'_concat, List.map_append, List.map_singleton]
  simp only [Nat.one_mul]
  rw [show a + (b - a) = b by omega]

theorem sentFor_nil {s : St} {base a b : Nat} (h : b ≤ a) : sentFor s base a b = [] := by
  unfold sentFor
  rw [show b - a = 0 by omega]
  rfl

/-- Recording one more machine. -/
theorem push_ok {s : St} {r : Req} {k v : Nat} (hk : r.received = k)
    (h2 : r.forCores = sentFor s r.base 0 (min k r.cores)) (h3 : r.forMem = sentFor s r.base r.cores k)
    (hv : (s.sent (r.base + k)).getD 0 = v) :
    (r.push k v).received = k + 1 ∧ (r.push k v).forCores = sentFor s r.base 0 (min (k + 1) r.cores) ∧
      (r.push k v).forMem = sentFor s r.base r.cores (k + 1) ∧ (r.push k v).base = r.base ∧
      (r.push k v).cores = r.cores ∧ (r.push k v).total = r.total ∧ (r.push k v).inserted = r.inserted := by
  unfold Req.push
  split
  · next h =>
    refine ⟨?_, ?_, ?_, rfl, rfl, rfl, rfl⟩
    · unfold Req.received at hk ⊢; simp; omega
    · rw [show min (k + 1) r.cores = k + 1 by omega, sentFor_succ (Nat.zero_le _), hv]
      rw [show min k r.cores = k by omega] at h2
      show r.forCores ++ [v] = _
      rw [h2]
    · show r.forMem = _
      rw [h3, sentFor_nil (by omega), sentFor_nil (by omega)]
  · next h =>
    refine ⟨?_, ?_, ?_, rfl, rfl, rfl, rfl⟩
    · unfold Req.received at hk ⊢; simp; omega
    · show r.forCores = _
      rw [h2, show min (k + 1) r.cores = min k r.cores by omega]
    · rw [sentFor_succ (by omega), hv]
      show r.forMem ++ [v] = _
      rw [h3]

theorem Inv.init : Inv St.init :=
  ⟨fun _ _ _ _ h => (nomatch h), fun _ _ h => (nomatch h), fun _ _ => ⟨rfl, rfl, rfl⟩,
   fun _ _ h => (nomatch h), fun _ _ h => (nomatch h)⟩

theorem total_congr {r q : Req} (h1 : q.cores = r.cores) (h2 : q.mem = r.mem) : q.total = r.total := by
  unfold Req.total; rw [h1, h2]

/-- Ids of another request are not among those of this one. -/
theorem Inv.apart {s : St} (h : Inv s) {m n : Nat} {q r : Req} (hq : s.reqs m = some q) (hr : s.reqs n = some r)
    (hne : m ≠ n) {id : Nat} (hid : r.base ≤ id ∧ id < r.base + r.total) (i : Nat) (hi : i < q.total) :
    q.base + i ≠ id := by
  rcases h.disj m n q r hq hr hne with h1 | h1 <;> omega

theorem Inv.step {s s' : St} (h : Inv s) (hs : Step s s') (ho : OrderlyArrival s s') : Inv s' := by
  cases hs with
  | call n base cores mem hn hpos hfresh =>
    have hcase : ∀ (m : Nat) (q : Req),
        upd s.reqs n (some (⟨base, cores, mem, false, [], []⟩ : Req)) m = some q →
        (m = n ∧ q = ⟨base, cores, mem, false, [], []⟩) ∨ (m ≠ n ∧ s.reqs m = some q) := by
      intro m q hm
      by_cases e : m = n
      · rw [e, upd_same] at hm
        exact .inl ⟨e, (Option.some.inj hm).symm⟩
      · rw [upd_other _ _ e] at hm
        exact .inr ⟨e, hm⟩
    have hun : ∀ i, i < cores + mem → ∀ m q, s.reqs m = some q → ¬ (q.base ≤ base + i ∧ base + i < q.base + q.total) := by
      intro i hi m q hq
      have := hfresh m q hq
      omega
    refine ⟨?_, ?_, ?_, h.ent, h.pos⟩
    · intro a b r q ha hb hne
      rcases hcase a r ha with ⟨e1, e2⟩ | ⟨e1, e2⟩ <;> rcases hcase b q hb with ⟨e3, e4⟩ | ⟨e3, e4⟩
      · omega
      · subst e2
        rcases hfresh b q e4 with g | g
        · exact .inr g
        · exact .inl g
      · subst e4
        rcases hfresh a r e2 with g | g
        · exact .inl g
        · exact .inr g
      · exact h.disj a b r q e2 e4 hne
    · intro a r ha
      rcases hcase a r ha with ⟨e1, e2⟩ | ⟨e1, e2⟩
      · subst e2
        refine ⟨hpos, (fun e => (nomatch e)), fun _ => ⟨rfl, rfl, ?_, ?_, ?_⟩⟩
        · intro i hi; exact (h.issued _ (hun i hi)).2.2
        · intro i _ hi; exact ⟨(h.issued _ (hun i hi)).1, (h.issued _ (hun i hi)).2.1⟩
        · have := h.issued (base + 0) (hun 0 hpos)
          exact .inl ⟨this.1, this.2.1⟩
      · exact h.req a r e2
    · intro id hid
      refine h.issued id ?_
      intro m q hq
      refine hid m q ?_
      show upd s.reqs n _ m = some q
      rw [upd_other]
      · exact hq
      · intro e; rw [e, hn] at hq; cases hq
  | assign n id mid r hr hid hsent hm =>
    have hreqs : (s.assign id mid).reqs = s.reqs := by unfold St.assign; split <;> rfl
    have hse : (s.assign id mid).sent = upd s.sent id (some mid) := by unfold St.assign; split <;> rfl
    have htab : ∀ x, x ≠ id → (s.assign id mid).table x = s.table x := by
      intro x hx
      unfold St.assign
      split
      · rfl
      · exact upd_other _ _ hx
    have hcell : ∀ c, c ≠ .own id → c ≠ .early id → (s.assign id mid).cell c = s.cell c := by
      intro c h1 h2
      unfold St.assign
      split
      · next c' hc' =>
        refine upd_other _ _ ?_
        rcases h.ent id c' hc' with e | e <;> rw [e]
        · exact h1
        · exact h2
      · exact upd_other _ _ h2
    have hord := ho n r id hr hid.1 hid.2 hsent (by rw [hse, upd_same]; simp)
    obtain ⟨i, rfl⟩ : ∃ i, id = r.base + i := ⟨id - r.base, by omega⟩
    have hi : i < r.total := by omega
    refine ⟨by rw [hreqs]; exact h.disj, ?_, ?_, ?_, ?_⟩
    · intro m q hq
      rw [hreqs] at hq
      by_cases e : m = n
      · subst e
        rw [hr] at hq
        obtain rfl := Option.some.inj hq
        obtain ⟨h0, h1, h2⟩ := h.req m r hr
        refine ⟨h0, ?_, ?_⟩
        · intro hins
          obtain ⟨g1, g2, g3, g4, g5⟩ := h1 hins
          have hir : r.received ≤ i := by
            rcases Nat.lt_or_ge i r.received with hlt | hge
            · exact absurd hsent (g4 i hlt)
            · exact hge
          have hsame : ∀ j, j < r.received → (s.assign (r.base + i) mid).sent (r.base + j) = s.sent (r.base + j) := by
            intro j hj; rw [hse, upd_other _ _ (by omega)]
          refine ⟨g1, ?_, ?_, ?_, ?_⟩
          · rw [sentFor_congr (n := r.received) (by omega) hsame]; exact g2
          · rw [sentFor_congr (n := r.received) (by omega) hsame]; exact g3
          · intro j hj; rw [hsame j hj]; exact g4 j hj
          · intro j hj1 hj2
            obtain ⟨k1, k2⟩ := g5 j hj1 hj2
            by_cases e : j = i
            · subst e
              rw [hse, upd_same]
              unfold St.assign
              rw [k1]
              exact ⟨k1, upd_same _ _ _⟩
            · rw [hse, upd_other _ _ (by omega), htab _ (by omega), hcell _ (by simp; omega) (by simp)]
              exact ⟨k1, k2⟩
        · intro hins
          obtain ⟨g1, g2, g3, g4, g5⟩ := h2 hins
          rcases hord with e | ⟨e, he⟩
          · rw [hins] at e; cases e
          · have : i = 0 := by omega
            subst this
            simp only [Nat.add_zero] at hse htab hcell hsent ⊢
            have hnone : s.table r.base = none := by
              rcases g5 with ⟨_, k⟩ | ⟨_, v, k, _⟩
              · exact k
              · rw [hsent] at k; cases k
            refine ⟨g1, g2, ?_, ?_, .inr ⟨he, mid, ?_, ?_, ?_⟩⟩
            · intro j hj
              unfold St.assign
              rw [hnone]
              show upd s.cell (.early r.base) mid (.own (r.base + j)) = 0
              rw [upd_other _ _ (by simp)]
              exact g3 j hj
            · intro j hj1 hj2
              rw [hse, upd_other _ _ (by omega), htab _ (by omega)]
              exact g4 j hj1 hj2
            · rw [hse, upd_same]
            · unfold St.assign
              rw [hnone]
              exact upd_same _ _ _
            · unfold St.assign
              rw [hnone]
              exact upd_same _ _ _
      · have hap := h.apart hq hr e hid
        refine (h.req m q hq).frame ?_ ?_ ?_ ?_
        · intro j hj; exact htab _ (hap j hj)
        · intro j hj; rw [hse, upd_other _ _ (hap j hj)]
        · intro j hj
          refine hcell _ ?_ (by simp)
          intro e; exact hap j hj (Cell.own.inj e)
        · intro j hj
          refine hcell _ (by simp) ?_
          intro e; exact hap j hj (Cell.early.inj e)
    · intro x hx
      rw [hreqs] at hx
      have hne : x ≠ r.base + i := by
        intro e; subst e; exact hx n r hr hid
      rw [hse, upd_other _ _ hne, htab _ hne, hcell _ (by intro e; exact hne (Cell.own.inj e)) (by simp)]
      exact h.issued x hx
    · intro x c hx
      by_cases e : x = r.base + i
      · subst e
        unfold St.assign at hx
        split at hx
        · exact h.ent _ c hx
        · have hx : upd s.table (r.base + i) (some (.early (r.base + i))) (r.base + i) = some c := hx
          rw [upd_same] at hx
          exact .inr (Option.some.inj hx).symm
      · rw [htab x e] at hx
        exact h.ent x c hx
    · intro x v hx
      rw [hse] at hx
      by_cases e : x = r.base + i
      · rw [e, upd_same] at hx; cases hx; exact hm
      · rw [upd_other _ _ e] at hx; exact h.pos x v hx
  | insert n r hr hi =>
    have hok := h.req n r hr
    obtain ⟨k1, k2⟩ := insertLoop_ok hok hi
    generalize hX : insertLoop s.cell (List.range r.total) (s.table, r) = X at k1 k2 ho
    obtain ⟨T, R⟩ := X
    dsimp only at k1 k2 ho ⊢
    obtain ⟨h0, _, h2⟩ := hok
    obtain ⟨g1, g2, g3, g4, g5⟩ := h2 hi
    have hrec : r.received = 0 := by unfold Req.received; rw [g1, g2]; rfl
    have hR : R.base = r.base ∧ R.total = r.total ∧ R.cores = r.cores ∧ R.received ≤ R.total ∧
        R.forCores = sentFor s r.base 0 (min R.received r.cores) ∧ R.forMem = sentFor s r.base r.cores R.received ∧
        (∀ i, i < R.received → s.sent (r.base + i) ≠ none) ∧
        (∀ i, R.received ≤ i → i < r.total → s.sent (r.base + i) = none) := by
      rcases g5 with ⟨e1, e2⟩ | ⟨e0, v, e1, e2, e3⟩
      · rw [e1] at k2
        dsimp only at k2
        rw [k2, hrec]
        refine ⟨rfl, rfl, rfl, by omega, ?_, ?_, (fun i hi => absurd hi (by omega)), ?_⟩
        · rw [g1, sentFor_nil (by omega)]
        · rw [g2, sentFor_nil (by omega)]
        · intro i _ hi
          rcases Nat.eq_zero_or_pos i with rfl | hp
          · exact e1
          · exact (g4 i hp hi).1
      · rw [e1] at k2
        dsimp only at k2
        have hp := push_ok (s := s) (r := r) (k := 0) (v := v) hrec (by rw [g1, sentFor_nil (by omega)])
          (by rw [g2, sentFor_nil (by omega)]) (by rw [Nat.add_zero, e1]; rfl)
        rw [← k2] at hp
        obtain ⟨p1, p2, p3, p4, p5, p6, p7⟩ := hp
        rw [p1]
        refine ⟨p4, p6, p5, by omega, p2, p3, ?_, ?_⟩
        · intro i hi
          have : i = 0 := by omega
          subst this
          rw [Nat.add_zero, e1]
          simp
        · intro i hi1 hi2
          exact (g4 i (by omega) hi2).1
    obtain ⟨r1, r2, r3, r4, r5, r6, r7, r8⟩ := hR
    have hcase : ∀ (m : Nat) (q : Req), upd s.reqs n (some { R with inserted := true }) m = some q →
        (m = n ∧ q = { R with inserted := true }) ∨ (m ≠ n ∧ s.reqs m = some q) := by
      intro m q hm
      by_cases e : m = n
      · rw [e, upd_same] at hm
        exact .inl ⟨e, (Option.some.inj hm).symm⟩
      · rw [upd_other _ _ e] at hm
        exact .inr ⟨e, hm⟩
    have hR' : ({ R with inserted := true } : Req).base = r.base := r1
    have hT' : ({ R with inserted := true } : Req).total = r.total := r2
    refine ⟨?_, ?_, ?_, ?_, h.pos⟩
    · intro a b x y ha hb hne
      rcases hcase a x ha with ⟨e1, e2⟩ | ⟨e1, e2⟩ <;> rcases hcase b y hb with ⟨e3, e4⟩ | ⟨e3, e4⟩
      · omega
      · rw [e2, hT', hR']; exact h.disj n b r y hr e4 (Ne.symm e3)
      · rw [e4, hT', hR']; exact h.disj a n x r e2 hr e1
      · exact h.disj a b x y e2 e4 hne
    · intro a x ha
      rcases hcase a x ha with ⟨e1, e2⟩ | ⟨e1, e2⟩
      · subst e2
        refine ⟨by rw [hT']; exact h0, ?_, (fun e => (nomatch e))⟩
        intro _
        rw [hT']
        rw [hR']
        show R.received ≤ r.total ∧ R.forCores = sentFor s r.base 0 (min R.received R.cores) ∧
          R.forMem = sentFor s r.base R.cores R.received ∧ (∀ i, i < R.received → s.sent (r.base + i) ≠ none) ∧
          ∀ i, R.received ≤ i → i < r.total → T (r.base + i) = some (.own (r.base + i)) ∧
            s.cell (.own (r.base + i)) = (s.sent (r.base + i)).getD 0
        rw [r3]
        refine ⟨by omega, r5, r6, r7, ?_⟩
        intro i hi1 hi2
        rw [k1, if_pos (by omega), r8 i hi1 hi2]
        exact ⟨rfl, g3 i hi2⟩
      · refine (h.req a x e2).frame ?_ (fun _ _ => rfl) (fun _ _ => rfl) (fun _ _ => rfl)
        intro i hi
        show T (x.base + i) = _
        rw [k1, if_neg]
        intro hx
        exact h.apart e2 hr e1 hx i hi rfl
    · intro id hid
      have hid' : ∀ m q, s.reqs m = some q → ¬ (q.base ≤ id ∧ id < q.base + q.total) := by
        intro m q hq
        by_cases e : m = n
        · subst e
          rw [hr] at hq
          obtain rfl := Option.some.inj hq
          have := hid m { R with inserted := true } (upd_same _ _ _)
          rw [hT', hR'] at this
          exact this
        · exact hid m q (by show upd s.reqs n _ m = _; rw [upd_other _ _ e]; exact hq)
      obtain ⟨a1, a2, a3⟩ := h.issued id hid'
      refine ⟨a1, ?_, a3⟩
      show T id = none
      rw [k1, if_neg (hid' n r hr)]
      exact a2
    · intro id c hc
      have hc : T id = some c := hc
      rw [k1] at hc
      split at hc
      · exact .inl (Option.some.inj hc).symm
      · exact h.ent id c hc
  | receive n r hr hi hk hv =>
    obtain ⟨h0, h1, _⟩ := h.req n r hr
    obtain ⟨g1, g2, g3, g4, g5⟩ := h1 hi
    obtain ⟨c1, c2⟩ := g5 r.received (Nat.le_refl _) hk
    have hp := push_ok (s := s) (r := r) (k := r.received) (v := s.cell (.own (r.base + r.received))) rfl g2 g3 c2.symm
    generalize r.push r.received (s.cell (.own (r.base + r.received))) = R at hp ho
    obtain ⟨p1, p2, p3, p4, p5, p6, p7⟩ := hp
    have hsome : s.sent (r.base + r.received) ≠ none := by
      intro e; rw [e] at c2; exact hv c2
    have hcase : ∀ (m : Nat) (q : Req), upd s.reqs n (some R) m = some q →
        (m = n ∧ q = R) ∨ (m ≠ n ∧ s.reqs m = some q) := by
      intro m q hm
      by_cases e : m = n
      · rw [e, upd_same] at hm
        exact .inl ⟨e, (Option.some.inj hm).symm⟩
      · rw [upd_other _ _ e] at hm
        exact .inr ⟨e, hm⟩
    refine ⟨?_, ?_, ?_, ?_, h.pos⟩
    · intro a b x y ha hb hne
      rcases hcase a x ha with ⟨e1, e2⟩ | ⟨e1, e2⟩ <;> rcases hcase b y hb with ⟨e3, e4⟩ | ⟨e3, e4⟩
      · omega
      · rw [e2, p4, p6]; exact h.disj n b r y hr e4 (Ne.symm e3)
      · rw [e4, p4, p6]; exact h.disj a n x r e2 hr e1
      · exact h.disj a b x y e2 e4 hne
    · intro a x ha
      rcases hcase a x ha with ⟨e1, e2⟩ | ⟨e1, e2⟩
      · subst e2
        refine ⟨by rw [p6]; exact h0, ?_, fun e => absurd (p7.symm.trans e) (by rw [hi]; simp)⟩
        intro _
        rw [p1, p4, p5, p6]
        refine ⟨hk, p2, p3, ?_, ?_⟩
        · intro i hi
          rcases Nat.lt_or_ge i r.received with hlt | hge
          · exact g4 i hlt
          · have : i = r.received := by omega
            rw [this]; exact hsome
        · intro i hi1 hi2
          show upd s.table (r.base + r.received) none (r.base + i) = _ ∧ _
          rw [upd_other _ _ (by omega)]
          exact g5 i (by omega) hi2
      · refine (h.req a x e2).frame ?_ (fun _ _ => rfl) (fun _ _ => rfl) (fun _ _ => rfl)
        intro i hi
        show upd s.table (r.base + r.received) none (x.base + i) = _
        rw [upd_other]
        exact h.apart e2 hr e1 (by omega) i hi
    · intro id hid
      have hid' : ∀ m q, s.reqs m = some q → ¬ (q.base ≤ id ∧ id < q.base + q.total) := by
        intro m q hq
        by_cases e : m = n
        · subst e
          rw [hr] at hq
          obtain rfl := Option.some.inj hq
          have := hid m R (upd_same _ _ _)
          rw [p4, p6] at this
          exact this
        · exact hid m q (by show upd s.reqs n _ m = _; rw [upd_other _ _ e]; exact hq)
      obtain ⟨a1, a2, a3⟩ := h.issued id hid'
      refine ⟨a1, ?_, a3⟩
      show upd s.table (r.base + r.received) none id = none
      rw [upd_apply]
      split
      · rfl
      · exact a2
    · intro id c hc
      have hc : upd s.table (r.base + r.received) none id = some c := hc
      rw [upd_apply] at hc
      split at hc
      · cases hc
      · exact h.ent id c hc

theorem OReach.inv {s : St} (h : OReach s) : Inv s := by
  induction h with
  | init => exact Inv.init
  | step _ hs ho ih => exact ih.step hs ho

/-- **C48**, the result.  Whatever the order of arrival and however many requests run at the same time: a
request that returns has, in the order of its ids, the machines sent for its cores and then the machines
sent for its memory slices.  Missing: assignments that arrive too early (see `OrderlyArrival`), for which
this is false. -/
theorem c48_result_partial {s : St} (h : OReach s) {n : Nat} {r : Req} (hd : Done s n r) :
    r.forCores.map some = (List.range r.cores).map (fun i => s.sent (r.base + i)) ∧
    r.forMem.map some = (List.range r.mem).map (fun i => s.sent (r.base + r.cores + i)) := by
  obtain ⟨hr, hi, hk⟩ := hd
  obtain ⟨_, h1, _⟩ := h.inv.req n r hr
  obtain ⟨_, g2, g3, g4, _⟩ := h1 hi
  rw [hk] at g2 g3 g4
  have hval : ∀ i, i < r.total → some ((s.sent (r.base + i)).getD 0) = s.sent (r.base + i) := by
    intro i hi
    cases e : s.sent (r.base + i) with
    | none => exact absurd e (g4 i hi)
    | some v => rfl
  have ht : r.total = r.cores + r.mem := rfl
  constructor
  · rw [g2]
    unfold sentFor
    rw [List.map_map, show min r.total r.cores - 0 = r.cores by omega, List.range_eq_range']
    refine List.map_congr_left ?_
    intro i hi
    rw [List.mem_range'_1] at hi
    exact hval i (by omega)
  · rw [g3]
    unfold sentFor
    rw [List.map_map, show r.total - r.cores = r.mem by omega, List.range'_eq_map_range, List.map_map]
    refine List.map_congr_left ?_
    intro i hi
    rw [List.mem_range] at hi
    show some ((s.sent (r.base + (r.cores + i))).getD 0) = _
    rw [hval _ (by omega), Nat.add_assoc]

/-- **C48**, progress.  Under the same condition a request for which all machines were sent is not stuck:
it has returned, or it can take a step itself, and each step brings it nearer to its return. -/
theorem c48_progress_partial {s : St} (h : OReach s) {n : Nat} {r : Req} (hr : s.reqs n = some r)
    (hall : ∀ i, i < r.total → s.sent (r.base + i) ≠ none) :
    Done s n r ∨
    ∃ s' r', Step s s' ∧ s'.sent = s.sent ∧ s'.reqs n = some r' ∧ r'.base = r.base ∧ r'.total = r.total ∧
      r'.inserted = true ∧ (r.inserted = false ∨ r'.received = r.received + 1) := by
  have hinv := h.inv
  have hok := hinv.req n r hr
  cases hi : r.inserted with
  | false =>
    obtain ⟨_, k2⟩ := insertLoop_ok hok hi
    refine .inr ⟨_, _, .insert s n r hr hi, rfl, upd_same _ _ _, ?_, ?_, rfl, .inl rfl⟩
    · show (insertLoop s.cell (List.range r.total) (s.table, r)).2.base = r.base
      rw [k2]
      split
      · rfl
      · unfold Req.push; split <;> rfl
    · show (insertLoop s.cell (List.range r.total) (s.table, r)).2.total = r.total
      rw [k2]
      split
      · rfl
      · unfold Req.push; split <;> rfl
  | true =>
    obtain ⟨_, h1, _⟩ := hok
    obtain ⟨g1, g2, g3, _, g5⟩ := h1 hi
    by_cases hk : r.received = r.total
    · exact .inl ⟨hr, hi, hk⟩
    · have hk : r.received < r.total := by omega
      obtain ⟨c1, c2⟩ := g5 r.received (Nat.le_refl _) hk
      have hv : s.cell (.own (r.base + r.received)) ≠ 0 := by
        rw [c2]
        cases e : s.sent (r.base + r.received) with
        | none => exact absurd e (hall _ hk)
        | some v => exact hinv.pos _ v e
      have hp := push_ok (s := s) (r := r) (k := r.received) (v := s.cell (.own (r.base + r.received))) rfl g2 g3 c2.symm
      exact .inr ⟨_, _, .receive s n r hr hi hk hv, rfl, upd_same _ _ _, hp.2.2.2.1, hp.2.2.2.2.2.1,
        hp.2.2.2.2.2.2.trans hi, .inr hp.1⟩

theorem orderly_of_sent {s s' : St} (h : s'.sent = s.sent) : OrderlyArrival s s' := by
  intro n r id _ _ _ h1 h2
  rw [h] at h2
  exact absurd h1 h2

/-- Any number of steps. -/
inductive Steps : St → St → Prop where
  | refl (s : St) : Steps s s
  | head {s t u : St} : Step s t → Steps t u → Steps s u

/-- **C48**, termination: such a request returns when it is let run. -/
theorem c48_terminates_partial {s : St} (h : OReach s) {n : Nat} {r : Req} (hr : s.reqs n = some r)
    (hall : ∀ i, i < r.total → s.sent (r.base + i) ≠ none) :
    ∃ s' r', Steps s s' ∧ OReach s' ∧ s'.sent = s.sent ∧ r'.base = r.base ∧ r'.total = r.total ∧ Done s' n r' := by
  have main : ∀ k (s : St) (r : Req), OReach s → s.reqs n = some r → r.inserted = true →
      (∀ i, i < r.total → s.sent (r.base + i) ≠ none) → r.total - r.received = k →
      ∃ s' r', Steps s s' ∧ OReach s' ∧ s'.sent = s.sent ∧ r'.base = r.base ∧ r'.total = r.total ∧ Done s' n r' := by
    intro k
    induction k using Nat.strongRecOn with
    | _ k ih =>
      intro s r h hr hi hall hk
      rcases c48_progress_partial h hr hall with hd | ⟨t, q, h1, h2, h3, h4, h5, h6, h7⟩
      · exact ⟨s, r, .refl s, h, rfl, rfl, rfl, hd⟩
      · rcases h7 with h7 | h7
        · rw [hi] at h7; cases h7
        · have ht : OReach t := .step h h1 (orderly_of_sent h2)
          have hle := ((ht.inv.req n q h3).2.1 h6).1
          obtain ⟨u, p, g1, g2, g3, g4, g5, g6⟩ := ih (q.total - q.received) (by omega) t q ht h3 h6
            (by rw [h2, h4, h5]; exact hall) rfl
          exact ⟨u, p, .head h1 g1, g2, g3.trans h2, g4.trans h4, g5.trans h5, g6⟩
  cases hi : r.inserted with
  | true => exact main _ s r h hr hi hall rfl
  | false =>
    rcases c48_progress_partial h hr hall with hd | ⟨t, q, h1, h2, h3, h4, h5, h6, h7⟩
    · rw [hd.2.1] at hi; cases hi
    · have ht : OReach t := .step h h1 (orderly_of_sent h2)
      obtain ⟨u, p, g1, g2, g3, g4, g5, g6⟩ := main _ t q ht h3 h6 (by rw [h2, h4, h5]; exact hall) rfl
      exact ⟨u, p, .head h1 g1, g2, g3.trans h2, g4.trans h4, g5.trans h5, g6⟩

/-! ## Early assignments -/

/-- Request `n` waits for a cell that is not filled and cannot be filled any more: its id was answered
and is not in the table as that cell. -/
def Stuck (s : St) (n : Nat) (r : Req) : Prop :=
  s.reqs n = some r ∧ r.inserted = true ∧ r.received < r.total ∧ s.cell (.own (r.base + r.received)) = 0 ∧
  s.sent (r.base + r.received) ≠ none

theorem insertLoop_ent (cell : Cell → Nat) (is : List Nat) (table : Nat → Option Cell) (r : Req)
    (h : ∀ id c, table id = some c → c = .own id ∨ c = .early id) (id : Nat) (c : Cell)
    (hc : (insertLoop cell is (table, r)).1 id = some c) : c = .own id ∨ c = .early id := by
  have hu : ∀ (t : Nat → Option Cell) (x : Nat), (∀ id c, t id = some c → c = .own id ∨ c = .early id) →
      ∀ id c, upd t x (some (.own x)) id = some c → c = .own id ∨ c = .early id := by
    intro t x ht id c hc
    rw [upd_apply] at hc
    split at hc
    · next e => cases hc; exact .inl (by rw [e])
    · exact ht id c hc
  induction is generalizing table r with
  | nil => exact h id c hc
  | cons i is ih =>
    unfold insertLoop at hc
    split at hc
    · refine ih _ _ ?_ hc
      intro x d hd
      rw [upd_apply] at hd
      split at hd
      · cases hd
      · exact hu _ _ h x d hd
    · exact ih _ _ (hu _ _ h) hc

theorem Reach.ent {s : St} (h : Reach s) : ∀ id c, s.table id = some c → c = .own id ∨ c = .early id := by
  induction h with
  | init => intro _ _ h; cases h
  | @step s s' _ hs ih =>
    cases hs with
    | call => exact ih
    | assign n id mid r hr hid hsent hm =>
      intro x c hx
      unfold St.assign at hx
      split at hx
      · exact ih x c hx
      · have hx : upd s.table id (some (.early id)) x = some c := hx
        rw [upd_apply] at hx
        split at hx
        · next e => cases hx; exact .inr (by rw [e])
        · exact ih x c hx
    | insert n r hr hi => exact insertLoop_ent s.cell _ s.table r ih
    | receive n r hr hi hk hv =>
      intro x c hx
      have hx : upd s.table (r.base + r.received) none x = some c := hx
      rw [upd_apply] at hx
      split at hx
      · cases hx
      · exact ih x c hx

theorem Stuck.step {s s' : St} {n : Nat} {r : Req} (hr : Reach s) (h : Stuck s n r) (hs : Step s s') :
    Stuck s' n r := by
  obtain ⟨h1, h2, h3, h4, h5⟩ := h
  cases hs with
  | call m base cores mem hn =>
    refine ⟨?_, h2, h3, h4, h5⟩
    show upd s.reqs m _ n = _
    rw [upd_other]
    · exact h1
    · intro e; rw [← e, h1] at hn; cases hn
  | assign m id mid q hq hid hsent hm =>
    have hne : r.base + r.received ≠ id := by
      intro e; rw [e] at h5; exact h5 hsent
    have hent := hr.ent id
    unfold St.assign
    split
    · next c hc =>
      refine ⟨h1, h2, h3, ?_, ?_⟩
      · show upd s.cell c mid _ = 0
        rw [upd_other]
        · exact h4
        · intro e
          rcases hent c hc with e2 | e2 <;> rw [e2] at e
          · exact hne (Cell.own.inj e)
          · cases e
      · show upd s.sent id _ _ ≠ none
        rw [upd_other _ _ hne]; exact h5
    · refine ⟨h1, h2, h3, ?_, ?_⟩
      · show upd s.cell (Cell.early id) mid (Cell.own (r.base + r.received)) = 0
        rw [upd_other _ _ (by simp)]; exact h4
      · show upd s.sent id _ _ ≠ none
        rw [upd_other _ _ hne]; exact h5
  | insert m q hq hi =>
    refine ⟨?_, h2, h3, h4, h5⟩
    show upd s.reqs m _ n = _
    rw [upd_other]
    · exact h1
    · intro e; rw [← e, h1] at hq; cases hq; rw [h2] at hi; cases hi
  | receive m q hq hi hk hv =>
    refine ⟨?_, h2, h3, h4, h5⟩
    show upd s.reqs m _ n = _
    rw [upd_other]
    · exact h1
    · intro e; rw [← e, h1] at hq; cases hq; exact hv h4

/-- A stuck request never returns. -/
theorem Stuck.never {s t : St} {n : Nat} {r : Req} (hr : Reach s) (h : Stuck s n r) (ht : Steps s t) (q : Req) :
    ¬ Done t n q := by
  induction ht with
  | refl s =>
    rintro ⟨h1, _, h3⟩
    rw [h.1] at h1
    cases h1
    have := h.2.2.1
    omega
  | head hs _ ih => exact ih (.step hr hs) (h.step hr hs)

/-- **C48** is false: both assignments of a request for two cores arrive before the request has put its ids
into the table; the request never returns although everything was sent. -/
theorem c48_two_early_hangs : ∃ s r, Reach s ∧ s.reqs 0 = some r ∧
    (∀ i, i < r.total → s.sent (r.base + i) ≠ none) ∧ ∀ t q, Steps s t → ¬ Done t 0 q := by
  have r0 : Reach St.init := .init
  have r1 := r0.step (.call _ 0 7 2 0 rfl (by decide) (fun _ _ h => (nomatch h)))
  have r2 := r1.step (.assign _ 0 7 1 _ rfl (by decide) rfl (by decide))
  have r3 := r2.step (.assign _ 0 8 2 _ rfl (by decide) rfl (by decide))
  have r4 := r3.step (.insert _ 0 _ rfl rfl)
  refine ⟨_, _, r4, rfl, ?_, fun t q ht => Stuck.never r4 (r := ⟨7, 2, 0, true, [1], []⟩) ⟨rfl, rfl, by decide, rfl, ?_⟩ ht q⟩
  · intro i hi
    have hi : i < 2 := hi
    match i with
    | 0 => exact fun e => (nomatch e)
    | 1 => exact fun e => (nomatch e)
    | i + 2 => omega
  · exact fun e => (nomatch e)

/-- **C48** is false: the assignment for the second resource arrives early, that for the first one does not;
the machine of the second is recorded as the first, and the request never returns. -/
theorem c48_second_early_hangs : ∃ s r, Reach s ∧ s.reqs 0 = some r ∧ r.forCores = [2] ∧
    s.sent r.base = some 1 ∧ s.sent (r.base + 1) = some 2 ∧ ∀ t q, Steps s t → ¬ Done t 0 q := by
  have r0 : Reach St.init := .init
  have r1 := r0.step (.call _ 0 7 2 0 rfl (by decide) (fun _ _ h => (nomatch h)))
  have r2 := r1.step (.assign _ 0 8 2 _ rfl (by decide) rfl (by decide))
  have r3 := r2.step (.insert _ 0 _ rfl rfl)
  have r4 := r3.step (.assign _ 0 7 1 _ rfl (by decide) rfl (by decide))
  exact ⟨_, _, r4, rfl, rfl, rfl, rfl,
    fun t q ht => Stuck.never r4 (r := ⟨7, 2, 0, true, [2], []⟩) ⟨rfl, rfl, by decide, rfl, fun e => (nomatch e)⟩ ht q⟩

/-- **C48** is false of requests for single cores as well: the assignment of request 0 arrives early, and
the entry it removes is the one request 1 waits for.  Request 0 returns, request 1 never does. -/
theorem c48_other_request_hangs : ∃ s r, Reach s ∧ Done s 0 ⟨7, 1, 0, true, [3], []⟩ ∧ s.reqs 1 = some r ∧
    r.total = 1 ∧ s.sent r.base = some 4 ∧ ∀ t q, Steps s t → ¬ Done t 1 q := by
  have r0 : Reach St.init := .init
  have r1 := r0.step (.call _ 0 7 1 0 rfl (by decide) (fun _ _ h => (nomatch h)))
  have r2 := r1.step (.call _ 1 8 1 0 rfl (by decide) (fun m r h => by
    by_cases e : m = 0
    · subst e
      cases h
      exact .inl (by decide)
    · have h : upd St.init.reqs 0 _ m = some r := h
      rw [upd_other _ _ e] at h
      cases h))
  have r3 := r2.step (.insert _ 1 _ rfl rfl)
  have r4 := r3.step (.assign _ 0 7 3 _ rfl (by decide) rfl (by decide))
  have r5 := r4.step (.insert _ 0 _ rfl rfl)
  have r6 := r5.step (.assign _ 1 8 4 _ rfl (by decide) rfl (by decide))
  exact ⟨_, _, r6, ⟨rfl, rfl, rfl⟩, rfl, rfl, rfl,
    fun t q ht => Stuck.never r6 (r := ⟨8, 1, 0, true, [], []⟩) ⟨rfl, rfl, by decide, rfl, fun e => (nomatch e)⟩ ht q⟩

/-- The hypotheses are met: a request for a core and two memory slices whose assignments arrive in the
order first, third, second, the first one early, returns with all three. -/
example : ∃ s, OReach s ∧ Done s 0 ⟨7, 1, 2, true, [5], [6, 9]⟩ := by
  have r0 : OReach St.init := .init
  have r1 := r0.step (.call _ 0 7 1 2 rfl (by decide) (fun _ _ h => (nomatch h))) (orderly_of_sent rfl)
  have one : ∀ m (r : Req) (x : Req), upd (fun _ => none) 0 (some x) m = some r → m = 0 ∧ r = x := by
    intro m r x h
    rw [upd_apply] at h
    split at h
    · next e => cases h; exact ⟨e, rfl⟩
    · cases h
  have r2 := r1.step (.assign _ 0 7 5 _ rfl (by decide) rfl (by decide)) (by
    intro n r id hr _ _ h1 h2
    obtain ⟨_, rfl⟩ := one n r _ hr
    refine .inr ⟨?_, by decide⟩
    have h2 : upd (fun _ => none) 7 (some 5) id ≠ none := h2
    rw [upd_apply] at h2
    split at h2
    · assumption
    · exact absurd rfl h2)
  have r3 := r2.step (.insert _ 0 _ rfl rfl) (orderly_of_sent rfl)
  have ins : ∀ {s s' : St} (x : Req), s.reqs = upd (upd (fun _ => none) 0 (some ⟨7, 1, 2, false, [], []⟩)) 0 (some x) →
      x.inserted = true → OrderlyArrival s s' := by
    intro s s' x hx hi n r id hr _ _ _ _
    rw [hx, upd_upd] at hr
    obtain ⟨_, rfl⟩ := one n r _ hr
    exact .inl hi
  have r4 := r3.step (.assign _ 0 9 9 _ rfl (by decide) rfl (by decide)) (ins _ rfl rfl)
  have r5 := r4.step (.assign _ 0 8 6 _ rfl (by decide) rfl (by decide)) (ins _ rfl rfl)
  have r6 := r5.step (.receive _ 0 _ rfl rfl (by decide) (fun e => (nomatch e))) (orderly_of_sent rfl)
  have r7 := r6.step (.receive _ 0 _ rfl rfl (by decide) (fun e => (nomatch e))) (orderly_of_sent rfl)
  exact ⟨_, r7, rfl, rfl, rfl⟩

end NRK.Rack.Dcm
