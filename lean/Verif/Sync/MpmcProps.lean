import Verif.Sync.MpmcLemmas
import Mathlib.Data.List.Perm.Subperm

/-!
# Property theorems C17 and C18: the bounded queue

The history `s.hist` lists the completed calls in the order in which they returned; every event
carries `inv`, the number of calls that had returned when it was called.  So "call `i` returned
before call `j` was made" is `i < inv j`.
-/

namespace NRK.Sync.Mpmc

variable {T : Type}

/-! ## A scheduler-driven execution, for the examples -/

/-- The step thread `t` takes next when no compare-exchange fails spuriously; `c` is the call an
idle thread makes (`some v`: push `v`, `none`: pop). -/
def exec (cap : Nat) (s : St T) (tc : Nat × Option T) : St T :=
  let t := tc.1
  match s.pc t with
  | .idle =>
    match tc.2 with
    | some v => { s with pc := upd s.pc t (.pushLd v s.hist.length) }
    | none => { s with pc := upd s.pc t (.popLd s.hist.length) }
  | .pushLd v inv => { s with pc := upd s.pc t (.pushSeq v inv s.enq) }
  | .pushSeq v inv pos =>
    if s.seq (pos % cap) = pos then { s with pc := upd s.pc t (.pushCas v inv pos) }
    else if s.seq (pos % cap) < pos then
      { s with pc := upd s.pc t .idle, hist := s.hist ++ [.full v inv] }
    else { s with pc := upd s.pc t (.pushLd v inv) }
  | .pushCas v inv pos =>
    if s.enq = pos then
      { s with enq := pos + 1, pc := upd s.pc t (.pushWr v inv pos), ins := s.ins ++ [v] }
    else { s with pc := upd s.pc t (.pushSeq v inv s.enq) }
  | .pushWr v inv pos =>
    { s with val := upd s.val (pos % cap) (some v), pc := upd s.pc t (.pushSt v inv pos) }
  | .pushSt v inv pos =>
    { s with
      seq := upd s.seq (pos % cap) (pos + 1), pc := upd s.pc t .idle
      hist := s.hist ++ [.pushed v inv pos] }
  | .popLd inv => { s with pc := upd s.pc t (.popSeq inv s.deq) }
  | .popSeq inv pos =>
    if s.seq (pos % cap) = pos + 1 then { s with pc := upd s.pc t (.popCas inv pos) }
    else if s.seq (pos % cap) < pos + 1 then
      { s with pc := upd s.pc t .idle, hist := s.hist ++ [.empty inv] }
    else { s with pc := upd s.pc t (.popLd inv) }
  | .popCas inv pos =>
    if s.deq = pos then { s with deq := pos + 1, pc := upd s.pc t (.popTake inv pos) }
    else { s with pc := upd s.pc t (.popSeq inv s.deq) }
  | .popTake inv pos =>
    { s with
      val := upd s.val (pos % cap) none
      pc := upd s.pc t (.popSt (s.val (pos % cap)) inv pos) }
  | .popSt v inv pos =>
    { s with
      seq := upd s.seq (pos % cap) (pos + cap), pc := upd s.pc t .idle
      hist := s.hist ++ [.popped v inv pos] }

theorem exec_step (cap : Nat) (s : St T) (tc : Nat × Option T) : Step cap s (exec cap s tc) := by
  obtain ⟨t, c⟩ := tc
  simp only [exec]
  split
  · split
    · exact .pushCall _ t _ ‹_›
    · exact .popCall _ t ‹_›
  · exact .pushLd _ t _ _ ‹_›
  · split
    · exact .pushSeqEq _ t _ _ _ ‹_› ‹_›
    · split
      · exact .pushFull _ t _ _ _ ‹_› ‹_›
      · exact .pushSeqGt _ t _ _ _ ‹_› (by omega)
  · split
    · rename_i pos h he; subst he; exact .pushCasOk _ t _ _ _ h rfl
    · exact .pushCasFail _ t _ _ _ ‹_›
  · exact .pushWr _ t _ _ _ ‹_›
  · exact .pushSt _ t _ _ _ ‹_›
  · exact .popLd _ t _ ‹_›
  · split
    · exact .popSeqEq _ t _ _ ‹_› ‹_›
    · split
      · exact .popEmpty _ t _ _ ‹_› ‹_›
      · exact .popSeqGt _ t _ _ ‹_› (by omega)
  · split
    · rename_i pos h he; subst he; exact .popCasOk _ t _ _ h rfl
    · exact .popCasFail _ t _ _ ‹_›
  · exact .popTake _ t _ _ ‹_›
  · exact .popSt _ t _ _ _ ‹_›

theorem reach_run (cap : Nat) (l : List (Nat × Option T)) (s : St T) (h : Reach cap s) :
    Reach cap (l.foldl (exec cap) s) := by
  induction l generalizing s with
  | nil => exact h
  | cons a l ih => exact ih _ (h.step (exec_step cap s a))

/-- Thread `t` performs one whole uncontended call: `push v` takes 6 steps, `pop` takes 6. -/
def call (t : Nat) (c : Option T) : List (Nat × Option T) := List.replicate 6 (t, c)

/-! ## Capacity -/

theorem go_pow2 (n : Nat) : ∀ fuel p, p.isPowerOfTwo → (nextPow2.go n p fuel).isPowerOfTwo
  | 0, p, h => h
  | fuel + 1, p, h => by
    simp only [nextPow2.go]
    split
    · exact go_pow2 n fuel _ (by rw [Nat.mul_comm]; exact Nat.isPowerOfTwo_mul_two_of_isPowerOfTwo h)
    · exact h

theorem go_ge (n : Nat) : ∀ fuel p, 0 < p → n ≤ p + fuel → n ≤ nextPow2.go n p fuel
  | 0, p, _, h => h
  | fuel + 1, p, hp, h => by
    simp only [nextPow2.go]
    split
    · exact go_ge n fuel _ (by omega) (by omega)
    · omega

theorem go_lt (n : Nat) : ∀ fuel p, p < 2 * n → nextPow2.go n p fuel < 2 * n
  | 0, p, h => h
  | fuel + 1, p, h => by
    simp only [nextPow2.go]
    split
    · exact go_lt n fuel _ (by omega)
    · exact h

/-- **C18** The capacity of a queue created with any requested capacity is a power of two, at
least 2, at least the request, and (for requests above 1) less than twice the request. -/
theorem c18_capacity (req : Nat) :
    (∃ k, capacityOf req = 2 ^ k) ∧ 2 ≤ capacityOf req ∧ req ≤ capacityOf req ∧
      (2 ≤ req → capacityOf req < 2 * req) := by
  unfold capacityOf
  by_cases h2 : req < 2
  · simp only [h2, true_or, if_true]
    exact ⟨⟨1, rfl⟩, by omega, by omega, by omega⟩
  · simp only [h2, false_or, if_false]
    split
    · have := go_pow2 req req 1 Nat.isPowerOfTwo_one
      have h3 := go_ge req req 1 (by omega) (by omega)
      exact ⟨this, Nat.le_trans (by omega) h3, h3, fun _ => go_lt req req 1 (by omega)⟩
    · rename_i h
      have h0 : req ≠ 0 := by omega
      have := (Nat.and_sub_one_eq_zero_iff_isPowerOfTwo h0).1 (by simpa using h)
      exact ⟨this, by omega, by omega, by omega⟩

/-- The code's slot index `pos & mask` is `pos % capacity`. -/
theorem and_mask (req pos : Nat) : pos &&& (capacityOf req - 1) = pos % capacityOf req := by
  obtain ⟨⟨k, hk⟩, _⟩ := c18_capacity req
  rw [hk]
  exact Nat.and_two_pow_sub_one_eq_mod pos k

/-! ## C17 -/

/-- A push is in progress that has claimed position `p`. -/
def Pushing (s : St T) (p : Nat) : Prop :=
  ∃ t v inv, s.pc t = .pushWr v inv p ∨ s.pc t = .pushSt v inv p

/-- A pop is in progress that has claimed position `p`. -/
def Popping (s : St T) (p : Nat) : Prop :=
  ∃ t inv, s.pc t = .popTake inv p ∨ ∃ v, s.pc t = .popSt v inv p

theorem pushing_of {s : St T} {p : Nat} (h : ∃ t, (s.pc t).pushPos = some p) : Pushing s p := by
  obtain ⟨t, h⟩ := h
  cases hp : s.pc t <;> rw [hp] at h <;> simp only [Pc.pushPos, Option.some.injEq] at h <;>
    first
    | (subst h; exact ⟨t, _, _, Or.inl hp⟩)
    | (subst h; exact ⟨t, _, _, Or.inr hp⟩)
    | cases h

theorem popping_of {s : St T} {p : Nat} (h : ∃ t, (s.pc t).popPos = some p) : Popping s p := by
  obtain ⟨t, h⟩ := h
  cases hp : s.pc t <;> rw [hp] at h <;> simp only [Pc.popPos, Option.some.injEq] at h <;>
    first
    | (subst h; exact ⟨t, _, Or.inl hp⟩)
    | (subst h; exact ⟨t, _, Or.inr ⟨_, hp⟩⟩)
    | cases h

theorem pushed_of_pos {e : Event T} {p : Nat} (h : e.pushPos = some p) :
    ∃ v inv, e = .pushed v inv p := by
  cases e <;> simp only [Event.pushPos, Option.some.injEq] at h <;>
    first
    | (subst h; exact ⟨_, _, rfl⟩)
    | cases h

theorem popped_of_pos {e : Event T} {p : Nat} (h : e.popPos = some p) :
    ∃ v inv, e = .popped v inv p := by
  cases e <;> simp only [Event.popPos, Option.some.injEq] at h <;>
    first
    | (subst h; exact ⟨_, _, rfl⟩)
    | cases h

/-- A position below `dequeue_pos` has been filled by a push that has returned. -/
theorem pushed_of_lt_deq {cap : Nat} (hc : 2 ≤ cap) {s : St T} (h : QInv cap s) {p : Nat}
    (hp : p < s.deq) : ∃ v inv, Event.pushed v inv p ∈ s.hist ∧ s.ins[p]? = some v := by
  rcases h.cpush p (by have := h.le; omega) with ⟨t, ht⟩ | ⟨e, hm, he⟩
  · exfalso
    obtain ⟨o1, o2⟩ := push_owner h ht
    rcases h.slot (p % cap) (Nat.mod_lt _ (by omega)) with
      ⟨q, h1, h2, h3, _⟩ | ⟨q, h1, h2, _⟩
    · omega
    · have : p = q + 1 := by omega
      rw [this] at h1
      exact mod_succ_ne hc h1.symm
  · obtain ⟨v, inv, rfl⟩ := pushed_of_pos he
    exact ⟨v, inv, hm, (h.ev _ hm).2.1⟩

/-- Every completed pop returned the element of a push that had returned before. -/
theorem popped_after_pushed {cap : Nat} (hc : 2 ≤ cap) {s : St T} (h : Reach cap s) :
    ∀ (j : Nat) (v : Option T) (inv pos : Nat), s.hist[j]? = some (.popped v inv pos) →
      ∃ (i : Nat) (v' : T) (inv' : Nat), i < j ∧ s.hist[i]? = some (.pushed v' inv' pos) ∧
        v = some v' := by
  induction h with
  | init => intro j v inv pos hj; simp [St.init] at hj
  | @step s s' hr hs ih =>
    have hi := reach_inv hc hr
    have grow : ∀ (e : Event T), s'.hist = s.hist ++ [e] →
        (∀ v inv pos, e = .popped v inv pos → pos < s.deq ∧ v = s.ins[pos]?) →
        ∀ (j : Nat) (v : Option T) (inv pos : Nat), s'.hist[j]? = some (.popped v inv pos) →
        ∃ (i : Nat) (v' : T) (inv' : Nat), i < j ∧ s'.hist[i]? = some (.pushed v' inv' pos) ∧
          v = some v' := by
      intro e he hpop j v inv pos hj
      rw [he] at hj ⊢
      replace hj := snoc_get hj
      rcases hj with hj | ⟨rfl, hj⟩
      · obtain ⟨i, v', inv', h1, h2, h3⟩ := ih j v inv pos hj
        exact ⟨i, v', inv', h1, by rw [List.getElem?_append_left (get_lt h2)]; exact h2, h3⟩
      · obtain ⟨h1, h2⟩ := hpop v inv pos hj.symm
        obtain ⟨v', inv', hm, hv⟩ := pushed_of_lt_deq hc hi h1
        obtain ⟨i, hi'⟩ := List.getElem?_of_mem hm
        exact ⟨i, v', inv', get_lt hi', by rw [List.getElem?_append_left (get_lt hi')]; exact hi',
          by rw [h2, hv]⟩
    cases hs
    case popSt t v inv pos ht =>
      refine grow _ rfl ?_
      intro v' inv' pos' h
      cases h
      have := hi.thr t
      rw [ht] at this
      exact ⟨this.2.1, this.2.2.2.1⟩
    case pushSt => exact grow _ rfl (by intro v inv pos h; cases h)
    case pushFull => exact grow _ rfl (by intro v inv pos h; cases h)
    case popEmpty => exact grow _ rfl (by intro v inv pos h; cases h)
    all_goals exact ih

/-- **C17** Exactly once, in order.  In every reachable state of a queue with any capacity, used
by any number of threads:
1. a pop that returned an element returned the element of a push that had itself returned before;
2. no two pops returned the same push's element, and no two pushes got the same place in the
   order;
3. places respect real time: if one push (pop) returned before another was called, its place is
   earlier;
4. no element is skipped: when the element at some place has been popped, each earlier place has
   been popped too, or a pop holding it is still running. -/
theorem c17_exactly_once_fifo (cap : Nat) (hc : 2 ≤ cap) (s : St T) (h : Reach cap s) :
    (∀ (j : Nat) (v : Option T) (inv pos : Nat), s.hist[j]? = some (.popped v inv pos) →
      ∃ (i : Nat) (v' : T) (inv' : Nat), i < j ∧ s.hist[i]? = some (.pushed v' inv' pos) ∧
        v = some v') ∧
    (∀ (i j : Nat) (v v' : Option T) (inv inv' pos : Nat),
      s.hist[i]? = some (.popped v inv pos) → s.hist[j]? = some (.popped v' inv' pos) → i = j) ∧
    (∀ (i j : Nat) (v v' : T) (inv inv' pos : Nat),
      s.hist[i]? = some (.pushed v inv pos) → s.hist[j]? = some (.pushed v' inv' pos) → i = j) ∧
    (∀ (i j : Nat) (v v' : T) (inv inv' pos pos' : Nat), s.hist[i]? = some (.pushed v inv pos) →
      s.hist[j]? = some (.pushed v' inv' pos') → i < inv' → pos < pos') ∧
    (∀ (i j : Nat) (v v' : Option T) (inv inv' pos pos' : Nat),
      s.hist[i]? = some (.popped v inv pos) → s.hist[j]? = some (.popped v' inv' pos') →
      i < inv' → pos < pos') ∧
    (∀ v inv pos pos', Event.popped v inv pos ∈ s.hist → pos' < pos →
      Popping s pos' ∨ ∃ v' inv', Event.popped v' inv' pos' ∈ s.hist) := by
  have hi := reach_inv hc h
  refine ⟨popped_after_pushed hc h, ?_, ?_, ?_, ?_, ?_⟩
  · intro i j v v' inv inv' pos h1 h2
    exact hi.dpop i j _ _ pos h1 h2 rfl rfl
  · intro i j v v' inv inv' pos h1 h2
    exact hi.dpush i j _ _ pos h1 h2 rfl rfl
  · intro i j v v' inv inv' pos pos' h1 h2 hlt
    exact (hi.ord j _ h2).2.1 pos' rfl i _ pos hlt h1 rfl
  · intro i j v v' inv inv' pos pos' h1 h2 hlt
    exact (hi.ord j _ h2).2.2 pos' rfl i _ pos hlt h1 rfl
  · intro v inv pos pos' hm hlt
    rcases hi.cpop pos' (Nat.lt_trans hlt (hi.ev _ hm).1) with ht | ⟨e, hm', he⟩
    · exact Or.inl (popping_of ht)
    · obtain ⟨v', inv', rfl⟩ := popped_of_pos he
      exact Or.inr ⟨v', inv', hm'⟩

/-- **C17** The user's view of FIFO: if the push of `a` returned before the push of `b` was called,
then the pop that received `b` did not return before the pop that received `a` was called. -/
theorem c17_fifo_real_time (cap : Nat) (hc : 2 ≤ cap) (s : St T) (h : Reach cap s)
    (i j k l : Nat) (a b : T) (va vb : Option T) (ia ib ka kb pa pb : Nat)
    (hi : s.hist[i]? = some (.pushed a ia pa)) (hj : s.hist[j]? = some (.pushed b ib pb))
    (hk : s.hist[k]? = some (.popped va ka pa)) (hl : s.hist[l]? = some (.popped vb kb pb))
    (hab : i < ib) : va = some a ∧ vb = some b ∧ ¬ l < ka := by
  obtain ⟨h1, h2, h3, h4, h5, _⟩ := c17_exactly_once_fifo cap hc s h
  obtain ⟨i', a', ia', _, g1, g2⟩ := h1 k va ka pa hk
  obtain ⟨j', b', ib', _, g3, g4⟩ := h1 l vb kb pb hl
  have e1 := h3 i i' _ _ _ _ _ hi g1
  have e2 := h3 j j' _ _ _ _ _ hj g3
  subst e1 e2
  rw [hi] at g1
  rw [hj] at g3
  cases g1
  cases g3
  refine ⟨g2, g4, ?_⟩
  intro hlt
  have := h4 i j a b ia ib pa pb hi hj hab
  have := h5 l k vb va kb ka pb pa hl hk hlt
  omega

/-! ### Counting -/

theorem nodup_of_distinct {f : Event T → Option Nat} {hist : List (Event T)}
    (h : Distinct f hist) : (hist.filterMap f).Nodup := by
  rw [List.nodup_iff_pairwise_ne, List.pairwise_filterMap, List.pairwise_iff_getElem]
  intro i j hi hj hlt b hb b' hb' heq
  subst heq
  have := h i j _ _ b (List.getElem?_eq_getElem hi) (List.getElem?_eq_getElem hj) hb hb'
  omega

theorem length_le_of_lt {l : List Nat} {n : Nat} (hn : l.Nodup) (h : ∀ p ∈ l, p < n) :
    l.length ≤ n := by
  have := (hn.subperm (l₂ := List.range n) (fun p hp => List.mem_range.2 (h p hp))).length_le
  simpa using this

theorem le_length_of_all {l : List Nat} {n : Nat} (h : ∀ p, p < n → p ∈ l) : n ≤ l.length := by
  have := (List.nodup_range (n := n)).subperm (l₂ := l) (fun p hp => h p (List.mem_range.1 hp))
  simpa using this.length_le

/-- Number of calls to `push` that returned `Ok`. -/
def numPushed (hist : List (Event T)) : Nat := (hist.filterMap Event.pushPos).length

/-- Number of calls to `pop` that returned an element. -/
def numPopped (hist : List (Event T)) : Nat := (hist.filterMap Event.popPos).length

/-- **C17** When no call is running, the successful pushes form a sequence `xs` and the
successful pops have returned exactly a prefix of it, each element once. -/
theorem c17_quiescent (cap : Nat) (hc : 2 ≤ cap) (s : St T) (h : Reach cap s)
    (hq : ∀ t, s.pc t = .idle) :
    ∃ (xs : List T) (k : Nat), k ≤ xs.length ∧ xs.length ≤ k + cap ∧
      numPushed s.hist = xs.length ∧ numPopped s.hist = k ∧
      (∀ p v, (∃ inv, Event.pushed v inv p ∈ s.hist) ↔ xs[p]? = some v) ∧
      (∀ p v, (∃ inv, Event.popped v inv p ∈ s.hist) ↔ p < k ∧ v = xs[p]?) := by
  have hi := reach_inv hc h
  have h1 : ∀ p, p < s.enq → ∃ v inv, Event.pushed v inv p ∈ s.hist := by
    intro p hp
    rcases hi.cpush p hp with ⟨t, ht⟩ | ⟨e, hm, he⟩
    · rw [hq t] at ht; cases ht
    · obtain ⟨v, inv, rfl⟩ := pushed_of_pos he; exact ⟨v, inv, hm⟩
  have h2 : ∀ p, p < s.deq → ∃ v inv, Event.popped v inv p ∈ s.hist := by
    intro p hp
    rcases hi.cpop p hp with ⟨t, ht⟩ | ⟨e, hm, he⟩
    · rw [hq t] at ht; cases ht
    · obtain ⟨v, inv, rfl⟩ := popped_of_pos he; exact ⟨v, inv, hm⟩
  refine ⟨s.ins, s.deq, by rw [hi.len]; exact hi.le, by rw [hi.len]; exact hi.capb, ?_, ?_, ?_, ?_⟩
  · rw [hi.len]
    apply Nat.le_antisymm
    · refine length_le_of_lt (nodup_of_distinct hi.dpush) ?_
      intro p hp
      obtain ⟨e, hm, he⟩ := List.mem_filterMap.1 hp
      obtain ⟨v, inv, rfl⟩ := pushed_of_pos he
      exact (hi.ev _ hm).1
    · refine le_length_of_all ?_
      intro p hp
      obtain ⟨v, inv, hm⟩ := h1 p hp
      exact List.mem_filterMap.2 ⟨_, hm, rfl⟩
  · apply Nat.le_antisymm
    · refine length_le_of_lt (nodup_of_distinct hi.dpop) ?_
      intro p hp
      obtain ⟨e, hm, he⟩ := List.mem_filterMap.1 hp
      obtain ⟨v, inv, rfl⟩ := popped_of_pos he
      exact (hi.ev _ hm).1
    · refine le_length_of_all ?_
      intro p hp
      obtain ⟨v, inv, hm⟩ := h2 p hp
      exact List.mem_filterMap.2 ⟨_, hm, rfl⟩
  · intro p v
    constructor
    · rintro ⟨inv, hm⟩; exact (hi.ev _ hm).2.1
    · intro hv
      have hp := get_lt hv
      rw [hi.len] at hp
      obtain ⟨v', inv, hm⟩ := h1 p hp
      have := (hi.ev _ hm).2.1
      rw [hv] at this
      cases this
      exact ⟨inv, hm⟩
  · intro p v
    constructor
    · rintro ⟨inv, hm⟩; exact ⟨(hi.ev _ hm).1, (hi.ev _ hm).2.1⟩
    · rintro ⟨hp, hv⟩
      obtain ⟨v', inv, hm⟩ := h2 p hp
      have := (hi.ev _ hm).2.1
      rw [← hv] at this
      subst this
      exact ⟨inv, hm⟩

/-! ## C18 -/

/-- **C18** At every moment at most `cap` more pushes have succeeded than pops have started to
take an element: if no pop is running, successful pushes exceed successful pops by at most the
capacity; pops never outnumber pushes. -/
theorem c18_never_over_capacity (cap : Nat) (hc : 2 ≤ cap) (s : St T) (h : Reach cap s)
    (hq : ∀ p, ¬ Popping s p) :
    numPopped s.hist ≤ numPushed s.hist ∧ numPushed s.hist ≤ numPopped s.hist + cap := by
  have hi := reach_inv hc h
  have popped : ∀ p, p < s.deq → p ∈ s.hist.filterMap Event.popPos := by
    intro p hp
    rcases hi.cpop p hp with ht | ⟨e, hm, he⟩
    · exact absurd (popping_of ht) (hq p)
    · exact List.mem_filterMap.2 ⟨_, hm, he⟩
  have a : numPushed s.hist ≤ s.enq := by
    refine length_le_of_lt (nodup_of_distinct hi.dpush) ?_
    intro p hp
    obtain ⟨e, hm, he⟩ := List.mem_filterMap.1 hp
    obtain ⟨v, inv, rfl⟩ := pushed_of_pos he
    exact (hi.ev _ hm).1
  have b : s.deq ≤ numPopped s.hist := le_length_of_all popped
  have c : numPopped s.hist ≤ s.deq := by
    refine length_le_of_lt (nodup_of_distinct hi.dpop) ?_
    intro p hp
    obtain ⟨e, hm, he⟩ := List.mem_filterMap.1 hp
    obtain ⟨v, inv, rfl⟩ := popped_of_pos he
    exact (hi.ev _ hm).1
  have d : s.deq ≤ numPushed s.hist := by
    refine le_length_of_all ?_
    intro p hp
    obtain ⟨v, inv, hm, _⟩ := pushed_of_lt_deq hc hi hp
    exact List.mem_filterMap.2 ⟨_, hm, rfl⟩
  have := hi.capb
  omega

theorem hist_ne {α : Type} {l : List α} {a : α} : l ≠ l ++ [a] := by
  intro h
  have := congrArg List.length h
  simp at this

/-- **C18** `push` reports "full" only at a moment when all `cap` places are claimed (the number
of claimed pushes exceeds the number of claimed pops by exactly the capacity), or when a pop that
is still running holds one of them; and the rejected push leaves no trace: apart from the caller
having returned, the queue is unchanged.  Missing from the full property: the second alternative,
which `c18_full_while_empty` shows to be real. -/
theorem c18_full_only_if_partial (cap : Nat) (hc : 2 ≤ cap) (s s' : St T) (h : Reach cap s)
    (v : T) (inv : Nat) (hs : Step cap s s') (he : s'.hist = s.hist ++ [.full v inv]) :
    (s.enq = s.deq + cap ∨ ∃ p, Popping s p ∧ s.enq = p + cap) ∧
      s'.seq = s.seq ∧ s'.val = s.val ∧ s'.enq = s.enq ∧ s'.deq = s.deq ∧ s'.ins = s.ins := by
  have hi := reach_inv hc h
  cases hs <;> first | exact absurd he hist_ne | skip
  case pushFull t v' inv' pos ht hd =>
    refine ⟨?_, rfl, rfl, rfl, rfl, rfl⟩
    have hth := hi.thr t
    rw [ht] at hth
    have hcapb := hi.capb
    have hle := hth.2
    rcases hi.slot (pos % cap) (Nat.mod_lt _ (by omega)) with
      ⟨p, h1, h2, h3, _⟩ | ⟨p, h1, h2, h3, h4, _, h6⟩
    · have := mod_gap h1 (by omega)
      left; omega
    · have := mod_gap h1 (by omega)
      rcases Nat.lt_or_ge p s.deq with hlt | hge
      · exact Or.inr ⟨p, popping_of (h6 hlt), by omega⟩
      · left; omega
  all_goals (have := List.append_cancel_left he; simp at this)

/-- **C18** `pop` reports "empty" only at a moment when every claimed push has been claimed by a
pop, or when the next element's push is still running; and it changes nothing. -/
theorem c18_empty_only_if_partial (cap : Nat) (hc : 2 ≤ cap) (s s' : St T) (h : Reach cap s)
    (inv : Nat) (hs : Step cap s s') (he : s'.hist = s.hist ++ [.empty inv]) :
    (s.enq = s.deq ∨ Pushing s s.deq) ∧
      s'.seq = s.seq ∧ s'.val = s.val ∧ s'.enq = s.enq ∧ s'.deq = s.deq ∧ s'.ins = s.ins := by
  have hi := reach_inv hc h
  cases hs <;> first | exact absurd he hist_ne | skip
  case popEmpty t inv' pos ht hd =>
    refine ⟨?_, rfl, rfl, rfl, rfl, rfl⟩
    have hth := hi.thr t
    rw [ht] at hth
    have hle := hi.le
    have hle' := hth.2
    rcases hi.slot (pos % cap) (Nat.mod_lt _ (by omega)) with
      ⟨p, h1, h2, h3, _, _, h6⟩ | ⟨p, h1, h2, h3, h4, _, _⟩
    · have hp : p = s.deq := by omega
      rcases Nat.lt_or_ge p s.enq with hlt | hge
      · right; rw [← hp]; exact pushing_of (h6 hlt)
      · left; omega
    · have := mod_gap h1 (by omega)
      left; omega
  all_goals (have := List.append_cancel_left he; simp at this)

/-- **C18** With no other call running, "full" means `cap` elements are in the queue and "empty"
means none is: a push by thread `t`, all other threads idle, is rejected only if the successful
pushes exceed the successful pops by exactly the capacity. -/
theorem c18_full_exact_when_alone (cap : Nat) (hc : 2 ≤ cap) (s s' : St T) (h : Reach cap s)
    (t : Nat) (ht : ∀ u, u ≠ t → s.pc u = .idle) (v : T) (inv : Nat) (hs : Step cap s s')
    (he : s'.hist = s.hist ++ [.full v inv]) :
    numPushed s.hist = numPopped s.hist + cap := by
  have hi := reach_inv hc h
  -- the stepping thread is `t` itself and holds no position
  have hclaim : (∀ u, (s.pc u).pushPos = none) ∧ ∀ u, (s.pc u).popPos = none := by
    cases hs <;> first | exact absurd he hist_ne | skip
    case pushFull t' v' inv' pos ht' hd =>
      constructor <;> intro u <;> by_cases hu : u = t'
      · rw [hu, ht']; rfl
      · rw [ht u (by rintro rfl; rw [ht t' (Ne.symm hu)] at ht'; cases ht')]; rfl
      · rw [hu, ht']; rfl
      · rw [ht u (by rintro rfl; rw [ht t' (Ne.symm hu)] at ht'; cases ht')]; rfl
    all_goals (have := List.append_cancel_left he; simp at this)
  have hq : ∀ p, ¬ Popping s p := by
    rintro p ⟨u, inv, hu | ⟨_, hu⟩⟩ <;> have := hclaim.2 u <;> rw [hu] at this <;> cases this
  have hfull := (c18_full_only_if_partial cap hc s s' h v inv hs he).1
  have hfull : s.enq = s.deq + cap := by
    rcases hfull with h | ⟨p, hp, _⟩
    · exact h
    · exact absurd hp (hq p)
  have a : s.enq ≤ numPushed s.hist := by
    refine le_length_of_all ?_
    intro p hp
    rcases hi.cpush p hp with ⟨u, hu⟩ | ⟨e, hm, he⟩
    · rw [hclaim.1 u] at hu; cases hu
    · exact List.mem_filterMap.2 ⟨_, hm, he⟩
  have c : numPopped s.hist ≤ s.deq := by
    refine length_le_of_lt (nodup_of_distinct hi.dpop) ?_
    intro p hp
    obtain ⟨e, hm, he⟩ := List.mem_filterMap.1 hp
    obtain ⟨v, inv, rfl⟩ := popped_of_pos he
    exact (hi.ev _ hm).1
  have := (c18_never_over_capacity cap hc s h hq).2
  omega

/-- The schedule of the finding: fill a queue of capacity 2, stall a pop (thread 1) after it has
claimed the first element, let thread 2 pop the second one, then push. -/
def stallSched : List (Nat × Option Nat) :=
  call 0 (some 10) ++ call 0 (some 20) ++ List.replicate 4 (1, none) ++ call 2 none ++
    List.replicate 3 (3, some 30)

/-- **C18 is false of the code in its strict form**: a push is rejected as "full" although both
elements ever pushed have already been claimed by pops, one of which has not finished. -/
theorem c18_full_while_empty :
    ∃ s : St Nat, Reach 2 s ∧ s.hist.getLast? = some (.full 30 3) ∧ s.enq = 2 ∧ s.deq = 2 :=
  ⟨_, reach_run 2 stallSched _ Reach.init, rfl, rfl, rfl⟩

/-- Non-vacuity: in a reachable state two threads have each pushed and one element has been
popped, in order, with no call running. -/
example : ∃ s : St Nat, Reach 2 s ∧ (∀ t, s.pc t = .idle) ∧
    s.hist = [.pushed 10 0 0, .pushed 20 1 1, .popped (some 10) 2 0] := by
  refine ⟨_, reach_run 2 (call 0 (some 10) ++ call 1 (some 20) ++ call 2 none) _ Reach.init,
    ?_, rfl⟩
  intro t
  rcases Nat.lt_or_ge t 3 with h | h
  · match t, h with
    | 0, _ => rfl
    | 1, _ => rfl
    | 2, _ => rfl
  · simp [call, exec, St.init, upd, List.replicate]

end NRK.Sync.Mpmc
