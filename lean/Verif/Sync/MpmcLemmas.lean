import Verif.Sync.MpmcModel

/-!
# Invariant of the bounded queue
-/

namespace NRK.Sync.Mpmc

variable {T : Type}

/-! ## Arithmetic -/

theorem mod_gap {cap a b : Nat} (h : a % cap = b % cap) (hlt : a < b) : a + cap ≤ b := by
  have h1 : (b - a) % cap = 0 := Nat.sub_mod_eq_zero_of_mod_eq h.symm
  have h2 : cap ∣ b - a := Nat.dvd_of_mod_eq_zero h1
  have := Nat.le_of_dvd (by omega) h2
  omega

theorem mod_succ_ne {cap a : Nat} (hc : 2 ≤ cap) : (a + 1) % cap ≠ a % cap := by
  intro h
  have := mod_gap h.symm (Nat.lt_succ_self a)
  omega

/-! ## Positions in progress -/

/-- Position claimed by a push that has not finished. -/
def Pc.pushPos : Pc T → Option Nat
  | .pushWr _ _ pos => some pos
  | .pushSt _ _ pos => some pos
  | _ => none

/-- Position claimed by a pop that has not finished. -/
def Pc.popPos : Pc T → Option Nat
  | .popTake _ pos => some pos
  | .popSt _ _ pos => some pos
  | _ => none

/-- Position of a completed push. -/
def Event.pushPos : Event T → Option Nat
  | .pushed _ _ pos => some pos
  | _ => none

/-- Position of a completed pop. -/
def Event.popPos : Event T → Option Nat
  | .popped _ _ pos => some pos
  | _ => none

/-- Number of operations completed when the operation was called. -/
def Event.inv : Event T → Nat
  | .pushed _ inv _ => inv
  | .full _ inv => inv
  | .popped _ inv _ => inv
  | .empty inv => inv

/-- Pushes (pops) completed before `inv` have positions below `pos`. -/
def Before (f : Event T → Option Nat) (hist : List (Event T)) (inv pos : Nat) : Prop :=
  ∀ (j : Nat) (e : Event T) (p : Nat), j < inv → hist[j]? = some e → f e = some p → p < pos

def SlotOk (cap : Nat) (s : St T) (i : Nat) : Prop :=
  (∃ p, p % cap = i ∧ s.seq i = p ∧ s.deq ≤ p ∧ p < s.deq + cap ∧
    (s.enq ≤ p → s.val i = none) ∧ (p < s.enq → ∃ t, (s.pc t).pushPos = some p)) ∨
  (∃ p, p % cap = i ∧ s.seq i = p + 1 ∧ p < s.enq ∧ s.enq ≤ p + cap ∧
    (s.deq ≤ p → s.val i = s.ins[p]?) ∧ (p < s.deq → ∃ t, (s.pc t).popPos = some p))

def ThrOk (cap : Nat) (s : St T) : Pc T → Prop
  | .idle => True
  | .pushLd _ inv => inv ≤ s.hist.length
  | .pushSeq _ inv pos => inv ≤ s.hist.length ∧ pos ≤ s.enq
  | .pushCas _ inv pos => inv ≤ s.hist.length ∧ pos ≤ s.seq (pos % cap)
  | .pushWr v inv pos => inv ≤ s.hist.length ∧ pos < s.enq ∧ s.seq (pos % cap) = pos ∧
      s.ins[pos]? = some v ∧ s.val (pos % cap) = none ∧ Before Event.pushPos s.hist inv pos
  | .pushSt v inv pos => inv ≤ s.hist.length ∧ pos < s.enq ∧ s.seq (pos % cap) = pos ∧
      s.ins[pos]? = some v ∧ s.val (pos % cap) = some v ∧ Before Event.pushPos s.hist inv pos
  | .popLd inv => inv ≤ s.hist.length
  | .popSeq inv pos => inv ≤ s.hist.length ∧ pos ≤ s.deq
  | .popCas inv pos => inv ≤ s.hist.length ∧ pos + 1 ≤ s.seq (pos % cap)
  | .popTake inv pos => inv ≤ s.hist.length ∧ pos < s.deq ∧ s.seq (pos % cap) = pos + 1 ∧
      s.val (pos % cap) = s.ins[pos]? ∧ Before Event.popPos s.hist inv pos
  | .popSt v inv pos => inv ≤ s.hist.length ∧ pos < s.deq ∧ s.seq (pos % cap) = pos + 1 ∧
      v = s.ins[pos]? ∧ s.val (pos % cap) = none ∧ Before Event.popPos s.hist inv pos

def EvOk (s : St T) : Event T → Prop
  | .pushed v _ pos => pos < s.enq ∧ s.ins[pos]? = some v ∧ ∀ t, (s.pc t).pushPos ≠ some pos
  | .popped v _ pos => pos < s.deq ∧ v = s.ins[pos]? ∧ ∀ t, (s.pc t).popPos ≠ some pos
  | _ => True

/-- Real-time order of completed operations. -/
def OrdOk (hist : List (Event T)) : Prop :=
  ∀ (j : Nat) (e : Event T), hist[j]? = some e → e.inv ≤ j ∧
    (∀ p, e.pushPos = some p → Before Event.pushPos hist e.inv p) ∧
    (∀ p, e.popPos = some p → Before Event.popPos hist e.inv p)

/-- No position occurs twice. -/
def Distinct (f : Event T → Option Nat) (hist : List (Event T)) : Prop :=
  ∀ (i j : Nat) (e e' : Event T) (p : Nat), hist[i]? = some e → hist[j]? = some e' →
    f e = some p → f e' = some p → i = j

structure QInv (cap : Nat) (s : St T) : Prop where
  le : s.deq ≤ s.enq
  capb : s.enq ≤ s.deq + cap
  len : s.ins.length = s.enq
  slot : ∀ i, i < cap → SlotOk cap s i
  thr : ∀ t, ThrOk cap s (s.pc t)
  upush : ∀ t t' p, (s.pc t).pushPos = some p → (s.pc t').pushPos = some p → t = t'
  upop : ∀ t t' p, (s.pc t).popPos = some p → (s.pc t').popPos = some p → t = t'
  ev : ∀ e, e ∈ s.hist → EvOk s e
  ord : OrdOk s.hist
  dpush : Distinct Event.pushPos s.hist
  dpop : Distinct Event.popPos s.hist
  cpush : ∀ p, p < s.enq → (∃ t, (s.pc t).pushPos = some p) ∨ ∃ e ∈ s.hist, e.pushPos = some p
  cpop : ∀ p, p < s.deq → (∃ t, (s.pc t).popPos = some p) ∨ ∃ e ∈ s.hist, e.popPos = some p

theorem inv_init (cap : Nat) (hc : 2 ≤ cap) : QInv cap (St.init : St T) := by
  refine ⟨Nat.le_refl _, Nat.zero_le _, rfl, ?_, fun _ => trivial, by simp [St.init, Pc.pushPos],
    by simp [St.init, Pc.popPos], by simp [St.init], ?_, ?_, ?_, by simp [St.init], by simp [St.init]⟩
  · intro i hi
    left
    exact ⟨i, Nat.mod_eq_of_lt hi, rfl, Nat.zero_le _, by simpa [St.init] using hi, fun _ => rfl,
      fun h => absurd h (by simp [St.init])⟩
  · intro j e h; simp [St.init] at h
  · intro i j e e' p h; simp [St.init] at h
  · intro i j e e' p h; simp [St.init] at h

/-! ## List facts -/

theorem snoc_get {α : Type} {l : List α} {a b : α} {i : Nat} (h : (l ++ [a])[i]? = some b) :
    l[i]? = some b ∨ (i = l.length ∧ b = a) := by
  rw [List.getElem?_append] at h
  split at h
  · exact Or.inl h
  · right
    rename_i hlt
    cases hk : i - l.length with
    | zero => rw [hk] at h; simp at h; exact ⟨by omega, h.symm⟩
    | succ k => rw [hk] at h; simp at h

theorem get_lt {α : Type} {l : List α} {a : α} {i : Nat} (h : l[i]? = some a) : i < l.length := by
  rcases Nat.lt_or_ge i l.length with hlt | hge
  · exact hlt
  · rw [List.getElem?_eq_none hge] at h; cases h

theorem Before.snoc {f : Event T → Option Nat} {hist : List (Event T)} {inv pos : Nat}
    (h : Before f hist inv pos) (hle : inv ≤ hist.length) (e : Event T) :
    Before f (hist ++ [e]) inv pos := by
  intro j e' p hj he hp
  rw [List.getElem?_append_left (by omega)] at he
  exact h j e' p hj he hp

theorem OrdOk.snoc {hist : List (Event T)} (h : OrdOk hist) (e : Event T)
    (hle : e.inv ≤ hist.length)
    (h1 : ∀ p, e.pushPos = some p → Before Event.pushPos hist e.inv p)
    (h2 : ∀ p, e.popPos = some p → Before Event.popPos hist e.inv p) : OrdOk (hist ++ [e]) := by
  intro j e' he
  rcases snoc_get he with he | ⟨rfl, rfl⟩
  · obtain ⟨a, b, c⟩ := h j e' he
    have := get_lt he
    exact ⟨a, fun p hp => (b p hp).snoc (by omega) e, fun p hp => (c p hp).snoc (by omega) e⟩
  · exact ⟨hle, fun p hp => (h1 p hp).snoc hle _, fun p hp => (h2 p hp).snoc hle _⟩

theorem Distinct.snoc {f : Event T → Option Nat} {hist : List (Event T)} (h : Distinct f hist)
    (e : Event T) (hn : ∀ p, f e = some p → ∀ e' ∈ hist, f e' ≠ some p) :
    Distinct f (hist ++ [e]) := by
  intro i j e1 e2 p h1 h2 hp1 hp2
  replace h1 := snoc_get h1
  replace h2 := snoc_get h2
  rcases h1 with h1 | ⟨rfl, rfl⟩ <;> rcases h2 with h2 | ⟨rfl, rfl⟩
  · exact h i j e1 e2 p h1 h2 hp1 hp2
  · exact absurd hp1 (hn p hp2 e1 (List.mem_of_getElem? h1))
  · exact absurd hp2 (hn p hp1 e2 (List.mem_of_getElem? h2))
  · rfl

/-! ## Steps that claim nothing and give nothing back -/

theorem ThrOk.hist {cap : Nat} {s : St T} {hist : List (Event T)} {q : Nat → Pc T} (p : Pc T)
    (h : ThrOk cap s p) (e? : List (Event T)) (hh : hist = s.hist ++ e?) (hl : e?.length ≤ 1) :
    ThrOk cap { s with pc := q, hist := hist } p := by
  subst hh
  have hb : ∀ f inv pos, inv ≤ s.hist.length → Before f s.hist inv pos →
      Before f (s.hist ++ e?) inv pos := by
    intro f inv pos hle hb
    match e?, hl with
    | [], _ => simpa using hb
    | [e], _ => exact hb.snoc hle e
  have hlen : ∀ inv, inv ≤ s.hist.length → inv ≤ (s.hist ++ e?).length := by
    intro inv h; simp only [List.length_append]; omega
  cases p with
  | idle => trivial
  | pushLd v inv => exact hlen _ h
  | pushSeq v inv pos => exact ⟨hlen _ h.1, h.2⟩
  | pushCas v inv pos => exact ⟨hlen _ h.1, h.2⟩
  | pushWr v inv pos =>
    obtain ⟨a, b, c, d, e, g⟩ := h
    exact ⟨hlen _ a, b, c, d, e, hb _ _ _ a g⟩
  | pushSt v inv pos =>
    obtain ⟨a, b, c, d, e, g⟩ := h
    exact ⟨hlen _ a, b, c, d, e, hb _ _ _ a g⟩
  | popLd inv => exact hlen _ h
  | popSeq inv pos => exact ⟨hlen _ h.1, h.2⟩
  | popCas inv pos => exact ⟨hlen _ h.1, h.2⟩
  | popTake inv pos =>
    obtain ⟨a, b, c, d, g⟩ := h
    exact ⟨hlen _ a, b, c, d, hb _ _ _ a g⟩
  | popSt v inv pos =>
    obtain ⟨a, b, c, d, e, g⟩ := h
    exact ⟨hlen _ a, b, c, d, e, hb _ _ _ a g⟩

theorem inv_local {cap : Nat} {s : St T} (h : QInv cap s) (t : Nat) (p : Pc T)
    (h1 : (s.pc t).pushPos = none) (h2 : (s.pc t).popPos = none)
    (h3 : p.pushPos = none) (h4 : p.popPos = none) (hok : ThrOk cap s p)
    (e? : List (Event T)) (hl : e?.length ≤ 1)
    (he : ∀ e ∈ e?, e.pushPos = none ∧ e.popPos = none ∧ e.inv ≤ s.hist.length) :
    QInv cap { s with pc := upd s.pc t p, hist := s.hist ++ e? } := by
  have pp : ∀ u, (upd s.pc t p u).pushPos = (s.pc u).pushPos := by
    intro u; rw [upd_apply]; split
    · rename_i q; subst q; rw [h1, h3]
    · rfl
  have qq : ∀ u, (upd s.pc t p u).popPos = (s.pc u).popPos := by
    intro u; rw [upd_apply]; split
    · rename_i q; subst q; rw [h2, h4]
    · rfl
  refine ⟨h.le, h.capb, h.len, ?_, ?_, ?_, ?_, ?_, ?_, ?_, ?_, ?_, ?_⟩
  · intro i hi
    have := h.slot i hi
    simp only [SlotOk, pp, qq]
    exact this
  · intro u
    refine ThrOk.hist _ ?_ e? rfl hl
    show ThrOk cap s (upd s.pc t p u)
    rw [upd_apply]; split
    · exact hok
    · exact h.thr u
  · intro u u' x; simp only [pp]; exact h.upush u u' x
  · intro u u' x; simp only [qq]; exact h.upop u u' x
  · intro e hm
    rcases List.mem_append.1 hm with hm | hm
    · have := h.ev e hm
      cases e with
      | pushed v inv pos => exact ⟨this.1, this.2.1, fun u => by simp only [pp]; exact this.2.2 u⟩
      | popped v inv pos => exact ⟨this.1, this.2.1, fun u => by simp only [qq]; exact this.2.2 u⟩
      | full v inv => trivial
      | empty inv => trivial
    · have := he e hm
      cases e with
      | pushed v inv pos => cases this.1
      | popped v inv pos => cases this.2.1
      | full v inv => trivial
      | empty inv => trivial
  · match e?, hl with
    | [], _ => simpa using h.ord
    | [e], _ =>
      obtain ⟨a, b, c⟩ := he e (by simp)
      exact h.ord.snoc e c (fun p hp => by rw [a] at hp; cases hp) (fun p hp => by rw [b] at hp; cases hp)
  · match e?, hl with
    | [], _ => simpa using h.dpush
    | [e], _ =>
      obtain ⟨a, b, c⟩ := he e (by simp)
      exact h.dpush.snoc e (fun p hp => by rw [a] at hp; cases hp)
  · match e?, hl with
    | [], _ => simpa using h.dpop
    | [e], _ =>
      obtain ⟨a, b, c⟩ := he e (by simp)
      exact h.dpop.snoc e (fun p hp => by rw [b] at hp; cases hp)
  · intro x hx
    rcases h.cpush x hx with ⟨u, hu⟩ | ⟨e, hm, hp⟩
    · exact Or.inl ⟨u, by simp only [pp]; exact hu⟩
    · exact Or.inr ⟨e, by simp [hm], hp⟩
  · intro x hx
    rcases h.cpop x hx with ⟨u, hu⟩ | ⟨e, hm, hp⟩
    · exact Or.inl ⟨u, by simp only [qq]; exact hu⟩
    · exact Or.inr ⟨e, by simp [hm], hp⟩

theorem inv_local0 {cap : Nat} {s : St T} (h : QInv cap s) (t : Nat) (p : Pc T)
    (h1 : (s.pc t).pushPos = none) (h2 : (s.pc t).popPos = none)
    (h3 : p.pushPos = none) (h4 : p.popPos = none) (hok : ThrOk cap s p) :
    QInv cap { s with pc := upd s.pc t p } := by
  have := inv_local h t p h1 h2 h3 h4 hok [] (by simp) (by simp)
  simpa using this

/-! ## Exclusive slots -/

theorem push_owner {cap : Nat} {s : St T} (h : QInv cap s) {t p : Nat}
    (ht : (s.pc t).pushPos = some p) : p < s.enq ∧ s.seq (p % cap) = p := by
  have := h.thr t
  cases hp : s.pc t <;> rw [hp] at ht this <;> simp only [Pc.pushPos, Option.some.injEq] at ht <;>
    first
    | (subst ht; exact ⟨this.2.1, this.2.2.1⟩)
    | cases ht

theorem pop_owner {cap : Nat} {s : St T} (h : QInv cap s) {t p : Nat}
    (ht : (s.pc t).popPos = some p) : p < s.deq ∧ s.seq (p % cap) = p + 1 := by
  have := h.thr t
  cases hp : s.pc t <;> rw [hp] at ht this <;> simp only [Pc.popPos, Option.some.injEq] at ht <;>
    first
    | (subst ht; exact ⟨this.2.1, this.2.2.1⟩)
    | cases ht

/-- Thread `u`'s claims after a step of thread `t` that owns slot `i` (sequence number and value
of slot `i` may change, everything else stays, except that the history may grow). -/
theorem thr_other {cap : Nat} {s s' : St T} (h : QInv cap s) {u : Nat} {i : Nat}
    (hseq : ∀ j, j ≠ i → s'.seq j = s.seq j) (hmono : s.seq i ≤ s'.seq i)
    (hval : ∀ j, j ≠ i → s'.val j = s.val j) (henq : s'.enq = s.enq) (hdeq : s'.deq = s.deq)
    (hins : s'.ins = s.ins) (hh : s'.hist = s.hist ∨ ∃ e, s'.hist = s.hist ++ [e])
    (hpush : ∀ p, (s.pc u).pushPos = some p → p % cap ≠ i)
    (hpop : ∀ p, (s.pc u).popPos = some p → p % cap ≠ i) : ThrOk cap s' (s.pc u) := by
  have hb : ∀ f inv pos, inv ≤ s.hist.length → Before f s.hist inv pos →
      Before f s'.hist inv pos := by
    intro f inv pos hle hb
    rcases hh with hh | ⟨e, hh⟩ <;> rw [hh]
    · exact hb
    · exact hb.snoc hle e
  have hlen : ∀ inv, inv ≤ s.hist.length → inv ≤ s'.hist.length := by
    intro inv h
    rcases hh with hh | ⟨e, hh⟩ <;> rw [hh]
    · exact h
    · simp only [List.length_append]; omega
  have hmono' : ∀ j, s.seq j ≤ s'.seq j := by
    intro j
    by_cases hj : j = i
    · subst hj; exact hmono
    · rw [hseq j hj]; exact Nat.le_refl _
  have := h.thr u
  cases hp : s.pc u with
  | idle => trivial
  | pushLd v inv => rw [hp] at this; exact hlen _ this
  | pushSeq v inv pos => rw [hp] at this; exact ⟨hlen _ this.1, by rw [henq]; exact this.2⟩
  | pushCas v inv pos =>
    rw [hp] at this; exact ⟨hlen _ this.1, Nat.le_trans this.2 (hmono' _)⟩
  | pushWr v inv pos =>
    rw [hp] at this
    obtain ⟨a, b, c, d, e, g⟩ := this
    have hne := hpush pos (by rw [hp]; rfl)
    exact ⟨hlen _ a, by rw [henq]; exact b, by rw [hseq _ hne]; exact c, by rw [hins]; exact d,
      by rw [hval _ hne]; exact e, hb _ _ _ a g⟩
  | pushSt v inv pos =>
    rw [hp] at this
    obtain ⟨a, b, c, d, e, g⟩ := this
    have hne := hpush pos (by rw [hp]; rfl)
    exact ⟨hlen _ a, by rw [henq]; exact b, by rw [hseq _ hne]; exact c, by rw [hins]; exact d,
      by rw [hval _ hne]; exact e, hb _ _ _ a g⟩
  | popLd inv => rw [hp] at this; exact hlen _ this
  | popSeq inv pos => rw [hp] at this; exact ⟨hlen _ this.1, by rw [hdeq]; exact this.2⟩
  | popCas inv pos =>
    rw [hp] at this; exact ⟨hlen _ this.1, Nat.le_trans this.2 (hmono' _)⟩
  | popTake inv pos =>
    rw [hp] at this
    obtain ⟨a, b, c, d, g⟩ := this
    have hne := hpop pos (by rw [hp]; rfl)
    exact ⟨hlen _ a, by rw [hdeq]; exact b, by rw [hseq _ hne]; exact c,
      by rw [hval _ hne, hins]; exact d, hb _ _ _ a g⟩
  | popSt v inv pos =>
    rw [hp] at this
    obtain ⟨a, b, c, d, e, g⟩ := this
    have hne := hpop pos (by rw [hp]; rfl)
    exact ⟨hlen _ a, by rw [hdeq]; exact b, by rw [hseq _ hne]; exact c, by rw [hins]; exact d,
      by rw [hval _ hne]; exact e, hb _ _ _ a g⟩

/-- Slots other than those of the push in progress are not touched by other threads. -/
theorem push_excl {cap : Nat} (hc : 2 ≤ cap) {s : St T} (h : QInv cap s) {t p : Nat}
    (ht : (s.pc t).pushPos = some p) {u : Nat} (hu : u ≠ t) :
    (∀ q, (s.pc u).pushPos = some q → q % cap ≠ p % cap) ∧
    (∀ q, (s.pc u).popPos = some q → q % cap ≠ p % cap) := by
  have o := push_owner h ht
  constructor
  · intro q hq heq
    have o' := push_owner h hq
    rw [heq, o.2] at o'
    exact hu (h.upush u t p (by rw [hq, ← o'.2]) ht)
  · intro q hq heq
    have o' := pop_owner h hq
    rw [heq, o.2] at o'
    rw [o'.2] at heq
    exact mod_succ_ne hc heq.symm

theorem pop_excl {cap : Nat} (hc : 2 ≤ cap) {s : St T} (h : QInv cap s) {t p : Nat}
    (ht : (s.pc t).popPos = some p) {u : Nat} (hu : u ≠ t) :
    (∀ q, (s.pc u).pushPos = some q → q % cap ≠ p % cap) ∧
    (∀ q, (s.pc u).popPos = some q → q % cap ≠ p % cap) := by
  have o := pop_owner h ht
  constructor
  · intro q hq heq
    have o' := push_owner h hq
    rw [heq, o.2] at o'
    rw [← o'.2] at heq
    exact mod_succ_ne hc heq
  · intro q hq heq
    have o' := pop_owner h hq
    rw [heq, o.2] at o'
    have : p = q := by omega
    exact hu (h.upop u t p (by rw [hq, this]) ht)

/-! ## Phases of a slot -/

/-- If the next position to be claimed by a push finds its slot ready, the slot is free. -/
theorem free_at_enq {cap : Nat} (hc : 2 ≤ cap) {s : St T} (h : QInv cap s)
    (hs : s.enq ≤ s.seq (s.enq % cap)) :
    s.seq (s.enq % cap) = s.enq ∧ s.enq < s.deq + cap ∧ s.val (s.enq % cap) = none := by
  rcases h.slot (s.enq % cap) (Nat.mod_lt _ (by omega)) with
    ⟨p, h1, h2, h3, h4, h5, h6⟩ | ⟨p, h1, h2, h3, h4, h5, h6⟩
  · have : p = s.enq := by
      rcases Nat.lt_trichotomy p s.enq with hlt | heq | hgt
      · omega
      · exact heq
      · have := mod_gap h1.symm hgt; have := h.le; omega
    subst this
    exact ⟨h2, h4, h5 (Nat.le_refl _)⟩
  · have := mod_gap h1 h3
    omega

/-- If the next position to be claimed by a pop finds its slot ready, the slot is full. -/
theorem full_at_deq {cap : Nat} (hc : 2 ≤ cap) {s : St T} (h : QInv cap s)
    (hs : s.deq + 1 ≤ s.seq (s.deq % cap)) :
    s.seq (s.deq % cap) = s.deq + 1 ∧ s.deq < s.enq ∧ s.val (s.deq % cap) = s.ins[s.deq]? := by
  rcases h.slot (s.deq % cap) (Nat.mod_lt _ (by omega)) with
    ⟨p, h1, h2, h3, h4, h5, h6⟩ | ⟨p, h1, h2, h3, h4, h5, h6⟩
  · have hgt : s.deq < p := by omega
    have := mod_gap h1.symm hgt
    omega
  · have : p = s.deq := by
      rcases Nat.lt_trichotomy p s.deq with hlt | heq | hgt
      · omega
      · exact heq
      · have := mod_gap h1.symm hgt; have := h.capb; omega
    subst this
    exact ⟨h2, h3, h5 (Nat.le_refl _)⟩

/-! ## The steps that claim or give back a position -/

theorem inv_pushCasOk {cap : Nat} (hc : 2 ≤ cap) {s : St T} (h : QInv cap s) (t : Nat) (v : T)
    (inv pos : Nat) (ht : s.pc t = .pushCas v inv pos) (he : s.enq = pos) :
    QInv cap { s with
      enq := pos + 1, pc := upd s.pc t (.pushWr v inv pos), ins := s.ins ++ [v] } := by
  subst he
  have hth := h.thr t
  rw [ht] at hth
  obtain ⟨f1, f2, f3⟩ := free_at_enq hc h hth.2
  have hle := h.le
  have hlen := h.len
  have pp : ∀ u p, (upd s.pc t (.pushWr v inv s.enq) u).pushPos = some p →
      (u = t ∧ p = s.enq) ∨ (u ≠ t ∧ (s.pc u).pushPos = some p) := by
    intro u p hu
    rw [upd_apply] at hu
    split at hu
    · rename_i q; left; simp only [Pc.pushPos, Option.some.injEq] at hu; exact ⟨q, hu.symm⟩
    · rename_i q; exact Or.inr ⟨q, hu⟩
  have qq : ∀ u, (upd s.pc t (.pushWr v inv s.enq) u).popPos = (s.pc u).popPos := by
    intro u; rw [upd_apply]; split
    · rename_i q; subst q; rw [ht]; rfl
    · rfl
  have keep : ∀ u p, (s.pc u).pushPos = some p →
      (upd s.pc t (.pushWr v inv s.enq) u).pushPos = some p := by
    intro u p hu
    rw [upd_apply, if_neg]
    · exact hu
    · rintro rfl; rw [ht] at hu; cases hu
  have insget : ∀ p, p < s.enq → (s.ins ++ [v])[p]? = s.ins[p]? := by
    intro p hp; exact List.getElem?_append_left (by omega)
  have insnew : (s.ins ++ [v])[s.enq]? = some v := by
    rw [← hlen]; simp
  refine ⟨by simp only; omega, by simp only; omega, by simp [hlen], ?_, ?_, ?_, ?_, ?_, h.ord,
    h.dpush, h.dpop, ?_, ?_⟩
  · intro i hi
    rcases h.slot i hi with ⟨p, h1, h2, h3, h4, h5, h6⟩ | ⟨p, h1, h2, h3, h4, h5, h6⟩
    · left
      refine ⟨p, h1, h2, h3, h4, fun hp => h5 (by simp only at hp; omega), ?_⟩
      intro hp
      simp only at hp
      rcases Nat.lt_or_ge p s.enq with hlt | hge
      · obtain ⟨u, hu⟩ := h6 hlt
        exact ⟨u, keep u p hu⟩
      · have : p = s.enq := by omega
        subst this
        exact ⟨t, by simp [Pc.pushPos]⟩
    · right
      refine ⟨p, h1, h2, by simp only; omega, ?_, ?_, ?_⟩
      · simp only
        rcases Nat.lt_or_ge s.enq (p + cap) with hlt | hge
        · omega
        · have hpe : s.enq = p + cap := by omega
          have : s.enq % cap = i := by rw [hpe, Nat.add_mod_right]; exact h1
          rw [this, h2] at f1
          omega
      · intro hd
        simp only
        rw [insget p h3]
        exact h5 hd
      · intro hd
        obtain ⟨u, hu⟩ := h6 hd
        exact ⟨u, by simp only [qq]; exact hu⟩
  · intro u
    show ThrOk cap _ (upd s.pc t _ u)
    rw [upd_apply]
    split
    · refine ⟨hth.1, by simp only; omega, f1, insnew, f3, ?_⟩
      intro j e p _ hj hp
      have := h.ev e (List.mem_of_getElem? hj)
      cases e with
      | pushed v' inv' pos' =>
        simp only [Event.pushPos, Option.some.injEq] at hp
        subst hp
        exact this.1
      | full => cases hp
      | popped => cases hp
      | empty => cases hp
    · have hu := h.thr u
      cases hp : s.pc u with
      | idle => trivial
      | pushLd v inv => rw [hp] at hu; exact hu
      | pushSeq v inv pos => rw [hp] at hu; exact ⟨hu.1, Nat.le_succ_of_le hu.2⟩
      | pushCas v inv pos => rw [hp] at hu; exact hu
      | pushWr v inv pos =>
        rw [hp] at hu
        obtain ⟨a, b, c, d, e, g⟩ := hu
        exact ⟨a, Nat.lt_succ_of_lt b, c, (insget _ b).trans d, e, g⟩
      | pushSt v inv pos =>
        rw [hp] at hu
        obtain ⟨a, b, c, d, e, g⟩ := hu
        exact ⟨a, Nat.lt_succ_of_lt b, c, (insget _ b).trans d, e, g⟩
      | popLd inv => rw [hp] at hu; exact hu
      | popSeq inv pos => rw [hp] at hu; exact hu
      | popCas inv pos => rw [hp] at hu; exact hu
      | popTake inv pos =>
        rw [hp] at hu
        obtain ⟨a, b, c, d, g⟩ := hu
        exact ⟨a, b, c, d.trans (insget _ (by omega)).symm, g⟩
      | popSt v inv pos =>
        rw [hp] at hu
        obtain ⟨a, b, c, d, e, g⟩ := hu
        exact ⟨a, b, c, d.trans (insget _ (by omega)).symm, e, g⟩
  · intro u u' p hu hu'
    rcases pp u p hu with ⟨a, b⟩ | ⟨a, b⟩ <;> rcases pp u' p hu' with ⟨a', b'⟩ | ⟨a', b'⟩
    · rw [a, a']
    · have := (push_owner h b').1; omega
    · have := (push_owner h b).1; omega
    · exact h.upush u u' p b b'
  · intro u u' p hu hu'
    simp only [qq] at hu hu'
    exact h.upop u u' p hu hu'
  · intro e hm
    have := h.ev e hm
    cases e with
    | pushed v' inv' pos' =>
      obtain ⟨a, b, c⟩ := this
      refine ⟨Nat.lt_succ_of_lt a, (insget _ a).trans b, ?_⟩
      intro u hu
      rcases pp u pos' hu with ⟨_, q⟩ | ⟨_, q⟩
      · omega
      · exact c u q
    | popped v' inv' pos' =>
      obtain ⟨a, b, c⟩ := this
      exact ⟨a, b.trans (insget _ (by omega)).symm, fun u => by simp only [qq]; exact c u⟩
    | full => trivial
    | empty => trivial
  · intro p hp
    simp only at hp
    rcases Nat.lt_or_ge p s.enq with hlt | hge
    · rcases h.cpush p hlt with ⟨u, hu⟩ | hm
      · exact Or.inl ⟨u, keep u p hu⟩
      · exact Or.inr hm
    · have : p = s.enq := by omega
      subst this
      exact Or.inl ⟨t, by simp [Pc.pushPos]⟩
  · intro p hp
    rcases h.cpop p hp with ⟨u, hu⟩ | hm
    · exact Or.inl ⟨u, by simp only [qq]; exact hu⟩
    · exact Or.inr hm

theorem inv_popCasOk {cap : Nat} (hc : 2 ≤ cap) {s : St T} (h : QInv cap s) (t : Nat)
    (inv pos : Nat) (ht : s.pc t = .popCas inv pos) (he : s.deq = pos) :
    QInv cap { s with deq := pos + 1, pc := upd s.pc t (.popTake inv pos) } := by
  subst he
  have hth := h.thr t
  rw [ht] at hth
  obtain ⟨f1, f2, f3⟩ := full_at_deq hc h hth.2
  have hle := h.le
  have hcapb := h.capb
  have pp : ∀ u p, (upd s.pc t (.popTake inv s.deq) u).popPos = some p →
      (u = t ∧ p = s.deq) ∨ (u ≠ t ∧ (s.pc u).popPos = some p) := by
    intro u p hu
    rw [upd_apply] at hu
    split at hu
    · rename_i q; left; simp only [Pc.popPos, Option.some.injEq] at hu; exact ⟨q, hu.symm⟩
    · rename_i q; exact Or.inr ⟨q, hu⟩
  have qq : ∀ u, (upd s.pc t (.popTake inv s.deq) u).pushPos = (s.pc u).pushPos := by
    intro u; rw [upd_apply]; split
    · rename_i q; subst q; rw [ht]; rfl
    · rfl
  have keep : ∀ u p, (s.pc u).popPos = some p →
      (upd s.pc t (.popTake inv s.deq) u).popPos = some p := by
    intro u p hu
    rw [upd_apply, if_neg]
    · exact hu
    · rintro rfl; rw [ht] at hu; cases hu
  refine ⟨by simp only; omega, by simp only; omega, h.len, ?_, ?_, ?_, ?_, ?_, h.ord,
    h.dpush, h.dpop, ?_, ?_⟩
  · intro i hi
    rcases h.slot i hi with ⟨p, h1, h2, h3, h4, h5, h6⟩ | ⟨p, h1, h2, h3, h4, h5, h6⟩
    · left
      have hne : p ≠ s.deq := by
        rintro rfl
        rw [h1, h2] at f1
        omega
      refine ⟨p, h1, h2, by simp only; omega, by simp only; omega, h5, ?_⟩
      intro hp
      obtain ⟨u, hu⟩ := h6 hp
      exact ⟨u, by simp only [qq]; exact hu⟩
    · right
      refine ⟨p, h1, h2, h3, h4, fun hd => h5 (by simp only at hd; omega), ?_⟩
      intro hd
      simp only at hd
      rcases Nat.lt_or_ge p s.deq with hlt | hge
      · obtain ⟨u, hu⟩ := h6 hlt
        exact ⟨u, keep u p hu⟩
      · have : p = s.deq := by omega
        subst this
        exact ⟨t, by simp [Pc.popPos]⟩
  · intro u
    show ThrOk cap _ (upd s.pc t _ u)
    rw [upd_apply]
    split
    · refine ⟨hth.1, by simp only; omega, f1, f3, ?_⟩
      intro j e p _ hj hp
      have := h.ev e (List.mem_of_getElem? hj)
      cases e with
      | popped v' inv' pos' =>
        simp only [Event.popPos, Option.some.injEq] at hp
        subst hp
        exact this.1
      | full => cases hp
      | pushed => cases hp
      | empty => cases hp
    · have hu := h.thr u
      cases hp : s.pc u with
      | idle => trivial
      | pushLd v inv => rw [hp] at hu; exact hu
      | pushSeq v inv pos => rw [hp] at hu; exact hu
      | pushCas v inv pos => rw [hp] at hu; exact hu
      | pushWr v inv pos => rw [hp] at hu; exact hu
      | pushSt v inv pos => rw [hp] at hu; exact hu
      | popLd inv => rw [hp] at hu; exact hu
      | popSeq inv pos => rw [hp] at hu; exact ⟨hu.1, Nat.le_succ_of_le hu.2⟩
      | popCas inv pos => rw [hp] at hu; exact hu
      | popTake inv pos =>
        rw [hp] at hu
        obtain ⟨a, b, c, d, g⟩ := hu
        exact ⟨a, Nat.lt_succ_of_lt b, c, d, g⟩
      | popSt v inv pos =>
        rw [hp] at hu
        obtain ⟨a, b, c, d, e, g⟩ := hu
        exact ⟨a, Nat.lt_succ_of_lt b, c, d, e, g⟩
  · intro u u' p hu hu'
    simp only [qq] at hu hu'
    exact h.upush u u' p hu hu'
  · intro u u' p hu hu'
    rcases pp u p hu with ⟨a, b⟩ | ⟨a, b⟩ <;> rcases pp u' p hu' with ⟨a', b'⟩ | ⟨a', b'⟩
    · rw [a, a']
    · have := (pop_owner h b').1; omega
    · have := (pop_owner h b).1; omega
    · exact h.upop u u' p b b'
  · intro e hm
    have := h.ev e hm
    cases e with
    | pushed v' inv' pos' =>
      obtain ⟨a, b, c⟩ := this
      exact ⟨a, b, fun u => by simp only [qq]; exact c u⟩
    | popped v' inv' pos' =>
      obtain ⟨a, b, c⟩ := this
      refine ⟨Nat.lt_succ_of_lt a, b, ?_⟩
      intro u hu
      rcases pp u pos' hu with ⟨_, q⟩ | ⟨_, q⟩
      · omega
      · exact c u q
    | full => trivial
    | empty => trivial
  · intro p hp
    rcases h.cpush p hp with ⟨u, hu⟩ | hm
    · exact Or.inl ⟨u, by simp only [qq]; exact hu⟩
    · exact Or.inr hm
  · intro p hp
    simp only at hp
    rcases Nat.lt_or_ge p s.deq with hlt | hge
    · rcases h.cpop p hlt with ⟨u, hu⟩ | hm
      · exact Or.inl ⟨u, keep u p hu⟩
      · exact Or.inr hm
    · have : p = s.deq := by omega
      subst this
      exact Or.inl ⟨t, by simp [Pc.popPos]⟩

theorem inv_pushWr {cap : Nat} (hc : 2 ≤ cap) {s : St T} (h : QInv cap s) (t : Nat) (v : T)
    (inv pos : Nat) (ht : s.pc t = .pushWr v inv pos) :
    QInv cap { s with
      val := upd s.val (pos % cap) (some v), pc := upd s.pc t (.pushSt v inv pos) } := by
  have hth := h.thr t
  rw [ht] at hth
  obtain ⟨a1, a2, a3, a4, a5, a6⟩ := hth
  have pp : ∀ u, (upd s.pc t (.pushSt v inv pos) u).pushPos = (s.pc u).pushPos := by
    intro u; rw [upd_apply]; split
    · rename_i q; subst q; rw [ht]; rfl
    · rfl
  have qq : ∀ u, (upd s.pc t (.pushSt v inv pos) u).popPos = (s.pc u).popPos := by
    intro u; rw [upd_apply]; split
    · rename_i q; subst q; rw [ht]; rfl
    · rfl
  have own : (s.pc t).pushPos = some pos := by rw [ht]; rfl
  refine ⟨h.le, h.capb, h.len, ?_, ?_, ?_, ?_, ?_, h.ord, h.dpush, h.dpop, ?_, ?_⟩
  · intro i hi
    by_cases hip : i = pos % cap
    · subst hip
      rcases h.slot _ hi with ⟨p, h1, h2, h3, h4, h5, h6⟩ | ⟨p, h1, h2, h3, h4, h5, h6⟩
      · left
        have : p = pos := by omega
        subst this
        refine ⟨p, h1, h2, h3, h4, fun hp => absurd a2 (by simp only at hp; omega), ?_⟩
        intro _
        exact ⟨t, by simp only [pp]; exact own⟩
      · exfalso
        have : pos = p + 1 := by omega
        rw [this] at h1
        exact mod_succ_ne hc h1.symm
    · have := h.slot i hi
      simp only [SlotOk, pp, qq, upd_other _ _ hip]
      exact this
  · intro u
    by_cases hu : u = t
    · subst hu
      simp only [upd_same]
      exact ⟨a1, a2, a3, a4, by simp, a6⟩
    · simp only [upd_other _ _ hu]
      obtain ⟨e1, e2⟩ := push_excl hc h own hu
      exact thr_other (i := pos % cap) h (fun _ _ => rfl) (Nat.le_refl _)
        (fun j hj => upd_other _ _ hj) rfl rfl rfl (Or.inl rfl) e1 e2
  · intro u u' p; simp only [pp]; exact h.upush u u' p
  · intro u u' p; simp only [qq]; exact h.upop u u' p
  · intro e hm
    have := h.ev e hm
    cases e with
    | pushed v' inv' pos' => exact ⟨this.1, this.2.1, fun u => by simp only [pp]; exact this.2.2 u⟩
    | popped v' inv' pos' => exact ⟨this.1, this.2.1, fun u => by simp only [qq]; exact this.2.2 u⟩
    | full => trivial
    | empty => trivial
  · intro p hp
    rcases h.cpush p hp with ⟨u, hu⟩ | hm
    · exact Or.inl ⟨u, by simp only [pp]; exact hu⟩
    · exact Or.inr hm
  · intro p hp
    rcases h.cpop p hp with ⟨u, hu⟩ | hm
    · exact Or.inl ⟨u, by simp only [qq]; exact hu⟩
    · exact Or.inr hm

theorem inv_popTake {cap : Nat} (hc : 2 ≤ cap) {s : St T} (h : QInv cap s) (t : Nat)
    (inv pos : Nat) (ht : s.pc t = .popTake inv pos) :
    QInv cap { s with
      val := upd s.val (pos % cap) none
      pc := upd s.pc t (.popSt (s.val (pos % cap)) inv pos) } := by
  have hth := h.thr t
  rw [ht] at hth
  obtain ⟨a1, a2, a3, a4, a6⟩ := hth
  have pp : ∀ u, (upd s.pc t (.popSt (s.val (pos % cap)) inv pos) u).pushPos = (s.pc u).pushPos := by
    intro u; rw [upd_apply]; split
    · rename_i q; subst q; rw [ht]; rfl
    · rfl
  have qq : ∀ u, (upd s.pc t (.popSt (s.val (pos % cap)) inv pos) u).popPos = (s.pc u).popPos := by
    intro u; rw [upd_apply]; split
    · rename_i q; subst q; rw [ht]; rfl
    · rfl
  have own : (s.pc t).popPos = some pos := by rw [ht]; rfl
  refine ⟨h.le, h.capb, h.len, ?_, ?_, ?_, ?_, ?_, h.ord, h.dpush, h.dpop, ?_, ?_⟩
  · intro i hi
    by_cases hip : i = pos % cap
    · subst hip
      rcases h.slot _ hi with ⟨p, h1, h2, h3, h4, h5, h6⟩ | ⟨p, h1, h2, h3, h4, h5, h6⟩
      · exfalso
        have : p = pos + 1 := by omega
        rw [this] at h1
        exact mod_succ_ne hc h1
      · right
        have : p = pos := by omega
        subst this
        refine ⟨p, h1, h2, h3, h4, fun hp => absurd a2 (by simp only at hp; omega), ?_⟩
        intro _
        exact ⟨t, by simp only [qq]; exact own⟩
    · have := h.slot i hi
      simp only [SlotOk, pp, qq, upd_other _ _ hip]
      exact this
  · intro u
    by_cases hu : u = t
    · subst hu
      simp only [upd_same]
      exact ⟨a1, a2, a3, a4, by simp, a6⟩
    · simp only [upd_other _ _ hu]
      obtain ⟨e1, e2⟩ := pop_excl hc h own hu
      exact thr_other (i := pos % cap) h (fun _ _ => rfl) (Nat.le_refl _)
        (fun j hj => upd_other _ _ hj) rfl rfl rfl (Or.inl rfl) e1 e2
  · intro u u' p; simp only [pp]; exact h.upush u u' p
  · intro u u' p; simp only [qq]; exact h.upop u u' p
  · intro e hm
    have := h.ev e hm
    cases e with
    | pushed v' inv' pos' => exact ⟨this.1, this.2.1, fun u => by simp only [pp]; exact this.2.2 u⟩
    | popped v' inv' pos' => exact ⟨this.1, this.2.1, fun u => by simp only [qq]; exact this.2.2 u⟩
    | full => trivial
    | empty => trivial
  · intro p hp
    rcases h.cpush p hp with ⟨u, hu⟩ | hm
    · exact Or.inl ⟨u, by simp only [pp]; exact hu⟩
    · exact Or.inr hm
  · intro p hp
    rcases h.cpop p hp with ⟨u, hu⟩ | hm
    · exact Or.inl ⟨u, by simp only [qq]; exact hu⟩
    · exact Or.inr hm

theorem inv_pushSt {cap : Nat} (hc : 2 ≤ cap) {s : St T} (h : QInv cap s) (t : Nat) (v : T)
    (inv pos : Nat) (ht : s.pc t = .pushSt v inv pos) :
    QInv cap { s with
      seq := upd s.seq (pos % cap) (pos + 1), pc := upd s.pc t .idle
      hist := s.hist ++ [.pushed v inv pos] } := by
  have hth := h.thr t
  rw [ht] at hth
  obtain ⟨a1, a2, a3, a4, a5, a6⟩ := hth
  have own : (s.pc t).pushPos = some pos := by rw [ht]; rfl
  have pp : ∀ u p, (upd s.pc t .idle u).pushPos = some p → u ≠ t ∧ (s.pc u).pushPos = some p := by
    intro u p hu
    rw [upd_apply] at hu
    split at hu
    · cases hu
    · rename_i q; exact ⟨q, hu⟩
  have qq : ∀ u, (upd s.pc t .idle u).popPos = (s.pc u).popPos := by
    intro u; rw [upd_apply]; split
    · rename_i q; subst q; rw [ht]; rfl
    · rfl
  have keep : ∀ u p, p ≠ pos → (s.pc u).pushPos = some p → (upd s.pc t .idle u).pushPos = some p := by
    intro u p hne hu
    rw [upd_apply, if_neg]
    · exact hu
    · rintro rfl; rw [own] at hu; cases hu; exact hne rfl
  have hlt : pos % cap < cap := Nat.mod_lt _ (by omega)
  refine ⟨h.le, h.capb, h.len, ?_, ?_, ?_, ?_, ?_, ?_, ?_, ?_, ?_, ?_⟩
  · intro i hi
    by_cases hip : i = pos % cap
    · subst hip
      rcases h.slot _ hi with ⟨p, h1, h2, h3, h4, h5, h6⟩ | ⟨p, h1, h2, h3, h4, h5, h6⟩
      · right
        have : p = pos := by omega
        subst this
        have := h.capb
        refine ⟨p, h1, by simp, a2, by simp only; omega, fun _ => by simp only; rw [a5, a4], ?_⟩
        intro hp
        simp only at hp
        omega
      · exfalso
        have : pos = p + 1 := by omega
        rw [this] at h1
        exact mod_succ_ne hc h1.symm
    · rcases h.slot i hi with ⟨p, h1, h2, h3, h4, h5, h6⟩ | ⟨p, h1, h2, h3, h4, h5, h6⟩
      · left
        refine ⟨p, h1, by simp only [upd_other _ _ hip]; exact h2, h3, h4, h5, ?_⟩
        intro hp
        obtain ⟨u, hu⟩ := h6 hp
        exact ⟨u, keep u p (by rintro rfl; exact hip h1.symm) hu⟩
      · right
        refine ⟨p, h1, by simp only [upd_other _ _ hip]; exact h2, h3, h4, h5, ?_⟩
        intro hp
        obtain ⟨u, hu⟩ := h6 hp
        exact ⟨u, by simp only [qq]; exact hu⟩
  · intro u
    by_cases hu : u = t
    · subst hu
      simp only [upd_same]
      trivial
    · simp only [upd_other _ _ hu]
      obtain ⟨e1, e2⟩ := push_excl hc h own hu
      refine thr_other (i := pos % cap) h (fun j hj => upd_other _ _ hj) ?_
        (fun _ _ => rfl) rfl rfl rfl (Or.inr ⟨_, rfl⟩) e1 e2
      simp only [upd_same]; omega
  · intro u u' p hu hu'
    exact h.upush u u' p (pp u p hu).2 (pp u' p hu').2
  · intro u u' p; simp only [qq]; exact h.upop u u' p
  · intro e hm
    rcases List.mem_append.1 hm with hm | hm
    · have := h.ev e hm
      cases e with
      | pushed v' inv' pos' => exact ⟨this.1, this.2.1, fun u hu => this.2.2 u (pp u _ hu).2⟩
      | popped v' inv' pos' => exact ⟨this.1, this.2.1, fun u => by simp only [qq]; exact this.2.2 u⟩
      | full => trivial
      | empty => trivial
    · simp only [List.mem_singleton] at hm
      subst hm
      refine ⟨a2, a4, ?_⟩
      intro u hu
      have := pp u pos hu
      exact this.1 (h.upush u t pos this.2 own)
  · exact h.ord.snoc _ a1 (fun p hp => by cases hp; exact a6) (fun p hp => by cases hp)
  · refine h.dpush.snoc _ ?_
    intro p hp e' he' hq
    cases hp
    have := h.ev e' he'
    cases e' with
    | pushed v' inv' pos' =>
      simp only [Event.pushPos, Option.some.injEq] at hq
      subst hq
      exact this.2.2 t own
    | popped => cases hq
    | full => cases hq
    | empty => cases hq
  · exact h.dpop.snoc _ (fun p hp => by cases hp)
  · intro p hp
    by_cases hq : p = pos
    · subst hq
      exact Or.inr ⟨.pushed v inv p, by simp, rfl⟩
    · rcases h.cpush p hp with ⟨u, hu⟩ | ⟨e, hm, he⟩
      · exact Or.inl ⟨u, keep u p hq hu⟩
      · exact Or.inr ⟨e, by simp [hm], he⟩
  · intro p hp
    rcases h.cpop p hp with ⟨u, hu⟩ | ⟨e, hm, he⟩
    · exact Or.inl ⟨u, by simp only [qq]; exact hu⟩
    · exact Or.inr ⟨e, by simp [hm], he⟩

theorem inv_popSt {cap : Nat} (hc : 2 ≤ cap) {s : St T} (h : QInv cap s) (t : Nat) (v : Option T)
    (inv pos : Nat) (ht : s.pc t = .popSt v inv pos) :
    QInv cap { s with
      seq := upd s.seq (pos % cap) (pos + cap), pc := upd s.pc t .idle
      hist := s.hist ++ [.popped v inv pos] } := by
  have hth := h.thr t
  rw [ht] at hth
  obtain ⟨a1, a2, a3, a4, a5, a6⟩ := hth
  have own : (s.pc t).popPos = some pos := by rw [ht]; rfl
  have pp : ∀ u p, (upd s.pc t .idle u).popPos = some p → u ≠ t ∧ (s.pc u).popPos = some p := by
    intro u p hu
    rw [upd_apply] at hu
    split at hu
    · cases hu
    · rename_i q; exact ⟨q, hu⟩
  have qq : ∀ u, (upd s.pc t .idle u).pushPos = (s.pc u).pushPos := by
    intro u; rw [upd_apply]; split
    · rename_i q; subst q; rw [ht]; rfl
    · rfl
  have keep : ∀ u p, p ≠ pos → (s.pc u).popPos = some p → (upd s.pc t .idle u).popPos = some p := by
    intro u p hne hu
    rw [upd_apply, if_neg]
    · exact hu
    · rintro rfl; rw [own] at hu; cases hu; exact hne rfl
  have hle := h.le
  refine ⟨h.le, h.capb, h.len, ?_, ?_, ?_, ?_, ?_, ?_, ?_, ?_, ?_, ?_⟩
  · intro i hi
    by_cases hip : i = pos % cap
    · subst hip
      rcases h.slot _ hi with ⟨p, h1, h2, h3, h4, h5, h6⟩ | ⟨p, h1, h2, h3, h4, h5, h6⟩
      · exfalso
        have : p = pos + 1 := by omega
        rw [this] at h1
        exact mod_succ_ne hc h1
      · left
        have : p = pos := by omega
        subst this
        refine ⟨p + cap, Nat.add_mod_right _ _, by simp, by simp only; omega, by simp only; omega,
          fun _ => a5, ?_⟩
        intro hp
        simp only at hp
        omega
    · rcases h.slot i hi with ⟨p, h1, h2, h3, h4, h5, h6⟩ | ⟨p, h1, h2, h3, h4, h5, h6⟩
      · left
        refine ⟨p, h1, by simp only [upd_other _ _ hip]; exact h2, h3, h4, h5, ?_⟩
        intro hp
        obtain ⟨u, hu⟩ := h6 hp
        exact ⟨u, by simp only [qq]; exact hu⟩
      · right
        refine ⟨p, h1, by simp only [upd_other _ _ hip]; exact h2, h3, h4, h5, ?_⟩
        intro hp
        obtain ⟨u, hu⟩ := h6 hp
        exact ⟨u, keep u p (by rintro rfl; exact hip h1.symm) hu⟩
  · intro u
    by_cases hu : u = t
    · subst hu
      simp only [upd_same]
      trivial
    · simp only [upd_other _ _ hu]
      obtain ⟨e1, e2⟩ := pop_excl hc h own hu
      refine thr_other (i := pos % cap) h (fun j hj => upd_other _ _ hj) ?_
        (fun _ _ => rfl) rfl rfl rfl (Or.inr ⟨_, rfl⟩) e1 e2
      simp only [upd_same]; omega
  · intro u u' p; simp only [qq]; exact h.upush u u' p
  · intro u u' p hu hu'
    exact h.upop u u' p (pp u p hu).2 (pp u' p hu').2
  · intro e hm
    rcases List.mem_append.1 hm with hm | hm
    · have := h.ev e hm
      cases e with
      | pushed v' inv' pos' => exact ⟨this.1, this.2.1, fun u => by simp only [qq]; exact this.2.2 u⟩
      | popped v' inv' pos' => exact ⟨this.1, this.2.1, fun u hu => this.2.2 u (pp u _ hu).2⟩
      | full => trivial
      | empty => trivial
    · simp only [List.mem_singleton] at hm
      subst hm
      refine ⟨a2, a4, ?_⟩
      intro u hu
      have := pp u pos hu
      exact this.1 (h.upop u t pos this.2 own)
  · exact h.ord.snoc _ a1 (fun p hp => by cases hp) (fun p hp => by cases hp; exact a6)
  · exact h.dpush.snoc _ (fun p hp => by cases hp)
  · refine h.dpop.snoc _ ?_
    intro p hp e' he' hq
    cases hp
    have := h.ev e' he'
    cases e' with
    | popped v' inv' pos' =>
      simp only [Event.popPos, Option.some.injEq] at hq
      subst hq
      exact this.2.2 t own
    | pushed => cases hq
    | full => cases hq
    | empty => cases hq
  · intro p hp
    rcases h.cpush p hp with ⟨u, hu⟩ | ⟨e, hm, he⟩
    · exact Or.inl ⟨u, by simp only [qq]; exact hu⟩
    · exact Or.inr ⟨e, by simp [hm], he⟩
  · intro p hp
    by_cases hq : p = pos
    · subst hq
      exact Or.inr ⟨.popped v inv p, by simp, rfl⟩
    · rcases h.cpop p hp with ⟨u, hu⟩ | ⟨e, hm, he⟩
      · exact Or.inl ⟨u, keep u p hq hu⟩
      · exact Or.inr ⟨e, by simp [hm], he⟩

theorem inv_step {cap : Nat} (hc : 2 ≤ cap) {s s' : St T} (h : QInv cap s) (hs : Step cap s s') :
    QInv cap s' := by
  cases hs with
  | pushCall t v ht =>
    exact inv_local0 h t _ (by rw [ht]; rfl) (by rw [ht]; rfl) rfl rfl (Nat.le_refl _)
  | pushLd t v inv ht =>
    have hth := h.thr t; rw [ht] at hth
    exact inv_local0 h t _ (by rw [ht]; rfl) (by rw [ht]; rfl) rfl rfl ⟨hth, Nat.le_refl _⟩
  | pushSeqEq t v inv pos ht hd =>
    have hth := h.thr t; rw [ht] at hth
    exact inv_local0 h t _ (by rw [ht]; rfl) (by rw [ht]; rfl) rfl rfl ⟨hth.1, Nat.le_of_eq hd.symm⟩
  | pushFull t v inv pos ht hd =>
    have hth := h.thr t; rw [ht] at hth
    exact inv_local h t .idle (by rw [ht]; rfl) (by rw [ht]; rfl) rfl rfl trivial [.full v inv] (by simp)
      (by intro e he; simp only [List.mem_singleton] at he; subst he; exact ⟨rfl, rfl, hth.1⟩)
  | pushSeqGt t v inv pos ht hd =>
    have hth := h.thr t; rw [ht] at hth
    exact inv_local0 h t _ (by rw [ht]; rfl) (by rw [ht]; rfl) rfl rfl hth.1
  | pushCasOk t v inv pos ht he => exact inv_pushCasOk hc h t v inv pos ht he
  | pushCasFail t v inv pos ht =>
    have hth := h.thr t; rw [ht] at hth
    exact inv_local0 h t _ (by rw [ht]; rfl) (by rw [ht]; rfl) rfl rfl ⟨hth.1, Nat.le_refl _⟩
  | pushWr t v inv pos ht => exact inv_pushWr hc h t v inv pos ht
  | pushSt t v inv pos ht => exact inv_pushSt hc h t v inv pos ht
  | popCall t ht =>
    exact inv_local0 h t _ (by rw [ht]; rfl) (by rw [ht]; rfl) rfl rfl (Nat.le_refl _)
  | popLd t inv ht =>
    have hth := h.thr t; rw [ht] at hth
    exact inv_local0 h t _ (by rw [ht]; rfl) (by rw [ht]; rfl) rfl rfl ⟨hth, Nat.le_refl _⟩
  | popSeqEq t inv pos ht hd =>
    have hth := h.thr t; rw [ht] at hth
    exact inv_local0 h t _ (by rw [ht]; rfl) (by rw [ht]; rfl) rfl rfl ⟨hth.1, Nat.le_of_eq hd.symm⟩
  | popEmpty t inv pos ht hd =>
    have hth := h.thr t; rw [ht] at hth
    exact inv_local h t .idle (by rw [ht]; rfl) (by rw [ht]; rfl) rfl rfl trivial [.empty inv] (by simp)
      (by intro e he; simp only [List.mem_singleton] at he; subst he; exact ⟨rfl, rfl, hth.1⟩)
  | popSeqGt t inv pos ht hd =>
    have hth := h.thr t; rw [ht] at hth
    exact inv_local0 h t _ (by rw [ht]; rfl) (by rw [ht]; rfl) rfl rfl hth.1
  | popCasOk t inv pos ht he => exact inv_popCasOk hc h t inv pos ht he
  | popCasFail t inv pos ht =>
    have hth := h.thr t; rw [ht] at hth
    exact inv_local0 h t _ (by rw [ht]; rfl) (by rw [ht]; rfl) rfl rfl ⟨hth.1, Nat.le_refl _⟩
  | popTake t inv pos ht => exact inv_popTake hc h t inv pos ht
  | popSt t v inv pos ht => exact inv_popSt hc h t v inv pos ht

theorem reach_inv {cap : Nat} (hc : 2 ≤ cap) {s : St T} (h : Reach cap s) : QInv cap s := by
  induction h with
  | init => exact inv_init cap hc
  | step _ hs ih => exact inv_step hc ih hs

end NRK.Sync.Mpmc
