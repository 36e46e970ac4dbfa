import Verif.Sync.ConqModel

/-!
# Invariant of the queue of the benchmark program

Every node belongs to exactly one of: the shared stack, the receiver's part that is being turned round, its list of nodes to
hand out, its list of nodes to free, a sender that is about to put it in, or it is the last node.
-/

namespace NRK.Sync.Conq

variable {T : Type}

/-- Who owns an address. -/
inductive Tag where
  | free | inq | turn | out | frees | priv (p : Nat) | last
deriving DecidableEq

def adrs (l : List (Nat × T)) : List Nat := l.map Prod.fst
def vals (l : List (Nat × T)) : List T := l.map Prod.snd

/-- A linked list in memory that ends with the pointer `e`. -/
def Chain (h : Nat → Option (Node T)) (e : Option Nat) : Option Nat → List (Nat × T) → Prop
  | p, [] => p = e
  | p, (a, x) :: l => p = some a ∧ ∃ n, h a = some ⟨some x, n⟩ ∧ Chain h e n l

theorem Chain.upd {h : Nat → Option (Node T)} {e : Option Nat} {a : Nat} (v : Option (Node T)) : ∀ {l : List (Nat × T)} {p : Option Nat},
    a ∉ adrs l → Chain h e p l → Chain (NRK.upd h a v) e p l := by
  intro l
  induction l with
  | nil => intro p _ hc; exact hc
  | cons q l ih =>
    intro p ha hc
    obtain ⟨b, x⟩ := q
    simp only [adrs, List.map_cons, List.mem_cons, not_or] at ha
    obtain ⟨e, n, hn, hc⟩ := hc
    refine ⟨e, n, ?_, ih ha.2 hc⟩
    simpa [NRK.upd, Ne.symm ha.1] using hn

theorem Chain.nil {h : Nat → Option (Node T)} {l : List (Nat × T)} (hc : Chain h none none l) : l = [] := by
  cases l with
  | nil => rfl
  | cons q l => obtain ⟨e, _⟩ := hc; cases e

theorem Chain.cons {h : Nat → Option (Node T)} {a : Nat} {l : List (Nat × T)} (hc : Chain h none (some a) l) :
    ∃ x l' n, l = (a, x) :: l' ∧ h a = some ⟨some x, n⟩ ∧ Chain h none n l' := by
  cases l with
  | nil => cases hc
  | cons q l =>
    obtain ⟨b, x⟩ := q
    obtain ⟨e, n, hn, hc⟩ := hc
    cases e
    exact ⟨x, l, n, rfl, hn, hc⟩

theorem Chain.elem {h : Nat → Option (Node T)} {e : Option Nat} {a : Nat} : ∀ {l : List (Nat × T)} {p : Option Nat}, Chain h e p l → a ∈ adrs l →
    ∃ x n, h a = some ⟨some x, n⟩ := by
  intro l
  induction l with
  | nil => intro p _ ha; cases ha
  | cons q l ih =>
    intro p hc ha
    obtain ⟨b, x⟩ := q
    obtain ⟨_, n, hn, hc⟩ := hc
    simp only [adrs, List.map_cons, List.mem_cons] at ha
    rcases ha with rfl | ha
    · exact ⟨x, n, hn⟩
    · exact ih hc ha

def Push.node : Push → Option Nat
  | .idle => none
  | .cas a _ => some a
  | .check a _ => some a

def Recv.turnHead : Recv → Option Nat
  | .turn h => h
  | _ => none

def Recv.freeHead : Recv → Option Nat
  | .free h => h
  | _ => none

/-- The last node is in place. -/
def Recv.closed : Recv → Bool
  | .free _ => true
  | .gone => true
  | _ => false

/-- The receiver is being dropped, or is gone. -/
def Recv.ending : Recv → Bool
  | .close _ _ => true
  | .free _ => true
  | .gone => true
  | _ => false

structure Inv (s : St T) (own : Nat → Tag) (In Turn Out Free : List (Nat × T)) : Prop where
  hfree : ∀ a, own a = .free ↔ s.heap a = none
  mIn : ∀ a, a ∈ adrs In ↔ own a = .inq
  mTurn : ∀ a, a ∈ adrs Turn ↔ own a = .turn
  mOut : ∀ a, a ∈ adrs Out ↔ own a = .out
  mFree : ∀ a, a ∈ adrs Free ↔ own a = .frees
  nIn : (adrs In).Nodup
  nTurn : (adrs Turn).Nodup
  nOut : (adrs Out).Nodup
  nFree : (adrs Free).Nodup
  cIn : s.recv.closed = false → Chain s.heap none s.inq In
  cClosed : s.recv.closed = true → ∃ z, own z = .last ∧ Chain s.heap (some z) s.inq In
  cTurn : Chain s.heap none s.recv.turnHead Turn
  cOut : Chain s.heap none s.out Out
  cFree : Chain s.heap none s.recv.freeHead Free
  lastOk : ∀ z, own z = .last → s.heap z = some ⟨none, none⟩
  lastAt : ∀ z, own z = .last → s.recv.ending = true
  closeAt : ∀ z h, s.recv = .close z h → own z = .last
  priv : ∀ p a, own a = .priv p ↔ (s.push p).node = some a
  casOk : ∀ p a e, s.push p = .cas a e → ∃ x, s.heap a = some ⟨some x, e⟩
  chkOk : ∀ p a e, s.push p = .check a e → ∃ x n, s.heap a = some ⟨some x, n⟩
  casOut : ∀ h, s.recv = .cas h → s.out = none
  drop0 : s.recv.closed = false → s.dropped = []
  fifo : s.pushed = s.popped ++ (vals Turn).reverse ++ vals Out ++ (vals Free).reverse ++ s.dropped.reverse ++ (vals In).reverse

variable {s : St T} {own : Nat → Tag} {In Turn Out Free : List (Nat × T)}

theorem notin {l : List (Nat × T)} {t : Tag} {a : Nat} (h : ∀ a, a ∈ adrs l ↔ own a = t) (ha : own a ≠ t) : a ∉ adrs l :=
  fun hm => ha ((h a).1 hm)

/-- Giving an address that is in no list a new tag of no list. -/
theorem retag {l : List (Nat × T)} {t t' : Tag} {a : Nat} (h : ∀ a, a ∈ adrs l ↔ own a = t) (ha : own a ≠ t) (ht : t' ≠ t) :
    ∀ b, b ∈ adrs l ↔ NRK.upd own a t' b = t := by
  intro b
  by_cases e : b = a
  · subst e
    simp [NRK.upd, ht, notin h ha]
  · simp [NRK.upd, e, h b]

/-- Putting an address in front of a list. -/
theorem retag_cons {l : List (Nat × T)} {t : Tag} {a : Nat} (x : T) (h : ∀ a, a ∈ adrs l ↔ own a = t) :
    ∀ b, b ∈ adrs ((a, x) :: l) ↔ NRK.upd own a t b = t := by
  intro b
  by_cases e : b = a
  · subst e
    simp [NRK.upd, adrs]
  · have := h b
    simp only [adrs] at this
    simp [NRK.upd, e, adrs, ← this]

/-- Taking the first address off a list. -/
theorem retag_tail {l : List (Nat × T)} {t t' : Tag} {a : Nat} {x : T} (h : ∀ b, b ∈ adrs ((a, x) :: l) ↔ own b = t)
    (hn : (adrs ((a, x) :: l)).Nodup) (ht : t' ≠ t) : ∀ b, b ∈ adrs l ↔ NRK.upd own a t' b = t := by
  intro b
  have hn' : a ∉ adrs l := by
    simp only [adrs, List.map_cons, List.nodup_cons] at hn
    exact hn.1
  by_cases e : b = a
  · subst e
    simp [NRK.upd, ht, hn']
  · have := h b
    simp only [adrs, List.map_cons, List.mem_cons] at this
    simp only [NRK.upd, e, if_false, ← this, adrs, false_or]

theorem Inv.init : Inv (T := T) .init (fun _ => .free) [] [] [] [] where
  hfree := by intro a; simp [St.init]
  mIn := by intro a; simp [adrs]
  mTurn := by intro a; simp [adrs]
  mOut := by intro a; simp [adrs]
  mFree := by intro a; simp [adrs]
  nIn := by simp [adrs]
  nTurn := by simp [adrs]
  nOut := by simp [adrs]
  nFree := by simp [adrs]
  cIn := fun _ => rfl
  cClosed := fun h => by cases h
  cTurn := rfl
  cOut := rfl
  cFree := rfl
  lastOk := fun _ h => by cases h
  lastAt := fun _ h => by cases h
  closeAt := fun _ _ h => by cases h
  priv := by intro p a; simp [St.init, Push.node]
  casOk := fun _ _ _ h => by cases h
  chkOk := fun _ _ _ h => by cases h
  casOut := fun _ h => by cases h
  drop0 := fun _ => rfl
  fifo := by simp [St.init, vals]

/-- Two senders do not share a node. -/
theorem Inv.other (i : Inv s own In Turn Out Free) {p q a : Nat} (hp : (s.push p).node = some a) (hq : (s.push q).node = some a) :
    p = q := by
  have := (i.priv p a).2 hp
  rw [(i.priv q a).2 hq] at this
  cases this
  rfl

theorem Inv.start (i : Inv s own In Turn Out Free) {p a : Nat} (x : T) (hp : s.push p = .idle) (ha : s.heap a = none) :
    Inv { s with heap := NRK.upd s.heap a (some ⟨some x, none⟩), push := NRK.upd s.push p (.cas a none) }
      (NRK.upd own a (.priv p)) In Turn Out Free := by
  have hf := (i.hfree a).2 ha
  have ne : ∀ t, t ≠ Tag.free → own a ≠ t := fun t ht h => ht (by rw [← h, hf])
  have fr : ∀ b, own b ≠ .free → b ≠ a := fun b hb e => hb (by rw [e, hf])
  refine { i with
    hfree := ?_, mIn := retag i.mIn (ne _ nofun) nofun, mTurn := retag i.mTurn (ne _ nofun) nofun, mOut := retag i.mOut (ne _ nofun) nofun
    mFree := retag i.mFree (ne _ nofun) nofun
    cIn := fun h => (i.cIn h).upd _ (notin i.mIn (ne _ nofun)), cClosed := ?_, cTurn := i.cTurn.upd _ (notin i.mTurn (ne _ nofun))
    cOut := i.cOut.upd _ (notin i.mOut (ne _ nofun)), cFree := i.cFree.upd _ (notin i.mFree (ne _ nofun))
    lastOk := ?_, lastAt := ?_, closeAt := ?_, priv := ?_, casOk := ?_, chkOk := ?_ }
  · intro b
    by_cases e : b = a
    · subst e; simp [NRK.upd]
    · simpa [NRK.upd, e] using i.hfree b
  · intro h
    obtain ⟨z, ho, hc⟩ := i.cClosed h
    have := fr z (by rw [ho]; nofun)
    exact ⟨z, by simpa [NRK.upd, this] using ho, hc.upd _ (notin i.mIn (ne _ nofun))⟩
  · intro z hz
    by_cases e : z = a
    · subst e; simp [NRK.upd] at hz
    · simp only [NRK.upd, e, if_false] at hz ⊢
      exact i.lastOk z hz
  · intro z hz
    by_cases e : z = a
    · subst e; simp [NRK.upd] at hz
    · simp only [NRK.upd, e, if_false] at hz
      exact i.lastAt z hz
  · intro z h hz
    have ho := i.closeAt z h hz
    have := fr z (by rw [ho]; nofun)
    simpa [NRK.upd, this] using ho
  · intro q b
    by_cases e : b = a
    · subst e
      by_cases eq : q = p
      · subst eq; simp [NRK.upd, Push.node]
      · have : (s.push q).node ≠ some b := fun h => by
          have := (i.priv q b).2 h
          rw [hf] at this
          cases this
        simp only [NRK.upd, if_true, eq, if_false]
        constructor
        · intro h; cases h; exact absurd rfl eq
        · intro h; exact absurd h this
    · by_cases eq : q = p
      · subst eq
        have := (i.priv q b)
        rw [hp] at this
        simp only [NRK.upd, e, if_false, if_true, Push.node] at this ⊢
        constructor
        · intro h; exact absurd (this.1 h) nofun
        · intro h; cases h; exact absurd rfl e
      · simpa [NRK.upd, e, eq] using i.priv q b
  · intro q b e h
    by_cases eq : q = p
    · subst eq
      simp only [NRK.upd, if_true] at h
      cases h
      exact ⟨x, by simp [NRK.upd]⟩
    · simp only [NRK.upd, eq, if_false] at h
      obtain ⟨y, hy⟩ := i.casOk q b e h
      have : b ≠ a := fun e => by rw [e, ha] at hy; cases hy
      exact ⟨y, by simpa [NRK.upd, this] using hy⟩
  · intro q b e h
    by_cases eq : q = p
    · subst eq
      simp only [NRK.upd, if_true] at h
      cases h
    · simp only [NRK.upd, eq, if_false] at h
      obtain ⟨y, n, hy⟩ := i.chkOk q b e h
      have : b ≠ a := fun e => by rw [e, ha] at hy; cases hy
      exact ⟨y, n, by simpa [NRK.upd, this] using hy⟩

theorem Inv.pcasFail (i : Inv s own In Turn Out Free) {p a : Nat} {exp : Option Nat} (hp : s.push p = .cas a exp) (f : Option Nat) :
    Inv { s with push := NRK.upd s.push p (.check a f) } own In Turn Out Free := by
  refine { i with priv := ?_, casOk := ?_, chkOk := ?_ }
  · intro q b
    by_cases eq : q = p
    · subst eq
      have := i.priv q b
      rw [hp] at this
      simpa [NRK.upd, Push.node] using this
    · simpa [NRK.upd, eq] using i.priv q b
  · intro q b e h
    by_cases eq : q = p
    · subst eq; simp only [NRK.upd, if_true] at h; cases h
    · simp only [NRK.upd, eq, if_false] at h
      exact i.casOk q b e h
  · intro q b e h
    by_cases eq : q = p
    · subst eq
      simp only [NRK.upd, if_true] at h
      cases h
      obtain ⟨x, hx⟩ := i.casOk q a exp hp
      exact ⟨x, exp, hx⟩
    · simp only [NRK.upd, eq, if_false] at h
      exact i.chkOk q b e h

/-- A sender that gives up its node: what holds of the senders then. -/
theorem Inv.privIdle (i : Inv s own In Turn Out Free) {p a : Nat} (hp : (s.push p).node = some a) {t : Tag} (ht : ∀ q, t ≠ .priv q) :
    ∀ q b, NRK.upd own a t b = .priv q ↔ (NRK.upd s.push p .idle q).node = some b := by
  intro q b
  by_cases eq : q = p
  · subst eq
    simp only [NRK.upd, if_true, Push.node, reduceCtorEq, iff_false]
    by_cases e : b = a
    · subst e; simp [ht q]
    · simp only [e, if_false]
      intro h
      have := (i.priv q b).1 h
      rw [hp] at this
      cases this
      exact e rfl
  · simp only [NRK.upd, eq, if_false]
    by_cases e : b = a
    · subst e
      simp only [if_true]
      constructor
      · intro h; exact absurd h (ht q)
      · intro h; exact absurd (i.other h hp) eq
    · simp only [e, if_false]
      exact i.priv q b

theorem Inv.pcasOk (i : Inv s own In Turn Out Free) {p a : Nat} (hp : s.push p = .cas a s.inq) :
    ∃ x, (s.heap a).bind Node.elem = some x ∧
    Inv { s with inq := some a, push := NRK.upd s.push p .idle, pushed := s.pushed ++ [x] } (NRK.upd own a .inq) ((a, x) :: In) Turn Out Free := by
  obtain ⟨x, hx⟩ := i.casOk p a _ hp
  have hpn : (s.push p).node = some a := by rw [hp]; rfl
  have hf := (i.priv p a).2 hpn
  have ne : ∀ t, t ≠ Tag.priv p → own a ≠ t := fun t ht h => ht (by rw [← h, hf])
  have fr : ∀ b, own b ≠ .priv p → b ≠ a := fun b hb e => hb (by rw [e, hf])
  refine ⟨x, by rw [hx]; rfl, { i with
    hfree := ?_, mIn := retag_cons x i.mIn, mTurn := retag i.mTurn (ne _ nofun) nofun, mOut := retag i.mOut (ne _ nofun) nofun
    mFree := retag i.mFree (ne _ nofun) nofun
    nIn := ?_, cIn := ?_, cClosed := ?_
    lastOk := ?_, lastAt := ?_, closeAt := ?_, priv := i.privIdle hpn nofun, casOk := ?_, chkOk := ?_, fifo := ?_ }⟩
  · intro b
    by_cases e : b = a
    · subst e; simp [NRK.upd, hx]
    · simpa [NRK.upd, e] using i.hfree b
  · exact List.nodup_cons.2 ⟨notin i.mIn (ne _ nofun), i.nIn⟩
  · intro h
    exact ⟨rfl, s.inq, hx, i.cIn h⟩
  · intro h
    obtain ⟨z, ho, hc⟩ := i.cClosed h
    have := fr z (by rw [ho]; nofun)
    exact ⟨z, by simpa [NRK.upd, this] using ho, rfl, s.inq, hx, hc⟩
  · intro z hz
    by_cases e : z = a
    · subst e; simp [NRK.upd] at hz
    · simp only [NRK.upd, e, if_false] at hz
      exact i.lastOk z hz
  · intro z hz
    by_cases e : z = a
    · subst e; simp [NRK.upd] at hz
    · simp only [NRK.upd, e, if_false] at hz
      exact i.lastAt z hz
  · intro z h hz
    have ho := i.closeAt z h hz
    have := fr z (by rw [ho]; nofun)
    simpa [NRK.upd, this] using ho
  · intro q b e h
    by_cases eq : q = p
    · subst eq; simp only [NRK.upd, if_true] at h; cases h
    · simp only [NRK.upd, eq, if_false] at h
      exact i.casOk q b e h
  · intro q b e h
    by_cases eq : q = p
    · subst eq; simp only [NRK.upd, if_true] at h; cases h
    · simp only [NRK.upd, eq, if_false] at h
      exact i.chkOk q b e h
  · show s.pushed ++ [x] = _
    rw [i.fifo]
    simp [vals]

/-- Freeing a node of a sender. -/
theorem Inv.refuse (i : Inv s own In Turn Out Free) {p a : Nat} (hpn : (s.push p).node = some a) (r : List T) :
    Inv { s with heap := NRK.upd s.heap a none, push := NRK.upd s.push p .idle, refused := r } (NRK.upd own a .free) In Turn Out Free := by
  have hf := (i.priv p a).2 hpn
  have ne : ∀ t, t ≠ Tag.priv p → own a ≠ t := fun t ht h => ht (by rw [← h, hf])
  have fr : ∀ b, own b ≠ .priv p → b ≠ a := fun b hb e => hb (by rw [e, hf])
  refine { i with
    hfree := ?_, mIn := retag i.mIn (ne _ nofun) nofun, mTurn := retag i.mTurn (ne _ nofun) nofun, mOut := retag i.mOut (ne _ nofun) nofun
    mFree := retag i.mFree (ne _ nofun) nofun
    cIn := fun h => (i.cIn h).upd _ (notin i.mIn (ne _ nofun)), cClosed := ?_, cTurn := i.cTurn.upd _ (notin i.mTurn (ne _ nofun))
    cOut := i.cOut.upd _ (notin i.mOut (ne _ nofun)), cFree := i.cFree.upd _ (notin i.mFree (ne _ nofun))
    lastOk := ?_, lastAt := ?_, closeAt := ?_, priv := i.privIdle hpn nofun, casOk := ?_, chkOk := ?_ }
  · intro b
    by_cases e : b = a
    · subst e; simp [NRK.upd]
    · simpa [NRK.upd, e] using i.hfree b
  · intro h
    obtain ⟨z, ho, hc⟩ := i.cClosed h
    have := fr z (by rw [ho]; nofun)
    exact ⟨z, by simpa [NRK.upd, this] using ho, hc.upd _ (notin i.mIn (ne _ nofun))⟩
  · intro z hz
    by_cases e : z = a
    · subst e; simp [NRK.upd] at hz
    · simp only [NRK.upd, e, if_false] at hz ⊢
      exact i.lastOk z hz
  · intro z hz
    by_cases e : z = a
    · subst e; simp [NRK.upd] at hz
    · simp only [NRK.upd, e, if_false] at hz
      exact i.lastAt z hz
  · intro z h hz
    have ho := i.closeAt z h hz
    have := fr z (by rw [ho]; nofun)
    simpa [NRK.upd, this] using ho
  · intro q b e h
    by_cases eq : q = p
    · subst eq; simp only [NRK.upd, if_true] at h; cases h
    · simp only [NRK.upd, eq, if_false] at h
      have : b ≠ a := fun e' => eq (i.other (by rw [h, e']; rfl) hpn)
      simpa [NRK.upd, this] using i.casOk q b e h
  · intro q b e h
    by_cases eq : q = p
    · subst eq; simp only [NRK.upd, if_true] at h; cases h
    · simp only [NRK.upd, eq, if_false] at h
      have : b ≠ a := fun e' => eq (i.other (by rw [h, e']; rfl) hpn)
      simpa [NRK.upd, this] using i.chkOk q b e h

/-- Setting the next pointer of a sender's node. -/
theorem Inv.link (i : Inv s own In Turn Out Free) {p a : Nat} {f : Option Nat} (hp : s.push p = .check a f) :
    Inv { s with heap := NRK.upd s.heap a ((s.heap a).map fun n => { n with next := f }), push := NRK.upd s.push p (.cas a f) }
      own In Turn Out Free := by
  have hpn : (s.push p).node = some a := by rw [hp]; rfl
  have hf := (i.priv p a).2 hpn
  obtain ⟨x, n, hx⟩ := i.chkOk p a f hp
  have ne : ∀ t, t ≠ Tag.priv p → own a ≠ t := fun t ht h => ht (by rw [← h, hf])
  refine { i with
    hfree := ?_
    cIn := fun h => (i.cIn h).upd _ (notin i.mIn (ne _ nofun)), cClosed := ?_, cTurn := i.cTurn.upd _ (notin i.mTurn (ne _ nofun))
    cOut := i.cOut.upd _ (notin i.mOut (ne _ nofun)), cFree := i.cFree.upd _ (notin i.mFree (ne _ nofun))
    lastOk := ?_, priv := ?_, casOk := ?_, chkOk := ?_ }
  · intro b
    by_cases e : b = a
    · subst e; simp [NRK.upd, hx, hf]
    · simpa [NRK.upd, e] using i.hfree b
  · intro h
    obtain ⟨z, ho, hc⟩ := i.cClosed h
    exact ⟨z, ho, hc.upd _ (notin i.mIn (ne _ nofun))⟩
  · intro z hz
    have : z ≠ a := fun e => by rw [e, hf] at hz; cases hz
    simpa [NRK.upd, this] using i.lastOk z hz
  · intro q b
    by_cases eq : q = p
    · subst eq
      have := i.priv q b
      rw [hp] at this
      simpa [NRK.upd, Push.node] using this
    · simpa [NRK.upd, eq] using i.priv q b
  · intro q b e h
    by_cases eq : q = p
    · subst eq
      simp only [NRK.upd, if_true] at h
      cases h
      exact ⟨x, by simp [NRK.upd, hx]⟩
    · simp only [NRK.upd, eq, if_false] at h
      have : b ≠ a := fun e' => eq (i.other (by rw [h, e']; rfl) hpn)
      simpa [NRK.upd, this] using i.casOk q b e h
  · intro q b e h
    by_cases eq : q = p
    · subst eq; simp only [NRK.upd, if_true] at h; cases h
    · simp only [NRK.upd, eq, if_false] at h
      have : b ≠ a := fun e' => eq (i.other (by rw [h, e']; rfl) hpn)
      simpa [NRK.upd, this] using i.chkOk q b e h

/-- The receiver goes to a place where it holds no pointers. -/
theorem Inv.goto (i : Inv s own In Turn Out Free) {r : Recv} (h1 : s.recv.closed = r.closed) (h2 : s.recv.ending = true → r.ending = true)
    (h3 : s.recv.turnHead = r.turnHead) (h4 : s.recv.freeHead = r.freeHead) (h5 : ∀ z h, r = .close z h → own z = .last)
    (h6 : ∀ h, r = .cas h → s.out = none) (rs : List (Option T)) : Inv { s with recv := r, results := rs } own In Turn Out Free := by
  refine { i with cIn := ?_, cClosed := ?_, cTurn := ?_, cFree := ?_, lastAt := ?_, closeAt := h5, casOut := h6, drop0 := fun h => i.drop0 (by rw [h1]; exact h) }
  · intro h; exact i.cIn (by rw [h1]; exact h)
  · intro h; exact i.cClosed (by rw [h1]; exact h)
  · show Chain _ _ r.turnHead _
    rw [← h3]; exact i.cTurn
  · show Chain _ _ r.freeHead _
    rw [← h4]; exact i.cFree
  · intro z hz; exact h2 (i.lastAt z hz)

/-- The receiver takes the whole stack. -/
theorem Inv.takeAll (i : Inv s own In Turn Out Free) (hr : s.recv = .cas s.inq) :
    Inv { s with inq := none, recv := .turn s.inq } (fun a => if own a = .inq then .turn else own a) [] In [] [] := by
  have hT : Turn = [] := by
    have := i.cTurn
    rw [hr] at this
    exact this.nil
  have hF : Free = [] := by
    have := i.cFree
    rw [hr] at this
    exact this.nil
  have hO : Out = [] := by
    have := i.cOut
    rw [i.casOut _ hr] at this
    exact this.nil
  subst hT hF hO
  have hnt : ∀ a, own a ≠ .turn := fun a h => by have := (i.mTurn a).2 h; cases this
  have hlast : ∀ z, own z ≠ .last := fun z h => by
    have := i.lastAt z h
    rw [hr] at this
    cases this
  refine { i with hfree := ?_, mIn := ?_, mTurn := ?_, mOut := ?_, mFree := ?_, nIn := i.nTurn, nTurn := i.nIn, cIn := fun _ => rfl, cClosed := nofun, cTurn := ?_
                  cFree := rfl, lastOk := ?_, lastAt := ?_, closeAt := nofun, priv := ?_, casOut := nofun, drop0 := fun _ => i.drop0 (by rw [hr]; rfl), fifo := ?_ }
  · intro a
    rw [← i.hfree a]
    split <;> simp_all
  · intro a
    simp only [adrs, List.map_nil, List.not_mem_nil, false_iff]
    split <;> simp_all
  · intro a
    rw [i.mIn a]
    split
    · simp_all
    · rename_i h; simp [h, hnt a]
  · intro a
    rw [i.mOut a]
    split <;> simp_all
  · intro a
    rw [i.mFree a]
    split <;> simp_all
  · have := i.cIn (by rw [hr]; rfl)
    exact this
  · intro z hz
    split at hz
    · cases hz
    · exact absurd hz (hlast z)
  · intro z hz
    split at hz
    · cases hz
    · exact absurd hz (hlast z)
  · intro p a
    rw [← i.priv p a]
    split <;> simp_all
  · rw [i.fifo]
    simp [vals, i.drop0 (by rw [hr]; rfl)]

/-- The receiver turns one node round. -/
theorem Inv.turnOne (i : Inv s own In Turn Out Free) {h : Nat} (hr : s.recv = .turn (some h)) :
    ∃ x n Turn', s.heap h = some ⟨some x, n⟩ ∧
    Inv { s with heap := NRK.upd s.heap h (some ⟨some x, s.out⟩), out := some h, recv := .turn n } (NRK.upd own h .out) In Turn' ((h, x) :: Out) Free := by
  have hc := i.cTurn
  rw [hr] at hc
  obtain ⟨x, Turn', n, rfl, hx, hc'⟩ := hc.cons
  have hF : Free = [] := by
    have := i.cFree
    rw [hr] at this
    exact this.nil
  subst hF
  have hf : own h = .turn := (i.mTurn h).1 (by simp [adrs])
  have ne : ∀ t, t ≠ Tag.turn → own h ≠ t := fun t ht e => ht (by rw [← e, hf])
  have hnd := i.nTurn
  have hnt : h ∉ adrs Turn' := by
    have := hnd
    simp only [adrs, List.map_cons, List.nodup_cons] at this
    exact this.1
  have hlast : ∀ z, own z ≠ .last := fun z h => by
    have := i.lastAt z h
    rw [hr] at this
    cases this
  refine ⟨x, n, Turn', hx, { i with
    hfree := ?_, mIn := retag i.mIn (ne _ nofun) nofun, mTurn := retag_tail i.mTurn hnd nofun, mOut := retag_cons x i.mOut
    mFree := retag i.mFree (ne _ nofun) nofun, nTurn := ?_, nOut := List.nodup_cons.2 ⟨notin i.mOut (ne _ nofun), i.nOut⟩
    cIn := ?_, cClosed := nofun, cTurn := hc'.upd _ hnt, cOut := ⟨rfl, s.out, by simp [NRK.upd], i.cOut.upd _ (notin i.mOut (ne _ nofun))⟩
    cFree := rfl, lastOk := ?_, lastAt := ?_, closeAt := nofun, priv := ?_, casOk := ?_, chkOk := ?_, casOut := nofun, drop0 := fun _ => i.drop0 (by rw [hr]; rfl), fifo := ?_ }⟩
  · intro b
    by_cases e : b = h
    · subst e; simp [NRK.upd]
    · simpa [NRK.upd, e] using i.hfree b
  · simp only [adrs, List.map_cons, List.nodup_cons] at hnd
    exact hnd.2
  · intro _
    exact (i.cIn (by rw [hr]; rfl)).upd _ (notin i.mIn (ne _ nofun))
  · intro z hz
    by_cases e : z = h
    · subst e; simp [NRK.upd] at hz
    · simp only [NRK.upd, e, if_false] at hz
      exact absurd hz (hlast z)
  · intro z hz
    by_cases e : z = h
    · subst e; simp [NRK.upd] at hz
    · simp only [NRK.upd, e, if_false] at hz
      exact absurd hz (hlast z)
  · intro p b
    rw [← i.priv p b]
    by_cases e : b = h
    · subst e; simp [NRK.upd, hf]
    · simp [NRK.upd, e]
  · intro q b e hq
    obtain ⟨y, hy⟩ := i.casOk q b e hq
    have : b ≠ h := fun e' => by
      have := (i.priv q b).2 (by rw [hq]; rfl)
      rw [e', hf] at this
      cases this
    exact ⟨y, by simpa [NRK.upd, this] using hy⟩
  · intro q b e hq
    obtain ⟨y, m, hy⟩ := i.chkOk q b e hq
    have : b ≠ h := fun e' => by
      have := (i.priv q b).2 (by rw [hq]; rfl)
      rw [e', hf] at this
      cases this
    exact ⟨y, m, by simpa [NRK.upd, this] using hy⟩
  · rw [i.fifo]
    simp [vals]

/-- The receiver hands out a node. -/
theorem Inv.hand (i : Inv s own In Turn Out Free) {h : Nat} (hr : s.recv = .take) (ho : s.out = some h) :
    ∃ x n Out', s.heap h = some ⟨some x, n⟩ ∧
    Inv { s with heap := NRK.upd s.heap h none, out := n, recv := .idle, popped := s.popped ++ [x], results := s.results ++ [some x] }
      (NRK.upd own h .free) In [] Out' [] := by
  have hc := i.cOut
  rw [ho] at hc
  obtain ⟨x, Out', n, rfl, hx, hc'⟩ := hc.cons
  have hF : Free = [] := by
    have := i.cFree
    rw [hr] at this
    exact this.nil
  have hT : Turn = [] := by
    have := i.cTurn
    rw [hr] at this
    exact this.nil
  subst hF hT
  have hf : own h = .out := (i.mOut h).1 (by simp [adrs])
  have ne : ∀ t, t ≠ Tag.out → own h ≠ t := fun t ht e => ht (by rw [← e, hf])
  have hnd := i.nOut
  have hnt : h ∉ adrs Out' := by
    have := hnd
    simp only [adrs, List.map_cons, List.nodup_cons] at this
    exact this.1
  have hlast : ∀ z, own z ≠ .last := fun z h => by
    have := i.lastAt z h
    rw [hr] at this
    cases this
  refine ⟨x, n, Out', hx, { i with
    hfree := ?_, mIn := retag i.mIn (ne _ nofun) nofun, mTurn := retag i.mTurn (ne _ nofun) nofun, mOut := retag_tail i.mOut hnd nofun
    mFree := retag i.mFree (ne _ nofun) nofun, nOut := ?_
    cIn := ?_, cClosed := nofun, cTurn := rfl, cOut := hc'.upd _ hnt
    cFree := rfl, lastOk := ?_, lastAt := ?_, closeAt := nofun, priv := ?_, casOk := ?_, chkOk := ?_, casOut := nofun, drop0 := fun _ => i.drop0 (by rw [hr]; rfl), fifo := ?_ }⟩
  · intro b
    by_cases e : b = h
    · subst e; simp [NRK.upd]
    · simpa [NRK.upd, e] using i.hfree b
  · simp only [adrs, List.map_cons, List.nodup_cons] at hnd
    exact hnd.2
  · intro _
    exact (i.cIn (by rw [hr]; rfl)).upd _ (notin i.mIn (ne _ nofun))
  · intro z hz
    by_cases e : z = h
    · subst e; simp [NRK.upd] at hz
    · simp only [NRK.upd, e, if_false] at hz
      exact absurd hz (hlast z)
  · intro z hz
    by_cases e : z = h
    · subst e; simp [NRK.upd] at hz
    · simp only [NRK.upd, e, if_false] at hz
      exact absurd hz (hlast z)
  · intro p b
    rw [← i.priv p b]
    by_cases e : b = h
    · subst e; simp [NRK.upd, hf]
    · simp [NRK.upd, e]
  · intro q b e hq
    obtain ⟨y, hy⟩ := i.casOk q b e hq
    have : b ≠ h := fun e' => by
      have := (i.priv q b).2 (by rw [hq]; rfl)
      rw [e', hf] at this
      cases this
    exact ⟨y, by simpa [NRK.upd, this] using hy⟩
  · intro q b e hq
    obtain ⟨y, m, hy⟩ := i.chkOk q b e hq
    have : b ≠ h := fun e' => by
      have := (i.priv q b).2 (by rw [hq]; rfl)
      rw [e', hf] at this
      cases this
    exact ⟨y, m, by simpa [NRK.upd, this] using hy⟩
  · rw [i.fifo]
    simp [vals]

/-- The receiver makes the last node. -/
theorem Inv.dropStart (i : Inv s own In Turn Out Free) {a : Nat} (hr : s.recv = .idle) (ha : s.heap a = none) :
    Inv { s with heap := NRK.upd s.heap a (some ⟨none, none⟩), recv := .close a none } (NRK.upd own a .last) In Turn Out Free := by
  have hf := (i.hfree a).2 ha
  have ne : ∀ t, t ≠ Tag.free → own a ≠ t := fun t ht h => ht (by rw [← h, hf])
  have hlast : ∀ z, own z ≠ .last := fun z h => by
    have := i.lastAt z h
    rw [hr] at this
    cases this
  have ct := i.cTurn
  have cf := i.cFree
  rw [hr] at ct cf
  refine { i with
    hfree := ?_, mIn := retag i.mIn (ne _ nofun) nofun, mTurn := retag i.mTurn (ne _ nofun) nofun, mOut := retag i.mOut (ne _ nofun) nofun
    mFree := retag i.mFree (ne _ nofun) nofun
    cIn := fun _ => (i.cIn (by rw [hr]; rfl)).upd _ (notin i.mIn (ne _ nofun)), cClosed := nofun, cTurn := ct.upd _ (notin i.mTurn (ne _ nofun))
    cOut := i.cOut.upd _ (notin i.mOut (ne _ nofun)), cFree := cf.upd _ (notin i.mFree (ne _ nofun))
    lastOk := ?_, lastAt := fun _ _ => rfl, closeAt := ?_, priv := ?_, casOk := ?_, chkOk := ?_, casOut := nofun, drop0 := fun _ => i.drop0 (by rw [hr]; rfl) }
  · intro b
    by_cases e : b = a
    · subst e; simp [NRK.upd]
    · simpa [NRK.upd, e] using i.hfree b
  · intro z hz
    by_cases e : z = a
    · subst e; simp [NRK.upd]
    · simp only [NRK.upd, e, if_false] at hz
      exact absurd hz (hlast z)
  · intro z h hz
    cases hz
    simp [NRK.upd]
  · intro p b
    rw [← i.priv p b]
    by_cases e : b = a
    · subst e; simp [NRK.upd, hf]
    · simp [NRK.upd, e]
  · intro q b e hq
    obtain ⟨y, hy⟩ := i.casOk q b e hq
    have : b ≠ a := fun e => by rw [e, ha] at hy; cases hy
    exact ⟨y, by simpa [NRK.upd, this] using hy⟩
  · intro q b e hq
    obtain ⟨y, m, hy⟩ := i.chkOk q b e hq
    have : b ≠ a := fun e => by rw [e, ha] at hy; cases hy
    exact ⟨y, m, by simpa [NRK.upd, this] using hy⟩

/-- The receiver puts the last node in place of the stack. -/
theorem Inv.shut (i : Inv s own In Turn Out Free) {z : Nat} (hr : s.recv = .close z s.inq) :
    Inv { s with inq := some z, recv := .free s.inq } (fun a => if own a = .inq then .frees else own a) [] Turn Out In := by
  have hF : Free = [] := by
    have := i.cFree
    rw [hr] at this
    exact this.nil
  have ct := i.cTurn
  rw [hr] at ct
  subst hF
  have hnt : ∀ a, own a ≠ .frees := fun a h => by have := (i.mFree a).2 h; cases this
  refine { i with hfree := ?_, mIn := ?_, mTurn := ?_, mOut := ?_, mFree := ?_, nIn := i.nFree, nFree := i.nIn, cIn := nofun, cClosed := ?_, cTurn := ct
                  cFree := i.cIn (by rw [hr]; rfl), lastOk := ?_, lastAt := fun _ _ => rfl, closeAt := nofun, priv := ?_, casOut := nofun, drop0 := nofun, fifo := ?_ }
  · intro a
    rw [← i.hfree a]
    split <;> simp_all
  · intro a
    simp only [adrs, List.map_nil, List.not_mem_nil, false_iff]
    split <;> simp_all
  · intro a
    rw [i.mTurn a]
    split <;> simp_all
  · intro a
    rw [i.mOut a]
    split <;> simp_all
  · intro a
    rw [i.mIn a]
    split
    · simp_all
    · rename_i h; simp [h, hnt a]
  · intro _
    have := i.closeAt _ _ hr
    exact ⟨z, by simp [this], rfl⟩
  · intro z hz
    split at hz
    · cases hz
    · exact i.lastOk z hz
  · intro p a
    rw [← i.priv p a]
    split <;> simp_all
  · rw [i.fifo]
    simp [vals, i.drop0 (by rw [hr]; rfl)]

/-- The receiver frees a node unread. -/
theorem Inv.freeOne (i : Inv s own In Turn Out Free) {h : Nat} (hr : s.recv = .free (some h)) :
    ∃ x n Free', s.heap h = some ⟨some x, n⟩ ∧
    Inv { s with heap := NRK.upd s.heap h none, recv := .free n, dropped := s.dropped ++ [x] } (NRK.upd own h .free) In Turn Out Free' := by
  have hc := i.cFree
  rw [hr] at hc
  obtain ⟨x, Free', n, rfl, hx, hc'⟩ := hc.cons
  have ct := i.cTurn
  rw [hr] at ct
  have hf : own h = .frees := (i.mFree h).1 (by simp [adrs])
  have ne : ∀ t, t ≠ Tag.frees → own h ≠ t := fun t ht e => ht (by rw [← e, hf])
  have hnd := i.nFree
  have hnt : h ∉ adrs Free' := by
    have := hnd
    simp only [adrs, List.map_cons, List.nodup_cons] at this
    exact this.1
  refine ⟨x, n, Free', hx, { i with
    hfree := ?_, mIn := retag i.mIn (ne _ nofun) nofun, mTurn := retag i.mTurn (ne _ nofun) nofun, mOut := retag i.mOut (ne _ nofun) nofun
    mFree := retag_tail i.mFree hnd nofun, nFree := ?_
    cIn := nofun, cClosed := ?_, cTurn := ct.upd _ (notin i.mTurn (ne _ nofun)), cOut := i.cOut.upd _ (notin i.mOut (ne _ nofun))
    cFree := hc'.upd _ hnt, lastOk := ?_, lastAt := fun _ _ => rfl, closeAt := nofun, priv := ?_, casOk := ?_, chkOk := ?_, casOut := nofun, drop0 := nofun, fifo := ?_ }⟩
  · intro b
    by_cases e : b = h
    · subst e; simp [NRK.upd]
    · simpa [NRK.upd, e] using i.hfree b
  · simp only [adrs, List.map_cons, List.nodup_cons] at hnd
    exact hnd.2
  · intro _
    obtain ⟨z, hz, hc⟩ := i.cClosed (by rw [hr]; rfl)
    have : z ≠ h := fun e => by rw [e, hf] at hz; cases hz
    exact ⟨z, by simpa [NRK.upd, this] using hz, hc.upd _ (notin i.mIn (ne _ nofun))⟩
  · intro z hz
    by_cases e : z = h
    · subst e; simp [NRK.upd] at hz
    · simp only [NRK.upd, e, if_false] at hz ⊢
      exact i.lastOk z hz
  · intro p b
    rw [← i.priv p b]
    by_cases e : b = h
    · subst e; simp [NRK.upd, hf]
    · simp [NRK.upd, e]
  · intro q b e hq
    obtain ⟨y, hy⟩ := i.casOk q b e hq
    have : b ≠ h := fun e' => by
      have := (i.priv q b).2 (by rw [hq]; rfl)
      rw [e', hf] at this
      cases this
    exact ⟨y, by simpa [NRK.upd, this] using hy⟩
  · intro q b e hq
    obtain ⟨y, m, hy⟩ := i.chkOk q b e hq
    have : b ≠ h := fun e' => by
      have := (i.priv q b).2 (by rw [hq]; rfl)
      rw [e', hf] at this
      cases this
    exact ⟨y, m, by simpa [NRK.upd, this] using hy⟩
  · rw [i.fifo]
    simp [vals]

end NRK.Sync.Conq
