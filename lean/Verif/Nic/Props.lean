import Verif.Nic.BitLemmas
import Verif.Nic.UpLemmas
/-!
# C95: the network card finds in memory and at its registers what the driver means
-/

namespace NRK.Nic

/-- C95, one field: whatever a record holds, reading a field gives what the card reads there; setting it makes the
card read the value, cut to the width, and no other field of the record changes. -/
theorem c95_field (bs : List Nat) (h : IsBytes bs) (o w v : Nat) (hw : 1 ≤ w ∧ w ≤ 64) (hn : o + w ≤ 8 * bs.length) :
    get bs o w = some (field bs o w) ∧
    ∃ bs', set bs o w v = some bs' ∧ bs'.length = bs.length ∧ IsBytes bs' ∧ field bs' o w = v % 2 ^ w ∧
      ∀ o' w', Apart o w o' w' → field bs' o' w' = field bs o' w' :=
  ⟨get_eq bs h o w hw.1 hw.2 hn, set_eq bs h o w v hw.1 hw.2 hn⟩

/-- The card's description of each record. -/
def cardLayout : Desc → Layout
  | .tx => cardTx
  | .txComp => cardTxDone
  | .rx => cardRx
  | .rxComp => cardRxDone

/-- C95, the four records: the driver's fields are those of the card, at the same places; words of 32 bits. -/
theorem c95_layout (d : Desc) :
    d.fields = (cardLayout d).places ∧ (∀ w ∈ cardLayout d, w.sum = 32) ∧
    (cardLayout d).flatten.sum = 8 * d.size := by
  cases d <;> decide

/-- C95, setting and reading the fields of a record: for every record, content, field and 32-bit value. -/
theorem c95_record (d : Desc) (bs : List Nat) (h : IsBytes bs) (hl : bs.length = d.size) (i v : Nat) (f : Nat × Nat)
    (hf : d.fields[i]? = some f) :
    d.read i bs = some (field bs f.1 f.2) ∧
    ∃ bs', d.write i v bs = some bs' ∧ bs'.length = d.size ∧ IsBytes bs' ∧ d.read i bs' = some (v % 2 ^ f.2) ∧
      field bs' f.1 f.2 = v % 2 ^ f.2 ∧
      ∀ j, j ≠ i → ∀ g, d.fields[j]? = some g → d.read j bs' = d.read j bs ∧ field bs' g.1 g.2 = field bs g.1 g.2 := by
  have hr : ∀ (b : List Nat), IsBytes b → b.length = d.size → ∀ j g, d.fields[j]? = some g →
      d.read j b = some (field b g.1 g.2) := by
    intro b hb hbl j g hg
    obtain ⟨h1, h2, h3⟩ := fields_ok d g (List.mem_of_getElem? hg)
    simp only [Desc.read, hg, get_eq b hb g.1 g.2 h1 (by omega) (by rw [hbl]; exact h3), Option.map_some, Option.some.injEq]
    apply Nat.mod_eq_of_lt
    exact Nat.lt_of_lt_of_le (Nat.mod_lt _ (Nat.two_pow_pos _)) (show 2 ^ g.2 ≤ 2 ^ 32 from Nat.pow_le_pow_right (by omega) h2)
  obtain ⟨h1, h2, h3⟩ := fields_ok d f (List.mem_of_getElem? hf)
  obtain ⟨b1, e1, l1, i1, t1, r1⟩ := set_eq bs h f.1 f.2 v h1 (by omega) (by rw [hl]; exact h3)
  refine ⟨hr bs h hl i f hf, b1, ?_, by omega, i1, ?_, t1, ?_⟩
  · simp only [Desc.write, hf, e1]
  · rw [hr b1 i1 (by omega) i f hf, t1]
  · intro j hj g hg
    have hg' := r1 g.1 g.2 (fields_apart d i j (fun e => hj e.symm) f g hf hg)
    exact ⟨by rw [hr b1 i1 (by omega) j g hg, hr bs h hl j g hg, hg'], hg'⟩

/-- C95, a new record has every field as given, each cut to its width. -/
theorem c95_new (d : Desc) (vs : List Nat) (hl : vs.length = d.fields.length) :
    ∃ bs, d.new vs = some bs ∧ bs.length = d.size ∧ IsBytes bs ∧
      ∀ (i : Nat) f v, d.fields[i]? = some f → vs[i]? = some v → field bs f.1 f.2 = v % 2 ^ f.2 := by
  have hz : IsBytes (List.replicate d.size 0) := by
    intro b hb
    rw [List.eq_of_mem_replicate hb]; decide
  obtain ⟨bs, e, l, ib, t, _⟩ := newLoop_eq d.fields vs (List.replicate d.size 0) hz hl.symm
    (fun f hf => by rw [List.length_replicate]; exact fields_ok d f hf) (fields_sorted d)
  exact ⟨bs, e, by rw [l, List.length_replicate], ib, t⟩

/-! ## Bringing up -/

/-- The `ENABLE` commands that the card has seen. -/
def enables : List Ev → Nat
  | [] => 0
  | .wr b o v _ :: es => (if b = 1 ∧ o = CMD ∧ v = ENABLE then 1 else 0) + enables es
  | .rd _ _ _ :: es => enables es

theorem enables_append (a b : List Ev) : enables (a ++ b) = enables a + enables b := by
  induction a with
  | nil => simp [enables]
  | cons e es ih => cases e <;> simp only [List.cons_append, enables, ih] <;> omega

theorem enables_heads (m : Mem) (n : Nat) : enables (heads m n) = 0 := by
  induction n with
  | zero => rfl
  | succ n ih => simp [heads, enables_append, enables, ih]

theorem lastWr_append (b o : Nat) (l l' : List Ev) : lastWr b o (l ++ l') = (lastWr b o l').or (lastWr b o l) := by
  induction l with
  | nil => simp [lastWr]
  | cons e es ih =>
    cases e with
    | wr b' o' v m =>
      simp only [List.cons_append, lastWr, ih, Option.or_assoc]
    | rd b' o' v => simp only [List.cons_append, lastWr, ih]

theorem ne_enable : GET_LINK ≠ ENABLE ∧ GET_MACL ≠ ENABLE ∧ GET_MACH ≠ ENABLE ∧ GET_INTRCFG ≠ ENABLE := by
  unfold GET_LINK GET_MACL GET_MACH GET_INTRCFG ENABLE
  decide

/-- C95, what the card finds when it is told to start.  Whatever the card answers, whatever numbers of queues are
asked for and wherever the (separate) pieces of memory are: if the driver brings up the card, then it tells it to start
exactly once, and at that time the registers hold the address of the shared record; the record is filled in; at the
place of every queue that sends, and behind them of every queue that receives, the card finds the rings of that
queue, with 512 empty descriptors.  If there are as many queues that send as that receive, these are all the queues it
finds.  Partial: otherwise the two numbers in the shared record are exchanged. -/
theorem c95_setup_partial {dbg : Bool} {al : Alloc} {c : Card} {nrx trx : Nat} {m0 : Mem} {s : Drv}
    (h : bringUp dbg al c nrx trx m0 = .ok s) (hs : al.Separate (bounded 1 8 trx) (bounded 1 16 nrx))
    (hw : ∀ r, al.addr r < 2 ^ 64) :
    ∃ before m after, s.log = before ++ Ev.wr 1 CMD ENABLE m :: after ∧ enables before = 0 ∧ enables after = 0 ∧
      lastWr 1 DSL before = some (al.addr .ds % 4294967296) ∧ lastWr 1 DSH before = some (al.addr .ds / 4294967296) ∧
      Shared m (al.addr .ds) (bounded 1 8 trx) (bounded 1 16 nrx) (al.addr .qs) ∧
      (∀ i, i < bounded 1 8 trx →
        txQueue m (at' m (al.addr .ds + 40) 8 + 256 * i) = ⟨al.addr (.txc i), 512, 0, 0, al.addr (.txd i), 512⟩ ∧
        (∀ x, x < 8192 → m (al.addr (.txc i) + x) = 0 ∧ m (al.addr (.txd i) + x) = 0)) ∧
      (∀ i, i < bounded 1 16 nrx →
        rxQueue m (at' m (al.addr .ds + 40) 8 + 256 * (bounded 1 8 trx + i)) =
          ⟨al.addr (.rxc i), 512, 0, 0, al.addr (.rxd i), 512⟩ ∧
        (∀ x, x < 8192 → m (al.addr (.rxc i) + x) = 0 ∧ m (al.addr (.rxd i) + x) = 0)) ∧
      (bounded 1 8 trx = bounded 1 16 nrx →
        txQueues m (al.addr .ds) = (List.range (bounded 1 8 trx)).map
          (fun i => ⟨al.addr (.txc i), 512, 0, 0, al.addr (.txd i), 512⟩) ∧
        rxQueues m (al.addr .ds) = (List.range (bounded 1 16 nrx)).map
          (fun i => ⟨al.addr (.rxc i), 512, 0, 0, al.addr (.rxd i), 512⟩)) := by
  obtain ⟨m1, m, v0, v1, v2, low, high, ve, n, vl, vl', hlog, _, _, _, _, _, _, _, _, hsh, hc1, hc2, htx, hrx⟩ :=
    (bringUp_up h hs hw).log
  have ha := hw .ds
  refine ⟨_, m, _, hlog, ?_, ?_, ?_, ?_, hsh, ?_, ?_, ?_⟩
  · obtain ⟨n1, n2, n3, n4⟩ := ne_enable
    have k : CMD = 32 ∧ VRRS = 0 ∧ UVRS = 8 ∧ MACL = 40 ∧ MACH = 48 ∧ DSL = 16 ∧ DSH = 24 := ⟨rfl, rfl, rfl, rfl, rfl, rfl, rfl⟩
    obtain ⟨k1, k2, k3, k4, k5, k6, k7⟩ := k
    simp [enables, n2, n3, n4, k1, k2, k3, k4, k5, k6, k7]
  · obtain ⟨n1, n2, n3, n4⟩ := ne_enable
    simp [enables, enables_append, enables_heads, n1]
  · have k : CMD = 32 ∧ VRRS = 0 ∧ UVRS = 8 ∧ MACL = 40 ∧ MACH = 48 ∧ DSL = 16 ∧ DSH = 24 := ⟨rfl, rfl, rfl, rfl, rfl, rfl, rfl⟩
    obtain ⟨k1, k2, k3, k4, k5, k6, k7⟩ := k
    simp [lastWr, k1, k2, k3, k4, k5, k6, k7]
  · have k : CMD = 32 ∧ VRRS = 0 ∧ UVRS = 8 ∧ MACL = 40 ∧ MACH = 48 ∧ DSL = 16 ∧ DSH = 24 := ⟨rfl, rfl, rfl, rfl, rfl, rfl, rfl⟩
    obtain ⟨k1, k2, k3, k4, k5, k6, k7⟩ := k
    have : al.addr .ds / 4294967296 % 4294967296 = al.addr .ds / 4294967296 := Nat.mod_eq_of_lt (by omega)
    simp [lastWr, k1, k2, k3, k4, k5, k6, k7, this]
  · intro i hi
    obtain ⟨g1, g2, g3⟩ := htx i hi
    rw [hsh.queues]
    exact ⟨g1, fun x hx => ⟨g2 _ (by omega) (show _ < _ + 8192 by omega), g3 _ (by omega) (show _ < _ + 8192 by omega)⟩⟩
  · intro i hi
    obtain ⟨g1, g2, g3⟩ := hrx i hi
    rw [hsh.queues, Nat.mul_add, ← Nat.add_assoc]
    exact ⟨g1, fun x hx => ⟨g2 _ (by omega) (show _ < _ + 8192 by omega), g3 _ (by omega) (show _ < _ + 8192 by omega)⟩⟩
  · intro heq
    constructor
    · unfold txQueues
      rw [hc1, hsh.queues, heq]
      apply List.map_congr_left
      intro i hi
      exact (htx i (by rw [heq]; exact List.mem_range.mp hi)).1
    · unfold rxQueues
      rw [hc1, hc2, hsh.queues, heq]
      apply List.map_congr_left
      intro i hi
      have := (hrx i (List.mem_range.mp hi)).1
      rw [heq] at this
      rw [Nat.mul_add, ← Nat.add_assoc]
      exact this

/-- C95, what is wrong otherwise: the card is told the number of queues that receive as that of those that send, and
the other way round, always. -/
theorem c95_exchanged {dbg : Bool} {al : Alloc} {c : Card} {nrx trx : Nat} {m0 : Mem} {s : Drv}
    (h : bringUp dbg al c nrx trx m0 = .ok s) (hs : al.Separate (bounded 1 8 trx) (bounded 1 16 nrx))
    (hw : ∀ r, al.addr r < 2 ^ 64) :
    ∃ before m after, s.log = before ++ Ev.wr 1 CMD ENABLE m :: after ∧
      (txQueues m (al.addr .ds)).length = bounded 1 16 nrx ∧ (rxQueues m (al.addr .ds)).length = bounded 1 8 trx := by
  obtain ⟨m1, m, v0, v1, v2, low, high, ve, n, vl, vl', hlog, _, _, _, _, _, _, _, _, hsh, hc1, hc2, htx, hrx⟩ :=
    (bringUp_up h hs hw).log
  exact ⟨_, m, _, hlog, by simp [txQueues, hc1], by simp [rxQueues, hc2]⟩

/-- C95, only a card that the driver supports is started: it has offered the first version of both interfaces, and
interrupts of a kind that the driver knows. -/
theorem c95_supported {dbg : Bool} {al : Alloc} {c : Card} {nrx trx : Nat} {m0 : Mem} {s : Drv}
    (h : bringUp dbg al c nrx trx m0 = .ok s) (hs : al.Separate (bounded 1 8 trx) (bounded 1 16 nrx))
    (hw : ∀ r, al.addr r < 2 ^ 64) :
    ∃ v0 v1 v2 m before after, s.log = before ++ Ev.wr 1 CMD ENABLE m :: after ∧ (v0 = 0 ∨ v0 = 3) ∧
      (∃ m' p q, before = p ++ Ev.wr 1 CMD GET_INTRCFG m' :: Ev.rd 1 CMD v0 :: q) ∧
      v1 % 2 = 1 ∧ Ev.rd 1 VRRS v1 ∈ before ∧ lastWr 1 VRRS before = some 1 ∧
      v2 % 2 = 1 ∧ Ev.rd 1 UVRS v2 ∈ before ∧ lastWr 1 UVRS before = some 1 := by
  obtain ⟨m1, m, v0, v1, v2, low, high, ve, n, vl, vl', hlog, p0, p1, p2, _⟩ := (bringUp_up h hs hw).log
  have k : CMD = 32 ∧ VRRS = 0 ∧ UVRS = 8 ∧ MACL = 40 ∧ MACH = 48 ∧ DSL = 16 ∧ DSH = 24 := ⟨rfl, rfl, rfl, rfl, rfl, rfl, rfl⟩
  obtain ⟨k1, k2, k3, k4, k5, k6, k7⟩ := k
  refine ⟨v0, v1, v2, m, _, _, hlog, p0, ⟨m1, [], _, rfl⟩, p1, by simp, ?_, p2, by simp, ?_⟩
  · simp [lastWr, k1, k2, k3, k4, k5, k6, k7]
  · simp [lastWr, k1, k2, k3, k4, k5, k6, k7]

theorem enables_wr_ne (s : Drv) (b o v : Nat) (h : ¬ (b = 1 ∧ o = CMD ∧ v = ENABLE)) :
    enables (wr s b o v).log = enables s.log := by
  simp only [wr, enables_append, enables, h, if_false]; omega

theorem enables_rd (c : Card) (s : Drv) (b o : Nat) : enables (rd c s b o).log = enables s.log := by
  simp only [rd, enables_append, enables]; omega

/-- The state that a call ends with. -/
def Res.state : Res → Drv
  | .ok s | .err _ s | .panic s => s

theorem txRounds_log (al : Alloc) (n : Nat) (s : Drv) : (txRounds al n s).state.log = s.log := by
  induction n with
  | zero => rfl
  | succ n ih =>
    unfold txRounds
    cases hr : txRounds al n s with
    | ok t =>
      rw [hr] at ih
      simp only [Res.andThen]
      unfold txRound
      split
      · exact ih
      split
      · exact ih
      simp only
      split <;> exact ih
    | err e t => rw [hr] at ih; exact ih
    | panic t => rw [hr] at ih; exact ih

theorem rxRounds_log (al : Alloc) (n : Nat) (s : Drv) : (rxRounds al n s).state.log = s.log := by
  induction n with
  | zero => rfl
  | succ n ih =>
    unfold rxRounds
    cases hr : rxRounds al n s with
    | ok t =>
      rw [hr] at ih
      simp only [Res.andThen]
      unfold rxRound
      split
      · exact ih
      split
      · exact ih
      simp only
      split <;> exact ih
    | err e t => rw [hr] at ih; exact ih
    | panic t => rw [hr] at ih; exact ih

theorem checkVersion_enables (c : Card) (s : Drv) : enables (checkVersion c s).state.log = enables s.log := by
  have k : (VRRS = CMD) = False ∧ (UVRS = CMD) = False := by constructor <;> exact eq_false (by decide)
  unfold checkVersion
  split
  · exact enables_rd ..
  simp only
  split
  · simp only [Res.state]
    rw [enables_rd, enables_wr_ne _ _ _ _ (by simp [k.1]), enables_rd]
  · simp only [Res.state]
    rw [enables_wr_ne _ _ _ _ (by simp [k.2]), enables_rd, enables_wr_ne _ _ _ _ (by simp [k.1]), enables_rd]

theorem attachPre_enables (al : Alloc) (c : Card) (s : Drv) : enables (attachPre al c s).state.log = enables s.log := by
  have h1 := txRounds_log al s.ntx s
  unfold attachPre
  cases ht : txRounds al s.ntx s with
  | err e t => rw [ht] at h1; simp only [Res.andThen]; exact congrArg enables h1
  | panic t => rw [ht] at h1; simp only [Res.andThen]; exact congrArg enables h1
  | ok t =>
    rw [ht] at h1
    simp only [Res.andThen]
    have h2 := rxRounds_log al t.nrx t
    cases hr : rxRounds al t.nrx t with
    | err e u => rw [hr] at h2; exact congrArg enables (h2.trans h1)
    | panic u => rw [hr] at h2; exact congrArg enables (h2.trans h1)
    | ok u =>
      rw [hr] at h2
      simp only
      have he : enables (rd c (cmd u GET_INTRCFG) 1 CMD).log = enables s.log := by
        rw [enables_rd]
        unfold cmd
        rw [enables_wr_ne _ _ _ _ (by simp [ne_enable.2.2.2])]
        exact congrArg enables (h2.trans h1)
      split
      · exact he
      · rw [checkVersion_enables, he]

/-- C95, a card that is refused, memory that is missing and a check that fails: the card is never told to start. -/
theorem c95_refused (dbg : Bool) (al : Alloc) (c : Card) (nrx trx : Nat) (m0 : Mem) :
    (∃ s, bringUp dbg al c nrx trx m0 = .ok s) ∨ enables (bringUp dbg al c nrx trx m0).state.log = 0 := by
  have hn : ∀ t, enables ((new al nrx trx m0).andThen t).state.log = 0 ∨ ∃ s, new al nrx trx m0 = .ok s ∧ s.log = [] := by
    intro t
    unfold new
    simp only
    split
    · left; simp [Res.andThen, Res.state, enables]
    split
    · left; simp [Res.andThen, Res.state, enables]
    · right; exact ⟨_, rfl, rfl⟩
  unfold bringUp
  cases hnew : new al nrx trx m0 with
  | err e s => right; have := hn (attachPre al c); rw [hnew] at this; rcases this with h | ⟨s, h, _⟩
               · exact h
               · exact absurd h (by simp)
  | panic s => right; have := hn (attachPre al c); rw [hnew] at this; rcases this with h | ⟨s, h, _⟩
               · exact h
               · exact absurd h (by simp)
  | ok s =>
    have hl : s.log = [] := by
      have := new_ok hnew
      rw [this]
    have ha := attachPre_enables al c s
    rw [hl] at ha
    simp only [Res.andThen]
    cases hat : attachPre al c s with
    | err e t => right; rw [hat] at ha; exact ha
    | panic t => right; rw [hat] at ha; exact ha
    | ok t =>
      rw [hat] at ha
      simp only
      unfold init setMac retrieveMac
      simp only
      split
      · right
        simp only [Res.andThen, Res.state]
        rw [enables_rd]
        unfold cmd
        rw [enables_wr_ne _ _ _ _ (by simp [ne_enable.2.2.1]), enables_rd, enables_wr_ne _ _ _ _ (by simp [ne_enable.2.1])]
        exact ha
      · left
        exact ⟨_, rfl⟩

/-- C95, the address of the card: the driver knows the one that the card has told, and leaves the card with it. -/
theorem c95_mac {dbg : Bool} {al : Alloc} {c : Card} {nrx trx : Nat} {m0 : Mem} {s : Drv}
    (h : bringUp dbg al c nrx trx m0 = .ok s) (hs : al.Separate (bounded 1 8 trx) (bounded 1 16 nrx))
    (hw : ∀ r, al.addr r < 2 ^ 64) :
    ∃ low high m before after, s.log = before ++ Ev.wr 1 CMD GET_MACL m :: Ev.rd 1 CMD low ::
        Ev.wr 1 CMD GET_MACH m :: Ev.rd 1 CMD high :: after ∧
      s.mac = macOf low high ∧ lastWr 1 MACL s.log = some low ∧ lastWr 1 MACH s.log = some (high % 65536) ∧
      (dbg = true → (macOf low high).take 5 = [86, 180, 68, 233, 98]) := by
  obtain ⟨m1, m, v0, v1, v2, low, high, ve, n, vl, vl', hlog, p0, p1, p2, q0, q1, q2, _⟩ := (bringUp_up h hs hw).log
  have k : CMD = 32 ∧ VRRS = 0 ∧ UVRS = 8 ∧ MACL = 40 ∧ MACH = 48 ∧ DSL = 16 ∧ DSH = 24 := ⟨rfl, rfl, rfl, rfl, rfl, rfl, rfl⟩
  obtain ⟨k1, k2, k3, k4, k5, k6, k7⟩ := k
  have hh : ∀ o j, lastWr 1 o (heads m j) = none := by
    intro o j
    induction j with
    | zero => rfl
    | succ j ih => simp [heads, lastWr_append, lastWr, ih]
  refine ⟨low, high, m1, [.wr 1 CMD GET_INTRCFG m1, .rd 1 CMD v0, .rd 1 VRRS v1, .wr 1 VRRS 1 m1, .rd 1 UVRS v2,
    .wr 1 UVRS 1 m1], _, hlog, q1, ?_, ?_, q2⟩
  · rw [hlog]; simp [lastWr_append, lastWr, hh, k1, k2, k3, k4, k5, k6, k7]
  · rw [hlog]; simp [lastWr_append, lastWr, hh, k1, k2, k3, k4, k5, k6, k7]

/-- C95, the state of the link is the one that the card told last. -/
theorem c95_link {dbg : Bool} {al : Alloc} {c : Card} {nrx trx : Nat} {m0 : Mem} {s : Drv}
    (h : bringUp dbg al c nrx trx m0 = .ok s) (hs : al.Separate (bounded 1 8 trx) (bounded 1 16 nrx))
    (hw : ∀ r, al.addr r < 2 ^ 64) :
    ∃ before m v, s.log = before ++ [Ev.wr 1 CMD GET_LINK m, Ev.rd 1 CMD v] ∧ (s.link = true ↔ v % 2 = 1) := by
  obtain ⟨m1, m, v0, v1, v2, low, high, ve, n, vl, vl', hlog, p0, p1, p2, q0, q1, q2, n2, hlk, _⟩ := (bringUp_up h hs hw).log
  refine ⟨[.wr 1 CMD GET_INTRCFG m1, .rd 1 CMD v0, .rd 1 VRRS v1, .wr 1 VRRS 1 m1, .rd 1 UVRS v2, .wr 1 UVRS 1 m1,
      .wr 1 CMD GET_MACL m1, .rd 1 CMD low, .wr 1 CMD GET_MACH m1, .rd 1 CMD high, .wr 1 MACL low m1,
      .wr 1 MACH (high % 65536) m1, .wr 1 DSL (al.addr .ds % 4294967296) m,
      .wr 1 DSH (al.addr .ds / 4294967296 % 4294967296) m, .wr 1 CMD ENABLE m, .rd 1 CMD ve] ++ heads m n ++
      [.wr 1 CMD GET_LINK m, .rd 1 CMD vl], m, vl', ?_, by simp [hlk]⟩
  rw [hlog]
  simp only [List.append_assoc, List.cons_append, List.nil_append]

/-- C95, machines of a rack have different addresses: both the Ethernet and the IP address tell them apart, and a machine
whose number does not fit is refused. -/
theorem c95_machines (dbg : Bool) (i j : Nat) (a b : Nat × Nat) (hi : machineAddr dbg i = some a)
    (hj : machineAddr dbg j = some b) : (a.1 = b.1 ↔ i = j) ∧ (a.2 = b.2 ↔ i = j) ∧ a.1 < 256 ∧ a.2 < 256 := by
  unfold machineAddr at hi hj
  split at hi
  · exact absurd hi (by simp)
  split at hi
  · exact absurd hi (by simp)
  split at hj
  · exact absurd hj (by simp)
  split at hj
  · exact absurd hj (by simp)
  have hi := (Option.some.inj hi).symm
  have hj := (Option.some.inj hj).symm
  subst hi hj
  simp only
  omega

/-- C95, which machine numbers the debug build accepts. -/
theorem c95_machine_numbers (i : Nat) : (machineAddr true i).isSome ↔ i < 48 := by
  unfold machineAddr
  split
  · simp; omega
  · split
    · rename_i h; simp at h ⊢; omega
    · rename_i h; simp at h ⊢; omega

end NRK.Nic
