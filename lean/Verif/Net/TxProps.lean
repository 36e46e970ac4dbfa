import Verif.Net.TxStep

/-!
# C74: Frames handed to the network card are sent once, in order, and their buffers come back after that

For every interleaving of the driver's writes with the device.  The theorems carry the suffix `_partial` where
they need the assumptions of `TxOk` and `Pow2`: see the witnesses at the end.
-/

namespace NRK.Net

/-- The packets on the wire are the first ones `enqueue` accepted, in order and segment for segment. -/
theorem c74_sent_partial {ndesc : Nat} (hn : Pow2 (TxSt.new ndesc).q.n) {s : TxSt} (h : TxRun ndesc TxOk s) :
    s.wire <+: s.accepted.map Chain.segs := by
  obtain ⟨⟨T, P, W, D, R, C, hq, hd, hc, hT⟩, _⟩ := h.inv hn
  rw [hd.pre, List.map_take]
  exact List.take_prefix _ _

/-- `dequeue` gives back the accepted chains in order, and none before the device has sent it. -/
theorem c74_returned_partial {ndesc : Nat} (hn : Pow2 (TxSt.new ndesc).q.n) {s : TxSt} (h : TxRun ndesc TxOk s) :
    s.returned <+: s.accepted ∧ s.returned.length ≤ s.wire.length := by
  obtain ⟨⟨T, P, W, D, R, C, hq, hd, hc, hT⟩, _⟩ := h.inv hn
  have h1 := hc.ret
  have h2 : s.returned <+: s.accepted.take R := ⟨s.q.processed, h1⟩
  refine ⟨h2.trans (List.take_prefix _ _), ?_⟩
  have h3 := h2.length_le
  rw [List.length_take] at h3
  have := hc.rc
  have := hc.ck
  omega

/-- None of the assertions of the queue fails. -/
theorem c74_no_panic_partial {ndesc : Nat} (hn : Pow2 (TxSt.new ndesc).q.n) {s : TxSt} (h : TxRun ndesc TxOk s)
    {a : TxAct} (ha : TxOk a) : s.step a ≠ .panic := by
  intro hp
  rcases (h.inv hn).next ha with h1 | ⟨s', h1, _⟩
  · rw [h1] at hp; cases hp
  · rw [h1] at hp; cases hp

theorem idle_numbers {s : TxSt} (h : Inv s) (hi : s.w = .idle) :
    s.q.len = segCount s.outstanding ∧ segCount s.outstanding < s.q.n := by
  obtain ⟨⟨T, P, W, D, R, C, hq, hd, hc, hT⟩, _⟩ := h
  have h1 : s.q.len = W - T := hq.count
  have h2 : W = P := by have := hq.wr; rw [hi] at this; exact this
  have h3 : s.returned.length + s.q.processed.length = R := by
    have h4 := congrArg List.length hc.ret
    rw [List.length_append, List.length_take] at h4
    have := hc.rc
    have := hc.ck
    have := hc.ka
    omega
  have h4 : segCount s.accepted = segCount (s.accepted.take R) + segCount s.outstanding := by
    rw [TxSt.outstanding, h3, ← segCount_append, List.take_append_drop]
  have h5 := hq.hP
  have h6 := hq.room
  omega

/-- A packet is refused exactly if it does not fit beside the packets that are outstanding; the refusal changes
nothing.  `can_enqueue` foretells the answer. -/
theorem c74_refused {ndesc : Nat} (hn : Pow2 (TxSt.new ndesc).q.n) {s : TxSt} (h : TxRun ndesc TxOk s)
    (hi : s.w = .idle) {c : Chain} (hc : c.Proper) :
    (segCount s.outstanding + c.segs.length < s.q.n →
      ∃ s', s.step (.enqueue c) = .ok s' ∧ s'.w.chain = some c ∧ s.q.canEnqueue c.segs.length = true) ∧
    (s.q.n ≤ segCount s.outstanding + c.segs.length →
      s.step (.enqueue c) = .ok s ∧ s.q.canEnqueue c.segs.length = false) := by
  obtain ⟨h1, h2⟩ := idle_numbers (h.inv hn) hi
  have h3 := hc.2.1
  constructor
  · intro h4
    refine ⟨{ s with w := .busy c s.q.head (!s.q.gen) c.segs .addr }, ?_, rfl, ?_⟩
    · simp only [TxSt.step, hi, TxQ.admit]
      rw [if_neg (by omega), if_neg (by omega)]
    · unfold TxQ.canEnqueue; rw [h1]; exact decide_eq_true (by omega)
  · intro h4
    refine ⟨?_, ?_⟩
    · simp only [TxSt.step, hi, TxQ.admit]
      rw [if_neg (by omega), if_pos (by omega)]
    · unfold TxQ.canEnqueue; rw [h1]; exact decide_eq_false (by omega)

/-- An `enqueue` that was let in makes its writes to the end and then has accepted its chain; it does nothing
else. -/
theorem c74_completes_partial {ndesc : Nat} (hn : Pow2 (TxSt.new ndesc).q.n) {s : TxSt} (h : TxRun ndesc TxOk s)
    {c : Chain} (hb : s.w.chain = some c) : ∃ s', s.step .write = .ok s' ∧ s'.w.left < s.w.left ∧
      s'.dev = s.dev ∧ s'.wire = s.wire ∧ s'.returned = s.returned ∧ s'.q.processed = s.q.processed ∧ s'.q.n = s.q.n ∧
      ((s'.w.chain = some c ∧ s'.accepted = s.accepted) ∨ (s'.w = .idle ∧ s'.accepted = s.accepted ++ [c])) := by
  obtain ⟨⟨T, P, W, D, R, C, hq, hd, hc, hT⟩, _⟩ := h.inv hn
  cases hw : s.w with
  | idle => rw [hw] at hb; cases hb
  | busy c' old g rest ph =>
    rw [hw] at hb hq
    simp only [Writer.chain, Option.some.injEq] at hb
    subst hb
    cases rest with
    | nil =>
      simp only [TxSt.step, hw]
      refine ⟨_, rfl, ?_, rfl, rfl, rfl, rfl, rfl, .inr ⟨rfl, rfl⟩⟩
      have hs := hq.wr.2.2.2.2.2
      cases ph with
      | addr => simp [Writer.left]
      | gen => exact absurd hs (by simp [Slot])
      | adv => exact absurd hs (by simp [Slot])
    | cons sg rest =>
      cases ph with
      | addr =>
        obtain ⟨q', w', e, h', e1, e2, e3, e4, e5, e6, e7⟩ := hq.addr rfl
        have hw' : w' = .busy c' old g (sg :: rest) .gen := by
          simp only [TxQ.write] at e
          split at e
          · cases e
          · split at e
            · cases e
            · cases e; rfl
        exact ⟨_, step_write hw e, by simp [Writer.left, hw'], rfl, rfl, rfl, e6, e1, .inl ⟨by simp [hw', Writer.chain], rfl⟩⟩
      | gen =>
        obtain ⟨q', w', e, h', e1, e2, e3, e4, e5, e6, e7⟩ := hq.mark rfl
        have hw' : w' = .busy c' old g (sg :: rest) .adv := by simp only [TxQ.write] at e; cases e; rfl
        exact ⟨_, step_write hw e, by simp [Writer.left, hw']; omega, rfl, rfl, rfl, e6, e1,
          .inl ⟨by simp [hw', Writer.chain], rfl⟩⟩
      | adv =>
        obtain ⟨q', w', e, h', e1, e2, e3, e4, e5, e6, e7⟩ := hq.adv rfl
        have hw' : ∃ g', w' = .busy c' old g' rest .addr := by simp only [TxQ.write] at e; cases e; exact ⟨_, rfl⟩
        obtain ⟨g', hw'⟩ := hw'
        exact ⟨_, step_write hw e, by simp [Writer.left, hw']; omega, rfl, rfl, rfl, e6, e1,
          .inl ⟨by simp [hw', Writer.chain], rfl⟩⟩

/-- After `flush` the device's register shows all that was accepted: the write is left out only if the register
has this value already. -/
theorem c74_flush {ndesc : Nat} (hn : Pow2 (TxSt.new ndesc).q.n) {s s' : TxSt} (h : TxRun ndesc TxOk s)
    (he : s.step .flush = .ok s') : s'.dev.db = segCount s'.accepted % s'.q.n := by
  have hinv := h.inv hn
  have hdb := hinv.db
  obtain ⟨⟨T, P, W, D, R, C, hq, hd, hc, hT⟩, _⟩ := hinv
  cases hw : s.w with
  | busy _ _ _ _ _ => simp only [TxSt.step, hw] at he; cases he
  | idle =>
    have hWP : W = P := by have := hq.wr; rw [hw] at this; exact this
    have hh : s.q.head = segCount s.accepted % s.q.n := by rw [hq.head, hWP, hq.hP]
    simp only [TxSt.step, hw] at he
    cases he
    unfold TxQ.flush
    by_cases hf : s.q.lastFlush = some s.q.head
    · rw [if_pos hf]
      simp only [Option.getD_none]
      rw [hdb _ hf, hh]
    · rw [if_neg hf]
      simp only [Option.getD_some]
      exact hh

/-- Descriptors the device has read. -/
def TxSt.read (s : TxSt) : Nat := (s.wire.map List.length).sum + s.dev.cur.length

theorem Dv.read {s : TxSt} {D : Nat} (h : Dv s.q.n s.dev s.accepted s.wire D) : D = s.read := by
  have h1 := h.hD
  have h2 : segCount (s.accepted.take s.wire.length) = (s.wire.map List.length).sum := by
    conv => rhs; rw [h.pre]
    rw [segCount, List.map_map]; rfl
  rw [h1, h2]; rfl

/-- Work that is left for device and driver. -/
def TxSt.work (s : TxSt) : Nat := 3 * (segCount s.accepted - s.read) + 2 * s.dev.pend.length +
  (s.wire.length - s.dev.pend.length - (s.returned.length + s.q.processed.length))

theorem work_lt {s s' : TxSt} (h : Inv s) (h' : Inv s') {a : TxAct} (ha : a.internal = true)
    (hs : s.step a = .ok s') (hne : s' ≠ s) : s'.work < s.work ∧ (s.w = .idle → s'.w = .idle) := by
  obtain ⟨⟨T, P, W, D, R, C, hq, hd, hc, hT⟩, _⟩ := h
  obtain ⟨⟨T', P', W', D', R', C', hq', hd', hc', hT'⟩, _⟩ := h'
  have hD := hd.read
  have hD' := hd'.read
  have e1 := hd.le_sent
  have e1' := hd'.le_sent
  have hck := hc.ck
  have hrc := hc.rc
  have hka := hc.ka
  have hR : s.returned.length + s.q.processed.length = R := by
    have h4 := congrArg List.length hc.ret
    rw [List.length_append, List.length_take] at h4
    omega
  unfold TxSt.work
  cases a with
  | enqueue _ => cases ha
  | write => cases ha
  | dequeue => cases ha
  | flush => cases ha
  | devSkip => cases ha
  | reap =>
    cases hw : s.w with
    | busy _ _ _ _ _ => simp only [TxSt.step, hw] at hs; cases hs
    | idle =>
      rcases Cp.reap hq hw hc hT with ⟨_, e⟩ | ⟨hlt, q', c, e, _, _, _, _, _, h6⟩
      · simp only [TxSt.step, hw, e] at hs
        cases hs
        exact absurd rfl hne
      · simp only [TxSt.step, hw, e] at hs
        cases hs
        refine ⟨?_, fun _ => rfl⟩
        simp only [TxSt.read, h6, List.length_append, List.length_singleton] at *
        omega
  | devRead =>
    simp only [TxSt.step] at hs
    split at hs
    · cases hs
    · split at hs
      · cases hs
        refine ⟨?_, id⟩
        simp only [TxSt.read, List.map_append, List.sum_append, List.length_append, List.map_cons, List.map_nil,
          List.sum_cons, List.sum_nil, List.length_cons, List.length_nil] at *
        omega
      · cases hs
        refine ⟨?_, id⟩
        simp only [TxSt.read, List.length_append, List.length_cons, List.length_nil] at *
        omega
  | devComp =>
    cases hp : s.dev.pend with
    | nil => simp only [TxSt.step, hp] at hs; cases hs
    | cons x rest =>
      simp only [TxSt.step, hp] at hs
      cases hs
      refine ⟨?_, id⟩
      rw [hp, List.length_cons] at hck
      simp only [TxSt.read, List.length_cons] at *
      omega

/-- As long as something is outstanding, device or driver can go on. -/
theorem can_go {s : TxSt} (h : Inv s) (hi : s.w = .idle) (ho : s.outstanding ≠ []) :
    ∃ a s', a.internal = true ∧ s.step a = .ok s' ∧ s' ≠ s := by
  obtain ⟨⟨T, P, W, D, R, C, hq, hd, hc, hT⟩, _⟩ := h
  have hrc := hc.rc
  have hck := hc.ck
  have hka := hc.ka
  have hR : s.returned.length + s.q.processed.length = R := by
    have h4 := congrArg List.length hc.ret
    rw [List.length_append, List.length_take] at h4
    omega
  obtain ⟨_, hDP, hTD⟩ := window hq hd hc hT
  have hdh := hd.hD
  have hout : R ≠ s.accepted.length := by
    intro h; apply ho; unfold TxSt.outstanding; rw [hR, h]; exact List.drop_length
  rcases Nat.lt_or_ge R C with hRC | hRC
  · rcases Cp.reap hq hi hc hT with ⟨e, _⟩ | ⟨_, q', c, e, _, _, _, _, _, h6⟩
    · omega
    · refine ⟨.reap, { s with q := q' }, rfl, by simp only [TxSt.step, hi, e], ?_⟩
      intro he
      have := congrArg (fun s : TxSt => s.q.processed.length) he
      simp [h6] at this
  · cases hp : s.dev.pend with
    | cons x rest =>
      obtain ⟨i, b⟩ := x
      have e : ∃ s', s.step .devComp = .ok s' ∧ s'.dev.pend = rest := by
        simp only [TxSt.step, hp]
        exact ⟨_, rfl, rfl⟩
      obtain ⟨s', e, e'⟩ := e
      refine ⟨.devComp, s', rfl, e, ?_⟩
      intro he
      rw [he, hp] at e'
      have := congrArg List.length e'
      simp at this
    | nil =>
      have hlt : D < segCount s.accepted := by
        rcases hd.cur with hcur | ⟨c, h1, _, h2⟩
        · have h3 := segCount_ge hq.prop (k := s.wire.length) (l := s.accepted.length) hd.le (Nat.le_refl _)
          rw [List.take_length] at h3
          rw [hp] at hck
          simp at hck
          rw [hcur] at hdh
          simp at hdh
          omega
        · have h3 := segCount_take_succ h1
          have h4 := segCount_take_le s.accepted (s.wire.length + 1)
          omega
      have hpw := hq.pw
      have hroom := hq.room
      have hP := hq.hP
      have hgen := hq.g1 D (by omega) (by omega) (by omega)
      have e : ∃ s', s.step .devRead = .ok s' ∧ (s'.wire.length = s.wire.length + 1 ∨
          s'.dev.cur.length = s.dev.cur.length + 1) := by
        have hr : s.q.ring s.dev.next = s.q.ring (D % s.q.n) := by rw [hd.next]
        simp only [TxSt.step, hr]
        rw [if_neg (by rw [hgen, hd.gen]; simp)]
        split
        · exact ⟨_, rfl, .inl (by simp)⟩
        · exact ⟨_, rfl, .inr (by simp)⟩
      obtain ⟨s', e, e'⟩ := e
      refine ⟨.devRead, s', rfl, e, ?_⟩
      intro he
      rw [he] at e'
      omega

/-- Every packet is sent in the end and its chain comes back: driver and device cannot come to a standstill
before, and cannot go on forever. -/
theorem c74_drains_partial {ndesc : Nat} (hn : Pow2 (TxSt.new ndesc).q.n) {s : TxSt} (h : TxRun ndesc TxOk s)
    (hi : s.w = .idle) : Drains s := by
  generalize hm : s.work = m
  induction m using Nat.strongRecOn generalizing s with
  | _ m ih =>
    by_cases ho : s.outstanding = []
    · exact .done ho
    · refine .more (can_go (h.inv hn) hi ho) ?_
      intro a s' ha he hne
      have hok : TxOk a := by cases a <;> simp_all [TxAct.internal, TxOk]
      have hrun : TxRun ndesc TxOk s' := .step a h hok he
      have := work_lt (h.inv hn) (hrun.inv hn) ha he hne
      exact ih _ (hm ▸ this.1) hrun (this.2 hi) rfl

/-- When nothing is outstanding, everything accepted is on the wire. -/
theorem c74_drained_partial {ndesc : Nat} (hn : Pow2 (TxSt.new ndesc).q.n) {s : TxSt} (h : TxRun ndesc TxOk s)
    (ho : s.outstanding = []) : s.wire = s.accepted.map Chain.segs := by
  obtain ⟨⟨T, P, W, D, R, C, hq, hd, hc, hT⟩, _⟩ := h.inv hn
  have h1 := hc.rc
  have h2 := hc.ck
  have h3 := hc.ka
  have h4 := congrArg List.length hc.ret
  rw [List.length_append, List.length_take] at h4
  have h5 : s.accepted.length ≤ s.returned.length + s.q.processed.length := by
    have := List.drop_eq_nil_iff.1 ho
    omega
  rw [hd.pre, List.take_of_length_le (by omega)]

/-- An `enqueue` while the device does nothing. -/
theorem accept_one {ndesc : Nat} (hn : Pow2 (TxSt.new ndesc).q.n) {s : TxSt} (h : TxRun ndesc TxOk s) {c : Chain}
    (hb : s.w.chain = some c) : ∃ s', TxRun ndesc TxOk s' ∧ s'.w = .idle ∧ s'.accepted = s.accepted ++ [c] ∧
      s'.wire = s.wire ∧ s'.returned = s.returned ∧ s'.q.processed = s.q.processed ∧ s'.q.n = s.q.n := by
  generalize hm : s.w.left = m
  induction m using Nat.strongRecOn generalizing s with
  | _ m ih =>
    obtain ⟨s', e, h1, _, h3, h4, h5, h8, h6⟩ := c74_completes_partial hn h hb
    have hrun : TxRun ndesc TxOk s' := .step .write h trivial e
    rcases h6 with ⟨h6, h7⟩ | ⟨h6, h7⟩
    · obtain ⟨s'', g1, g2, g3, g4, g5, g6, g7⟩ := ih _ (hm ▸ h1) hrun h6 rfl
      exact ⟨s'', g1, g2, by rw [g3, h7], by rw [g4, h3], by rw [g5, h4], by rw [g6, h5], by rw [g7, h8]⟩
    · exact ⟨s', hrun, h6, h7, h3, h4, h5, h8⟩

/-- Finding: the ring fills up if frames are sent faster than the device reports them; then `enqueue` refuses
every packet, and `TxPacket::consume` (`lib/vmxnet3/src/smoltcp.rs`, lines 187-208) asserts that it does not. -/
theorem c74_burst {ndesc : Nat} (hn : Pow2 (TxSt.new ndesc).q.n) {c : Chain} (hc : c.segs.length = 1)
    (hp : c.Proper) : ∃ s, TxRun ndesc TxOk s ∧ s.w = .idle ∧ s.accepted.length = s.q.n - 1 ∧ s.wire = [] ∧
      ∀ c' : Chain, c'.Proper → s.step (.enqueue c') = .ok s := by
  have h32 : 32 ≤ (TxSt.new ndesc).q.n := by simp only [TxSt.new, TxQ.new]; omega
  have key : ∀ k, k < (TxSt.new ndesc).q.n → ∃ s, TxRun ndesc TxOk s ∧ s.w = .idle ∧ s.accepted = List.replicate k c ∧
      s.wire = [] ∧ s.returned = [] ∧ s.q.processed = [] ∧ s.q.n = (TxSt.new ndesc).q.n := by
    intro k
    induction k with
    | zero => intro _; exact ⟨_, .init, rfl, rfl, rfl, rfl, rfl, rfl⟩
    | succ k ih =>
      intro hk
      obtain ⟨s, h1, h2, h3, h4, h5, h6, h7⟩ := ih (by omega)
      have hout : segCount s.outstanding = k := by
        unfold TxSt.outstanding
        rw [h5, h6, h3]
        simp [segCount, hc]
      obtain ⟨s', e, h8, _⟩ := (c74_refused hn h1 h2 hp).1 (by rw [hout, hc, h7]; exact hk)
      have hrun : TxRun ndesc TxOk s' := .step (.enqueue c) h1 hp e
      have hs' : s'.accepted = s.accepted ∧ s'.wire = s.wire ∧ s'.returned = s.returned ∧ s'.q = s.q := by
        simp only [TxSt.step, h2] at e
        split at e <;> cases e <;> exact ⟨rfl, rfl, rfl, rfl⟩
      obtain ⟨s'', g1, g2, g3, g4, g5, g6, g7⟩ := accept_one hn hrun h8
      refine ⟨s'', g1, g2, ?_, ?_, ?_, ?_, ?_⟩
      · rw [g3, hs'.1, h3, List.replicate_succ']
      · rw [g4, hs'.2.1, h4]
      · rw [g5, hs'.2.2.1, h5]
      · rw [g6, hs'.2.2.2, h6]
      · rw [g7, hs'.2.2.2, h7]
  obtain ⟨s, h1, h2, h3, h4, h5, h6, h7⟩ := key ((TxSt.new ndesc).q.n - 1) (by omega)
  refine ⟨s, h1, h2, by rw [h3, h7]; simp, h4, ?_⟩
  intro c' hc'
  have hout : segCount s.outstanding = (TxSt.new ndesc).q.n - 1 := by
    unfold TxSt.outstanding
    rw [h5, h6, h3]
    simp [segCount, hc]
  have := hc'.1
  exact ((c74_refused hn h1 h2 hc').2 (by rw [hout, h7]; omega)).1

/-! ## Cases -/

def exA : Chain := ⟨[⟨0x1000, 60⟩, ⟨0x2000, 1400⟩], 0⟩
def exB : Chain := ⟨[⟨0x3000, 42⟩], 1⟩

def Res.panics : Res TxSt → Bool
  | .panic => true
  | _ => false

/-- Two packets, the second one published while the device is at the first. -/
theorem c74_sample : (match (TxSt.new 32).exec ([.enqueue exA] ++ List.replicate 7 .write ++ [.flush, .devRead,
      .enqueue exB, .write, .devRead, .devComp, .write, .write, .write, .flush, .devRead, .reap, .dequeue, .devComp,
      .dequeue, .dequeue]) with
    | .ok s => decide (s.wire = [exA.segs, exB.segs] ∧ s.accepted = [exA, exB] ∧ s.returned = [exA, exB] ∧
        s.dev.db = 3)
    | _ => false) = true := by decide +kernel

/-- The assumptions hold for the sizes and packets the driver is used with (`vmx.rs`, line 225). -/
theorem c74_sizes : Pow2 (TxSt.new 512).q.n ∧ Pow2 (TxSt.new 32).q.n ∧ exA.Proper ∧ exB.Proper := by
  refine ⟨⟨9, rfl⟩, ⟨5, rfl⟩, ?_, ?_⟩ <;>
    (unfold Chain.Proper; refine ⟨by decide, by decide, by decide⟩)

/-- Finding: a chain without segments hands the device the stale descriptor at the head; the packet that is
accepted after it is never sent. -/
theorem c74_empty_chain : (match (TxSt.new 32).exec ([.enqueue ⟨[], 0⟩, .write, .devRead, .enqueue exB] ++
      List.replicate 4 .write) with
    | .ok s => decide (s.accepted = [⟨[], 0⟩, exB] ∧ s.dev.cur = [⟨0, 0⟩] ∧ s.wire = []) &&
        (match s.step .devRead with | .off => true | _ => false)
    | _ => false) = true := by decide +kernel

/-- Finding: `compreq` is only set for packets with flag 1.  If the device makes use of that and reports only the
packets it was asked to, the next completion trips an assertion. -/
theorem c74_coalesced : ((TxSt.new 32).exec ([.enqueue ⟨exA.segs, 0⟩] ++ List.replicate 7 .write ++ [.enqueue exB] ++
      List.replicate 4 .write ++ [.devRead, .devRead, .devRead, .devSkip, .devComp, .reap])).panics = true := by
  decide +kernel

/-- Finding: the length field has 14 bits, a longer segment is cut without an error. -/
theorem c74_long_segment : (match (TxSt.new 32).exec [.enqueue ⟨[⟨0x1000, 16484⟩], 0⟩, .write, .write, .write, .write,
      .devRead] with
    | .ok s => decide (s.wire = [[⟨0x1000, 100⟩]])
    | _ => false) = true := by decide +kernel

/-- Finding: the constructor accepts sizes that are no powers of two, for which the arithmetic is wrong: the first
packet that ends at the end of the ring trips an assertion. -/
theorem c74_odd_size : ((TxSt.new 33).exec ((List.replicate 33 ([.enqueue exB] ++ List.replicate 4 .write ++
      [.devRead, .devComp, .dequeue])).flatten)).panics = true := by
  decide +kernel

end NRK.Net
