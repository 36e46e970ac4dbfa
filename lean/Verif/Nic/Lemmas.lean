import Verif.Nic.Model
/-!
# Lemmas about bringing up the network card
-/

namespace NRK.Nic

/-! ## Memory -/

theorem at'_congr {m m' : Mem} : ∀ (k a : Nat), (∀ x, a ≤ x → x < a + k → m x = m' x) → at' m a k = at' m' a k
  | 0, _, _ => rfl
  | k + 1, a, h => by
    have ih := at'_congr k (a + 1) (fun x h1 h2 => h x (by omega) (by omega))
    simp only [at', ih, h a (Nat.le_refl a) (by omega)]

theorem at'_put_aux (m : Mem) (a n v : Nat) : ∀ (k j : Nat), j + k ≤ n →
    at' (put m a n v) (a + j) k = v / 256 ^ j % 256 ^ k
  | 0, j, _ => by simp [at', Nat.mod_one]
  | k + 1, j, h => by
    have ih := at'_put_aux m a n v k (j + 1) (by omega)
    have e : a + j + 1 = a + (j + 1) := by omega
    have hb : put m a n v (a + j) = v / 256 ^ j % 256 := by
      have h1 : a ≤ a + j ∧ a + j < a + n := by omega
      have h2 : a + j - a = j := by omega
      simp only [put, h1, and_self, if_true, h2]
    simp only [at', hb, e, ih]
    rw [Nat.pow_succ 256 j, ← Nat.div_div_eq_div_mul, Nat.pow_succ 256 k, Nat.mul_comm (256 ^ k) 256, Nat.mod_mul]

theorem at'_put_same (m : Mem) (a n v : Nat) : at' (put m a n v) a n = v % 256 ^ n := by
  have := at'_put_aux m a n v n 0 (by omega)
  simpa using this

theorem at'_put_other (m : Mem) (a n v b k : Nat) (h : b + k ≤ a ∨ a + n ≤ b) :
    at' (put m a n v) b k = at' m b k :=
  at'_congr k b (fun x h1 h2 => by
    have : ¬ (a ≤ x ∧ x < a + n) := by rcases h with h | h <;> omega
    simp only [put, this, if_false])

theorem put_out (m : Mem) (a n v x : Nat) (h : x < a ∨ a + n ≤ x) : put m a n v x = m x := by
  have : ¬ (a ≤ x ∧ x < a + n) := by omega
  simp only [put, this, if_false]

theorem put_zero (m : Mem) (a n x : Nat) (h : a ≤ x ∧ x < a + n) : put m a n 0 x = 0 := by
  simp only [put, h, and_self, if_true, Nat.zero_div, Nat.zero_mod]

/-- The sizes of the pieces. -/
def Rid.size (ntx nrx : Nat) : Rid → Nat
  | .ds => 720
  | .qs => areaSize ntx nrx
  | _ => 8192

/-- The pieces that are allocated for so many queues. -/
def Rid.Valid (ntx nrx : Nat) : Rid → Prop
  | .txc i | .txd i => i < ntx
  | .rxc i | .rxd i => i < nrx
  | _ => True

/-- Only the piece `r` differs. -/
def Only (al : Alloc) (ntx nrx : Nat) (r : Rid) (m m' : Mem) : Prop :=
  ∀ x, x < al.addr r ∨ al.addr r + r.size ntx nrx ≤ x → m' x = m x

/-- Different pieces do not overlap (what an allocator promises). -/
def Alloc.Separate (al : Alloc) (ntx nrx : Nat) : Prop :=
  ∀ r s : Rid, r.Valid ntx nrx → s.Valid ntx nrx → r ≠ s →
    al.addr r + r.size ntx nrx ≤ al.addr s ∨ al.addr s + s.size ntx nrx ≤ al.addr r

theorem only_put (al : Alloc) (ntx nrx : Nat) (r : Rid) (m m0 : Mem) (a n v : Nat) (h : Only al ntx nrx r m0 m)
    (h1 : al.addr r ≤ a) (h2 : a + n ≤ al.addr r + r.size ntx nrx) : Only al ntx nrx r m0 (put m a n v) := by
  intro x hx
  rw [put_out _ _ _ _ _ (by omega)]
  exact h x hx

theorem only_refl (al : Alloc) (ntx nrx : Nat) (r : Rid) (m : Mem) : Only al ntx nrx r m m := fun _ _ => rfl

theorem only_byte {al : Alloc} {ntx nrx : Nat} {r s : Rid} {m m' : Mem} (h : Only al ntx nrx r m m')
    (hs : al.Separate ntx nrx) (hr : r.Valid ntx nrx) (hv : s.Valid ntx nrx) (hne : r ≠ s) (x : Nat)
    (h1 : al.addr s ≤ x) (h2 : x < al.addr s + s.size ntx nrx) : m' x = m x := by
  apply h x
  rcases hs r s hr hv hne with h | h <;> omega

theorem only_at' {al : Alloc} {ntx nrx : Nat} {r s : Rid} {m m' : Mem} (h : Only al ntx nrx r m m')
    (hs : al.Separate ntx nrx) (hr : r.Valid ntx nrx) (hv : s.Valid ntx nrx) (hne : r ≠ s) (a k : Nat)
    (h1 : al.addr s ≤ a) (h2 : a + k ≤ al.addr s + s.size ntx nrx) : at' m' a k = at' m a k :=
  at'_congr k a (fun x g1 g2 => only_byte h hs hr hv hne x (by omega) (by omega))

/-! ## The records of the queues -/

/-- The stores of a round to the record of a queue that sends. -/
def txRec (m : Mem) (a c d q z : Nat) : Mem :=
  put (put (put (put (put (put m (a + 16) 8 c) (a + 56) 4 512) (a + 32) 8 d) (a + 64) 4 512) (a + 40) 8 q) (a + 68) 4 z

/-- The stores of a round to the record of a queue that receives. -/
def rxRec (m : Mem) (a c d q z : Nat) : Mem :=
  put (put (put (put (put (put (put (put m (a + 16) 8 c) (a + 56) 4 512) (a + 24) 8 0) (a + 60) 4 0) (a + 32) 8 d)
    (a + 64) 4 512) (a + 40) 8 q) (a + 68) 4 z

theorem txQueue_rec (m : Mem) (a c d q z : Nat) (hc : c < 2 ^ 64) (hd : d < 2 ^ 64) :
    txQueue (txRec m a c d q z) a = ⟨c, 512, 0, 0, d, 512⟩ := by
  have e1 : at' (txRec m a c d q z) (a + 16) 8 = c := by
    unfold txRec
    repeat rw [at'_put_other _ _ _ _ _ _ (by omega)]
    rw [at'_put_same]; exact Nat.mod_eq_of_lt hc
  have e2 : at' (txRec m a c d q z) (a + 56) 4 = 512 := by
    unfold txRec
    repeat rw [at'_put_other _ _ _ _ _ _ (by omega)]
    rw [at'_put_same]
  have e3 : at' (txRec m a c d q z) (a + 32) 8 = d := by
    unfold txRec
    repeat rw [at'_put_other _ _ _ _ _ _ (by omega)]
    rw [at'_put_same]; exact Nat.mod_eq_of_lt hd
  have e4 : at' (txRec m a c d q z) (a + 64) 4 = 512 := by
    unfold txRec
    repeat rw [at'_put_other _ _ _ _ _ _ (by omega)]
    rw [at'_put_same]
  simp only [txQueue, e1, e2, e3, e4]

theorem rxQueue_rec (m : Mem) (a c d q z : Nat) (hc : c < 2 ^ 64) (hd : d < 2 ^ 64) :
    rxQueue (rxRec m a c d q z) a = ⟨c, 512, 0, 0, d, 512⟩ := by
  have e1 : at' (rxRec m a c d q z) (a + 16) 8 = c := by
    unfold rxRec
    repeat rw [at'_put_other _ _ _ _ _ _ (by omega)]
    rw [at'_put_same]; exact Nat.mod_eq_of_lt hc
  have e2 : at' (rxRec m a c d q z) (a + 56) 4 = 512 := by
    unfold rxRec
    repeat rw [at'_put_other _ _ _ _ _ _ (by omega)]
    rw [at'_put_same]
  have e3 : at' (rxRec m a c d q z) (a + 32) 8 = d := by
    unfold rxRec
    repeat rw [at'_put_other _ _ _ _ _ _ (by omega)]
    rw [at'_put_same]; exact Nat.mod_eq_of_lt hd
  have e4 : at' (rxRec m a c d q z) (a + 64) 4 = 512 := by
    unfold rxRec
    repeat rw [at'_put_other _ _ _ _ _ _ (by omega)]
    rw [at'_put_same]
  have e5 : at' (rxRec m a c d q z) (a + 24) 8 = 0 := by
    unfold rxRec
    repeat rw [at'_put_other _ _ _ _ _ _ (by omega)]
    rw [at'_put_same]
  have e6 : at' (rxRec m a c d q z) (a + 60) 4 = 0 := by
    unfold rxRec
    repeat rw [at'_put_other _ _ _ _ _ _ (by omega)]
    rw [at'_put_same]
  simp only [rxQueue, e1, e2, e3, e4, e5, e6]

theorem txRec_out (m : Mem) (a c d q z x : Nat) (h : x < a ∨ a + 256 ≤ x) : txRec m a c d q z x = m x := by
  unfold txRec
  repeat rw [put_out _ _ _ _ _ (by omega)]

theorem rxRec_out (m : Mem) (a c d q z x : Nat) (h : x < a ∨ a + 256 ≤ x) : rxRec m a c d q z x = m x := by
  unfold rxRec
  repeat rw [put_out _ _ _ _ _ (by omega)]

theorem txQueue_congr {m m' : Mem} (a : Nat) (h : ∀ x, a ≤ x → x < a + 256 → m x = m' x) : txQueue m a = txQueue m' a := by
  have e : ∀ b k, a ≤ b → b + k ≤ a + 256 → at' m b k = at' m' b k := fun b k h1 h2 =>
    at'_congr k b (fun x g1 g2 => h x (by omega) (by omega))
  simp only [txQueue, e (a + 16) 8 (by omega) (by omega), e (a + 56) 4 (by omega) (by omega),
    e (a + 32) 8 (by omega) (by omega), e (a + 64) 4 (by omega) (by omega)]

theorem rxQueue_congr {m m' : Mem} (a : Nat) (h : ∀ x, a ≤ x → x < a + 256 → m x = m' x) : rxQueue m a = rxQueue m' a := by
  have e : ∀ b k, a ≤ b → b + k ≤ a + 256 → at' m b k = at' m' b k := fun b k h1 h2 =>
    at'_congr k b (fun x g1 g2 => h x (by omega) (by omega))
  simp only [rxQueue, e (a + 16) 8 (by omega) (by omega), e (a + 56) 4 (by omega) (by omega),
    e (a + 32) 8 (by omega) (by omega), e (a + 64) 4 (by omega) (by omega), e (a + 24) 8 (by omega) (by omega),
    e (a + 60) 4 (by omega) (by omega)]

/-! ## The rings of the queues -/

/-- All bytes of a piece are zero. -/
def Zeroed (al : Alloc) (ntx nrx : Nat) (r : Rid) (m : Mem) : Prop :=
  ∀ x, al.addr r ≤ x → x < al.addr r + r.size ntx nrx → m x = 0

/-- What holds after rounds for `p` queues that send and `q` that receive. -/
structure Done (al : Alloc) (ntx nrx p q : Nat) (m0 m : Mem) : Prop where
  tx : ∀ i, i < p → txQueue m (al.addr .qs + 256 * i) = ⟨al.addr (.txc i), 512, 0, 0, al.addr (.txd i), 512⟩
  rx : ∀ i, i < q → rxQueue m (al.addr .qs + 256 * ntx + 256 * i) = ⟨al.addr (.rxc i), 512, 0, 0, al.addr (.rxd i), 512⟩
  txz : ∀ i, i < p → Zeroed al ntx nrx (.txc i) m ∧ Zeroed al ntx nrx (.txd i) m
  rxz : ∀ i, i < q → Zeroed al ntx nrx (.rxc i) m ∧ Zeroed al ntx nrx (.rxd i) m
  ds : ∀ x, al.addr .ds ≤ x → x < al.addr .ds + 720 → m x = m0 x

theorem Done.ring {al : Alloc} {ntx nrx p q : Nat} {m0 m m' : Mem} (h : Done al ntx nrx p q m0 m) (r : Rid)
    (hs : al.Separate ntx nrx) (hr : r.Valid ntx nrx) (ho : Only al ntx nrx r m m') (hp : p ≤ ntx) (hq : q ≤ nrx)
    (hr1 : r ≠ .ds) (hr2 : r ≠ .qs) (hr3 : ∀ i, i < p → r ≠ .txc i ∧ r ≠ .txd i)
    (hr4 : ∀ i, i < q → r ≠ .rxc i ∧ r ≠ .rxd i) : Done al ntx nrx p q m0 m' := by
  have hqs : ∀ x, al.addr .qs ≤ x → x < al.addr .qs + areaSize ntx nrx → m' x = m x := fun x h1 h2 =>
    only_byte (s := .qs) ho hs hr trivial hr2 x h1 h2
  have hz : ∀ t : Rid, t.Valid ntx nrx → r ≠ t → Zeroed al ntx nrx t m → Zeroed al ntx nrx t m' :=
    fun t ht hne hz x h1 h2 => by rw [only_byte ho hs hr ht hne x h1 h2]; exact hz x h1 h2
  have ha : areaSize ntx nrx = 256 * nrx + 256 * ntx := rfl
  refine ⟨?_, ?_, ?_, ?_, ?_⟩
  · intro i hi
    rw [← h.tx i hi]
    exact txQueue_congr _ (fun x h1 h2 => hqs x (by omega) (by omega))
  · intro i hi
    rw [← h.rx i hi]
    exact rxQueue_congr _ (fun x h1 h2 => hqs x (by omega) (by omega))
  · intro i hi
    exact ⟨hz _ (show i < ntx by omega) (hr3 i hi).1 (h.txz i hi).1, hz _ (show i < ntx by omega) (hr3 i hi).2 (h.txz i hi).2⟩
  · intro i hi
    exact ⟨hz _ (show i < nrx by omega) (hr4 i hi).1 (h.rxz i hi).1, hz _ (show i < nrx by omega) (hr4 i hi).2 (h.rxz i hi).2⟩
  · intro x h1 h2
    rw [only_byte (s := .ds) ho hs hr trivial hr1 x h1 h2]
    exact h.ds x h1 h2

/-- The fields of the driver that the rounds leave as they are. -/
def Drv.Same (s s' : Drv) : Prop :=
  s'.ntx = s.ntx ∧ s'.nrx = s.nrx ∧ s'.log = s.log ∧ s'.link = s.link ∧ s'.mac = s.mac

theorem txRound_ok {al : Alloc} {i : Nat} {s s' : Drv} (h : txRound al i s = .ok s') :
    s.Same s' ∧ i < s.ntx ∧ s'.txq = s.txq + 1 ∧ s'.rxq = s.rxq ∧
      s'.mem = txRec (put (put s.mem (al.addr (.txc i)) 8192 0) (al.addr (.txd i)) 8192 0) (al.addr .qs + 256 * i)
        (al.addr (.txc i)) (al.addr (.txd i)) (al.queue (.txc i)) al.queueSize := by
  unfold txRound at h
  split at h
  · exact absurd h (by simp)
  split at h
  · exact absurd h (by simp)
  rename_i hi
  simp only at h
  split at h
  · have h := Res.ok.inj h
    subst h
    exact ⟨⟨rfl, rfl, rfl, rfl, rfl⟩, by omega, rfl, rfl, rfl⟩
  · exact absurd h (by simp)

theorem rxRound_ok {al : Alloc} {i : Nat} {s s' : Drv} (h : rxRound al i s = .ok s') :
    s.Same s' ∧ i < s.nrx ∧ s'.rxq = s.rxq + 1 ∧ s'.txq = s.txq ∧
      s'.mem = rxRec (put (put s.mem (al.addr (.rxc i)) 8192 0) (al.addr (.rxd i)) 8192 0)
        (al.addr .qs + 256 * s.ntx + 256 * i)
        (al.addr (.rxc i)) (al.addr (.rxd i)) (al.queue (.rxc i)) al.queueSize := by
  unfold rxRound at h
  split at h
  · exact absurd h (by simp)
  split at h
  · exact absurd h (by simp)
  rename_i hi
  simp only at h
  split at h
  · have h := Res.ok.inj h
    subst h
    exact ⟨⟨rfl, rfl, rfl, rfl, rfl⟩, by omega, rfl, rfl, rfl⟩
  · exact absurd h (by simp)

theorem tx_step {al : Alloc} {ntx nrx p : Nat} {m0 m : Mem} (hs : al.Separate ntx nrx) (hw : ∀ r, al.addr r < 2 ^ 64)
    (hp : p < ntx) (h : Done al ntx nrx p 0 m0 m) :
    Done al ntx nrx (p + 1) 0 m0 (txRec (put (put m (al.addr (.txc p)) 8192 0) (al.addr (.txd p)) 8192 0)
      (al.addr .qs + 256 * p) (al.addr (.txc p)) (al.addr (.txd p)) (al.queue (.txc p)) al.queueSize) := by
  have hsz : ∀ i, (Rid.txc i).size ntx nrx = 8192 ∧ (Rid.txd i).size ntx nrx = 8192 := fun _ => ⟨rfl, rfl⟩
  have o1 : Only al ntx nrx (.txc p) m (put m (al.addr (.txc p)) 8192 0) :=
    only_put al ntx nrx (.txc p) m m _ _ _ (fun _ _ => rfl) (Nat.le_refl _) (by rw [(hsz p).1]; omega)
  have h1 := h.ring (.txc p) hs hp o1 (by omega) (by omega) (by simp) (by simp)
    (fun i hi => ⟨fun e => by injection e; omega, by simp⟩) (fun i hi => by omega)
  have o2 : Only al ntx nrx (.txd p) (put m (al.addr (.txc p)) 8192 0) (put (put m (al.addr (.txc p)) 8192 0) (al.addr (.txd p)) 8192 0) :=
    only_put al ntx nrx (.txd p) _ _ _ _ _ (fun _ _ => rfl) (Nat.le_refl _) (by rw [(hsz p).2]; omega)
  have h2 := h1.ring (.txd p) hs hp o2 (by omega) (by omega) (by simp) (by simp)
    (fun i hi => ⟨by simp, fun e => by injection e; omega⟩) (fun i hi => by omega)
  have hd1 : ∀ x, al.addr (.txc p) ≤ x → x < al.addr (.txc p) + 8192 →
      put (put m (al.addr (.txc p)) 8192 0) (al.addr (.txd p)) 8192 0 x = 0 := by
    intro x g1 g2
    rw [only_byte (s := .txc p) o2 hs hp hp (by simp) x g1 g2]
    exact put_zero _ _ _ _ ⟨g1, g2⟩
  have hd2 : ∀ x, al.addr (.txd p) ≤ x → x < al.addr (.txd p) + 8192 →
      put (put m (al.addr (.txc p)) 8192 0) (al.addr (.txd p)) 8192 0 x = 0 := fun x g1 g2 => put_zero _ _ _ _ ⟨g1, g2⟩
  generalize hm : put (put m (al.addr (.txc p)) 8192 0) (al.addr (.txd p)) 8192 0 = m2 at h2 hd1 hd2
  have ha : areaSize ntx nrx = 256 * nrx + 256 * ntx := rfl
  have o3 : Only al ntx nrx .qs m2 (txRec m2 (al.addr .qs + 256 * p) (al.addr (.txc p)) (al.addr (.txd p)) (al.queue (.txc p)) al.queueSize) := by
    intro x hx
    have e : (Rid.qs).size ntx nrx = areaSize ntx nrx := rfl
    exact txRec_out _ _ _ _ _ _ _ (by omega)
  have hz : ∀ t : Rid, t.Valid ntx nrx → Rid.qs ≠ t → Zeroed al ntx nrx t m2 → Zeroed al ntx nrx t
      (txRec m2 (al.addr .qs + 256 * p) (al.addr (.txc p)) (al.addr (.txd p)) (al.queue (.txc p)) al.queueSize) :=
    fun t ht hne hz x h1 h2 => by rw [only_byte (s := t) o3 hs trivial ht hne x h1 h2]; exact hz x h1 h2
  refine ⟨?_, fun i hi => by omega, ?_, fun i hi => by omega, ?_⟩
  · intro i hi
    by_cases e : i = p
    · subst e; exact txQueue_rec _ _ _ _ _ _ (hw _) (hw _)
    · rw [← h2.tx i (by omega)]
      exact txQueue_congr _ (fun x g1 g2 => txRec_out _ _ _ _ _ _ _ (by omega))
  · intro i hi
    by_cases e : i = p
    · subst e
      exact ⟨hz _ hp (by simp) hd1, hz _ hp (by simp) hd2⟩
    · have := h2.txz i (by omega)
      exact ⟨hz _ (show i < ntx by omega) (by simp) this.1, hz _ (show i < ntx by omega) (by simp) this.2⟩
  · intro x g1 g2
    rw [only_byte (s := .ds) o3 hs trivial trivial (by simp) x g1 g2]
    exact h2.ds x g1 g2

theorem rx_step {al : Alloc} {ntx nrx q : Nat} {m0 m : Mem} (hs : al.Separate ntx nrx) (hw : ∀ r, al.addr r < 2 ^ 64)
    (hp : q < nrx) (h : Done al ntx nrx ntx q m0 m) :
    Done al ntx nrx ntx (q + 1) m0 (rxRec (put (put m (al.addr (.rxc q)) 8192 0) (al.addr (.rxd q)) 8192 0)
      (al.addr .qs + 256 * ntx + 256 * q) (al.addr (.rxc q)) (al.addr (.rxd q)) (al.queue (.rxc q)) al.queueSize) := by
  have hsz : ∀ i, (Rid.rxc i).size ntx nrx = 8192 ∧ (Rid.rxd i).size ntx nrx = 8192 := fun _ => ⟨rfl, rfl⟩
  have o1 : Only al ntx nrx (.rxc q) m (put m (al.addr (.rxc q)) 8192 0) :=
    only_put al ntx nrx (.rxc q) m m _ _ _ (fun _ _ => rfl) (Nat.le_refl _) (by rw [(hsz q).1]; omega)
  have h1 := h.ring (.rxc q) hs hp o1 (by omega) (by omega) (by simp) (by simp)
    (fun i hi => by simp) (fun i hi => ⟨fun e => by injection e; omega, by simp⟩)
  have o2 : Only al ntx nrx (.rxd q) (put m (al.addr (.rxc q)) 8192 0) (put (put m (al.addr (.rxc q)) 8192 0) (al.addr (.rxd q)) 8192 0) :=
    only_put al ntx nrx (.rxd q) _ _ _ _ _ (fun _ _ => rfl) (Nat.le_refl _) (by rw [(hsz q).2]; omega)
  have h2 := h1.ring (.rxd q) hs hp o2 (by omega) (by omega) (by simp) (by simp)
    (fun i hi => by simp) (fun i hi => ⟨by simp, fun e => by injection e; omega⟩)
  have hd1 : ∀ x, al.addr (.rxc q) ≤ x → x < al.addr (.rxc q) + 8192 →
      put (put m (al.addr (.rxc q)) 8192 0) (al.addr (.rxd q)) 8192 0 x = 0 := by
    intro x g1 g2
    rw [only_byte (s := .rxc q) o2 hs hp hp (by simp) x g1 g2]
    exact put_zero _ _ _ _ ⟨g1, g2⟩
  have hd2 : ∀ x, al.addr (.rxd q) ≤ x → x < al.addr (.rxd q) + 8192 →
      put (put m (al.addr (.rxc q)) 8192 0) (al.addr (.rxd q)) 8192 0 x = 0 := fun x g1 g2 => put_zero _ _ _ _ ⟨g1, g2⟩
  generalize hm : put (put m (al.addr (.rxc q)) 8192 0) (al.addr (.rxd q)) 8192 0 = m2 at h2 hd1 hd2
  have ha : areaSize ntx nrx = 256 * nrx + 256 * ntx := rfl
  have o3 : Only al ntx nrx .qs m2 (rxRec m2 (al.addr .qs + 256 * ntx + 256 * q) (al.addr (.rxc q)) (al.addr (.rxd q)) (al.queue (.rxc q)) al.queueSize) := by
    intro x hx
    have e : (Rid.qs).size ntx nrx = areaSize ntx nrx := rfl
    exact rxRec_out _ _ _ _ _ _ _ (by omega)
  have hz : ∀ t : Rid, t.Valid ntx nrx → Rid.qs ≠ t → Zeroed al ntx nrx t m2 → Zeroed al ntx nrx t
      (rxRec m2 (al.addr .qs + 256 * ntx + 256 * q) (al.addr (.rxc q)) (al.addr (.rxd q)) (al.queue (.rxc q)) al.queueSize) :=
    fun t ht hne hz x h1 h2 => by rw [only_byte (s := t) o3 hs trivial ht hne x h1 h2]; exact hz x h1 h2
  refine ⟨?_, ?_, ?_, ?_, ?_⟩
  · intro i hi
    rw [← h2.tx i hi]
    exact txQueue_congr _ (fun x g1 g2 => rxRec_out _ _ _ _ _ _ _ (by omega))
  · intro i hi
    by_cases e : i = q
    · subst e; exact rxQueue_rec _ _ _ _ _ _ (hw _) (hw _)
    · rw [← h2.rx i (by omega)]
      exact rxQueue_congr _ (fun x g1 g2 => rxRec_out _ _ _ _ _ _ _ (by omega))
  · intro i hi
    have := h2.txz i hi
    exact ⟨hz _ hi (by simp) this.1, hz _ hi (by simp) this.2⟩
  · intro i hi
    by_cases e : i = q
    · subst e
      exact ⟨hz _ hp (by simp) hd1, hz _ hp (by simp) hd2⟩
    · have := h2.rxz i (by omega)
      exact ⟨hz _ (show i < nrx by omega) (by simp) this.1, hz _ (show i < nrx by omega) (by simp) this.2⟩
  · intro x g1 g2
    rw [only_byte (s := .ds) o3 hs trivial trivial (by simp) x g1 g2]
    exact h2.ds x g1 g2

theorem andThen_ok {r : Res} {f : Drv → Res} {s : Drv} (h : r.andThen f = .ok s) : ∃ t, r = .ok t ∧ f t = .ok s := by
  cases r with
  | ok t => exact ⟨t, rfl, h⟩
  | err e t => exact absurd h (by simp [Res.andThen])
  | panic t => exact absurd h (by simp [Res.andThen])

theorem txRounds_ok {al : Alloc} {s : Drv} (hs : al.Separate s.ntx s.nrx) (hw : ∀ r, al.addr r < 2 ^ 64) :
    ∀ (n : Nat) (s' : Drv), n ≤ s.ntx → txRounds al n s = .ok s' →
      s.Same s' ∧ s'.txq = s.txq + n ∧ s'.rxq = s.rxq ∧ Done al s.ntx s.nrx n 0 s.mem s'.mem
  | 0, s', _, h => by
    have h := Res.ok.inj h
    subst h
    exact ⟨⟨rfl, rfl, rfl, rfl, rfl⟩, rfl, rfl, ⟨fun i hi => by omega, fun i hi => by omega, fun i hi => by omega,
      fun i hi => by omega, fun _ _ _ => rfl⟩⟩
  | n + 1, s', hn, h => by
    obtain ⟨t, ht, h⟩ := andThen_ok h
    obtain ⟨hsame, q1, q2, hd⟩ := txRounds_ok hs hw n t (by omega) ht
    obtain ⟨hsame', _, q1', q2', hm⟩ := txRound_ok h
    refine ⟨⟨hsame'.1.trans hsame.1, hsame'.2.1.trans hsame.2.1, hsame'.2.2.1.trans hsame.2.2.1,
      hsame'.2.2.2.1.trans hsame.2.2.2.1, hsame'.2.2.2.2.trans hsame.2.2.2.2⟩, by omega, by omega, ?_⟩
    rw [hm]
    exact tx_step hs hw (by omega) hd

theorem rxRounds_ok {al : Alloc} {s : Drv} {m0 : Mem} (hs : al.Separate s.ntx s.nrx) (hw : ∀ r, al.addr r < 2 ^ 64)
    (h0 : Done al s.ntx s.nrx s.ntx 0 m0 s.mem) :
    ∀ (n : Nat) (s' : Drv), n ≤ s.nrx → rxRounds al n s = .ok s' →
      s.Same s' ∧ s'.rxq = s.rxq + n ∧ s'.txq = s.txq ∧ Done al s.ntx s.nrx s.ntx n m0 s'.mem
  | 0, s', _, h => by
    have h := Res.ok.inj h
    subst h
    exact ⟨⟨rfl, rfl, rfl, rfl, rfl⟩, rfl, rfl, h0⟩
  | n + 1, s', hn, h => by
    obtain ⟨t, ht, h⟩ := andThen_ok h
    obtain ⟨hsame, q1, q2, hd⟩ := rxRounds_ok hs hw h0 n t (by omega) ht
    obtain ⟨hsame', _, q1', q2', hm⟩ := rxRound_ok h
    refine ⟨⟨hsame'.1.trans hsame.1, hsame'.2.1.trans hsame.2.1, hsame'.2.2.1.trans hsame.2.2.1,
      hsame'.2.2.2.1.trans hsame.2.2.2.1, hsame'.2.2.2.2.trans hsame.2.2.2.2⟩, by omega, by omega, ?_⟩
    rw [hm, hsame.1]
    exact rx_step hs hw (by omega) hd

end NRK.Nic
