import Verif.Net.TxSpec

/-! # C74: invariant of queue and device -/

namespace NRK.Net

/-- The generation of the `i`-th entry ever written to a ring of `n`. -/
def par (n i : Nat) : Bool := i / n % 2 == 0

theorem par_lt {n i : Nat} (h : i < n) : par n i = true := by
  simp [par, Nat.div_eq_of_lt h]

theorem par_add {n i : Nat} (h : 0 < n) : par n (i + n) = !par n i := by
  unfold par
  rw [Nat.add_div_right i h]
  rcases Nat.mod_two_eq_zero_or_one (i / n) with h' | h' <;> simp [Nat.add_mod, h']

theorem adv_par {n i : Nat} (h : 0 < n) : adv n (i % n) (par n i) = ((i + 1) % n, par n (i + 1)) := by
  unfold adv par
  have hm := Nat.mod_lt i h
  have hd := Nat.div_add_mod i n
  by_cases he : i % n + 1 = n
  · rw [if_pos he]
    have hi : i + 1 = n * (i / n + 1) := by rw [Nat.mul_add]; omega
    have h1 : (i + 1) % n = 0 := by rw [hi]; exact Nat.mul_mod_right n _
    have h2 : (i + 1) / n = i / n + 1 := by rw [hi]; exact Nat.mul_div_cancel_left _ h
    rw [h1, h2]
    rcases Nat.mod_two_eq_zero_or_one (i / n) with h' | h' <;> simp [Nat.add_mod, h']
  · rw [if_neg he]
    have hi : i + 1 = n * (i / n) + (i % n + 1) := by omega
    have h1 : (i + 1) % n = i % n + 1 := by
      rw [hi, Nat.mul_add_mod]; exact Nat.mod_eq_of_lt (by omega)
    have h2 : (i + 1) / n = i / n := by
      rw [hi, Nat.mul_add_div h, Nat.div_eq_of_lt (a := i % n + 1) (by omega)]; rfl
    rw [h1, h2]

theorem mod_ne {n i j : Nat} (h : i < j) (h' : j < i + n) : i % n ≠ j % n := by
  intro he
  have h1 : (j - i) % n = 0 := by
    have := Nat.sub_mod_eq_zero_of_mod_eq he.symm
    exact this
  rw [Nat.mod_eq_of_lt (by omega)] at h1
  omega

theorem put_same {α : Type} (f : Nat → α) (i : Nat) (a : α) : put f i a i = a := by simp [put]

theorem put_ne {α : Type} (f : Nat → α) {i j : Nat} (a : α) (h : j ≠ i) : put f i a j = f j := by simp [put, h]

theorem wsub_gen {n T W : Nat} (hn : Pow2 n) (hs : n ≤ 2 ^ 64) (h : T ≤ W) :
    wsub (W % n) (T % n) % n = (W - T) % n := by
  obtain ⟨k, rfl⟩ := hn
  have hk : k ≤ 64 := (Nat.pow_le_pow_iff_right (by decide)).1 hs
  unfold wsub
  rw [Nat.mod_mod_of_dvd _ (Nat.pow_dvd_pow 2 hk)]
  have hp : 0 < 2 ^ k := Nat.two_pow_pos k
  have h1 := Nat.mod_lt T hp
  obtain ⟨c, hc⟩ := Nat.pow_dvd_pow 2 hk
  have h3 := Nat.div_add_mod T (2 ^ k)
  have h4 := Nat.div_add_mod W (2 ^ k)
  generalize hm : 2 ^ k = m at *
  generalize 2 ^ 64 = M at *
  have e : W % m + M - T % m + m * (W / m) = W - T + m * (c + T / m) := by
    rw [Nat.mul_add]; omega
  calc (W % m + M - T % m) % m = (W % m + M - T % m + m * (W / m)) % m := by rw [Nat.add_mul_mod_self_left]
    _ = (W - T) % m := by rw [e, Nat.add_mul_mod_self_left]

theorem count_mod {n T W : Nat} (hn : Pow2 n) (hs : n ≤ 2 ^ 64) (h : T ≤ W) (h' : W < T + n) :
    count (T % n) (W % n) n = W - T := by
  have hg := wsub_gen hn hs h
  obtain ⟨k, rfl⟩ := hn
  unfold count
  rw [Nat.and_two_pow_sub_one_eq_mod, hg]
  exact Nat.mod_eq_of_lt (by omega)

/-- A descriptor without its generation: the segment, and whether it is the last (with `compreq`). -/
abbrev Cell := Seg × Option Bool

def cellOf (d : TxDesc) : Cell := (⟨d.addr, d.len⟩, if d.eop then some d.compreq else none)

/-- The descriptors of a packet. -/
def cellsOf (f : Bool) : List Seg → List Cell
  | [] => []
  | [s] => [(s, some f)]
  | s :: t :: r => (s, none) :: cellsOf f (t :: r)

def Chain.cells (c : Chain) : List Cell := cellsOf (decide (c.flags % 2 = 1)) c.segs

theorem cellsOf_length (f : Bool) (l : List Seg) : (cellsOf f l).length = l.length := by
  fun_induction cellsOf f l with
  | case1 => rfl
  | case2 => rfl
  | case3 s t r ih => simp [ih]

theorem cellsOf_get {f : Bool} {l r : List Seg} {s : Seg} : (cellsOf f (l ++ s :: r))[l.length]? =
    some (s, if r = [] then some f else none) := by
  induction l with
  | nil => cases r <;> simp [cellsOf]
  | cons a l ih =>
    cases l with
    | nil => simpa [cellsOf] using ih
    | cons b l =>
      simp only [List.cons_append, cellsOf, List.length_cons, List.getElem?_cons_succ] at ih ⊢
      exact ih

def flat (cs : List Chain) : List Cell := cs.flatMap Chain.cells

theorem flat_length (cs : List Chain) : (flat cs).length = segCount cs := by
  unfold flat segCount
  induction cs with
  | nil => rfl
  | cons c cs ih => simp only [List.flatMap_cons, List.length_append, ih, List.map_cons, List.sum_cons, Chain.cells,
      cellsOf_length]

theorem segCount_append (a b : List Chain) : segCount (a ++ b) = segCount a + segCount b := by
  simp [segCount]

theorem segCount_take_succ {cs : List Chain} {k : Nat} {c : Chain} (h : cs[k]? = some c) :
    segCount (cs.take (k + 1)) = segCount (cs.take k) + c.segs.length := by
  rw [List.take_add_one, h, segCount_append]
  simp [segCount]

theorem segCount_take_le (cs : List Chain) (k : Nat) : segCount (cs.take k) ≤ segCount cs := by
  have : segCount cs = segCount (cs.take k ++ cs.drop k) := by rw [List.take_append_drop]
  rw [this, segCount_append]; omega

theorem segCount_take_mono (cs : List Chain) {k l : Nat} (h : k ≤ l) :
    segCount (cs.take k) ≤ segCount (cs.take l) := by
  have : cs.take k = (cs.take l).take k := by rw [List.take_take, Nat.min_eq_left h]
  rw [this]; exact segCount_take_le _ _

theorem segCount_ge {cs : List Chain} (h : ∀ c ∈ cs, c.Proper) {k l : Nat} (hk : k ≤ l) (hl : l ≤ cs.length) :
    segCount (cs.take k) + (l - k) ≤ segCount (cs.take l) := by
  obtain ⟨d, rfl⟩ : ∃ d, l = k + d := ⟨l - k, by omega⟩
  induction d with
  | zero => simp
  | succ d ih =>
    have h1 := ih (by omega) (by omega)
    have h2 : cs[k + d]? = some cs[k + d] := List.getElem?_eq_getElem (by omega)
    have h3 := segCount_take_succ h2
    have h4 := (h _ (List.getElem_mem (by omega : k + d < cs.length))).1
    rw [← Nat.add_assoc, h3]
    omega

theorem flat_get {cs : List Chain} {k j : Nat} {c : Chain} (h : cs[k]? = some c) (hj : j < c.segs.length) :
    (flat cs)[segCount (cs.take k) + j]? = c.cells[j]? := by
  have h1 : cs = cs.take k ++ c :: cs.drop (k + 1) := by
    have hl : k < cs.length := by
      rw [List.getElem?_eq_some_iff] at h; exact h.1
    have := List.take_append_drop k cs
    rw [List.drop_eq_getElem_cons hl] at this
    rw [List.getElem?_eq_getElem hl] at h
    simp only [Option.some.injEq] at h
    rw [h] at this
    exact this.symm
  have h2 : flat cs = flat (cs.take k) ++ (c.cells ++ flat (cs.drop (k + 1))) := by
    conv => lhs; rw [h1]
    simp [flat]
  rw [h2, List.getElem?_append_right (by rw [flat_length]; omega), flat_length, Nat.add_sub_cancel_left,
    List.getElem?_append_left (by rw [Chain.cells, cellsOf_length]; exact hj)]

def Writer.cells : Writer → List Cell
  | .idle => []
  | .busy c _ _ _ _ => c.cells

/-- The phase in which the slot at the head already has its generation. -/
def Writer.marked : Writer → Bool
  | .busy _ _ _ _ .adv => true
  | _ => false

/-- Content of the slot at the head, while it is being written. -/
def Slot (d : TxDesc) : List Seg → Phase → Prop
  | _, .addr => True
  | [], _ => False
  | s :: _, .gen => d.addr = s.addr ∧ d.len = s.len
  | s :: _, .adv => d.addr = s.addr ∧ d.len = s.len ∧ d.eop = false

/-- The running `enqueue` and the number of descriptors written so far. -/
def WrOk (q : TxQ) (T P W : Nat) : Writer → Prop
  | .idle => W = P
  | .busy c old g rest ph => c.Proper ∧ (∃ dn, c.segs = dn ++ rest ∧ W = P + dn.length) ∧ old = P % q.n ∧
      g = (if W = P then !par q.n P else par q.n W) ∧ P + c.segs.length < T + q.n ∧ Slot (q.ring (W % q.n)) rest ph

/-- Driver and command ring: `T` descriptors are free again, `P` were handed to the device, `W` written. -/
structure Cmd (q : TxQ) (w : Writer) (acc : List Chain) (T P W : Nat) : Prop where
  n32 : 32 ≤ q.n
  n4k : q.n ≤ 4096
  pow : Pow2 q.n
  prop : ∀ c ∈ acc, c.Proper
  hP : P = segCount acc
  hT : T ≤ P
  room : W < T + q.n
  head : q.head = W % q.n
  gen : q.gen = par q.n W
  tail : q.tail = T % q.n
  wr : WrOk q T P W w
  cont : ∀ i, T ≤ i → i < W → (flat acc ++ w.cells)[i]? = some (cellOf (q.ring (i % q.n)))
  g1 : ∀ i, i < W → W < i + q.n → i ≠ P → (q.ring (i % q.n)).gen = par q.n i
  g2 : ∀ i, W < i → i < q.n → (q.ring i).gen = false
  g3 : (q.ring (P % q.n)).gen = !par q.n P
  g4 : W ≠ P → (q.ring (W % q.n)).gen = (if w.marked then par q.n W else !par q.n W)

theorem Cmd.pw {q : TxQ} {w : Writer} {acc : List Chain} {T P W : Nat} (h : Cmd q w acc T P W) : P ≤ W := by
  have := h.wr
  cases w with
  | idle => simp only [WrOk] at this; omega
  | busy c old g rest ph => obtain ⟨_, ⟨dn, _, h2⟩, _⟩ := this; omega

theorem Cmd.count {q : TxQ} {w : Writer} {acc : List Chain} {T P W : Nat} (h : Cmd q w acc T P W) :
    count q.tail q.head q.n = W - T := by
  have := h.pw
  have := h.hT
  have h4 := h.n4k
  rw [h.tail, h.head]
  exact count_mod h.pow (by omega) (by omega) h.room

theorem Cmd.begin {q : TxQ} {acc : List Chain} {T P W : Nat} {c : Chain} (h : Cmd q .idle acc T P W)
    (hc : c.Proper) (hf : ¬ q.n - 1 - q.len < c.segs.length) :
    Cmd q (.busy c q.head (!q.gen) c.segs .addr) acc T P W := by
  have hw : W = P := h.wr
  have hl : q.len = W - T := h.count
  have h0 := h.hT
  have hroom := h.room
  have h32 := h.n32
  refine { h with wr := ⟨hc, ⟨[], rfl, by simpa using hw⟩, by rw [h.head, hw], ?_, by omega, trivial⟩, cont := ?_, g4 := ?_ }
  · rw [if_pos hw, h.gen, hw]
  · intro i h1 h2
    have h3 := h.cont i h1 h2
    rw [List.getElem?_append_left (by rw [flat_length, ← h.hP]; omega)]
    rwa [Writer.cells, List.append_nil] at h3
  · intro h1; exact absurd hw h1

theorem Cmd.addr {q : TxQ} {acc : List Chain} {T P W : Nat} {c : Chain} {old : Nat} {g : Bool} {s : Seg}
    {rest : List Seg} (h : Cmd q (.busy c old g (s :: rest) .addr) acc T P W) {r : Res (TxQ × Writer)}
    (he : q.write c old g s rest .addr = r) : ∃ q' w', r = .ok (q', w') ∧ Cmd q' w' acc T P W ∧ q'.n = q.n ∧
      q'.comp = q.comp ∧ q'.cnext = q.cnext ∧ q'.cgen = q.cgen ∧ q'.inflight = q.inflight ∧
      q'.processed = q.processed ∧ q'.lastFlush = q.lastFlush := by
  obtain ⟨hc, ⟨dn, hd, hW⟩, ho, hg, hr, hs⟩ := h.wr
  have hl : c.segs.length = dn.length + (rest.length + 1) := by rw [hd]; simp
  have hcount := h.count
  have h0 := h.hT
  have h32 := h.n32
  have hpw := h.pw
  have hsl : s.len < 2 ^ 14 := hc.2.2 s (by rw [hd]; simp)
  have hsl' : ¬ (2 ^ 32 ≤ s.len) := by omega
  simp only [TxQ.write] at he
  rw [if_neg (by rw [hcount]; omega), if_neg hsl', Nat.mod_eq_of_lt hsl] at he
  refine ⟨_, _, he.symm, ?_, rfl, rfl, rfl, rfl, rfl, rfl, rfl⟩
  have hne : ∀ i, i ≠ W → W < i + q.n → i < W + q.n → i % q.n ≠ W % q.n := by
    intro i h1 h2 h3
    rcases Nat.lt_or_gt_of_ne h1 with h | h
    · exact mod_ne h h2
    · exact (mod_ne h h3).symm
  have hgen : ∀ j, (put q.ring q.head { q.ring q.head with
          addr := s.addr
          len := s.len } j).gen = (q.ring j).gen := by
    intro j
    by_cases hj : j = q.head
    · rw [hj, put_same]
    · rw [put_ne _ _ hj]
  refine {
    n32 := h.n32
    n4k := h.n4k
    pow := h.pow
    prop := h.prop
    hP := h.hP
    hT := h.hT
    room := h.room
    head := h.head
    gen := h.gen
    tail := h.tail
    wr := ⟨hc, ⟨dn, hd, hW⟩, ho, hg, hr, ?_⟩
    cont := ?_
    g1 := ?_
    g2 := ?_
    g3 := ?_
    g4 := ?_ }
  · simp only [Slot, h.head, put_same, and_self]
  · intro i h1 h2
    simp only
    rw [put_ne _ _ (by rw [h.head]; exact hne i (by omega) (by omega) (by omega))]
    exact h.cont i h1 h2
  · intro i h1 h2 h3
    simp only [hgen]
    exact h.g1 i h1 h2 h3
  · intro i h1 h2
    simp only [hgen]
    exact h.g2 i h1 h2
  · simp only [hgen]
    exact h.g3
  · intro h1
    simp only [hgen]
    exact h.g4 h1

theorem Cmd.mark {q : TxQ} {acc : List Chain} {T P W : Nat} {c : Chain} {old : Nat} {g : Bool} {s : Seg}
    {rest : List Seg} (h : Cmd q (.busy c old g (s :: rest) .gen) acc T P W) {r : Res (TxQ × Writer)}
    (he : q.write c old g s rest .gen = r) : ∃ q' w', r = .ok (q', w') ∧ Cmd q' w' acc T P W ∧ q'.n = q.n ∧
      q'.comp = q.comp ∧ q'.cnext = q.cnext ∧ q'.cgen = q.cgen ∧ q'.inflight = q.inflight ∧
      q'.processed = q.processed ∧ q'.lastFlush = q.lastFlush := by
  obtain ⟨hc, ⟨dn, hd, hW⟩, ho, hg, hr, hs⟩ := h.wr
  have hl : c.segs.length = dn.length + (rest.length + 1) := by rw [hd]; simp
  have h0 := h.hT
  have h32 := h.n32
  have hpw := h.pw
  simp only [TxQ.write] at he
  refine ⟨_, _, he.symm, ?_, rfl, rfl, rfl, rfl, rfl, rfl, rfl⟩
  have hne : ∀ i, i ≠ W → W < i + q.n → i < W + q.n → i % q.n ≠ W % q.n := by
    intro i h1 h2 h3
    rcases Nat.lt_or_gt_of_ne h1 with h | h
    · exact mod_ne h h2
    · exact (mod_ne h h3).symm
  refine {
    n32 := h.n32
    n4k := h.n4k
    pow := h.pow
    prop := h.prop
    hP := h.hP
    hT := h.hT
    room := h.room
    head := h.head
    gen := h.gen
    tail := h.tail
    wr := ⟨hc, ⟨dn, hd, hW⟩, ho, hg, hr, ?_⟩
    cont := ?_
    g1 := ?_
    g2 := ?_
    g3 := ?_
    g4 := ?_ }
  · simp only [Slot] at hs
    simp only [Slot, h.head, put_same, hs, and_self]
  · intro i h1 h2
    simp only
    rw [put_ne _ _ (by rw [h.head]; exact hne i (by omega) (by omega) (by omega))]
    exact h.cont i h1 h2
  · intro i h1 h2 h3
    simp only
    rw [put_ne _ _ (by rw [h.head]; exact hne i (by omega) h2 (by omega))]
    exact h.g1 i h1 h2 h3
  · intro i h1 h2
    simp only
    have h2' : i < q.n := h2
    have : i % q.n ≠ W % q.n := hne i (by omega) (by omega) (by omega)
    rw [put_ne _ _ (by rw [h.head]; rwa [Nat.mod_eq_of_lt h2] at this)]
    exact h.g2 i h1 h2
  · simp only
    by_cases hWP : W = P
    · rw [h.head, hWP, put_same, hg, if_pos hWP]
    · rw [put_ne _ _ (by rw [h.head]; exact hne P (by omega) (by omega) (by omega))]
      exact h.g3
  · intro h1
    simp only
    rw [h.head, put_same, hg, if_neg h1]
    rfl

theorem Cmd.adv {q : TxQ} {acc : List Chain} {T P W : Nat} {c : Chain} {old : Nat} {g : Bool} {s : Seg}
    {rest : List Seg} (h : Cmd q (.busy c old g (s :: rest) .adv) acc T P W) {r : Res (TxQ × Writer)}
    (he : q.write c old g s rest .adv = r) : ∃ q' w', r = .ok (q', w') ∧ Cmd q' w' acc T P (W + 1) ∧ q'.n = q.n ∧
      q'.comp = q.comp ∧ q'.cnext = q.cnext ∧ q'.cgen = q.cgen ∧ q'.inflight = q.inflight ∧
      q'.processed = q.processed ∧ q'.lastFlush = q.lastFlush := by
  obtain ⟨hc, ⟨dn, hd, hW⟩, ho, hg, hr, hs⟩ := h.wr
  have hl : c.segs.length = dn.length + (rest.length + 1) := by rw [hd]; simp
  have h0 := h.hT
  have h32 := h.n32
  have hpw := h.pw
  have hadv : NRK.Net.adv q.n q.head q.gen = ((W + 1) % q.n, par q.n (W + 1)) := by
    rw [h.head, h.gen]; exact adv_par (by omega)
  simp only [TxQ.write, hadv] at he
  refine ⟨_, _, he.symm, ?_, rfl, rfl, rfl, rfl, rfl, rfl, rfl⟩
  have hne : ∀ i, i ≠ W → W < i + q.n → i < W + q.n → i % q.n ≠ W % q.n := by
    intro i h1 h2 h3
    rcases Nat.lt_or_gt_of_ne h1 with h | h
    · exact mod_ne h h2
    · exact (mod_ne h h3).symm
  have hgen : ∀ j, ((if rest = [] then put q.ring q.head { q.ring q.head with
        eop := true
        compreq := decide (c.flags % 2 = 1) } else q.ring) j).gen = (q.ring j).gen := by
    intro j
    split
    · by_cases hj : j = q.head
      · rw [hj, put_same]
      · rw [put_ne _ _ hj]
    · rfl
  refine {
    n32 := h.n32
    n4k := h.n4k
    pow := h.pow
    prop := h.prop
    hP := h.hP
    hT := h.hT
    room := ?_
    head := rfl
    gen := rfl
    tail := h.tail
    wr := ⟨hc, ⟨dn ++ [s], by rw [hd]; simp, by simp; omega⟩, ho, ?_, hr, trivial⟩
    cont := ?_
    g1 := ?_
    g2 := ?_
    g3 := ?_
    g4 := ?_ }
  · simp only; omega
  · rw [if_neg (by omega)]
  · intro i h1 h2
    simp only
    by_cases hi : i = W
    · subst hi
      have hcell : (flat acc ++ c.cells)[i]? = some (s, if rest = [] then some (decide (c.flags % 2 = 1)) else none) := by
        rw [List.getElem?_append_right (by rw [flat_length, ← h.hP]; omega), flat_length, ← h.hP, hW,
          Nat.add_sub_cancel_left, Chain.cells, hd]
        exact cellsOf_get
      simp only [Writer.cells]
      rw [hcell]
      obtain ⟨a1, a2, a3⟩ := hs
      by_cases hrest : rest = []
      · rw [if_pos hrest, if_pos hrest, h.head, put_same]
        simp only [cellOf, a1, a2, if_true]
      · rw [if_neg hrest, if_neg hrest]
        simp only [cellOf, a1, a2, a3, Bool.false_eq_true, if_false]
    · have h3 := h.cont i h1 (by omega)
      have h4 : i % q.n ≠ q.head := by rw [h.head]; exact hne i hi (by omega) (by omega)
      split
      · rw [put_ne _ _ h4]; exact h3
      · exact h3
  · intro i h1 h2 h3
    simp only [hgen]
    by_cases hi : i = W
    · subst hi
      exact h.g4 h3
    · exact h.g1 i (by omega) (by simp only at h2; omega) h3
  · intro i h1 h2
    simp only [hgen]
    exact h.g2 i (by omega) h2
  · simp only [hgen]
    exact h.g3
  · intro _
    simp only [hgen, Writer.marked, Bool.false_eq_true, if_false]
    by_cases hlt : W + 1 < q.n
    · rw [Nat.mod_eq_of_lt hlt, h.g2 (W + 1) (by omega) hlt, par_lt hlt]; rfl
    · obtain ⟨i, hi⟩ : ∃ i, W + 1 = i + q.n := ⟨W + 1 - q.n, by omega⟩
      have h5 := h.g1 i (by omega) (by omega) (by omega)
      rw [hi, Nat.add_mod_right, par_add (by omega), h5]
      simp

theorem Cmd.publish {q : TxQ} {acc : List Chain} {T P W : Nat} {c : Chain} {old : Nat} {g : Bool} {ph : Phase}
    (h : Cmd q (.busy c old g [] ph) acc T P W) : Cmd (q.publish c old) .idle (acc ++ [c]) T W W := by
  obtain ⟨hc, ⟨dn, hd, hW⟩, ho, hg, hr, hs⟩ := h.wr
  have hl : c.segs.length = dn.length := by rw [hd]; simp
  have hc1 := hc.1
  have h0 := h.hT
  have h32 := h.n32
  have hroom := h.room
  have hph : ph = .addr := by
    cases ph with
    | addr => rfl
    | gen => exact absurd hs (by simp [Slot])
    | adv => exact absurd hs (by simp [Slot])
  subst hph
  subst ho
  have hcell : ∀ j, cellOf ((put q.ring (P % q.n) { q.ring (P % q.n) with gen := !(q.ring (P % q.n)).gen }) j) =
      cellOf (q.ring j) := by
    intro j
    by_cases hj : j = P % q.n
    · rw [hj, put_same]; rfl
    · rw [put_ne _ _ hj]
  refine {
    n32 := h.n32
    n4k := h.n4k
    pow := h.pow
    prop := ?_
    hP := ?_
    hT := by omega
    room := h.room
    head := h.head
    gen := h.gen
    tail := h.tail
    wr := rfl
    cont := ?_
    g1 := ?_
    g2 := ?_
    g3 := ?_
    g4 := fun h => absurd rfl h }
  · intro x hx
    rcases List.mem_append.1 hx with hx | hx
    · exact h.prop x hx
    · rw [List.mem_singleton.1 hx]; exact hc
  · rw [segCount_append, ← h.hP, hW, ← hl]; simp [segCount]
  · intro i h1 h2
    simp only [TxQ.publish, hcell]
    have := h.cont i h1 h2
    simpa [Writer.cells, flat] using this
  · intro i h1 h2 h3
    simp only [TxQ.publish] at h2 ⊢
    by_cases hi : i = P
    · rw [hi, put_same]
      simp only [h.g3, Bool.not_not]
    · have : i % q.n ≠ P % q.n := by
        rcases Nat.lt_or_gt_of_ne hi with hlt | hlt
        · exact mod_ne hlt (by omega)
        · exact (mod_ne hlt (by omega)).symm
      rw [put_ne _ _ this]
      exact h.g1 i h1 h2 hi
  · intro i h1 h2
    simp only [TxQ.publish] at h2 ⊢
    have : i % q.n ≠ P % q.n := (mod_ne (by omega) (by omega)).symm
    rw [Nat.mod_eq_of_lt h2] at this
    rw [put_ne _ _ this]
    exact h.g2 i h1 h2
  · simp only [TxQ.publish]
    have : W % q.n ≠ P % q.n := (mod_ne (by omega) (by omega)).symm
    rw [put_ne _ _ this]
    have := h.g4 (by omega)
    simpa [Writer.marked] using this

/-- The driver has seen completions: `T'` descriptors are free now. -/
theorem Cmd.free {q q' : TxQ} {w : Writer} {acc : List Chain} {T T' P W : Nat} (h : Cmd q w acc T P W)
    (hw : w = .idle) (h1 : T ≤ T') (h2 : T' ≤ P) (hn : q'.n = q.n) (hr : q'.ring = q.ring) (hh : q'.head = q.head)
    (hg : q'.gen = q.gen) (ht : q'.tail = T' % q.n) : Cmd q' w acc T' P W := by
  subst hw
  have hroom := h.room
  exact {
    n32 := by rw [hn]; exact h.n32
    n4k := by rw [hn]; exact h.n4k
    pow := by rw [hn]; exact h.pow
    prop := h.prop
    hP := h.hP
    hT := h2
    room := by rw [hn]; omega
    head := by rw [hn, hh]; exact h.head
    gen := by rw [hn, hg]; exact h.gen
    tail := by rw [hn]; exact ht
    wr := h.wr
    cont := by rw [hn, hr]; exact fun i hi hi' => h.cont i (by omega) hi'
    g1 := by rw [hn, hr]; exact h.g1
    g2 := by rw [hn, hr]; exact h.g2
    g3 := by rw [hn, hr]; exact h.g3
    g4 := by rw [hn, hr]; exact h.g4 }

/-- Nothing the command ring depends on has changed. -/
theorem Cmd.same {q q' : TxQ} {w : Writer} {acc : List Chain} {T P W : Nat} (h : Cmd q w acc T P W)
    (hn : q'.n = q.n) (hr : q'.ring = q.ring) (hh : q'.head = q.head) (hg : q'.gen = q.gen) (ht : q'.tail = q.tail) :
    Cmd q' w acc T P W := by
  exact {
    n32 := by rw [hn]; exact h.n32
    n4k := by rw [hn]; exact h.n4k
    pow := by rw [hn]; exact h.pow
    prop := h.prop
    hP := h.hP
    hT := h.hT
    room := by rw [hn]; exact h.room
    head := by rw [hn, hh]; exact h.head
    gen := by rw [hn, hg]; exact h.gen
    tail := by rw [hn, ht]; exact h.tail
    wr := by
      have := h.wr
      cases w with
      | idle => exact this
      | busy c old g rest ph => simp only [WrOk, hn, hr] at this ⊢; exact this
    cont := by rw [hn, hr]; exact h.cont
    g1 := by rw [hn, hr]; exact h.g1
    g2 := by rw [hn, hr]; exact h.g2
    g3 := by rw [hn, hr]; exact h.g3
    g4 := by rw [hn, hr]; exact h.g4 }

/-- The device on the command ring: it has sent `K` packets and read `D` descriptors. -/
structure Dv (n : Nat) (dev : TxDev) (acc : List Chain) (wire : List (List Seg)) (D : Nat) : Prop where
  le : wire.length ≤ acc.length
  pre : wire = (acc.take wire.length).map Chain.segs
  hD : D = segCount (acc.take wire.length) + dev.cur.length
  cur : dev.cur = [] ∨ ∃ c, acc[wire.length]? = some c ∧ dev.cur = c.segs.take dev.cur.length ∧
    dev.cur.length < c.segs.length
  next : dev.next = D % n
  gen : dev.gen = par n D

theorem Dv.le_sent {n : Nat} {dev : TxDev} {acc : List Chain} {wire : List (List Seg)} {D : Nat}
    (h : Dv n dev acc wire D) : D ≤ segCount acc := by
  rcases h.cur with hc | ⟨c, h1, _, h2⟩
  · rw [h.hD, hc]; exact segCount_take_le _ _
  · have h3 := segCount_take_succ h1
    have h4 := segCount_take_le acc (wire.length + 1)
    have := h.hD
    omega

/-- While not all is sent, the next descriptor belongs to the next packet. -/
theorem Dv.at {n : Nat} {dev : TxDev} {acc : List Chain} {wire : List (List Seg)} {D : Nat}
    (h : Dv n dev acc wire D) (hp : ∀ c ∈ acc, c.Proper) (hlt : D < segCount acc) :
    ∃ c r s, acc[wire.length]? = some c ∧ c.segs = dev.cur ++ s :: r ∧
      (flat acc)[D]? = some (s, if r = [] then some (decide (c.flags % 2 = 1)) else none) := by
  have hc : ∃ c, acc[wire.length]? = some c ∧ dev.cur = c.segs.take dev.cur.length ∧
      dev.cur.length < c.segs.length := by
    rcases h.cur with hc | hc
    · have hl : wire.length < acc.length := by
        rcases Nat.lt_or_ge wire.length acc.length with hl | hl
        · exact hl
        · have := h.hD
          rw [hc, List.take_of_length_le hl] at this
          simp at this; omega
      refine ⟨acc[wire.length], List.getElem?_eq_getElem hl, by simp [hc], ?_⟩
      rw [hc]
      exact (hp _ (List.getElem_mem hl)).1
    · exact hc
  obtain ⟨c, h1, h2, h3⟩ := hc
  have h4 : c.segs = dev.cur ++ c.segs[dev.cur.length] :: c.segs.drop (dev.cur.length + 1) := by
    have := List.take_append_drop dev.cur.length c.segs
    rw [List.drop_eq_getElem_cons h3, ← h2] at this
    exact this.symm
  refine ⟨c, _, _, h1, h4, ?_⟩
  rw [h.hD, flat_get h1 h3, Chain.cells]
  conv => lhs; rw [h4]
  exact cellsOf_get

theorem Dv.grow {n : Nat} {dev : TxDev} {acc : List Chain} {wire : List (List Seg)} {D : Nat} (c : Chain)
    (h : Dv n dev acc wire D) : Dv n dev (acc ++ [c]) wire D := by
  have ht : (acc ++ [c]).take wire.length = acc.take wire.length := by
    rw [List.take_append_of_le_length h.le]
  refine ⟨by have := h.le; simp; omega, by rw [ht]; exact h.pre, by rw [ht]; exact h.hD, ?_, h.next, h.gen⟩
  rcases h.cur with hc | ⟨x, h1, h2⟩
  · exact .inl hc
  · refine .inr ⟨x, ?_, h2⟩
    rw [List.getElem?_append_left (by rw [List.getElem?_eq_some_iff] at h1; exact h1.1)]
    exact h1

/-- Index of the last descriptor of the `k`-th packet. -/
def eopAt (n : Nat) (acc : List Chain) (k : Nat) : Nat := (segCount (acc.take (k + 1)) - 1) % n

theorem eopAt_grow {n : Nat} {acc : List Chain} {k : Nat} (c : Chain) (h : k < acc.length) :
    eopAt n (acc ++ [c]) k = eopAt n acc k := by
  unfold eopAt; rw [List.take_append_of_le_length (by omega)]

/-- Completions: `R` were seen by the driver, `C` written by the device, `K` packets sent. -/
structure Cp (q : TxQ) (dev : TxDev) (acc returned : List Chain) (R C K : Nat) : Prop where
  rc : R ≤ C
  ck : C + dev.pend.length = K
  ka : K ≤ acc.length
  win : C < R + q.n
  cnext : q.cnext = R % q.n
  cgen : q.cgen = par q.n R
  dnext : dev.cnext = C % q.n
  dgen : dev.cgen = par q.n C
  pend : ∀ i, i < dev.pend.length → (dev.pend[i]?).map Prod.fst = some (eopAt q.n acc (C + i))
  comp : ∀ k, R ≤ k → k < C → (q.comp (k % q.n)).eopIdx = eopAt q.n acc k
  g1 : ∀ k, k < C → C ≤ k + q.n → (q.comp (k % q.n)).gen = par q.n k
  g2 : ∀ k, C ≤ k → k < q.n → (q.comp k).gen = false
  fl : ∀ i, q.inflight[i]? = (acc[R + i]?).map (fun c => (eopAt q.n acc (R + i), c))
  ret : returned ++ q.processed = acc.take R

structure Inv (s : TxSt) : Prop where
  ex : ∃ T P W D R C, Cmd s.q s.w s.accepted T P W ∧ Dv s.q.n s.dev s.accepted s.wire D ∧
    Cp s.q s.dev s.accepted s.returned R C s.wire.length ∧ T = segCount (s.accepted.take R)
  db : ∀ h, s.q.lastFlush = some h → s.dev.db = h

theorem Cp.sameQ {q q' : TxQ} {dev : TxDev} {acc ret : List Chain} {R C K : Nat} (h : Cp q dev acc ret R C K)
    (hn : q'.n = q.n) (hc : q'.comp = q.comp) (h1 : q'.cnext = q.cnext) (h2 : q'.cgen = q.cgen)
    (h3 : q'.inflight = q.inflight) (h4 : q'.processed = q.processed) : Cp q' dev acc ret R C K := by
  obtain ⟨a1, a2, a3, a4, a5, a6, a7, a8, a9, a10, a11, a12, a13, a14⟩ := h
  refine ⟨a1, a2, a3, ?_, ?_, ?_, ?_, ?_, ?_, ?_, ?_, ?_, ?_, ?_⟩ <;> simp only [hn, hc, h1, h2, h3, h4] <;> assumption

/-- No more packets are unreported than fit the completion ring. -/
theorem window {q : TxQ} {w : Writer} {dev : TxDev} {acc ret : List Chain} {wire : List (List Seg)}
    {T P W D R C : Nat} (h : Cmd q w acc T P W) (hd : Dv q.n dev acc wire D) (hc : Cp q dev acc ret R C wire.length)
    (hT : T = segCount (acc.take R)) : wire.length < R + q.n ∧ D ≤ P ∧ T ≤ D := by
  have h1 := hc.rc
  have h2 := hc.ck
  have h3 := segCount_ge h.prop (k := R) (l := wire.length) (by omega) hd.le
  have h4 := hd.hD
  have h5 := hd.le_sent
  have h6 := h.hP
  have h7 := h.pw
  have h8 := h.room
  omega

theorem Cp.reap {q : TxQ} {w : Writer} {dev : TxDev} {acc ret : List Chain} {wire : List (List Seg)}
    {T P W R C : Nat} (h : Cmd q w acc T P W) (hw : w = .idle)
    (hc : Cp q dev acc ret R C wire.length) (hT : T = segCount (acc.take R)) :
    (C = R ∧ q.reap = .ok none) ∨
    (R < C ∧ ∃ q' c, q.reap = .ok (some q') ∧ Cmd q' w acc (segCount (acc.take (R + 1))) P W ∧
      Cp q' dev acc ret (R + 1) C wire.length ∧ q'.n = q.n ∧ q'.lastFlush = q.lastFlush ∧ acc[R]? = some c ∧
      q'.processed = q.processed ++ [c]) := by
  have h32 := h.n32
  have hwin := hc.win
  have hrc := hc.rc
  have hck := hc.ck
  have hka := hc.ka
  rcases Nat.lt_or_ge R C with hlt | hge
  · refine .inr ⟨hlt, ?_⟩
    have hg : (q.comp q.cnext).gen = q.cgen := by
      rw [hc.cnext, hc.cgen]; exact hc.g1 R hlt (by omega)
    have he : (q.comp q.cnext).eopIdx = eopAt q.n acc R := by
      rw [hc.cnext]; exact hc.comp R (by omega) hlt
    have hRl : R < acc.length := by omega
    have hR : acc[R]? = some acc[R] := List.getElem?_eq_getElem hRl
    have hf := hc.fl 0
    rw [Nat.add_zero, hR, Option.map_some] at hf
    obtain ⟨fl, hfl⟩ : ∃ fl, q.inflight = (eopAt q.n acc R, acc[R]) :: fl := by
      cases hq : q.inflight with
      | nil => rw [hq] at hf; simp at hf
      | cons a l => rw [hq] at hf; simp at hf; exact ⟨l, by rw [hf]⟩
    have hadv : NRK.Net.adv q.n q.cnext q.cgen = ((R + 1) % q.n, par q.n (R + 1)) := by
      rw [hc.cnext, hc.cgen]; exact adv_par (by omega)
    have hT1 := segCount_take_succ hR
    have hpr := (h.prop _ (List.getElem_mem hRl)).1
    refine ⟨{ q with
      cnext := (NRK.Net.adv q.n q.cnext q.cgen).1
      cgen := (NRK.Net.adv q.n q.cnext q.cgen).2
      inflight := fl
      processed := q.processed ++ [acc[R]]
      tail := ((q.comp q.cnext).eopIdx + 1) % q.n }, acc[R], ?_, ?_, ?_, rfl, rfl, hR, rfl⟩
    · unfold TxQ.reap
      rw [if_neg (by rw [hg]; simp), hfl]
      simp only
      rw [if_neg (by rw [he]; simp)]
    · refine h.free hw (by omega) ?_ rfl rfl rfl rfl ?_
      · rw [h.hP]; exact segCount_take_le _ _
      · simp only
        rw [he, eopAt, Nat.mod_add_mod]
        congr 1
        omega
    · exact {
        rc := by omega
        ck := hc.ck
        ka := hc.ka
        win := by simp only; omega
        cnext := by simp only [hadv]
        cgen := by simp only [hadv]
        dnext := hc.dnext
        dgen := hc.dgen
        pend := hc.pend
        comp := fun k h1 h2 => hc.comp k (by omega) h2
        g1 := hc.g1
        g2 := hc.g2
        fl := by
          intro i
          have := hc.fl (i + 1)
          rw [hfl, List.getElem?_cons_succ] at this
          simp only
          rw [this, Nat.add_assoc R 1 i, Nat.add_comm 1 i]
        ret := by
          simp only
          rw [← List.append_assoc, hc.ret, List.take_add_one, hR]
          rfl }
  · refine .inl ⟨by omega, ?_⟩
    have hCR : C = R := by omega
    have hg : (q.comp q.cnext).gen ≠ q.cgen := by
      rw [hc.cnext, hc.cgen, ← hCR]
      by_cases hn : C < q.n
      · rw [Nat.mod_eq_of_lt hn, hc.g2 C (Nat.le_refl _) hn, par_lt hn]; simp
      · obtain ⟨i, hi⟩ : ∃ i, C = i + q.n := ⟨C - q.n, by omega⟩
        have := hc.g1 i (by omega) (by omega)
        rw [hi, Nat.add_mod_right, par_add (by omega), this]
        simp
    unfold TxQ.reap
    rw [if_pos hg]

theorem Inv.init (ndesc : Nat) (hn : Pow2 (TxSt.new ndesc).q.n) : Inv (TxSt.new ndesc) := by
  have h32 : 32 ≤ (TxSt.new ndesc).q.n := by simp only [TxSt.new, TxQ.new]; omega
  have h4k : (TxSt.new ndesc).q.n ≤ 4096 := by simp only [TxSt.new, TxQ.new]; omega
  have hp : par (TxSt.new ndesc).q.n 0 = true := par_lt (by omega)
  refine ⟨⟨0, 0, 0, 0, 0, 0, ?_, ?_, ?_, rfl⟩, ?_⟩
  · exact {
      n32 := h32
      n4k := h4k
      pow := hn
      prop := fun c hc => by cases hc
      hP := rfl
      hT := Nat.le_refl _
      room := by omega
      head := by rw [Nat.zero_mod]; rfl
      gen := by rw [hp]; rfl
      tail := by rw [Nat.zero_mod]; rfl
      wr := rfl
      cont := fun i _ h => absurd h (by omega)
      g1 := fun i h => absurd h (by omega)
      g2 := fun i _ _ => rfl
      g3 := by rw [hp]; rfl
      g4 := fun h => absurd rfl h }
  · exact ⟨Nat.le_refl _, rfl, rfl, .inl rfl, by rw [Nat.zero_mod]; rfl, by rw [hp]; rfl⟩
  · exact {
      rc := Nat.le_refl _
      ck := rfl
      ka := Nat.le_refl _
      win := by omega
      cnext := by rw [Nat.zero_mod]; rfl
      cgen := by rw [hp]; rfl
      dnext := by rw [Nat.zero_mod]; rfl
      dgen := by rw [hp]; rfl
      pend := fun i h => absurd h (by simp [TxSt.new, TxDev.new])
      comp := fun k _ h => absurd h (by omega)
      g1 := fun k h => absurd h (by omega)
      g2 := fun k _ _ => rfl
      fl := fun i => by simp [TxSt.new, TxQ.new]
      ret := rfl }
  · intro h hh; simp [TxSt.new, TxQ.new] at hh

theorem Cp.grow {q : TxQ} {dev : TxDev} {acc ret : List Chain} {R C K : Nat} {c : Chain} {old : Nat}
    (h : Cp q dev acc ret R C K) (he : wsub q.head 1 % q.n = eopAt q.n (acc ++ [c]) acc.length) :
    Cp (q.publish c old) dev (acc ++ [c]) ret R C K := by
  have hck := h.ck
  have hrc := h.rc
  have hka := h.ka
  exact {
    rc := h.rc
    ck := h.ck
    ka := by simp; omega
    win := h.win
    cnext := h.cnext
    cgen := h.cgen
    dnext := h.dnext
    dgen := h.dgen
    pend := by
      intro i hi
      rw [eopAt_grow c (by omega)]
      exact h.pend i hi
    comp := by
      intro k h1 h2
      rw [eopAt_grow c (by omega)]
      exact h.comp k h1 h2
    g1 := h.g1
    g2 := h.g2
    fl := by
      intro i
      have hl : q.inflight.length = acc.length - R := by
        have h1 := h.fl (acc.length - R)
        rw [List.getElem?_eq_none (l := acc) (by omega), Option.map_none] at h1
        have h2 : q.inflight.length ≤ acc.length - R := by simpa using h1
        rcases Nat.lt_or_ge q.inflight.length (acc.length - R) with h3 | h3
        · have h4 := h.fl q.inflight.length
          rw [List.getElem?_eq_none (Nat.le_refl _), List.getElem?_eq_getElem (by omega)] at h4
          simp at h4
        · omega
      simp only [TxQ.publish]
      rcases Nat.lt_trichotomy i q.inflight.length with hi | hi | hi
      · rw [List.getElem?_append_left hi, List.getElem?_append_left (by omega), eopAt_grow c (by omega)]
        exact h.fl i
      · have e : R + i = acc.length := by omega
        rw [e, he, hi]
        simp
      · rw [List.getElem?_eq_none (by simp; omega), List.getElem?_eq_none (by simp; omega)]
        rfl
    ret := by
      have := h.ret
      rw [List.take_append_of_le_length (by omega)]
      exact this }

theorem TxQ.dequeue_nil {q : TxQ} (h : q.processed = []) : q.dequeue = (match q.reap with
    | .ok (some q') =>
      match q'.processed with
      | c :: cs => .ok (some ({ q' with processed := cs }, c))
      | [] => .ok none
    | .ok none => .ok none
    | .panic => .panic
    | .off => .off) := by
  simp only [TxQ.dequeue, h]
  rfl

/-- Taking a chain from the processed ones. -/
theorem Cp.take {q : TxQ} {dev : TxDev} {acc ret : List Chain} {R C K : Nat} {c : Chain} {cs : List Chain}
    (h : Cp q dev acc ret R C K) (hp : q.processed = c :: cs) :
    Cp { q with processed := cs } dev acc (ret ++ [c]) R C K := by
  exact {
    rc := h.rc
    ck := h.ck
    ka := h.ka
    win := h.win
    cnext := h.cnext
    cgen := h.cgen
    dnext := h.dnext
    dgen := h.dgen
    pend := h.pend
    comp := h.comp
    g1 := h.g1
    g2 := h.g2
    fl := h.fl
    ret := by
      have := h.ret
      rw [hp] at this
      simp only [List.append_assoc, List.singleton_append]
      exact this }

end NRK.Net
