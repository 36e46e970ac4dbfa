import Verif.Proc.CoreSetModel

/-!
# Properties of core sets (C33) and hardware thread identifiers (C34)
-/

namespace NRK.Proc

/-! ## Specification -/

/-- Core `c` is in the set: bit `c` of the 256-bit number `high : low`. -/
def CoreBitMap.Mem (m : CoreBitMap) (c : Nat) : Prop :=
  (m.high.toNat * 2 ^ 128 + m.low.toNat).testBit c = true

/-! ## Helper lemmas -/

theorem mem_low (m : CoreBitMap) (c : Nat) (h : c < 128) : m.Mem c ↔ m.low.getLsbD c = true := by
  unfold CoreBitMap.Mem
  rw [Nat.mul_comm, Nat.testBit_two_pow_mul_add _ m.low.isLt]
  simp [h, BitVec.getLsbD]

theorem mem_high (m : CoreBitMap) (c : Nat) (h : 128 ≤ c) :
    m.Mem c ↔ m.high.getLsbD (c - 128) = true := by
  unfold CoreBitMap.Mem
  rw [Nat.mul_comm, Nat.testBit_two_pow_mul_add _ m.low.isLt]
  simp [Nat.not_lt.2 h, BitVec.getLsbD]

theorem setBit128_spec (x : BitVec 128) (b : Nat) (v : Bool) (hb : b < 128) :
    ∃ y, setBit128 x b v = .ok y ∧ ∀ i, i < 128 → y.getLsbD i = if i = b then v else x.getLsbD i := by
  unfold setBit128
  rw [if_pos hb]
  refine ⟨_, rfl, ?_⟩
  intro i hi
  cases v
  · by_cases e : i = b
    · subst e; simp [hi]
    · rw [if_neg e]
      simp [hi]
      intro _
      rcases Nat.lt_or_ge i b with h | h
      · exact Or.inl h
      · exact Or.inr (by omega)
  · by_cases e : i = b
    · subst e; simp [hi]
    · rw [if_neg e]
      simp [hi]
      intro h1
      omega

theorem lsb_clear (x : BitVec 128) (hx : x ≠ 0#128) (i : Nat) (hi : i < 128) :
    (x ^^^ (x &&& -x)).getLsbD i = (x.getLsbD i && decide (i ≠ x.ctz.toNat)) := by
  have h1 := BitVec.getLsbD_true_ctz_of_ne_zero hx
  have h2 : ∀ j, j < x.ctz.toNat → x.getLsbD j = false := fun j hj => BitVec.getLsbD_false_of_lt_ctz hj
  rw [BitVec.getLsbD_xor, BitVec.getLsbD_and, BitVec.getLsbD_neg]
  rcases Nat.lt_trichotomy i x.ctz.toNat with h | h | h
  · simp [h2 i h]
  · have : ¬ ∃ j < i, x.getLsbD j = true := by
      rintro ⟨j, hj, hj'⟩
      rw [h2 j (by omega)] at hj'
      cases hj'
    simp only [this, decide_false, Bool.and_false, Bool.xor_false, Bool.and_self, Bool.xor_self]
    simp [h]
  · have : ∃ j < i, x.getLsbD j = true := ⟨_, h, h1⟩
    simp only [this, hi, decide_true, Bool.and_true]
    have : i ≠ x.ctz.toNat := by omega
    simp only [this, ne_eq, not_false_eq_true, decide_true, Bool.and_true]
    cases x.getLsbD i <;> rfl

theorem ctz_lt (x : BitVec 128) (hx : x ≠ 0#128) : x.ctz.toNat < 128 := by
  have := BitVec.getLsbD_true_ctz_of_ne_zero hx
  exact BitVec.lt_of_getLsbD this

theorem ext_zero (x : BitVec 128) : x = 0#128 ↔ ∀ i, i < 128 → x.getLsbD i = false := by
  constructor
  · rintro rfl; simp
  · intro h
    apply BitVec.eq_of_getLsbD_eq
    intro i hi
    simp [h i hi]

/-- One step of the iterator gives the least member and takes exactly it out. -/
theorem next_spec (m : CoreBitMap) :
    ((∀ c, c < 256 → ¬ m.Mem c) ∧ m.next = (none, m)) ∨
    ∃ c m', m.next = (some c, m') ∧ c < 256 ∧ m.Mem c ∧ (∀ d, d < c → ¬ m.Mem d) ∧
      ∀ d, d < 256 → (m'.Mem d ↔ m.Mem d ∧ d ≠ c) := by
  unfold CoreBitMap.next
  split
  · rename_i h
    refine Or.inl ⟨?_, rfl⟩
    intro c _
    rcases Nat.lt_or_ge c 128 with hc | hc
    · rw [mem_low m c hc, h.1]; simp
    · rw [mem_high m c hc, h.2]; simp
  · rename_i h
    right
    by_cases hl : m.low = 0#128
    · have hh : m.high ≠ 0#128 := fun e => h ⟨hl, e⟩
      rw [if_neg (by rw [hl]; decide)]
      have hlt := ctz_lt m.high hh
      refine ⟨_, _, rfl, by omega, ?_, ?_, ?_⟩
      · rw [mem_high _ _ (by omega), Nat.add_sub_cancel_left]
        exact BitVec.getLsbD_true_ctz_of_ne_zero hh
      · intro d hd
        rcases Nat.lt_or_ge d 128 with hc | hc
        · rw [mem_low m d hc, hl]; simp
        · rw [mem_high m d hc, BitVec.getLsbD_false_of_lt_ctz (by omega)]; simp
      · intro d hd
        rcases Nat.lt_or_ge d 128 with hc | hc
        · rw [mem_low _ d hc, mem_low m d hc, hl]; simp
        · rw [mem_high _ d hc, mem_high m d hc]
          dsimp only
          rw [lsb_clear _ hh _ (by omega)]
          simp only [Bool.and_eq_true, decide_eq_true_eq]
          constructor
          · rintro ⟨a, b⟩; exact ⟨a, by omega⟩
          · rintro ⟨a, b⟩; exact ⟨a, by omega⟩
    · rw [if_pos (by
        rw [gt_iff_lt, BitVec.lt_def]
        rcases Nat.eq_zero_or_pos m.low.toNat with e | e
        · exact absurd (BitVec.eq_of_toNat_eq (by simpa using e)) hl
        · simpa using e)]
      have hlt := ctz_lt m.low hl
      refine ⟨_, _, rfl, by omega, ?_, ?_, ?_⟩
      · rw [mem_low _ _ hlt]
        exact BitVec.getLsbD_true_ctz_of_ne_zero hl
      · intro d hd
        rw [mem_low m d (by omega), BitVec.getLsbD_false_of_lt_ctz hd]; simp
      · intro d hd
        rcases Nat.lt_or_ge d 128 with hc | hc
        · rw [mem_low _ d hc, mem_low m d hc]
          dsimp only
          rw [lsb_clear _ hl _ hc]
          simp
        · rw [mem_high _ d hc, mem_high m d hc]
          dsimp only
          exact ⟨fun a => ⟨a, by omega⟩, fun a => a.1⟩

/-! ## C33: core sets -/

/-- **C33** The empty set has no member. -/
theorem c33_empty (c : Nat) : ¬ CoreBitMap.empty.Mem c := by
  simp [CoreBitMap.Mem, CoreBitMap.empty]

/-- **C33** Setting or clearing a core below 256 changes the membership of exactly that core. -/
theorem c33_set (m : CoreBitMap) (c : Nat) (v : Bool) (hc : c < 256) :
    ∃ m', m.setBit c v = .ok m' ∧ ∀ d, m'.Mem d ↔ if d = c then v = true else m.Mem d := by
  unfold CoreBitMap.setBit
  by_cases h : c ≤ 127
  · rw [if_pos h]
    obtain ⟨y, h1, h2⟩ := setBit128_spec m.low c v (by omega)
    rw [h1]
    refine ⟨_, rfl, ?_⟩
    intro d
    rcases Nat.lt_or_ge d 128 with hd | hd
    · rw [mem_low _ d hd, mem_low m d hd]
      dsimp only
      rw [h2 d hd]
      split <;> rfl
    · rw [mem_high _ d hd, mem_high m d hd, if_neg (by omega)]
  · rw [if_neg h]
    obtain ⟨y, h1, h2⟩ := setBit128_spec m.high (c - 128) v (by omega)
    rw [h1]
    refine ⟨_, rfl, ?_⟩
    intro d
    rcases Nat.lt_or_ge d 128 with hd | hd
    · rw [mem_low _ d hd, mem_low m d hd, if_neg (by omega)]
    · rw [mem_high _ d hd, mem_high m d hd]
      dsimp only
      rcases Nat.lt_or_ge d 256 with h3 | h3
      · rw [h2 (d - 128) (by omega)]
        by_cases e : d = c
        · rw [if_pos (by omega), if_pos e]
        · rw [if_neg (by omega), if_neg e]
      · rw [if_neg (by omega), BitVec.getLsbD_of_ge _ _ (by omega), BitVec.getLsbD_of_ge _ _ (by omega)]

/-- **C33** A core that does not fit is not silently ignored: the call panics. -/
theorem c33_set_out_of_range (m : CoreBitMap) (c : Nat) (v : Bool) (hc : 256 ≤ c) :
    m.setBit c v = .panic := by
  unfold CoreBitMap.setBit setBit128
  rw [if_neg (by omega), if_neg (by omega)]
  rfl

/-- **C33** The emptiness test tells whether there is a member. -/
theorem c33_is_empty (m : CoreBitMap) : m.isEmpty = true ↔ ∀ c, ¬ m.Mem c := by
  unfold CoreBitMap.isEmpty
  rw [Bool.and_eq_true, beq_iff_eq, beq_iff_eq]
  constructor
  · rintro ⟨h1, h2⟩ c
    rcases Nat.lt_or_ge c 128 with hc | hc
    · rw [mem_low m c hc, h1]; simp
    · rw [mem_high m c hc, h2]; simp
  · intro h
    constructor
    · apply (ext_zero _).2
      intro i hi
      have := h i
      rw [mem_low m i hi] at this
      simpa using this
    · apply (ext_zero _).2
      intro i hi
      have := h (i + 128)
      rw [mem_high m (i + 128) (by omega), Nat.add_sub_cancel] at this
      simpa using this

theorem mem_lt {m : CoreBitMap} {c : Nat} (h : m.Mem c) : c < 256 := by
  rcases Nat.lt_or_ge c 256 with hc | hc
  · exact hc
  · rw [mem_high m c (by omega), BitVec.getLsbD_of_ge _ _ (by omega)] at h
    cases h

/-- **C33** Iterating over a set visits its members in ascending order, each exactly once, and nothing
else; the loop ends. -/
theorem c33_iterate (m : CoreBitMap) :
    ∃ l, m.Visits l ∧ (∀ l', m.Visits l' → l' = l) ∧ l.Pairwise (· < ·) ∧ ∀ c, c ∈ l ↔ m.Mem c := by
  have main : ∀ n k (m : CoreBitMap), n + k = 256 → (∀ d, d < k → ¬ m.Mem d) →
      ∃ l, m.Visits l ∧ (∀ l', m.Visits l' → l' = l) ∧ l.Pairwise (· < ·) ∧ ∀ c, c ∈ l ↔ m.Mem c := by
    intro n
    induction n using Nat.strongRecOn with
    | _ n ih =>
      intro k m hnk hlow
      rcases next_spec m with ⟨h1, h2⟩ | ⟨c, m', h1, hc, hmem, hmin, hrest⟩
      · refine ⟨[], .done h2, ?_, .nil, ?_⟩
        · intro l' hv
          cases hv with
          | done _ => rfl
          | item h _ => rw [h2] at h; cases h
        · intro c
          refine ⟨fun h => absurd h (by simp), fun h => absurd h ?_⟩
          exact h1 c (mem_lt h)
      · have hck : k ≤ c := by
          rcases Nat.lt_or_ge c k with h | h
          · exact absurd hmem (hlow c h)
          · exact h
        obtain ⟨l, h3, h4, h5, h6⟩ := ih (255 - c) (by omega) (c + 1) m' (by omega) (by
          intro d hd hm
          have := (hrest d (mem_lt hm)).1 hm
          exact hmin d (by omega) this.1)
        refine ⟨c :: l, .item h1 h3, ?_, ?_, ?_⟩
        · intro l' hv
          cases hv with
          | done h => rw [h1] at h; cases h
          | item h hv =>
            rw [h1] at h
            cases h
            rw [h4 _ hv]
        · refine List.pairwise_cons.2 ⟨?_, h5⟩
          intro d hd
          have hm := (h6 d).1 hd
          have := (hrest d (mem_lt hm)).1 hm
          rcases Nat.lt_trichotomy c d with h | h | h
          · exact h
          · exact absurd h.symm this.2
          · exact absurd this.1 (hmin d h)
        · intro d
          rw [List.mem_cons, h6 d]
          constructor
          · rintro (rfl | h)
            · exact hmem
            · exact ((hrest d (mem_lt h)).1 h).1
          · intro h
            by_cases e : d = c
            · exact Or.inl e
            · exact Or.inr ((hrest d (mem_lt h)).2 ⟨h, e⟩)
  exact main 256 0 m rfl (fun d hd => absurd hd (by omega))

/-- **C33** Together: after adding any cores below 256 to an empty set, in any order and any number of
times, a loop over the set visits exactly those cores, once each. -/
theorem c33_add_then_iterate (cs : List Nat) (hcs : ∀ c ∈ cs, c < 256) :
    ∃ m l, addCores CoreBitMap.empty cs = .ok m ∧ m.Visits l ∧ l.Nodup ∧ ∀ c, c ∈ l ↔ c ∈ cs := by
  have add : ∀ (cs : List Nat) (m : CoreBitMap), (∀ c ∈ cs, c < 256) →
      ∃ m', addCores m cs = .ok m' ∧ ∀ c, m'.Mem c ↔ m.Mem c ∨ c ∈ cs := by
    intro cs
    induction cs with
    | nil => intro m _; exact ⟨m, rfl, by simp⟩
    | cons c cs ih =>
      intro m h
      obtain ⟨m1, h1, h2⟩ := c33_set m c true (h c (by simp))
      obtain ⟨m2, h3, h4⟩ := ih m1 (fun d hd => h d (by simp [hd]))
      refine ⟨m2, ?_, ?_⟩
      · unfold addCores; rw [h1]; exact h3
      · intro d
        rw [h4, h2, List.mem_cons]
        by_cases e : d = c
        · simp [e]
        · simp [e]
  obtain ⟨m, h1, h2⟩ := add cs CoreBitMap.empty hcs
  obtain ⟨l, h3, _, h5, h6⟩ := c33_iterate m
  refine ⟨m, l, h1, h3, h5.imp (fun h => Nat.ne_of_lt h), ?_⟩
  intro c
  rw [h6, h2]
  exact ⟨fun h => h.resolve_left (c33_empty c), Or.inr⟩

example : addCores CoreBitMap.empty [200, 3, 127, 128, 3] = .ok ⟨2 ^ 127 + 8, 2 ^ 72 + 1⟩ ∧
    CoreBitMap.Visits ⟨2 ^ 127 + 8, 2 ^ 72 + 1⟩ [3, 127, 128, 200] := by
  refine ⟨by decide +kernel, ?_⟩
  refine .item (m' := ⟨2 ^ 127, 2 ^ 72 + 1⟩) (by decide +kernel) ?_
  refine .item (m' := ⟨0, 2 ^ 72 + 1⟩) (by decide +kernel) ?_
  refine .item (m' := ⟨0, 2 ^ 72⟩) (by decide +kernel) ?_
  refine .item (m' := ⟨0, 0⟩) (by decide +kernel) ?_
  exact .done (m' := ⟨0, 0⟩) (by decide +kernel)

/-! ## C34: hardware thread identifiers -/

/-- **C34** An identifier made of a thread and a machine, both below 2^32, gives both back. -/
theorem c34_roundtrip (mtid mid : BitVec 64) (h1 : mtid.toNat < 2 ^ 32) (h2 : mid.toNat < 2 ^ 32) :
    mtidFromGtid (newGtid mtid mid) = mtid ∧ midFromGtid (newGtid mtid mid) = mid := by
  have e : (newGtid mtid mid).toNat = 2 ^ 32 * mid.toNat + mtid.toNat := by
    unfold newGtid
    rw [BitVec.toNat_or, BitVec.toNat_shiftLeft, Nat.shiftLeft_eq, Nat.mod_eq_of_lt (by omega),
      Nat.mul_comm, Nat.two_pow_add_eq_or_of_lt h1]
  constructor
  · apply BitVec.eq_of_toNat_eq
    unfold mtidFromGtid
    rw [BitVec.toNat_ushiftRight, BitVec.toNat_shiftLeft, e, Nat.shiftLeft_eq, Nat.shiftRight_eq_div_pow]
    omega
  · apply BitVec.eq_of_toNat_eq
    unfold midFromGtid
    rw [BitVec.toNat_ushiftRight, e, Nat.shiftRight_eq_div_pow]
    omega

/-- **C34** Different (thread, machine) pairs have different identifiers, and an identifier is the
number `machine * 2^32 + thread`. -/
theorem c34_injective (t1 m1 t2 m2 : BitVec 64) (h1 : t1.toNat < 2 ^ 32) (h2 : m1.toNat < 2 ^ 32)
    (h3 : t2.toNat < 2 ^ 32) (h4 : m2.toNat < 2 ^ 32) (h : newGtid t1 m1 = newGtid t2 m2) :
    t1 = t2 ∧ m1 = m2 := by
  obtain ⟨a, b⟩ := c34_roundtrip t1 m1 h1 h2
  obtain ⟨c, d⟩ := c34_roundtrip t2 m2 h3 h4
  rw [h] at a b
  exact ⟨a.symm.trans c, b.symm.trans d⟩

theorem c34_value (mtid mid : BitVec 64) (h1 : mtid.toNat < 2 ^ 32) (h2 : mid.toNat < 2 ^ 32) :
    (newGtid mtid mid).toNat = mid.toNat * 2 ^ 32 + mtid.toNat := by
  unfold newGtid
  rw [BitVec.toNat_or, BitVec.toNat_shiftLeft, Nat.shiftLeft_eq, Nat.mod_eq_of_lt (by omega),
    Nat.mul_comm, Nat.two_pow_add_eq_or_of_lt h1]

/-- **C34** Conversely every identifier is that of the thread and machine taken out of it. -/
theorem c34_surjective (g : BitVec 64) :
    newGtid (mtidFromGtid g) (midFromGtid g) = g ∧ (mtidFromGtid g).toNat < 2 ^ 32 ∧
      (midFromGtid g).toNat < 2 ^ 32 := by
  have l1 : (mtidFromGtid g).toNat = g.toNat % 2 ^ 32 := by
    unfold mtidFromGtid
    rw [BitVec.toNat_ushiftRight, BitVec.toNat_shiftLeft, Nat.shiftLeft_eq, Nat.shiftRight_eq_div_pow]
    omega
  have l2 : (midFromGtid g).toNat = g.toNat / 2 ^ 32 := by
    unfold midFromGtid
    rw [BitVec.toNat_ushiftRight, Nat.shiftRight_eq_div_pow]
  have hg := g.isLt
  refine ⟨?_, by omega, by omega⟩
  apply BitVec.eq_of_toNat_eq
  rw [c34_value _ _ (by omega) (by omega), l1, l2]
  omega

/-- **C34** The bound is sharp: with a thread number of 2^32 the identifier is another one's. -/
theorem c34_bound_sharp : newGtid (2 ^ 32) 0 = newGtid 0 1 := by decide +kernel

example : newGtid 23 15 = 64424509463#64 ∧ midFromGtid 64424509463#64 = 15 ∧
    mtidFromGtid 64424509463#64 = 23 := by decide +kernel

end NRK.Proc
