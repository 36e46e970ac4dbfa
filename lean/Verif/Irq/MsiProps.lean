import Verif.Irq.MsiModel
import Verif.Irq.MsiSpec

/-!
# C102: Interrupts go to the core, the machine and the vector that were asked for
-/

namespace NRK.Irq

theorem field {w : Nat} (x : BitVec w) (s m : Nat) :
    x.toNat / 2 ^ s % 2 ^ m = (x.extractLsb' s m).toNat := by
  rw [BitVec.extractLsb'_toNat, Nat.shiftRight_eq_div_pow]

theorem enable_addr_bit (e : Entry) (d v : BitVec 8) (i : Nat) (hi : i < 64) :
    (e.enable d v).addr.getLsbD i =
      ((e.addr.getLsbD i && (0x7F0 : BitVec 64).getLsbD i) || (0xFEE00000 : BitVec 64).getLsbD i ||
        (decide (12 ≤ i) && d.getLsbD (i - 12)) || decide (32 ≤ i)) := by
  have h : ((0xFFFFFFFF : BitVec 64) <<< 32).getLsbD i = decide (32 ≤ i) := by
    have : ∀ k : Fin 64, ((0xFFFFFFFF : BitVec 64) <<< 32).getLsbD k.1 = decide (32 ≤ k.1) := by decide
    exact this ⟨i, hi⟩
  have h2 : ((0xFEE : BitVec 64) <<< 20) = 0xFEE00000 := by decide
  simp only [Entry.enable, addressRegister, BitVec.getLsbD_or, BitVec.getLsbD_and, h, h2]
  by_cases h12 : i < 12
  · simp [hi, h12, Nat.not_le.2 h12]
  · simp [hi, h12, Nat.not_lt.1 h12, Bool.or_assoc]

theorem enable_data_bit (e : Entry) (d v : BitVec 8) (i : Nat) (hi : i < 32) :
    (e.enable d v).data.getLsbD i =
      ((e.data.getLsbD i && (0xFFFF3800 : BitVec 32).getLsbD i) || decide (i = 14) || v.getLsbD i) := by
  have h : ((1 : BitVec 32) <<< 14).getLsbD i = decide (i = 14) := by
    have : ∀ k : Fin 32, ((1 : BitVec 32) <<< 14).getLsbD k.1 = decide (k.1 = 14) := by decide
    exact this ⟨i, hi⟩
  simp only [Entry.enable, dataRegister, BitVec.getLsbD_or, BitVec.getLsbD_and, h]
  simp [hi, Bool.or_assoc]

/-- An entry that was set up is the message for the core and the vector, whatever was in it. -/
theorem enable_means (e : Entry) (d v : BitVec 8) :
    Spec.Means (e.enable d v).addr.toNat (e.enable d v).data.toNat ⟨d.toNat, v.toNat⟩ := by
  have hz : ∀ i, 8 ≤ i → v.getLsbD i = false := fun i hi => BitVec.getLsbD_of_ge _ _ hi
  have hd : ∀ i, 8 ≤ i → d.getLsbD i = false := fun i hi => BitVec.getLsbD_of_ge _ _ hi
  constructor
  · rw [field]
    show _ = (0xFEE : BitVec 12).toNat
    congr 1
    apply BitVec.eq_of_getLsbD_eq
    intro k hk
    rw [BitVec.getLsbD_extractLsb', enable_addr_bit _ _ _ _ (by omega), hd _ (by omega)]
    rcases (by omega : k = 0 ∨ k = 1 ∨ k = 2 ∨ k = 3 ∨ k = 4 ∨ k = 5 ∨ k = 6 ∨ k = 7 ∨ k = 8 ∨ k = 9 ∨ k = 10 ∨ k = 11)
      with rfl | rfl | rfl | rfl | rfl | rfl | rfl | rfl | rfl | rfl | rfl | rfl <;> simp
  · rw [field]
    show _ = d.toNat
    congr 1
    apply BitVec.eq_of_getLsbD_eq
    intro k hk
    rw [BitVec.getLsbD_extractLsb', enable_addr_bit _ _ _ _ (by omega)]
    rcases (by omega : k = 0 ∨ k = 1 ∨ k = 2 ∨ k = 3 ∨ k = 4 ∨ k = 5 ∨ k = 6 ∨ k = 7)
      with rfl | rfl | rfl | rfl | rfl | rfl | rfl | rfl <;> simp
  · rw [BitVec.testBit_toNat, enable_addr_bit _ _ _ _ (by omega)]; simp
  · rw [BitVec.testBit_toNat, enable_addr_bit _ _ _ _ (by omega)]; simp
  · have := field (e.enable d v).data 0 8
    rw [Nat.pow_zero, Nat.div_one] at this
    rw [this]
    show _ = v.toNat
    congr 1
    apply BitVec.eq_of_getLsbD_eq
    intro k hk
    rw [BitVec.getLsbD_extractLsb', enable_data_bit _ _ _ _ (by omega)]
    rcases (by omega : k = 0 ∨ k = 1 ∨ k = 2 ∨ k = 3 ∨ k = 4 ∨ k = 5 ∨ k = 6 ∨ k = 7)
      with rfl | rfl | rfl | rfl | rfl | rfl | rfl | rfl <;> simp
  · rw [field]
    show _ = (0 : BitVec 3).toNat
    congr 1
    apply BitVec.eq_of_getLsbD_eq
    intro k hk
    rw [BitVec.getLsbD_extractLsb', enable_data_bit _ _ _ _ (by omega), hz _ (by omega)]
    rcases (by omega : k = 0 ∨ k = 1 ∨ k = 2) with rfl | rfl | rfl <;> simp
  · rw [BitVec.testBit_toNat, enable_data_bit _ _ _ _ (by omega), hz _ (by omega)]; simp

/-- The call succeeds exactly if the table has the entry and the vector is one of 16 to 253. -/
theorem c102_when (table : List Entry) (k : Nat) (d v : BitVec 8) :
    (∃ t, enableMsixVector table k d v = .ok t) ↔ k < table.length ∧ 16 ≤ v.toNat ∧ v.toNat ≤ 253 := by
  unfold enableMsixVector
  by_cases h1 : 16 ≤ v.toNat
  · by_cases h2 : v.toNat < 254
    · simp only [h1, h2, not_true_eq_false, if_false]
      by_cases h3 : k < table.length
      · simp [List.getElem?_eq_getElem h3, h3]; omega
      · simp [List.getElem?_eq_none (Nat.not_lt.1 h3), h3]
    · simp [h1, h2]; omega
  · simp [h1]

/-- When it succeeds the entry is a message that means the vector on the core, whatever was in the entry; the other
entries are as before. -/
theorem c102_message (table t : List Entry) (k : Nat) (d v : BitVec 8) (h : enableMsixVector table k d v = .ok t) :
    t.length = table.length ∧ (∀ j, j ≠ k → t[j]? = table[j]?) ∧
      ∃ e, t[k]? = some e ∧ Spec.Means e.addr.toNat e.data.toNat ⟨d.toNat, v.toNat⟩ := by
  unfold enableMsixVector at h
  split at h
  · cases h
  split at h
  · cases h
  split at h
  · cases h
  next e he =>
    cases h
    have hk := (List.getElem?_eq_some_iff.1 he).1
    refine ⟨by simp, fun j hj => by simp [List.getElem?_set, Ne.symm hj], e.enable d v, ?_, enable_means e d v⟩
    simp [List.getElem?_set, hk]

/-- The bits of the data that the manual reserves (31-16 and 13-11) keep their values. -/
theorem c102_reserved (table t : List Entry) (k : Nat) (d v : BitVec 8) (e e' : Entry)
    (h : enableMsixVector table k d v = .ok t) (he : table[k]? = some e) (he' : t[k]? = some e') (i : Nat)
    (hi : (16 ≤ i ∧ i ≤ 31) ∨ (11 ≤ i ∧ i ≤ 13)) : e'.data.toNat.testBit i = e.data.toNat.testBit i := by
  unfold enableMsixVector at h
  rw [he] at h
  split at h
  · cases h
  split at h
  · cases h
  cases h
  have hk := (List.getElem?_eq_some_iff.1 he).1
  simp [List.getElem?_set, hk] at he'
  subst he'
  rw [BitVec.testBit_toNat, BitVec.testBit_toNat, enable_data_bit _ _ _ _ (by omega), BitVec.getLsbD_of_ge v _ (by omega)]
  have hm : ∀ j : Fin 32, (16 ≤ j.1 ∨ (11 ≤ j.1 ∧ j.1 ≤ 13)) → (0xFFFF3800 : BitVec 32).getLsbD j.1 = true ∧ j.1 ≠ 14 := by
    decide
  have := hm ⟨i, by omega⟩ (by simp; omega)
  rw [this.1, decide_eq_false this.2]
  simp

/-- Of the bits 11-4 of the address, which the manual reserves too, the call keeps 10-4. -/
theorem c102_reserved_addr_partial (table t : List Entry) (k : Nat) (d v : BitVec 8) (e e' : Entry)
    (h : enableMsixVector table k d v = .ok t) (he : table[k]? = some e) (he' : t[k]? = some e') (i : Nat)
    (hi : 4 ≤ i ∧ i ≤ 10) : e'.addr.toNat.testBit i = e.addr.toNat.testBit i := by
  unfold enableMsixVector at h
  rw [he] at h
  split at h
  · cases h
  split at h
  · cases h
  cases h
  have hk := (List.getElem?_eq_some_iff.1 he).1
  simp [List.getElem?_set, hk] at he'
  subst he'
  rw [BitVec.testBit_toNat, BitVec.testBit_toNat, enable_addr_bit _ _ _ _ (by omega)]
  rcases (by omega : i = 4 ∨ i = 5 ∨ i = 6 ∨ i = 7 ∨ i = 8 ∨ i = 9 ∨ i = 10)
    with rfl | rfl | rfl | rfl | rfl | rfl | rfl <;> simp

/-- Finding: bit 11 is cleared (the mask of line 284 is `7F0`, the bits of its comment are `FF0`), and the upper half of
the address is set to ones. -/
theorem c102_addr_lost (table t : List Entry) (k : Nat) (d v : BitVec 8) (e' : Entry)
    (h : enableMsixVector table k d v = .ok t) (he' : t[k]? = some e') :
    e'.addr.toNat.testBit 11 = false ∧ ∀ i, 32 ≤ i → i < 64 → e'.addr.toNat.testBit i = true := by
  unfold enableMsixVector at h
  split at h
  · cases h
  split at h
  · cases h
  split at h
  · cases h
  next e he =>
    cases h
    have hk := (List.getElem?_eq_some_iff.1 he).1
    simp [List.getElem?_set, hk] at he'
    subst he'
    constructor
    · rw [BitVec.testBit_toNat, enable_addr_bit _ _ _ _ (by omega)]
      simp
    · intro i h1 h2
      rw [BitVec.testBit_toNat, enable_addr_bit _ _ _ _ h2]
      simp [h1]

/-- The vector is masked after the call exactly if it was not before. The devices mask all vectors at reset. -/
theorem c102_mask_partial (table t : List Entry) (k : Nat) (d v : BitVec 8) (e e' : Entry)
    (h : enableMsixVector table k d v = .ok t) (he : table[k]? = some e) (he' : t[k]? = some e') :
    e'.control.toNat.testBit 0 = !e.control.toNat.testBit 0 ∧
      ∀ i, i ≠ 0 → e'.control.toNat.testBit i = e.control.toNat.testBit i := by
  unfold enableMsixVector at h
  rw [he] at h
  split at h
  · cases h
  split at h
  · cases h
  cases h
  have hk := (List.getElem?_eq_some_iff.1 he).1
  simp [List.getElem?_set, hk] at he'
  subst he'
  simp only [Entry.enable, BitVec.testBit_toNat, BitVec.getLsbD_xor]
  constructor
  · simp
  · intro i hi
    have : (1 : BitVec 32).getLsbD i = false := by
      rw [show (1 : BitVec 32) = 1#32 from rfl, BitVec.getLsbD_one]
      simp [hi]
    rw [this, Bool.xor_false]

/-- Finding: set up a second time, for example for another core, the vector is masked again. -/
theorem c102_twice (table t t' : List Entry) (k : Nat) (d v d' v' : BitVec 8) (e e' : Entry)
    (h : enableMsixVector table k d v = .ok t) (h' : enableMsixVector t k d' v' = .ok t')
    (he : table[k]? = some e) (hm : e.control.toNat.testBit 0 = true) (he' : t'[k]? = some e') :
    e'.control.toNat.testBit 0 = true := by
  obtain ⟨_, _, e1, h1, _⟩ := c102_message table t k d v h
  rw [(c102_mask_partial t t' k d' v' e1 e' h' h1 he').1, (c102_mask_partial table t k d v e e1 h he h1).1, hm]
  rfl

/-- The doorbell rings at the machine and the entry that were given. -/
theorem c102_doorbell (vector id : BitVec 16) : Spec.rings (doorbell vector id).toNat = (id.toNat, vector.toNat) := by
  have h : (doorbell vector id).toNat = id.toNat * 2 ^ 16 + vector.toNat := by
    unfold doorbell
    have h1 := id.isLt
    have h2 := vector.isLt
    rw [BitVec.toNat_or, BitVec.toNat_shiftLeft, BitVec.toNat_setWidth, BitVec.toNat_setWidth,
      Nat.mod_eq_of_lt (by omega), Nat.mod_eq_of_lt (a := vector.toNat) (by omega), Nat.shiftLeft_eq,
      Nat.mod_eq_of_lt (by omega), Nat.mul_comm, ← Nat.two_pow_add_eq_or_of_lt h2]
  have := vector.isLt
  simp only [Spec.rings, h, Prod.mk.injEq]
  omega

/-- What the shared-memory device of machine `m` does when a value is written to the doorbell register of any machine: it
sends the message of the entry, unless there is none or it is masked. -/
def sent (tables : Nat → List Entry) (value m : Nat) : Option Entry :=
  if (Spec.rings value).1 = m then
    match (tables m)[(Spec.rings value).2]? with
    | some e => if e.control.toNat.testBit 0 then none else some e
    | none => none
  else none

/-- Machine `i` had all vectors masked when it came up and then ran `clientInit`, the others may have done anything with
their tables: the kernel that interrupts machine `i` causes, on machine `i` and on no other, vector 249 on the core whose
controller has id 0. -/
theorem c102_machines (before : List Entry) (tables : Nat → List Entry) (i : Nat) (value : BitVec 32)
    (hreset : ∀ e, e ∈ before → e.control.toNat.testBit 0 = true)
    (hinit : clientInit before = .ok (tables i)) (hv : interruptMachine i = .ok value) :
    (∃ e, sent tables value.toNat i = some e ∧ Spec.Means e.addr.toNat e.data.toNat ⟨0, 249⟩) ∧
      ∀ m, m ≠ i → sent tables value.toNat m = none := by
  unfold interruptMachine at hv
  split at hv
  case isFalse => cases hv
  rename_i hi
  cases hv
  have hr : Spec.rings (doorbell shmemVector (BitVec.ofNat 16 i)).toNat = (i, 1) := by
    rw [c102_doorbell, BitVec.toNat_ofNat, Nat.mod_eq_of_lt (by omega)]
    rfl
  constructor
  · have h := hinit
    unfold clientInit at h
    obtain ⟨hlen, _, e, he, hm⟩ := c102_message _ _ _ _ _ h
    have hk := (List.getElem?_eq_some_iff.1 he).1
    rw [hlen] at hk
    have hmask := (c102_mask_partial _ _ _ _ _ _ e h (List.getElem?_eq_getElem hk) he).1
    rw [hreset _ (List.getElem_mem hk)] at hmask
    refine ⟨e, ?_, hm⟩
    unfold sent
    rw [hr]
    have he1 : (tables i)[1]? = some e := he
    simp only [if_true, he1, hmask]
    rfl
  · intro m hm
    unfold sent
    rw [hr, if_neg (Ne.symm hm)]

/-! ## `irqalloc` -/

/-- The lines that are enabled: of each controller those with a number below 16 in the machine, but not its lines 1 and
2, all for core 0. -/
theorem c102_lines (apics : List IoApic) (gsi core : Nat) (r : Route) :
    r ∈ establishRoute apics gsi core ↔
      ∃ a, apics[r.apic]? = some a ∧ r.line < a.supported ∧ a.base + r.line < 16 ∧ r.line ≠ 1 ∧ r.line ≠ 2 ∧ r.core = 0 := by
  unfold establishRoute IoApic.routes
  simp only [List.mem_flatten, List.mem_map, List.mem_zipIdx_iff_getElem?]
  constructor
  · rintro ⟨l, ⟨⟨a, j⟩, hj, rfl⟩, hr⟩
    simp only [List.mem_filterMap, List.mem_range] at hr
    obtain ⟨i, hi, h⟩ := hr
    split at h
    · split at h
      · cases h
        exact ⟨a, hj, hi, ‹_›, (‹_ ∧ _›).2, (‹_ ∧ _›).1, rfl⟩
      · cases h
    · cases h
  · rintro ⟨a, ha, h1, h2, h3, h4, h5⟩
    refine ⟨_, ⟨(a, r.apic), ha, rfl⟩, ?_⟩
    simp only [List.mem_filterMap, List.mem_range]
    refine ⟨r.line, h1, ?_⟩
    rw [if_pos h2, if_pos ⟨h4, h3⟩, ← h5]

/-- No line is enabled twice. -/
theorem c102_once (apics : List IoApic) (gsi core : Nat) : (establishRoute apics gsi core).Nodup := by
  have key : ∀ (a : IoApic) (j : Nat) (r : Route), r ∈ a.routes j → r.apic = j := by
    intro a j r hr
    unfold IoApic.routes at hr
    simp only [List.mem_filterMap] at hr
    obtain ⟨i, _, h⟩ := hr
    split at h
    · split at h
      · cases h; rfl
      · cases h
    · cases h
  unfold establishRoute List.Nodup
  rw [List.pairwise_flatten]
  constructor
  · intro l hl
    simp only [List.mem_map] at hl
    obtain ⟨p, _, rfl⟩ := hl
    unfold IoApic.routes
    rw [List.pairwise_filterMap]
    refine List.Pairwise.imp ?_ (List.nodup_range (n := p.1.supported))
    intro x y hxy r hx q hy hrq
    subst hrq
    split at hx
    · split at hx
      · split at hy
        · split at hy
          · cases hx; cases hy; exact hxy rfl
          · cases hy
        · cases hy
      · cases hx
    · cases hx
  · rw [List.pairwise_map, List.pairwise_iff_getElem]
    intro i j hi hj hij x hx y hy hxy
    have h1 := key _ _ _ hx
    have h2 := key _ _ _ hy
    rw [hxy, h2] at h1
    simp only [List.getElem_zipIdx] at h1
    omega

/-- What a program gets with `irqalloc`: an interrupt with a number from 3 to 15, or 0, that the first controller has, for
core 0, is delivered there when the call has returned, and the call returns what was asked for. -/
theorem c102_irqalloc_partial (a : IoApic) (apics : List IoApic) (gsi : Nat) (hb : a.base = 0) (hs : gsi < a.supported)
    (hg : gsi = 0 ∨ (3 ≤ gsi ∧ gsi < 16)) :
    (⟨0, gsi, 0⟩ : Route) ∈ (allocateVector (a :: apics) gsi 0).1 ∧ (allocateVector (a :: apics) gsi 0).2 = (gsi, 0) := by
  refine ⟨(c102_lines _ gsi 0 _).2 ⟨a, rfl, hs, ?_, ?_, ?_, rfl⟩, rfl⟩ <;> simp only <;> omega

/-- Finding: for another core, or for a number of 16 or more, the call succeeds too, and no such route is set up. -/
theorem c102_irqalloc_ignored (apics : List IoApic) (gsi core : Nat) :
    (allocateVector apics gsi core).2 = (gsi, core) ∧
      (∀ r, r ∈ (allocateVector apics gsi core).1 → r.core = 0) ∧
      (∀ r a, r ∈ (allocateVector apics gsi core).1 → apics[r.apic]? = some a → a.base + r.line < 16) := by
  refine ⟨rfl, fun r hr => ?_, fun r a hr ha => ?_⟩
  · obtain ⟨_, _, _, _, _, _, h⟩ := (c102_lines _ gsi core _).1 hr
    exact h
  · obtain ⟨b, hb, _, h, _⟩ := (c102_lines _ gsi core _).1 hr
    rw [ha] at hb
    cases hb
    exact h

end NRK.Irq
