import Verif.VSpace.RightsModel

/-!
# C32: map rights and their hardware encoding
-/

namespace NRK.VSpace

/-! ## Specification: what the processor allows

Intel SDM volume 3A, section 4.6: an access needs a present entry on every level; a user-mode access
needs the U/S bit, a write the R/W bit, an instruction fetch a clear XD bit, on every level. -/

/-- Kinds of accesses. -/
structure Access where
  userMode : Bool
  isWrite : Bool
  isFetch : Bool

/-- Does one entry allow the access?  Bit numbers: 0 present, 1 R/W, 2 U/S, 63 XD. -/
def EntryAllows (e : BitVec 64) (x : Access) : Prop :=
  e.getLsbD 0 = true ∧ (x.userMode = true → e.getLsbD 2 = true) ∧
    (x.isWrite = true → e.getLsbD 1 = true) ∧ (x.isFetch = true → e.getLsbD 63 = false)

/-- What the rights say about an access. -/
def RightsAllow (r : MapAction) (x : Access) : Prop :=
  (x.userMode = true → r.kernel = false) ∧ (x.isWrite = true → r.write = true) ∧
    (x.isFetch = true → r.exec = true)

/-! ## Lemmas -/

theorem getLsbD_word (f : Nat → Bool) (i : Nat) (h : i < 64) : (word f).getLsbD i = f i := by
  unfold word
  rw [BitVec.getLsbD_setWidth, BitVec.getLsbD_ofBoolListLE]
  simp [h, List.getD_eq_getElem?_getD]

theorem getLsbD_bits (f : Flags) (i : Nat) (h : i < 64) : f.bits.getLsbD i =
    (if i = 0 then f.p else if i = 1 then f.rw else if i = 2 then f.us
    else if i = 3 then f.pwt else if i = 4 then f.pcd else if i = 5 then f.a
    else if i = 6 then f.d else if i = 7 then f.ps else if i = 8 then f.g
    else if i = 11 then f.user11 else if i = 63 then f.xd else false) := by
  unfold Flags.bits
  rw [getLsbD_word _ _ h]

theorem getLsbD_mask (i : Nat) (h : i < 64) :
    addressMask.getLsbD i = (decide (12 ≤ i) && decide (i < 52)) := by
  unfold addressMask
  rw [getLsbD_word _ _ h]

theorem addr_bit {pa : BitVec 64} (h : pa &&& addressMask = pa) (i : Nat) (hi : i < 64)
    (hx : i < 12 ∨ 52 ≤ i) : pa.getLsbD i = false := by
  rw [← h, BitVec.getLsbD_and, getLsbD_mask i hi]
  have : (decide (12 ≤ i) && decide (i < 52)) = false := by
    simp; omega
  rw [this]; simp

/-! ## Theorems -/

/-- **C32** What an entry built for an address and rights says: the address and flags read back
from the 64-bit word are the ones put in. -/
theorem c32_entry_roundtrip (pa e : BitVec 64) (f : Flags) (hp : f.pat = false)
    (h : entryNew pa f = some e) : entryAddress e = pa ∧ entryFlags e = f := by
  unfold entryNew at h
  split at h
  · rename_i hm
    cases h
    have fb : ∀ i, i < 64 → (12 ≤ i ∧ i < 52) → f.bits.getLsbD i = false := by
      intro i hi hr
      rw [getLsbD_bits f i hi]
      repeat (rw [if_neg (by omega)])
    constructor
    · apply BitVec.eq_of_getLsbD_eq
      intro i hi
      unfold entryAddress
      rw [BitVec.getLsbD_and, BitVec.getLsbD_or, getLsbD_mask i hi]
      by_cases hr : 12 ≤ i ∧ i < 52
      · rw [fb i hi hr]
        simp [hr.1, hr.2]
      · rw [addr_bit hm i hi (by omega)]
        have : (decide (12 ≤ i) && decide (i < 52)) = false := by simp; omega
        rw [this]; simp
    · have ab := addr_bit hm
      have hb : ∀ i, i < 64 → (i < 12 ∨ 52 ≤ i) →
          (pa ||| f.bits).getLsbD i = f.bits.getLsbD i := by
        intro i hi hx
        rw [BitVec.getLsbD_or, ab i hi hx]; simp
      unfold entryFlags
      rw [hb 0 (by omega) (by omega), hb 1 (by omega) (by omega), hb 2 (by omega) (by omega),
        hb 3 (by omega) (by omega), hb 4 (by omega) (by omega), hb 5 (by omega) (by omega),
        hb 6 (by omega) (by omega), hb 7 (by omega) (by omega), hb 8 (by omega) (by omega),
        hb 11 (by omega) (by omega), hb 63 (by omega) (by omega)]
      simp only [getLsbD_bits f _ (show (0 : Nat) < 64 by omega), getLsbD_bits f 1 (by omega),
        getLsbD_bits f 2 (by omega), getLsbD_bits f 3 (by omega), getLsbD_bits f 4 (by omega),
        getLsbD_bits f 5 (by omega), getLsbD_bits f 6 (by omega), getLsbD_bits f 7 (by omega),
        getLsbD_bits f 8 (by omega), getLsbD_bits f 11 (by omega), getLsbD_bits f 63 (by omega)]
      cases f
      simp_all
  · cases h

/-- **C32** Any page-aligned physical address below 2^52 can be put in an entry. -/
theorem c32_entry_exists (a : Nat) (ha : a % 4096 = 0) (hb : a < 2 ^ 52) (f : Flags) :
    ∃ e, entryNew (BitVec.ofNat 64 a) f = some e := by
  have hm : BitVec.ofNat 64 a &&& addressMask = BitVec.ofNat 64 a := by
    apply BitVec.eq_of_getLsbD_eq
    intro i hi
    rw [BitVec.getLsbD_and, getLsbD_mask i hi, BitVec.getLsbD_ofNat]
    by_cases hr : 12 ≤ i ∧ i < 52
    · simp [hr.1, hr.2]
    · have h0 : a.testBit i = false := by
        by_cases h12 : i < 12
        · have e : a = 2 ^ 12 * (a / 2 ^ 12) := by omega
          rw [e, Nat.testBit_two_pow_mul]
          simp; omega
        · apply Nat.testBit_lt_two_pow
          exact Nat.lt_of_lt_of_le hb (Nat.pow_le_pow_right (by omega) (by omega))
      simp [h0]
  exact ⟨_, if_pos hm⟩

/-- **C32** The processor allows through a leaf entry made for rights `r` exactly the accesses `r`
allows, on every level. -/
theorem c32_hardware_rights (l : Level) (r : MapAction) (pa e : BitVec 64)
    (h : entryNew pa (leafFlags l r) = some e) (x : Access) :
    EntryAllows e x ↔ RightsAllow r x := by
  have hp : (leafFlags l r).pat = false := by
    unfold leafFlags Flags.or MapAction.toFlags
    cases l <;> (cases r with | mk a b c d e f => cases a <;> cases b <;> cases c <;> cases d <;> cases f <;> rfl)
  have hf := (c32_entry_roundtrip pa e _ hp h).2
  have h0 : e.getLsbD 0 = (leafFlags l r).p := by rw [← hf]; rfl
  have h1 : e.getLsbD 1 = (leafFlags l r).rw := by rw [← hf]; rfl
  have h2 : e.getLsbD 2 = (leafFlags l r).us := by rw [← hf]; rfl
  have h3 : e.getLsbD 63 = (leafFlags l r).xd := by rw [← hf]; rfl
  unfold EntryAllows RightsAllow
  rw [h0, h1, h2, h3]
  cases l <;> cases r with
  | mk a b c d e f =>
    cases a <;> cases b <;> cases c <;> cases d <;> cases f <;>
      simp [leafFlags, MapAction.toFlags, Flags.or, Flags.empty]

/-- **C32** The entry of a page says how big the page is: bit 7 is set exactly in the two upper tables, where
it makes the entry a page instead of a pointer to a table.  The bits that the processor sets (5, 6) and those for
write-through and global pages (3, 8) start as zero; that an entry of a table has bit 7 clear is part of it. -/
theorem c32_page_bit (l : Level) (r : MapAction) (pa e : BitVec 64)
    (h : entryNew pa (leafFlags l r) = some e) :
    (e.getLsbD 7 = true ↔ l ≠ .pt) ∧ e.getLsbD 3 = false ∧ e.getLsbD 5 = false ∧ e.getLsbD 6 = false ∧
      e.getLsbD 8 = false ∧ ∀ e', entryNew pa tableFlags = some e' → e'.getLsbD 7 = false := by
  have hp : (leafFlags l r).pat = false := by
    unfold leafFlags Flags.or MapAction.toFlags
    cases l <;> (cases r with | mk a b c d e f => cases a <;> cases b <;> cases c <;> cases d <;> cases f <;> rfl)
  have hf := (c32_entry_roundtrip pa e _ hp h).2
  have h7 : e.getLsbD 7 = (leafFlags l r).ps := by rw [← hf]; rfl
  have h3 : e.getLsbD 3 = (leafFlags l r).pwt := by rw [← hf]; rfl
  have h5 : e.getLsbD 5 = (leafFlags l r).a := by rw [← hf]; rfl
  have h6 : e.getLsbD 6 = (leafFlags l r).d := by rw [← hf]; rfl
  have h8 : e.getLsbD 8 = (leafFlags l r).g := by rw [← hf]; rfl
  have ht : ∀ e', entryNew pa tableFlags = some e' → e'.getLsbD 7 = false := by
    intro e' he
    have := (c32_entry_roundtrip pa e' _ rfl he).2
    have h : e'.getLsbD 7 = tableFlags.ps := by rw [← this]; rfl
    rw [h]; rfl
  rw [h7, h3, h5, h6, h8]
  refine ⟨?_, ?_, ?_, ?_, ?_, ht⟩ <;> clear h h3 h5 h6 h7 h8 hf hp ht <;> cases l <;> cases r with
  | mk a b c d e f =>
    cases a <;> cases b <;> cases c <;> cases d <;> cases f <;>
      simp [leafFlags, MapAction.toFlags, Flags.or, Flags.empty]

/-- **C32** Entries for lower tables never restrict an access. -/
theorem c32_table_entries (pa e : BitVec 64) (h : entryNew pa tableFlags = some e) (x : Access) :
    EntryAllows e x := by
  have hf := (c32_entry_roundtrip pa e _ rfl h).2
  have h0 : e.getLsbD 0 = tableFlags.p := by rw [← hf]; rfl
  have h1 : e.getLsbD 1 = tableFlags.rw := by rw [← hf]; rfl
  have h2 : e.getLsbD 2 = tableFlags.us := by rw [← hf]; rfl
  have h3 : e.getLsbD 63 = tableFlags.xd := by rw [← hf]; rfl
  unfold EntryAllows
  rw [h0, h1, h2, h3]
  simp [tableFlags, Flags.empty]

/-- The rights as far as an entry can hold them: every mapping is present, caching cannot be
disabled. -/
def MapAction.canon (r : MapAction) : MapAction := { r with present := true, notCached := false }

/-- **C32** Encoding rights and decoding them again, exactly: all rights survive except that the
mapping is always present and always cacheable. -/
theorem c32_decode (l : Level) (r : MapAction) : ofFlags l (leafFlags l r) = r.canon := by
  cases l <;> cases r with
  | mk a b c d e f =>
    cases a <;> cases b <;> cases c <;> cases d <;> cases e <;> cases f <;> rfl

/-- **C32** The rights of mappings that are present and cacheable survive unchanged.  Missing from
the full property: `no_cache()` (see `c32_no_cache_is_lost`) and `none()`. -/
theorem c32_roundtrip_partial (l : Level) (r : MapAction) (h1 : r.present = true)
    (h2 : r.notCached = false) : ofFlags l (leafFlags l r) = r := by
  rw [c32_decode]
  cases r
  simp_all [MapAction.canon]

/-- **C32** (finding) A mapping requested without caching is cached. -/
theorem c32_no_cache_is_lost (l : Level) (r : MapAction) (h : r.notCached = true) :
    ofFlags l (leafFlags l r) ≠ r ∧ (leafFlags l r).pcd = false := by
  rw [c32_decode]
  constructor
  · intro e
    have := congrArg MapAction.notCached e
    simp [MapAction.canon, h] at this
  · cases l <;> cases r with
    | mk a b c d e f => cases a <;> cases b <;> cases c <;> cases d <;> cases f <;> rfl

/-- **C32** The accessed and dirty bits, which the processor sets, do not disturb decoding. -/
theorem c32_accessed_dirty (l : Level) (f : Flags) (a d : Bool) :
    ofFlags l { f with a := a, d := d } = ofFlags l f := by
  cases l <;> rfl

/-- **C32** Rights combined with `|` allow what one of them allows; kernel-only wins over user. -/
theorem c32_or (r s : MapAction) : (r.or s).write = (r.write || s.write) ∧
    (r.or s).exec = (r.exec || s.exec) ∧ (r.or s).kernel = (r.kernel || s.kernel) ∧
    (r.or s).present = (r.present || s.present) := ⟨rfl, rfl, rfl, rfl⟩

/-- A user mapping with write access: its entry, and what the processor allows through it. -/
example : ∃ e, entryNew (BitVec.ofNat 64 0x200000) (leafFlags .pd MapAction.writable) = some e ∧
    EntryAllows e ⟨true, true, false⟩ ∧ ¬ EntryAllows e ⟨true, false, true⟩ := by
  obtain ⟨e, he⟩ := c32_entry_exists 0x200000 (by decide) (by decide) (leafFlags .pd MapAction.writable)
  refine ⟨e, he, (c32_hardware_rights .pd _ _ e he _).2 ?_, fun q => ?_⟩
  · simp [RightsAllow, MapAction.writable]
  · have := (c32_hardware_rights .pd _ _ e he _).1 q
    simp [RightsAllow, MapAction.writable] at this

example : ofFlags .pt (leafFlags .pt MapAction.kernelOnly) = MapAction.kernelOnly :=
  c32_roundtrip_partial _ _ rfl rfl

end NRK.VSpace
