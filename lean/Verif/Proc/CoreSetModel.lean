import Verif.Common

/-!
# Model of core sets and of hardware thread identifiers

`kernel/src/memory/vspace.rs` lines 54-100 and `lib/kpi/src/system.rs` lines 15-33.
-/

namespace NRK.Proc

/-- `CoreBitMap` (`memory/vspace.rs` lines 55-58). -/
structure CoreBitMap where
  low : BitVec 128
  high : BitVec 128
deriving DecidableEq, Repr

/-- `Default for CoreBitMap` (`memory/vspace.rs` line 54, derived). -/
def CoreBitMap.empty : CoreBitMap := ⟨0, 0⟩

/-- `BitField::set_bit` for `u128` (crate `bit_field`, not part of `/repo`): panics if the bit is not
below 128. -/
def setBit128 (x : BitVec 128) (bit : Nat) (value : Bool) : Outcome (BitVec 128) :=
  if bit < 128 then
    .ok (if value then x ||| (1#128 <<< bit) else x &&& ~~~(1#128 <<< bit))
  else .panic

/-- `CoreBitMap::set_bit` (`memory/vspace.rs` lines 63-70). -/
def CoreBitMap.setBit (m : CoreBitMap) (bit : Nat) (value : Bool) : Outcome CoreBitMap :=
  if bit ≤ 127 then (setBit128 m.low bit value).map fun l => { m with low := l }
  else (setBit128 m.high (bit - 128) value).map fun h => { m with high := h }

/-- `CoreBitMap::is_empty` (`memory/vspace.rs` lines 73-75). -/
def CoreBitMap.isEmpty (m : CoreBitMap) : Bool := m.low == 0 && m.high == 0

/-- `CoreBitMapIter::next` (`memory/vspace.rs` lines 83-99): the item and the iterator left. -/
def CoreBitMap.next (m : CoreBitMap) : Option Nat × CoreBitMap :=
  if m.low = 0 ∧ m.high = 0 then (none, m)
  else if m.low > 0 then
    let pos := m.low.ctz.toNat
    let lsb := m.low &&& -m.low
    (some pos, { m with low := m.low ^^^ lsb })
  else
    let pos := m.high.ctz.toNat
    let lsb := m.high &&& -m.high
    (some (128 + pos), { m with high := m.high ^^^ lsb })

/-- A whole `for core in handle.cores()` loop: the items `next` gives until it gives none. -/
inductive CoreBitMap.Visits : CoreBitMap → List Nat → Prop where
  | done {m m'} : m.next = (none, m') → Visits m []
  | item {m m' c l} : m.next = (some c, m') → Visits m' l → Visits m (c :: l)

/-- `TlbFlushHandle::add_core` for each core of a list (`memory/vspace.rs` lines 46-48). -/
def addCores : CoreBitMap → List Nat → Outcome CoreBitMap
  | m, [] => .ok m
  | m, c :: cs => (m.setBit c true).bind fun m' => addCores m' cs

/-- `new_gtid` (`lib/kpi/src/system.rs` lines 19-22); `usize` has 64 bits. -/
def newGtid (mtid mid : BitVec 64) : BitVec 64 := (mid <<< 32) ||| mtid

/-- `mtid_from_gtid` (`lib/kpi/src/system.rs` lines 24-27). -/
def mtidFromGtid (gtid : BitVec 64) : BitVec 64 := (gtid <<< 32) >>> 32

/-- `mid_from_gtid` (`lib/kpi/src/system.rs` lines 29-32). -/
def midFromGtid (gtid : BitVec 64) : BitVec 64 := gtid >>> 32

end NRK.Proc
