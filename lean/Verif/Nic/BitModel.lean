import Verif.Common
/-!
# The fields of the descriptors of the network card

`lib/vmxnet3/src/reg.rs`: `__BindgenBitfieldUnit` (lines 12-90) and the four descriptors with their accessors
(lines 221-1090).
-/

namespace NRK.Nic

/-- `get_bit` (`reg.rs` lines 28-39; little-endian target).  `none`: the assertion or the index panics. -/
def getBit (bs : List Nat) (i : Nat) : Option Bool :=
  match bs[i / 8]? with
  | none => none
  | some byte =>
    let mask := 1 <<< (i % 8)
    some (byte &&& mask == mask)

/-- `set_bit` (`reg.rs` lines 40-56): `|= mask` or `&= !mask` on one byte. -/
def setBit (bs : List Nat) (i : Nat) (v : Bool) : Option (List Nat) :=
  match bs[i / 8]? with
  | none => none
  | some byte =>
    let mask := 1 <<< (i % 8)
    some (bs.set (i / 8) (if v then byte ||| mask else byte &&& (255 ^^^ mask)))

/-- The loop of `get` (`reg.rs` lines 62-73) after `n` rounds. -/
def getLoop (bs : List Nat) (o : Nat) : Nat → Option Nat
  | 0 => some 0
  | n + 1 => (getLoop bs o n).bind fun val => (getBit bs (n + o)).map fun b => if b then val ||| (1 <<< n) else val

/-- `get` (`reg.rs` lines 57-74) with its assertions.
Simplification: the assertions of the debug build always stand. -/
def get (bs : List Nat) (o w : Nat) : Option Nat :=
  if w ≤ 64 ∧ o / 8 < bs.length ∧ (o + w) / 8 ≤ bs.length then getLoop bs o w else none

/-- The loop of `set` (`reg.rs` lines 80-89) after `n` rounds. -/
def setLoop (bs : List Nat) (o v : Nat) : Nat → Option (List Nat)
  | 0 => some bs
  | n + 1 => (setLoop bs o v n).bind fun bs => setBit bs (n + o) (v &&& (1 <<< n) == 1 <<< n)

/-- `set` (`reg.rs` lines 75-90). -/
def set (bs : List Nat) (o w v : Nat) : Option (List Nat) :=
  if w ≤ 64 ∧ o / 8 < bs.length ∧ (o + w) / 8 ≤ bs.length then setLoop bs o v w else none

/-- The four descriptors: `vmxnet3_txdesc` (`reg.rs` lines 220-226), `vmxnet3_txcompdesc` (444-449),
`vmxnet3_rxdesc` (581-587), `vmxnet3_rxcompdesc` (705-710); of those with an address only the eight bytes of
fields after it. -/
inductive Desc where
  | tx
  | txComp
  | rx
  | rxComp
  deriving DecidableEq, Repr

/-- The bytes of fields of a descriptor. -/
def Desc.size : Desc → Nat
  | .tx | .rx => 8
  | .txComp | .rxComp => 16

/-- Offset and width that the accessors of every descriptor use, in the order of `new_bitfield_1`
(`reg.rs` lines 228-371, 461-538, 601-667, 741-963).  In all four the getter, the setter and `new_bitfield_1`
use the same numbers (compared by a script). -/
def Desc.fields : Desc → List (Nat × Nat)
  | .tx => [(0, 14), (14, 1), (15, 1), (16, 1), (17, 1), (18, 14), (32, 10), (42, 2), (44, 1), (45, 1), (46, 1),
      (47, 1), (48, 16)]
  | .txComp => [(0, 12), (12, 20), (32, 32), (64, 32), (96, 24), (120, 7), (127, 1)]
  | .rx => [(0, 14), (14, 1), (15, 1), (16, 15), (31, 1), (32, 32)]
  | .rxComp => [(0, 12), (12, 2), (14, 1), (15, 1), (16, 10), (26, 4), (30, 1), (31, 1), (32, 32), (64, 14), (78, 1),
      (79, 1), (80, 16), (96, 16), (112, 1), (113, 1), (114, 1), (115, 1), (116, 1), (117, 1), (118, 1), (119, 1),
      (120, 7), (127, 1)]

/-- An accessor `x()` of a descriptor: the `i`-th field, as `u32` (`as u32` on 64 bits). -/
def Desc.read (d : Desc) (i : Nat) (bs : List Nat) : Option Nat :=
  match d.fields[i]? with
  | none => none
  | some f => (get bs f.1 f.2).map (· % 4294967296)

/-- An accessor `set_x(val)`: the `i`-th field, the value is `u32`. -/
def Desc.write (d : Desc) (i v : Nat) (bs : List Nat) : Option (List Nat) :=
  match d.fields[i]? with
  | none => none
  | some f => set bs f.1 f.2 v

/-- The calls of `set` in `new_bitfield_1`, one after the other. -/
def newLoop : List (Nat × Nat) → List Nat → List Nat → Option (List Nat)
  | f :: fs, v :: vs, bs => (set bs f.1 f.2 v).bind (newLoop fs vs)
  | _, _, bs => some bs

/-- `new_bitfield_1` (`reg.rs` lines 372-443, 539-579, 668-703, 964-1090): all fields from the parameters, on a
unit of zeros. -/
def Desc.new (d : Desc) (vs : List Nat) : Option (List Nat) := newLoop d.fields vs (List.replicate d.size 0)

end NRK.Nic
