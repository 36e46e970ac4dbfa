import Verif.Common

/-!
# Model of map rights and page-table entries

`kernel/src/memory/vspace.rs` (`MapAction`) and `kernel/src/arch/x86_64/vspace/mod.rs` (conversion
to and from page-table flags).
-/

namespace NRK.VSpace

/-- `MapAction` (`memory/vspace.rs` lines 216-241). -/
structure MapAction where
  present : Bool
  write : Bool
  exec : Bool
  kernel : Bool
  notCached : Bool
  aliased : Bool
deriving DecidableEq, Repr

namespace MapAction

/-- `none` (`memory/vspace.rs` lines 234-243). -/
def none : MapAction := ⟨false, false, false, false, false, false⟩
/-- `user` (lines 246-255). -/
def user : MapAction := ⟨true, false, false, false, false, false⟩
/-- `kernel` (lines 258-267). -/
def kernelOnly : MapAction := ⟨true, false, false, true, false, false⟩
/-- `write` (lines 270-279). -/
def writable : MapAction := ⟨true, true, false, false, false, false⟩
/-- `execute` (lines 282-291). -/
def executable : MapAction := ⟨true, false, true, false, false, false⟩
/-- `no_cache` (lines 294-303). -/
def noCache : MapAction := ⟨true, false, false, false, true, false⟩
/-- `aliased` (lines 307-316). -/
def alias : MapAction := ⟨false, false, false, false, false, true⟩

/-- `BitOr` (`memory/vspace.rs` lines 382-394). -/
def or (a b : MapAction) : MapAction :=
  ⟨a.present || b.present, a.write || b.write, a.exec || b.exec, a.kernel || b.kernel,
    a.notCached || b.notCached, a.aliased || b.aliased⟩

end MapAction

/-- The flag bits of a page-table entry that the code knows (crate `x86`, `bits64/paging.rs`):
bits 0-8, 11, 12 and 63.  `ps` is `PS` in a PDPT or PD entry, `pat` is bit 12 there. -/
structure Flags where
  p : Bool
  rw : Bool
  us : Bool
  pwt : Bool
  pcd : Bool
  a : Bool
  d : Bool
  ps : Bool
  g : Bool
  user11 : Bool
  pat : Bool
  xd : Bool
deriving DecidableEq, Repr

namespace Flags

/-- No flag. -/
def empty : Flags := ⟨false, false, false, false, false, false, false, false, false, false, false, false⟩

/-- Union of flags (`|` of the bitflags crate). -/
def or (f g : Flags) : Flags :=
  ⟨f.p || g.p, f.rw || g.rw, f.us || g.us, f.pwt || g.pwt, f.pcd || g.pcd, f.a || g.a, f.d || g.d,
    f.ps || g.ps, f.g || g.g, f.user11 || g.user11, f.pat || g.pat, f.xd || g.xd⟩

end Flags

/-- The three tables a mapping can end in: PDPT (1 GiB pages), PD (2 MiB pages), PT (4 KiB). -/
inductive Level where
  | pdpt | pd | pt
deriving DecidableEq, Repr

/-- `to_pdpt_rights`, `to_pd_rights` and `to_pt_rights` (`arch/x86_64/vspace/mod.rs` lines 217-240,
243-266, 269-292), which have the same text for three types. -/
def MapAction.toFlags (r : MapAction) : Flags :=
  let f := Flags.empty
  let f := if r.present then { f with p := true } else f
  let f := if r.write then { f with rw := true } else f
  let f := if !r.exec then { f with xd := true } else f
  let f := if !r.kernel then { f with us := true } else f
  let f := if r.aliased then { f with user11 := true } else f
  f

/-- The flags of a leaf entry for given rights (`page_table.rs` lines 405-408, 489-492, 569 and
775-776, 794-796, 808-810): `P`, `PS` for the two upper levels, the rights. -/
def leafFlags (l : Level) (r : MapAction) : Flags :=
  let f : Flags := { Flags.empty with p := true }
  let f := if l = .pt then f else { f with ps := true }
  f.or r.toFlags

/-- The bits the decoders ignore (`arch/x86_64/vspace/mod.rs` lines 296-301, 335-341, 374-383). -/
def clean (l : Level) (f : Flags) : Flags :=
  match l with
  | .pt => { f with pwt := false, a := false, d := false, g := false }
  | _ => { f with pwt := false, a := false, d := false, ps := false, g := false, pat := false }

/-- `From<PTFlags>`, `From<PDFlags>`, `From<PDPTFlags> for MapAction` (`arch/x86_64/vspace/mod.rs`
lines 294-331, 333-370, 372-414). -/
def ofFlags (l : Level) (f : Flags) : MapAction :=
  let c := clean l f
  let m := MapAction.none
  let m := if c.us then m.or MapAction.user else m.or MapAction.kernelOnly
  let m := if c.p then m.or MapAction.user else m
  let m := if c.rw then m.or MapAction.writable else m
  let m := if !c.xd then m.or MapAction.executable else m
  let m := if c.pcd then m.or MapAction.noCache else m
  let m := if c.user11 then m.or MapAction.alias else m
  m

/-- The entries that point to a lower table (`new_pt`, `new_pd`, `new_pdpt`, `page_table.rs` lines
845-860). -/
def tableFlags : Flags := { Flags.empty with p := true, rw := true, us := true }

/-! ## Entries as 64-bit words -/

/-- A 64-bit word given by its bits, bit 0 first. -/
def word (f : Nat → Bool) : BitVec 64 := (BitVec.ofBoolListLE ((List.range 64).map f)).setWidth 64

/-- The numeric value of the flags, with the bit numbers of the processor manual (crate `x86`). -/
def Flags.bits (f : Flags) : BitVec 64 :=
  word fun i =>
    if i = 0 then f.p else if i = 1 then f.rw else if i = 2 then f.us
    else if i = 3 then f.pwt else if i = 4 then f.pcd else if i = 5 then f.a
    else if i = 6 then f.d else if i = 7 then f.ps else if i = 8 then f.g
    else if i = 11 then f.user11 else if i = 63 then f.xd else false

/-- The bits of an entry that hold the address: 12 to 51 (crate `x86`, `ADDRESS_MASK`). -/
def addressMask : BitVec 64 := word fun i => decide (12 ≤ i) && decide (i < 52)

/-- `PTEntry::new` and the like (crate `x86`): the address, which must fit the mask (an assertion
there), or-ed with the flags. -/
def entryNew (pa : BitVec 64) (f : Flags) : Option (BitVec 64) :=
  if pa &&& addressMask = pa then some (pa ||| f.bits) else none

/-- `address()` of an entry. -/
def entryAddress (e : BitVec 64) : BitVec 64 := e &&& addressMask

/-- `flags()` of an entry (`from_bits_truncate`).  In a leaf entry of a upper level the PAT bit is
bit 12, which the address mask covers too; it is not set by the code. -/
def entryFlags (e : BitVec 64) : Flags :=
  ⟨e.getLsbD 0, e.getLsbD 1, e.getLsbD 2, e.getLsbD 3, e.getLsbD 4, e.getLsbD 5, e.getLsbD 6,
    e.getLsbD 7, e.getLsbD 8, e.getLsbD 11, false, e.getLsbD 63⟩

end NRK.VSpace
