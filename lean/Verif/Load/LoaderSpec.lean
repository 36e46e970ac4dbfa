import Verif.Load.LoaderModel
import Verif.VSpace.VSpaceProps

/-!
# What a loaded program should look like

The image is given in the addresses of the program file; the program sees it moved up by the offset.
-/

namespace NRK.Load.Spec

open NRK.Mem (Frame LARGE)
open NRK.VSpace (VSpace Env MapAction Run userTop)

/-- Virtual address `va` belongs to the header. -/
def Covers (h : Hdr) (va : Nat) : Prop := h.vaddr ≤ va ∧ va < h.vaddr + h.memsz

/-- The byte that the file has for an address. -/
def fileByte : List Hdr → Nat → Option UInt8
  | [], _ => none
  | h :: hs, va =>
    if h.vaddr ≤ va ∧ va < h.vaddr + h.data.length then h.data[va - h.vaddr]? else fileByte hs va

/-- The byte that the relocations store at an address: each stores offset plus addend as a 64-bit number,
the lowest byte first; the last one counts. -/
def relocByte (offset : Nat) : List Reloc → Nat → Option UInt8
  | [], _ => none
  | r :: rs, va =>
    (relocByte offset rs va).or
      (if r.off ≤ va ∧ va < r.off + 8 then some (UInt8.ofNat ((offset + r.addend) / 256 ^ (va - r.off)))
       else none)

/-- The byte the program finds at an address, given what was in memory before. -/
def image (offset : Nat) (hs : List Hdr) (rs : List Reloc) (old : UInt8) (va : Nat) : UInt8 :=
  ((relocByte offset rs va).or (fileByte hs va)).getD old

/-- The rights that a header asks for. -/
def rights (h : Hdr) : MapAction :=
  { present := true, write := h.w, exec := h.x, kernel := false, notCached := false, aliased := false }

/-- The number of large pages that a header touches. -/
def pages (h : Hdr) : Nat := (h.vaddr + h.memsz + LARGE - 1) / LARGE - h.vaddr / LARGE

/-- The pages of all headers. -/
def totalPages (hs : List Hdr) : Nat := (hs.map pages).sum

/-- The programs in question: read-only headers and then at most one writeable header, on separate large
pages, in ascending order; relocations of type `R_RELATIVE`, aligned, inside the headers. -/
structure GoodProgram (offset : Nat) (ros ws : List Hdr) (rs : List Reloc) : Prop where
  offset_aligned : offset % LARGE = 0
  ros_ro : ∀ h ∈ ros, h.w = false
  ws_w : ∀ h ∈ ws, h.w = true
  ws_one : ws.length ≤ 1
  readable : ∀ h ∈ ros ++ ws, h.r = true
  fits : ∀ h ∈ ros ++ ws, h.data.length ≤ h.memsz
  apart : (ros ++ ws).Pairwise fun a b => ∃ k, a.vaddr + a.memsz ≤ k * LARGE ∧ k * LARGE ≤ b.vaddr
  low : ∀ h ∈ ros ++ ws, ∃ k, h.vaddr + h.memsz ≤ k * LARGE ∧ offset + k * LARGE ≤ userTop
  relative : ∀ r ∈ rs, r.relative = true ∧ offset + r.addend < 2 ^ 64 ∧ r.off % 8 = 0
  inside : ∀ r ∈ rs,
    (∃ h ∈ ros, h.vaddr ≤ r.off ∧ r.off + 8 ≤ h.vaddr + h.data.length) ∨
    (∃ h ∈ ws, h.vaddr ≤ r.off ∧ r.off + 8 ≤ h.vaddr + h.memsz ∧ r.off % LARGE ≠ 0)

/-- The memory in question: the allocators hand out distinct large pages, enough of them; the address
spaces are fresh. -/
structure GoodMemory (env : Env) (ros ws : List Hdr) (supply : List Frame)
    (reps : List (VSpace × List Frame)) : Prop where
  large : ∀ f ∈ supply ++ reps.flatMap (·.2), f.size = LARGE ∧ f.base % LARGE = 0
  distinct : ((supply ++ reps.flatMap (·.2)).map (·.base)).Nodup
  enough_w : totalPages ws ≤ supply.length ∧ totalPages ws ≤ 4
  enough_ro : ∀ r ∈ reps, totalPages ros ≤ r.2.length
  fresh : ∀ r ∈ reps, Run env r.1 ∧ ∀ x, x < userTop → r.1.resolve x = .err .notMapped

/-- Physical address `p` is in one of the frames. -/
def InFrames (fs : List Frame) (p : Nat) : Prop := ∃ f ∈ fs, f.base ≤ p ∧ p < f.base + LARGE

/-- Address `x` is on a large page that the header touches, when the program is moved by `offset`. -/
def OnPageOf (offset : Nat) (h : Hdr) (x : Nat) : Prop :=
  offset + h.vaddr / LARGE * LARGE ≤ x ∧ x < offset + (h.vaddr + h.memsz + LARGE - 1) / LARGE * LARGE

end NRK.Load.Spec
