import Verif.VSpace.PageTableModel
import Verif.Load.LoaderModel

/-!
# Model of the boot loader

`bootloader/src/vspace.rs` (the address space it builds for the kernel), `bootloader/src/kernel.rs`
(loading the kernel's file) and the parts of `bootloader/src/main.rs` that use them.  UEFI is outside the
model: what its allocator returns and the memory map it reports are arguments.  The pages of the lower
tables come from UEFI's allocator and are not given addresses, as in `Verif.VSpace.PageTableModel`, whose
tables are used here; running out of memory (a panic) is not modelled.
-/

namespace NRK.Boot

open NRK.VSpace (Leaf Level Flags PT PD PDPT PDE PDPTE PML4 i1 i2 i3 i4 leafAt fill openPD openPT)
open NRK.Load (Mem Reloc le64 relocValue)

/-! ## The address space -/

/-- `MapAction` (`vspace.rs` lines 19-38). -/
inductive Act where
  | none
  | readUser
  | readKernel
  | readWriteUser
  | readWriteKernel
  | readExecuteUser
  | readExecuteKernel
  | readWriteExecuteUser
  | readWriteExecuteKernel
deriving DecidableEq, Repr

/-- `to_pdpt_rights`, `to_pd_rights`, `to_pt_rights` (`vspace.rs` lines 42-87), which have the same text
for three types. -/
def Act.rights : Act → Flags
  | .none => Flags.empty
  | .readUser => { Flags.empty with xd := true, us := true }
  | .readKernel => { Flags.empty with xd := true }
  | .readWriteUser => { Flags.empty with rw := true, xd := true, us := true }
  | .readWriteKernel => { Flags.empty with rw := true, xd := true }
  | .readExecuteUser => { Flags.empty with us := true }
  | .readExecuteKernel => Flags.empty
  | .readWriteExecuteUser => { Flags.empty with rw := true, us := true }
  | .readWriteExecuteKernel => { Flags.empty with rw := true }

/-- The flags of a leaf (`vspace.rs` lines 195, 263 and 319). -/
def Act.leaf (r : Act) : Level → Flags
  | .pt => Flags.or { Flags.empty with p := true } r.rights
  | _ => Flags.or { Flags.empty with p := true, ps := true } r.rights

/-- `!is_present()` of an entry (`vspace.rs` lines 177 and 247). -/
def free3 : PDPTE → Bool
  | .none => true
  | _ => false
def free2 : PDE → Bool
  | .none => true
  | _ => false

/-- `map_generic` (`vspace.rs` lines 148-348).  In the loops for 1 GiB and 2 MiB pages only the first slot
is known to be free; the others are overwritten (lines 192-207, 260-275).  In the loop for 4 KiB pages a slot
that is taken is a panic (lines 317-334).  The first argument bounds the recursion. -/
def mapGen (r : Act) : Nat → PML4 → Nat → Nat → Nat → Outcome PML4
  | 0, _, _, _, _ => .panic
  | n + 1, t, v, p, s =>
    if p % 4096 = 0 ∧ s % 4096 = 0 ∧ v % 4096 = 0 ∧ r ≠ .none then
      let d3 := (t (i4 v)).getD PDPT.empty
      if free3 (d3 (i3 v)) = true ∧ v = 549755813888 * i4 v + 1073741824 * i3 v ∧
          p % 1073741824 = 0 ∧ 1073741824 ≤ s then
        match fill (fun _ _ => false) (fun a => .page ⟨a, r.leaf .pdpt⟩) 1073741824 (512 - i3 v)
            d3 (i3 v) p s with
        | .ok (d3', m) =>
          let t' := upd t (i4 v) (some d3')
          if m < s then mapGen r n t' (v + m) (p + m) (s - m) else .ok t'
        | .err e => .err e
        | .panic => .panic
      else
        match openPD (d3 (i3 v)) with
        | Option.none => .panic
        | some d2 =>
          if free2 (d2 (i2 v)) = true ∧ v = 549755813888 * i4 v + 1073741824 * i3 v + 2097152 * i2 v ∧
              p % 2097152 = 0 ∧ 2097152 ≤ s then
            match fill (fun _ _ => false) (fun a => .page ⟨a, r.leaf .pd⟩) 2097152 (512 - i2 v)
                d2 (i2 v) p s with
            | .ok (d2', m) =>
              let t' := upd t (i4 v) (some (upd d3 (i3 v) (.table d2')))
              if m < s then mapGen r n t' (v + m) (p + m) (s - m) else .ok t'
            | .err e => .err e
            | .panic => .panic
          else
            match openPT (d2 (i2 v)) with
            | Option.none => .panic
            | some d1 =>
              match fill (fun e _ => e.isSome) (fun a => some ⟨a, r.leaf .pt⟩) 4096 (512 - i1 v)
                  d1 (i1 v) p s with
              | .ok (d1', m) =>
                let t' := upd t (i4 v) (some (upd d3 (i3 v) (.table (upd d2 (i2 v) (.table d1')))))
                if m < s then mapGen r n t' (v + m) (p + m) (s - m) else .ok t'
              | .err e => .err e
              | .panic => .panic
    else .panic

/-- A call of `map_generic` with enough room for the recursion. -/
def mapRange (t : PML4) (v p s : Nat) (r : Act) : Outcome PML4 := mapGen r (s / 4096 + 1) t v p s

/-- `map_identity_with_offset` (`vspace.rs` lines 114-131); `map_identity` (lines 138-140) is the case
`off = 0`.  An end below the start is an underflow in line 122. -/
def mapIdentity (t : PML4) (off base fin : Nat) (r : Act) : Outcome PML4 :=
  if fin < base then .panic else mapRange t (off + base) base (fin - base) r

/-- `resolve_addr` (`vspace.rs` lines 485-516). -/
def resolveAddr (t : PML4) (x : Nat) : Option Nat :=
  (leafAt t x).map fun q => q.2.pa + x % q.1.size

/-- `allocate_pages_aligned` (`vspace.rs` lines 358-428) when UEFI's allocator answers with the pages at
`raw`: the address that is returned, and the runs of pages (start, number) that are given back.  The masks
of lines 369 and 378 are written as division. -/
def allocAligned (raw n align : Nat) : Outcome (Nat × List (Nat × Nat)) :=
  if ¬ (∃ k, k < 64 ∧ align = 2 ^ k) then .panic
  else if align < 4096 then .panic
  else
    let actual := n + align / 4096
    let fin := raw + actual * 4096
    let base := (raw + (align - 1)) / align * align
    let baseEnd := base + n * 4096
    let bottom := (base - raw) / 4096
    let top := (fin - baseEnd) / 4096
    if bottom + top ≠ actual - n then .panic
    else
      .ok (base,
        (if 1 < bottom then [(raw, bottom - 1)] else []) ++
        (if 1 < top then [(baseEnd + 4096, top - 1)] else []))

/-- The zeroing of `allocate_pages` (`vspace.rs` lines 443-447). -/
def zeroed (m : Mem) (raw pages : Nat) : Mem :=
  fun p => if raw ≤ p ∧ p < raw + pages * 4096 then 0 else m p

/-! ## Loading the kernel -/

/-- `KERNEL_OFFSET` (`kernel.rs` line 60). -/
@[irreducible] def KOFF : Nat := 70368744177664

/-- A loadable program header with its bytes in the file. -/
structure Seg where
  vaddr : Nat
  memsz : Nat
  align : Nat
  r : Bool
  w : Bool
  x : Bool
  data : List UInt8
deriving DecidableEq, Repr

/-- `page_base` (`kernel.rs` line 103). -/
def Seg.base (h : Seg) : Nat := h.vaddr - h.vaddr % 4096

/-- `size_page` (`kernel.rs` line 104). -/
def Seg.size (h : Seg) : Nat := (h.memsz + h.vaddr % 4096 + 4096 - 1) / 4096 * 4096

/-- `map_action` (`kernel.rs` lines 127-149); `feat` says whether the loader is built with the feature
`all-writable`. -/
def Seg.act (feat : Bool) (h : Seg) : Act :=
  if feat then
    match h.x, h.w, h.r with
    | false, false, true => .readKernel
    | true, false, true => .readExecuteKernel
    | false, true, true => .readWriteKernel
    | true, true, true => .readWriteExecuteKernel
    | _, _, false => .none
  else
    match h.x, h.w, h.r with
    | false, false, true => .readWriteKernel
    | true, false, true => .readWriteExecuteKernel
    | false, true, true => .readWriteKernel
    | true, true, true => .readWriteExecuteKernel
    | _, _, false => .none

/-- `min_base`, `max_end` and `max_alignment` after the loop (`kernel.rs` lines 91-118). -/
def minBase (hs : List Seg) : Nat := hs.foldl (fun b h => if b > h.base then h.base else b) 18446744073709551615
def maxEnd (hs : List Seg) : Nat := hs.foldl (fun e h => if h.base + h.size > e then h.base + h.size else e) 0
def maxAlign (hs : List Seg) : Nat := hs.foldl (fun a h => if a < h.align then h.align else a) 0

/-- The loop over the mappings (`kernel.rs` lines 175-178). -/
def mapSegs (feat : Bool) (pbase : Nat) : List Seg → PML4 → Outcome PML4
  | [], t => .ok t
  | h :: hs, t =>
    (mapRange t (KOFF + pbase + h.base) (pbase + h.base) h.size (h.act feat)).bind (mapSegs feat pbase hs)

/-- What the loader has made. -/
structure Loaded where
  pbase : Nat
  freed : List (Nat × Nat)
  t : PML4
  mem : Mem

/-- `Kernel::allocate` (`kernel.rs` lines 88-181). -/
def allocate (feat : Bool) (hs : List Seg) (raw : Nat) (t : PML4) (m : Mem) : Outcome Loaded :=
  if minBase hs % 4096 ≠ 0 ∨ maxEnd hs % 4096 ≠ 0 then .panic
  else if maxEnd hs < minBase hs then .panic
  else
    let n := (maxEnd hs - minBase hs) / 4096
    (allocAligned raw n (maxAlign hs)).bind fun a =>
      (mapSegs feat a.1 hs t).map fun t => ⟨a.1, a.2, t, zeroed m raw (n + maxAlign hs / 4096)⟩

/-- The byte-wise copy of `Kernel::load` (`kernel.rs` lines 198-214). -/
def copy (t : PML4) (dest : Nat) : List UInt8 → Mem → Outcome Mem
  | [], m => .ok m
  | b :: bs, m =>
    match resolveAddr t dest with
    | some p => copy t (dest + 1) bs (m.write p [b])
    | none => .panic

/-- The calls of `Kernel::load` (`kernel.rs` lines 184-217), one for each header. -/
def loadSegs (t : PML4) (offset : Nat) : List Seg → Mem → Outcome Mem
  | [], m => .ok m
  | h :: hs, m => (copy t (offset + h.vaddr) h.data m).bind (loadSegs t offset hs)

/-- `Kernel::relocate` (`kernel.rs` lines 225-252). -/
def relocate (t : PML4) (offset : Nat) (r : Reloc) (m : Mem) : Outcome Mem :=
  match resolveAddr t (offset + r.off) with
  | none => .panic
  | some p =>
    if r.relative then (relocValue offset r).map fun bs => m.write p bs else .err .unableToLoad

/-- All relocations, in order. -/
def relocs (t : PML4) (offset : Nat) : List Reloc → Mem → Outcome Mem
  | [], m => .ok m
  | r :: rs, m => (relocate t offset r m).bind (relocs t offset rs)

/-- `binary.load(&mut kernel)` (`main.rs` lines 372-386) into a new address space.  The crate `elfloader` is
not in /repo; it calls `allocate`, then `load` for each loadable header, then `relocate` for each entry.
`make_readonly` (`kernel.rs` lines 254-273) changes nothing and its assertion is not modelled. -/
def loadKernel (feat : Bool) (hs : List Seg) (rs : List Reloc) (raw : Nat) (m : Mem) : Outcome Loaded :=
  (allocate feat hs raw PML4.empty m).bind fun k =>
    (loadSegs k.t (KOFF + k.pbase) hs k.mem).bind fun m =>
      (relocs k.t (KOFF + k.pbase) rs m).map fun m => { k with mem := m }

/-! ## The rest of the address space -/

/-- `MemoryType` of UEFI with the loader's own types (`kernel.rs` lines 25-41). -/
inductive Ty where
  | reserved | loaderCode | loaderData | bootServicesCode | bootServicesData
  | runtimeServicesCode | runtimeServicesData | conventional | unusable | acpiReclaim | acpiNonVolatile
  | mmio | mmioPortSpace | palCode | persistentMemory
  | kernelElf | kernelPt | kernelStack | uefiMemoryMap | kernelArgs | module | other
deriving DecidableEq, Repr

/-- An entry of UEFI's memory map. -/
structure Entry where
  ty : Ty
  start : Nat
  pages : Nat
deriving DecidableEq, Repr

/-- The end of an entry (`main.rs` lines 170-171). -/
def Entry.fin (e : Entry) : Nat := e.start + e.pages * 4096

/-- The rights for an entry (`main.rs` lines 178-204). -/
def Ty.act : Ty → Act
  | .reserved => .none
  | .loaderCode => .readExecuteKernel
  | .loaderData => .readWriteKernel
  | .bootServicesCode => .readExecuteKernel
  | .bootServicesData => .readWriteKernel
  | .runtimeServicesCode => .readExecuteKernel
  | .runtimeServicesData => .readWriteKernel
  | .conventional => .readWriteExecuteKernel
  | .unusable => .none
  | .acpiReclaim => .readWriteKernel
  | .acpiNonVolatile => .readWriteKernel
  | .mmio => .readWriteKernel
  | .mmioPortSpace => .readWriteKernel
  | .palCode => .readExecuteKernel
  | .persistentMemory => .readWriteKernel
  | .kernelElf => .readKernel
  | .kernelPt => .readWriteKernel
  | .kernelStack => .readWriteKernel
  | .uefiMemoryMap => .readWriteKernel
  | .kernelArgs => .readKernel
  | .module => .readKernel
  | .other => .none

/-- The types that are also mapped at the kernel's offset (`main.rs` lines 215-226). -/
def Ty.high : Ty → Bool
  | .conventional | .bootServicesData | .loaderData | .kernelPt | .module | .kernelArgs => true
  | _ => false

/-- The entries that are left out (`main.rs` lines 163-166 and 173-176). -/
def Entry.skipped (e : Entry) : Bool :=
  decide (e.start = 0) || (decide (e.start ≤ 4276092928) && decide (4276092928 ≤ e.fin))

/-- The body of the loop of `map_physical_memory` (`main.rs` lines 162-235). -/
def mapEntry (t : PML4) (e : Entry) : Outcome PML4 :=
  if e.skipped then .ok t
  else if e.ty.act = .none then .ok t
  else
    (mapIdentity t 0 e.start e.fin e.ty.act).bind fun t =>
      if e.ty.high then mapIdentity t KOFF e.start e.fin e.ty.act else .ok t

/-- `map_physical_memory` (`main.rs` lines 150-236). -/
def mapPhysical : List Entry → PML4 → Outcome PML4
  | [], t => .ok t
  | e :: es, t => (mapEntry t e).bind (mapPhysical es)

/-- The 1024 pages of the stack, the guard page among them (`main.rs` lines 388-396). -/
@[irreducible] def STACK : Nat := 1024 * 4096

/-- The mappings of the stack at `region` (`main.rs` lines 388-410): its first page is the guard page. -/
def mapStack (t : PML4) (region : Nat) : Outcome PML4 :=
  (mapIdentity t KOFF region (region + 4096) .readUser).bind fun t =>
    mapIdentity t KOFF (region + 4096) (region + STACK) .readWriteKernel

/-- `uefi_start` (`main.rs` lines 371-425) up to the copy of UEFI's memory map. -/
def boot (feat : Bool) (hs : List Seg) (rs : List Reloc) (raw stack : Nat) (mm : List Entry) (m : Mem) :
    Outcome Loaded :=
  (loadKernel feat hs rs raw m).bind fun k =>
    (mapStack k.t stack).bind fun t =>
      (mapPhysical mm t).map fun t => { k with t := t }

end NRK.Boot
