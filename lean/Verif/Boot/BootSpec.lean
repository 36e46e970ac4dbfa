import Verif.Boot.BootModel
import Verif.Load.LoaderSpec

/-!
# What the kernel should find when the boot loader jumps to it

Addresses in the kernel's file count from 0.  The loader puts the image at a physical address `pbase` and the
kernel sees physical address `p` at `p` plus 2^46.
-/

namespace NRK.Boot.Spec

open NRK.VSpace (PML4 leafAt)
open NRK.Load (Reloc)

/-- How an address is translated: where to, and whether it may be written and executed there.  (All pages are
for the kernel only: the entries that lead to the tables do not have the user bit, `vspace.rs` lines
455-468.) -/
structure View where
  pa : Nat
  write : Bool
  exec : Bool
deriving DecidableEq, Repr

/-- The processor's translation of an address. -/
def view (t : PML4) (x : Nat) : Option View :=
  (leafAt t x).map fun q => ⟨q.2.pa + x % q.1.size, q.2.fl.rw, !q.2.fl.xd⟩

/-- The first page of a segment, and the page after its last. -/
def firstPage (h : Seg) : Nat := h.vaddr / 4096
def endPage (h : Seg) : Nat := (h.vaddr + h.memsz + 4095) / 4096

/-- The page after the last of the image, and the largest alignment. -/
def topPage (hs : List Seg) : Nat := hs.foldr (fun h m => max (endPage h) m) 0
def topAlign (hs : List Seg) : Nat := hs.foldr (fun h m => max h.align m) 0

/-- The kernels in question. -/
structure GoodKernel (hs : List Seg) (rs : List Reloc) : Prop where
  readable : ∀ h ∈ hs, h.r = true
  filled : ∀ h ∈ hs, 0 < h.memsz ∧ h.data.length ≤ h.memsz
  apart : hs.Pairwise fun a b => endPage a ≤ firstPage b ∨ endPage b ≤ firstPage a
  from_zero : ∃ h ∈ hs, firstPage h = 0
  aligned : ∀ h ∈ hs, h.align = 0 ∨ ∃ k, k < 64 ∧ h.align = 2 ^ k
  page_aligned : ∃ h ∈ hs, 4096 ≤ h.align
  relative : ∀ r ∈ rs, r.relative = true ∧ r.addend < 2 ^ 63
  inside : ∀ r ∈ rs, ∃ h ∈ hs, h.vaddr ≤ r.off ∧ r.off + 8 ≤ h.vaddr + h.memsz

/-- The byte that the file has for an address. -/
def fileByte : List Seg → Nat → Option UInt8
  | [], _ => none
  | h :: hs, va =>
    if h.vaddr ≤ va ∧ va < h.vaddr + h.data.length then h.data[va - h.vaddr]? else fileByte hs va

/-- The byte the kernel should find at an address of its file: what the relocations put there, what the file
has there, or zero. -/
def image (offset : Nat) (hs : List Seg) (rs : List Reloc) (va : Nat) : UInt8 :=
  ((Load.Spec.relocByte offset rs va).or (fileByte hs va)).getD 0

/-- The first multiple of the alignment in the memory that UEFI gives. -/
def placeOf (hs : List Seg) (raw : Nat) : Nat := (raw + topAlign hs - 1) / topAlign hs * topAlign hs

/-- The end of the memory that UEFI gives. -/
def rawEnd (hs : List Seg) (raw : Nat) : Nat := raw + (topPage hs + topAlign hs / 4096) * 4096

/-- Two ranges of addresses that have nothing in common. -/
def Apart (a b c d : Nat) : Prop := b ≤ c ∨ d ≤ a

/-- What the loader gives the kernel for a region of memory: nothing, or whether it may be written and
executed. -/
def given : Ty → Option (Bool × Bool)
  | .reserved | .unusable | .other => none
  | .loaderCode | .bootServicesCode | .runtimeServicesCode | .palCode => some (false, true)
  | .kernelElf | .kernelArgs | .module => some (false, false)
  | .conventional => some (true, true)
  | _ => some (true, false)

/-- The regions that the kernel also finds at its own addresses. -/
def kernelToo (ty : Ty) : Bool :=
  ty = .conventional || ty = .bootServicesData || ty = .loaderData || ty = .kernelPt || ty = .module ||
    ty = .kernelArgs

/-- The regions that are left out: the one at address 0 and those that contain or touch the address
0xfee00000. -/
def leftOut (e : Entry) : Bool :=
  e.start = 0 || (e.start ≤ 0xfee00000 && 0xfee00000 ≤ e.start + e.pages * 4096)

/-- Address `x` is in a region. -/
def inside (x : Nat) (e : Entry) : Bool := e.start ≤ x && x < e.start + e.pages * 4096

/-- The machines in question: UEFI gives page-aligned memory below 2^46, its regions do not overlap, and what
it reports as other regions is not the memory it gave for image and stack. -/
structure GoodMachine (hs : List Seg) (raw stack : Nat) (mm : List Entry) : Prop where
  raw_page : raw % 4096 = 0
  raw_low : rawEnd hs raw ≤ 2 ^ 46
  stack_page : stack % 4096 = 0
  stack_low : stack + 4194304 ≤ 2 ^ 46
  stack_apart : Apart (placeOf hs raw) (placeOf hs raw + topPage hs * 4096) stack (stack + 4194304)
  entry : ∀ e ∈ mm, e.start % 4096 = 0 ∧ 0 < e.pages ∧ e.start + e.pages * 4096 ≤ 2 ^ 46
  entries_apart : mm.Pairwise fun a b =>
    Apart a.start (a.start + a.pages * 4096) b.start (b.start + b.pages * 4096)
  not_image : ∀ e ∈ mm, kernelToo e.ty = true →
    Apart (placeOf hs raw) (placeOf hs raw + topPage hs * 4096) e.start (e.start + e.pages * 4096) ∧
    Apart stack (stack + 4194304) e.start (e.start + e.pages * 4096)

/-- Whether a segment may be written: in a loader without the feature `all-writable` always. -/
def writable (feat : Bool) (h : Seg) : Bool := h.w || !feat

/-- What a region shows at an address of its own. -/
def shown (x : Nat) (e : Entry) : Option View := (given e.ty).map fun r => ⟨x, r.1, r.2⟩

/-- The kernel's address space: below 2^46 the regions at their own addresses; above, moved up by 2^46, the
pages of the segments, the guard page and the stack, and the regions the kernel needs. -/
def expected (feat : Bool) (hs : List Seg) (raw stack : Nat) (mm : List Entry) (x : Nat) : Option View :=
  if x < 2 ^ 46 then
    (mm.find? fun e => inside x e && !leftOut e).bind (shown x)
  else
    let y := x - 2 ^ 46
    match hs.find? (fun h => placeOf hs raw + firstPage h * 4096 ≤ y && y < placeOf hs raw + endPage h * 4096) with
    | some h => some ⟨y, writable feat h, h.x⟩
    | none =>
      if stack ≤ y ∧ y < stack + 4096 then some ⟨y, false, false⟩
      else if stack + 4096 ≤ y ∧ y < stack + 4194304 then some ⟨y, true, false⟩
      else (mm.find? fun e => inside y e && !leftOut e && kernelToo e.ty).bind (shown y)

end NRK.Boot.Spec
