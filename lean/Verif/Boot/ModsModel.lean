import Verif.Common

/-!
# Model of how programs get from the boot medium to the kernel

`bootloader/src/modules.rs`, the parts of `bootloader/src/main.rs` that use it, `Module` of
`lib/bootloader_shared/src/lib.rs` and the two places in the kernel that look up a program by its name.  UEFI is outside: a file
system is the list of the entries of its root directory, the allocator for pages is a parameter.
-/

namespace NRK.Boot.Mods

/-- An entry of the root directory: its name as UEFI gives it (16-bit units), whether it is a directory, the content. -/
structure File where
  name : List Nat
  dir : Bool
  data : List UInt8
deriving DecidableEq

/-- `Char16::try_from` and `char::try_from` fail for it (`modules.rs` lines 195-196). -/
def surrogate (u : Nat) : Bool := 0xD800 ≤ u && u ≤ 0xDFFF

/-- `DCStr16::into` (lines 190-202): what is no character is left out. -/
def nameString (units : List Nat) : String :=
  String.ofList ((units.filter fun u => !surrogate u).map Char.ofNat)

/-- `CStr16::from_str_with_buf` (line 29): the units of a string. -/
def units (s : String) : List Nat := s.toList.map Char.toNat

/-- `Directory::read_entry` with a buffer of 256 bytes (lines 139-142). -/
inductive Read where
  | entry (f : File)
  | done
  | error

/-- UEFI: the information about a file takes 80 bytes and its name with a terminator; if the buffer is too small the call
fails and stays at the entry. -/
def readEntry (dir : List File) (pos : Nat) : Read :=
  match dir[pos]? with
  | none => .done
  | some f => if 80 + 2 * (f.name.length + 1) ≤ 256 then .entry f else .error

/-- Memory, and the pages that were allocated: first address and number. -/
structure St where
  mem : Nat → UInt8
  allocs : List (Nat × Nat)

/-- `Module` (`lib/bootloader_shared/src/lib.rs` lines 20-33): the bytes of the name up to `name_len`, the address (the kernel
sees the memory at an offset, C31), the size. -/
structure Module where
  nameBytes : ByteArray
  base : Nat
  size : Nat

/-- `Module::new` (lines 41-58). -/
def Module.new (name : String) (base size : Nat) : Module :=
  ⟨name.toUTF8.extract 0 (min name.toUTF8.size 32), base, size⟩

/-- `Module::name` (lines 61-63). -/
def Module.name (m : Module) : String := (String.fromUTF8? m.nameBytes).getD "unknown"

/-- `Module::as_slice`, `as_pslice` (lines 77-94). -/
def Module.slice (m : Module) (mem : Nat → UInt8) : List UInt8 := (List.range m.size).map fun i => mem (m.base + i)

/-- `round_up!(size, BASE_PAGE_SIZE) / BASE_PAGE_SIZE` (`modules.rs` line 79). -/
def pages (size : Nat) : Nat := (size + 4096 - 1) / 4096 * 4096 / 4096

/-- Bytes written to memory. -/
def write (mem : Nat → UInt8) (base : Nat) (data : List UInt8) : Nat → UInt8 := fun a =>
  if base ≤ a ∧ a < base + data.length then data.getD (a - base) 0 else mem a

/-- `allocate_pages` (`bootloader/src/main.rs`, function of that name): any pages that are free, set to 0. -/
def allocatePages (pick : List (Nat × Nat) → Nat → Nat) (st : St) (n : Nat) : St × Nat :=
  (⟨write st.mem (pick st.allocs n) (List.replicate (n * 4096) 0), (pick st.allocs n, n) :: st.allocs⟩, pick st.allocs n)

/-- `locate_binary` (`modules.rs` lines 22-43): the file with the name; a directory or no file is a panic. Simplification:
names are compared exactly. -/
def locate (dir : List File) (name : String) : Outcome File :=
  match dir.find? fun f => f.name == units name with
  | none => .panic
  | some f => if f.dir then .panic else .ok f

/-- `load_binary_into_memory` (lines 62-98) with `determine_file_size` (lines 49-57). -/
def loadBinary (pick : List (Nat × Nat) → Nat → Nat) (dir : List File) (st : St) (name : String) : Outcome (St × Module) :=
  (locate dir name).bind fun f =>
    let (st, base) := allocatePages pick st (pages f.data.length)
    .ok (⟨write st.mem base f.data, st.allocs⟩, Module.new name base f.data.length)

/-- One entry in `load_modules` (lines 143-169): the module, if it is one. -/
def one (pick : List (Nat × Nat) → Nat → Nat) (dir : List File) (st : St) (f : File) : Outcome (St × List Module) :=
  if f.dir then .ok (st, [])
  else if nameString f.name ≠ "BootX64.efi" ∧ (nameString f.name).utf8ByteSize < 32 then
    (loadBinary pick dir st (nameString f.name)).bind fun r => .ok (r.1, [r.2])
  else .ok (st, [])

/-- The loop of `load_modules` (lines 138-174), `n` rounds from position `pos`. -/
def loop (pick : List (Nat × Nat) → Nat → Nat) (dir : List File) : Nat → Nat → St → Outcome (St × List Module)
  | 0, _, st => .ok (st, [])
  | n + 1, pos, st =>
    match readEntry dir pos with
    | .done => loop pick dir n pos st
    | .error => loop pick dir n pos st
    | .entry f =>
      (one pick dir st f).bind fun r => (loop pick dir n (pos + 1) r.1).bind fun q => .ok (q.1, r.2 ++ q.2)

/-- `KernelArgs::MAX_MODULES` (`lib/bootloader_shared/src/lib.rs` line 211). -/
def maxModules : Nat := 32

/-- `load_modules` (lines 128-181). -/
def loadModules (pick : List (Nat × Nat) → Nat → Nat) (dir : List File) (st : St) : Outcome (St × List Module) :=
  loop pick dir maxModules 0 st

/-- `load_modules_on_all_sfs` (lines 105-121): each file system in turn. The modules there are pairs with the name the module
was made of; it is the module's name (`c103_names`). -/
def loadAll (pick : List (Nat × Nat) → Nat → Nat) : List (List File) → St → Outcome (St × List Module)
  | [], st => .ok (st, [])
  | d :: ds, st => (loadModules pick d st).bind fun r => (loadAll pick ds r.1).bind fun q => .ok (q.1, r.2 ++ q.2)

/-- The loop that keeps the last module with a name (`main.rs` lines 350-363, `kernel/src/process.rs` lines 502-509). -/
def findLast (ms : List Module) (name : String) : Option Module :=
  ms.foldl (fun r m => if m.name = name then some m else r) none

/-- The loop that stops at the first one (`kernel/src/arch/x86_64/process.rs` lines 1354-1360). -/
def findFirst : List Module → String → Option Module
  | [], _ => none
  | m :: ms, name => if m.name = name then some m else findFirst ms name

/-- `ArrayVec::push` panics if it is full; the two loops of `main.rs` lines 485-496. -/
def kernelArgs (ms : List Module) : Outcome (List Module) :=
  let l := (ms.filter fun m => m.name = "kernel") ++ (ms.filter fun m => m.name ≠ "kernel")
  if l.length ≤ maxModules then .ok l else .panic

/-- What the boot loader starts and hands over: the image of the kernel, of the command line, and the modules. -/
structure Handed where
  kernel : Module
  cmdline : Module
  modules : List Module

/-- `uefi_start` as far as modules are concerned (`main.rs` lines 348-369, 479-496). -/
def boot (pick : List (Nat × Nat) → Nat → Nat) (fss : List (List File)) (st : St) : Outcome (St × Handed) :=
  (loadAll pick fss st).bind fun r =>
    match findLast r.2 "kernel", findLast r.2 "cmdline.in" with
    | some k, some c => (kernelArgs r.2).bind fun l => .ok (r.1, ⟨k, c, l⟩)
    | _, _ => .panic

/-- `KernelArgs::kernel_binary` (`lib/bootloader_shared/src/lib.rs` lines 195-201). -/
def kernelBinary (h : Handed) : Option Module := h.modules[0]?

/-- The program that `make_process` takes the writable sections from (`kernel/src/process.rs` lines 501-511). -/
def makeProcess (h : Handed) (binary : String) : Option Module := findLast h.modules binary

/-- The program that `Ring3Process::load` takes the rest from, given its name by `make_process`
(`kernel/src/arch/x86_64/process.rs` lines 1349-1361). -/
def processLoad (h : Handed) (binary : String) : Option Module := findFirst h.modules binary

end NRK.Boot.Mods
