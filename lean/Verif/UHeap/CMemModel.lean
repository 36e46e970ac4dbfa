import Verif.UHeap.UHeapModel

/-!
# Model of the memory functions of C programs, `lib/vibrio/src/rumprt/crt/mem.rs`

They are thin layers over the heap of `UHeapModel`: a header of 16 bytes in front of every object has its size.

Simplifications: numbers that do not fit in 64 bits panic (`overflow-checks`, on in the dev profile); a store to
address 0 is a page fault, which ends the process, and counts as a panic.
-/

namespace NRK.UHeap

open NRK.Mem NRK.Mem.Spec NRK.Heap

/-- The numbers of a `usize`. -/
@[irreducible] def WORD : Nat := 2 ^ 64

/-- `HEADER_SIZE` (line 249). -/
def HDR : Nat := 16

/-- A store of a `u64`, lowest byte first. -/
def put64 (mem : Nat → UInt8) (p v : Nat) : Nat → UInt8 :=
  fun a => if p ≤ a ∧ a < p + 8 then UInt8.ofNat (v / 256 ^ (a - p)) else mem a

/-- The number in `n` bytes, lowest first. -/
def getLE (mem : Nat → UInt8) (p : Nat) : Nat → Nat
  | 0 => 0
  | n + 1 => (mem p).toNat + 256 * getLE mem (p + 1) n

/-- A load of a `u64`. -/
def get64 (mem : Nat → UInt8) (p : Nat) : Nat := getLE mem p 8

/-- The header is written, and the result is behind it (lines 267-268, 287-288, 340-341). -/
def withHeader (h : UHeap) (p size : Nat) : Nat × UHeap := (p + HDR, { h with mem := put64 h.mem p size })

/-- `malloc` on core `c` (lines 256-272). -/
def UHeap.malloc (k : HCfg) (n : Nat) (h : UHeap) (c size : Nat) (e : Env) : Outcome (Option Nat) × UHeap :=
  if WORD ≤ size + HDR then (.panic, h)
  else
    match h.alloc k n c (size + HDR) 8 e with
    | (.ok (some p), h') => (.ok (some (withHeader h' p (size + HDR)).1), (withHeader h' p (size + HDR)).2)
    | r => r

/-- `n` bytes are set to 0 (`GlobalAlloc::alloc_zeroed`). -/
def zero (mem : Nat → UInt8) (p n : Nat) : Nat → UInt8 := fun a => if p ≤ a ∧ a < p + n then 0 else mem a

/-- `calloc` on core `c` (lines 276-292). -/
def UHeap.calloc (k : HCfg) (n : Nat) (h : UHeap) (c nmem size : Nat) (e : Env) : Outcome (Option Nat) × UHeap :=
  if WORD ≤ nmem * size + HDR then (.panic, h)
  else
    match h.alloc k n c (nmem * size + HDR) 8 e with
    | (.ok (some p), h') =>
      let h'' := { h' with mem := zero h'.mem p (nmem * size + HDR) }
      (.ok (some (withHeader h'' p (nmem * size + HDR)).1), (withHeader h'' p (nmem * size + HDR)).2)
    | r => r

/-- `free` on core `c` (lines 298-308). -/
def UHeap.cfree (k : HCfg) (h : UHeap) (c ptr : Nat) (e : Env) : Outcome Unit × UHeap :=
  if ptr = 0 then (.ok (), h)
  else h.dealloc k c (ptr - HDR) (get64 h.mem (ptr - HDR)) e

/-- `realloc` on core `c` (lines 315-342). -/
def UHeap.crealloc (k : HCfg) (n : Nat) (h : UHeap) (c ptr new : Nat) (e : Env) : Outcome Nat × UHeap :=
  if WORD ≤ new + HDR then (.panic, h)
  else
    match h.realloc k n c (if ptr = 0 then 0 else ptr - HDR) (if ptr = 0 then 0 else get64 h.mem (ptr - HDR)) 8
        (new + HDR) e with
    | (.ok (some p), h') => (.ok (withHeader h' p (new + HDR)).1, (withHeader h' p (new + HDR)).2)
    | (_, h') => (.panic, h')

/-- `posix_memalign` on core `c` (lines 219-247); `none` is a result of 1 and a null pointer. -/
def UHeap.memalign (k : HCfg) (n : Nat) (h : UHeap) (c align nbytes : Nat) (e : Env) : Outcome (Option Nat) × UHeap :=
  if WORD ≤ nbytes + HDR then (.panic, h)
  else
    match h.alloc k n c (nbytes + HDR) (max align 8) e with
    | (.ok (some p), h') => (.ok (some (withHeader h' p (nbytes + HDR)).1), (withHeader h' p (nbytes + HDR)).2)
    | r => r

end NRK.UHeap
