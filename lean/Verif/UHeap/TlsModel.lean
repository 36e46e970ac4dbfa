import Verif.UHeap.CMemModel

/-!
# Model of thread-local variables, `lib/lineup/src/tls2/mod.rs`, `kernel/src/arch/x86_64/tls.rs`

The compiler places thread-local variables in front of what the register `fs` points to (TLS variant 2 of "ELF
Handling For Thread-Local Storage"): the variable at offset `o` of the TLS segment is at `fs - roundUp total align + o`.

Simplifications: the image of the segment in the program is not changed while it runs; a store next to address 0
(no memory for the area) is a page fault and counts as a panic.
-/

namespace NRK.UHeap

open NRK.Mem NRK.Mem.Spec NRK.Heap

/-- The TLS segment of a binary: its initial data, its size with what starts as zero, its alignment
(`lib/kpi/src/process.rs` lines 62-76, `bootloader_shared/src/lib.rs` lines 110-119). -/
structure Tls where
  data : List UInt8
  total : Nat
  align : Nat

/-- The content of a variable in a new thread. -/
def Tls.initial (t : Tls) (o : Nat) : UInt8 := t.data.getD o 0

/-- Where the compiler looks for the byte at offset `o` of the segment, for a value of `fs`. -/
def Tls.addr (t : Tls) (fs o : Nat) : Nat := fs - roundUp t.total t.align + o

/-- Bytes are copied to memory. -/
def putBytes (mem : Nat → UInt8) (p : Nat) (bs : List UInt8) : Nat → UInt8 :=
  fun a => if p ≤ a ∧ a < p + bs.length then bs.getD (a - p) 0 else mem a

/-- `new_tls_area` after the allocation of `size` zeroed bytes at `base` (lines 121-139; kernel: lines 137-167): the
control block (`tmpl`) goes to the end, its first word points to it, the initial data goes to the start. -/
def layTls (mem : Nat → UInt8) (base size : Nat) (tmpl data : List UInt8) : Nat × (Nat → UInt8) :=
  let tcb := base + (size - tmpl.length)
  (tcb, putBytes (put64 (putBytes mem tcb tmpl) tcb tcb) base data)

/-- `ThreadControlBlock::new_tls_area` on core `c` (lines 102-142), with the layout of `get_tls_info`
(`tls2/nrk.rs` lines 33-54). -/
def UHeap.newTls (k : HCfg) (n : Nat) (h : UHeap) (c : Nat) (t : Tls) (tmpl : List UInt8) (e : Env) :
    Outcome Nat × UHeap :=
  match h.alloc k n c (t.total + tmpl.length) t.align e with
  | (.ok (some p), h') =>
    (.ok (layTls (zero h'.mem p (t.total + tmpl.length)) p (t.total + tmpl.length) tmpl t.data).1,
      { h' with mem := (layTls (zero h'.mem p (t.total + tmpl.length)) p (t.total + tmpl.length) tmpl t.data).2 })
  | (_, h') => (.panic, h')

/-- `Layout::extend` of `t` with a layout of `size` bytes and alignment 8: the new size. -/
def extendSize (total size : Nat) : Nat := roundUp total 8 + size

/-- `ThreadControlBlock::new` of the kernel (`kernel/src/arch/x86_64/tls.rs` lines 97-169); the allocator returned
`base` (`none`: no memory), where everything is zero. -/
def kernelTls (mem : Nat → UInt8) (base : Option Nat) (t : Tls) : Outcome (Nat × (Nat → UInt8)) :=
  if extendSize t.total 16 ≠ 16 + t.total ∨ t.total = 0 then .panic
  else
    match base with
    | none => .panic
    | some b =>
      .ok (layTls (zero mem b (extendSize t.total 16)) b (extendSize t.total 16) (List.replicate 16 0) t.data)

/-- `ThreadControlBlock::init` (lines 74-82): the new value of `fs` and memory; `none` is `TLSAlreadyInitialized`. -/
def kernelTlsInit (mem : Nat → UInt8) (fs : Nat) (base : Option Nat) (t : Tls) :
    Outcome (Option (Nat × (Nat → UInt8))) :=
  match kernelTls mem base t with
  | .ok r => if fs = 0 then .ok (some r) else .ok none
  | _ => .panic

end NRK.UHeap
