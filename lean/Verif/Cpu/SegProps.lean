import Verif.Cpu.SegModel

/-!
# C106: ways into the kernel and back
-/

namespace NRK.Cpu.Seg

open Spec

/-- The vectors with a handler. -/
def Vector (v : Nat) : Prop := v ≤ 14 ∨ (16 ≤ v ∧ v ≤ 20) ∨ v = 30 ∨ (32 ≤ v ∧ v ≤ 47) ∨ (249 ≤ v ∧ v ≤ 252)

instance (v : Nat) : Decidable (Vector v) := by unfold Vector; infer_instance

/-- The stack of each handler: 1 for double faults and machine checks, 2 for debug exceptions, otherwise that of the
privilege. -/
def stackOf (v : Nat) : Nat := if v = 8 ∨ v = 18 then 1 else if v = 1 ∨ v = 3 then 2 else 0

theorem foldl_idt (es : List (Nat × Handler × Nat)) : ∀ (t : Nat → Option Gate) (v : Nat),
    (∀ e ∈ es, e.1 ≠ v) → es.foldl (fun t e => idtSet t e.1 e.2.1 e.2.2) t v = t v := by
  induction es with
  | nil => intro t v _; rfl
  | cons e es ih =>
    intro t v h
    rw [List.foldl_cons, ih _ v (fun e he => h e (List.mem_cons_of_mem _ he))]
    have := h e (List.mem_cons_self ..)
    simp [idtSet, upd, Ne.symm this]

theorem entries_small : ∀ e ∈ entries, e.1 < 253 := by decide

theorem idt_small : ∀ v < 253, idt v =
    if Vector v then some ⟨8, 3, stackOf v, ⟨decide (v = 8 ∨ v = 18), v⟩⟩ else none := by decide +kernel

theorem idt_eq (v : Nat) : idt v =
    if Vector v then some ⟨8, 3, stackOf v, ⟨decide (v = 8 ∨ v = 18), v⟩⟩ else none := by
  by_cases h : v < 253
  · exact idt_small v h
  · have h1 : ¬ Vector v := by unfold Vector; omega
    rw [if_neg h1]
    unfold idt
    rw [foldl_idt]
    intro e he
    have := entries_small e he
    omega

/-- **C106, in.**  Every interrupt, raised in any way, with any privilege, for any vector with a handler, gets to the
handler of that vector in the kernel's code segment with the kernel's privilege.  Double faults and machine checks use
the stack for such faults and debug exceptions their own; all others use the kernel's stack for interrupts if they come
from a program.  For vectors without a handler there is a protection fault. -/
theorem c106_in (tss ring : Nat) (hr : ring ≤ 3) (src : Source) (vec : Nat) :
    deliver (tables tss) ring src vec =
      if Vector vec then
        some ⟨0, kernelCs,
          if vec = 8 ∨ vec = 18 then .ist 1 else if vec = 1 ∨ vec = 3 then .ist 2
            else if 0 < ring then .ring 0 else .current, ⟨decide (vec = 8 ∨ vec = 18), vec⟩⟩
      else none := by
  have hs : (tables tss).seg 8 = some (.code 0) := rfl
  unfold deliver
  have : (tables tss).idt = idt := rfl
  rw [this, idt_eq]
  by_cases hv : Vector vec
  · simp only [if_pos hv]
    have h3 : ¬ (src = .int ∧ 3 < ring) := by omega
    simp only [if_neg h3, hs, Nat.zero_le, if_true, kernelCs, selector, CS_KERNEL_INDEX]
    unfold stackOf
    split
    · simp
    · split <;> simp
  · simp only [if_neg hv]

/-- **C106, error codes.**  For interrupts of devices and exceptions, the handler takes an error code from the stack
if and only if the processor has put one there.  Missing: the instruction `int` (`c106_int`); a device on a vector below
32 does not exist. -/
theorem c106_code_partial (tss ring : Nat) (hr : ring ≤ 3) (src : Source) (hs : src ≠ .int) (vec : Nat)
    (hd : src = .device → 32 ≤ vec) {e : Entry} (h : deliver (tables tss) ring src vec = some e) :
    takesCode e.handler = pushesCode src vec := by
  rw [c106_in tss ring hr] at h
  split at h
  · rename_i hv
    cases h
    cases src with
    | int => exact absurd rfl hs
    | device =>
      have := hd rfl
      simp [takesCode, pushesCode]
      omega
    | fault =>
      have h21 : vec ≠ 21 ∧ vec ≠ 29 := by unfold Vector at hv; omega
      simp [takesCode, pushesCode, h21.1, h21.2]
  · cases h

/-- **C106, negation.**  A program may use `int` with every vector that has a handler.  With the vectors of exceptions
with an error code, the handler takes one that nobody has put there, so that it finds the code segment in place of the
instruction pointer; with vector 8 the handler is the one that shuts the machine down. -/
theorem c106_int (tss vec : Nat) (hv : Vector vec) :
    (∃ e, deliver (tables tss) 3 .int vec = some e ∧ e.handler.vec = vec ∧
      (takesCode e.handler ≠ pushesCode .int vec ↔ vec ∈ [8, 10, 11, 12, 13, 14, 17, 30]) ∧
      (vec = 8 ∨ vec = 18 → e.handler.early = true)) := by
  refine ⟨_, by rw [c106_in tss 3 (Nat.le_refl _), if_pos hv], rfl, ?_, ?_⟩
  · simp only [takesCode, pushesCode, List.contains_eq_mem, List.mem_cons, List.not_mem_nil, or_false]
    simp
    omega
  · intro h
    simpa using h

/-- **C106, `iretq`.**  The kernel goes back to programs with their own privilege and segments, and to its own code
with its own. -/
theorem c106_iretq (tss : Nat) : iretq (tables tss) userCs userSs = some 3 ∧
    iretq (tables tss) kernelCs kernelSs = some 0 ∧ iretq (tables tss) userCs kernelSs = none ∧
    iretq (tables tss) kernelCs userSs = none := by
  refine ⟨?_, ?_, ?_, ?_⟩ <;> rfl

theorem star_high (old : BitVec 64) (h : old >>> 32 = 0#64 ∨ old >>> 32 = 0x100008#64) :
    star old >>> 32 = 0x100008#64 := by
  unfold star
  rw [BitVec.ushiftRight_or_distrib, BitVec.ushiftRight_or_distrib]
  rcases h with h | h <;> rw [h] <;> decide

theorem star_higher (old : BitVec 64) (h : old >>> 32 = 0#64 ∨ old >>> 32 = 0x100008#64) :
    star old >>> 48 = 0x10#64 := by
  have : star old >>> 48 = (star old >>> 32) >>> 16 := by rw [← BitVec.shiftRight_add]
  rw [this, star_high old h]
  decide

/-- **C106, `syscall`.**  On a processor whose register held nothing, or what the kernel writes, before, a system call
gets the kernel's code and stack segments. -/
theorem c106_syscall (tss : Nat) (old : BitVec 64) (h : old >>> 32 = 0#64 ∨ old >>> 32 = 0x100008#64) :
    syscallSel (star old) = (kernelCs, kernelSs) ∧
    (tables tss).seg (syscallSel (star old)).1 = some (.code 0) ∧
    (tables tss).seg (syscallSel (star old)).2 = some (.data 0) := by
  have : syscallSel (star old) = (kernelCs, kernelSs) := by
    unfold syscallSel
    rw [star_high old h]
    decide
  rw [this]
  exact ⟨rfl, rfl, rfl⟩

/-- **C106, flags.**  Whatever the flags of a program are, in a system call interrupts, single stepping, the direction
flag and alignment checks are off: only the two bits of the privilege for ports and the bit that is always set remain. -/
theorem c106_flags (flags : BitVec 64) (i : Nat) :
    (syscallFlags fmask flags).getLsbD i = (flags.getLsbD i && decide (i = 1 ∨ i = 12 ∨ i = 13)) := by
  have hc : ∀ i < 64, (~~~fmask).getLsbD i = decide (i = 1 ∨ i = 12 ∨ i = 13) := by decide +kernel
  unfold syscallFlags
  rw [BitVec.getLsbD_and]
  by_cases hi : i < 64
  · rw [hc i hi]
  · rw [BitVec.getLsbD_of_ge _ _ (by omega)]
    rfl

/-- **C106, negation for `sysretq`.**  Programs that come back through `sysretq` have selectors that are swapped: the
one for code names the stack segment of programs and the one for the stack names the code segment.  They have the
privilege of programs, but `iretq` to these selectors faults. -/
theorem c106_sysret (tss : Nat) (old : BitVec 64) (h : old >>> 32 = 0#64 ∨ old >>> 32 = 0x100008#64) :
    sysretSel (star old) = (userSs, userCs) ∧
    (tables tss).seg (sysretSel (star old)).1 = some (.data 3) ∧
    (tables tss).seg (sysretSel (star old)).2 = some (.code 3) ∧
    (sysretSel (star old)).1 % 4 = 3 ∧
    iretq (tables tss) (sysretSel (star old)).1 (sysretSel (star old)).2 = none := by
  have : sysretSel (star old) = (userSs, userCs) := by
    unfold sysretSel
    rw [star_higher old h]
    decide
  rw [this]
  exact ⟨rfl, rfl, rfl, rfl, rfl⟩

/-- **C106, old contents.**  The register is changed by `or`: with other old contents, system calls get the wrong
segment. -/
theorem c106_star_old : syscallSel (star (0x30#64 <<< 32)) = (0x38, 0x40) := by decide

/-- **C106, task state.**  The processor finds the task state segment, with the stacks, where it is; the limit is one
more than the last byte. -/
theorem c106_tss (tss : Nat) : (tables tss).seg tssSel = some (.tss tss 104) := rfl

/-- A page fault of a program, the timer in the kernel, and a vector without handler. -/
theorem c106_case : deliver (tables 0x1000) 3 .fault 14 = some ⟨0, 8, .ring 0, ⟨false, 14⟩⟩ ∧
    deliver (tables 0x1000) 0 .device 252 = some ⟨0, 8, .current, ⟨false, 252⟩⟩ ∧
    deliver (tables 0x1000) 3 .int 0x80 = none ∧
    deliver (tables 0x1000) 3 .int 8 = some ⟨0, 8, .ist 1, ⟨true, 8⟩⟩ ∧
    takesCode ⟨false, 13⟩ = true ∧ pushesCode .int 13 = false := by decide +kernel

/-- The register after reset, and a second call. -/
theorem c106_star_case : (0#64 : BitVec 64) >>> 32 = 0#64 ∧ star 0 >>> 32 = 0x100008#64 := by decide

end NRK.Cpu.Seg
