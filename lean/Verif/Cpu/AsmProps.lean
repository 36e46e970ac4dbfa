import Verif.Cpu.AsmLemmas

/-! # C70: an interrupt does not change the program it interrupts -/

namespace NRK.Cpu

theorem Handled.holds {sa low : Nat} {m m1 m2 : M} (hh : Handled sa low m1 m2) (h : Holds sa m m1) :
    Holds sa m m2 := by
  obtain ⟨h1, h2, h3, h4, h5, h6, h7, h8, h9, h10, h11, h12, h13, h14, h15, h16, h17, h18, h19, h20⟩ := h
  have e : ∀ i v, i < 224 → m1.mem (sa + i) = v → m2.mem (sa + i) = v := fun i v hi h => by
    rw [hh.area i hi, h]
  exact ⟨e _ _ (by decide) h1, e _ _ (by decide) h2, e _ _ (by decide) h3, e _ _ (by decide) h4,
    e _ _ (by decide) h5, e _ _ (by decide) h6, e _ _ (by decide) h7, e _ _ (by decide) h8,
    e _ _ (by decide) h9, e _ _ (by decide) h10, e _ _ (by decide) h11, e _ _ (by decide) h12,
    e _ _ (by decide) h13, e _ _ (by decide) h14, e _ _ (by decide) h15, e _ _ (by decide) h16,
    e _ _ (by decide) h17, e _ _ (by decide) h18, e _ _ (by decide) h19, by rw [hh.image, h20]⟩

/-- The kernel's handler is called with the vector, the error code and the context of the program, on the
core's own control block, and nothing but the interrupt stack and the save area has changed. -/
theorem c70_entry {kcb sa stack : Nat} {m : M} (h : Layout kcb sa stack m) (hcs : m.cs ≠ 8) (vec : Nat)
    (err : Option Nat) :
    let n := run (isr vec err.isSome) (trap (stack + 256) err m)
    n.gs = kcb ∧ n.fs = m.mem (kcb + 16) ∧
    n.mem (n.reg .rsp + 8) = vec ∧ n.mem (n.reg .rsp + 16) = err.getD 0 ∧
    n.mem (n.reg .rsp + 24) = m.rip ∧ n.mem (n.reg .rsp + 32) = m.cs ∧
    n.mem (n.reg .rsp + 40) = m.flags ∧ n.mem (n.reg .rsp + 48) = m.reg .rsp ∧
    ∀ a, (a < stack ∨ stack + 256 ≤ a) → (a < sa ∨ sa + 224 ≤ a) → n.mem a = m.mem a := by
  have he := isr_entered h vec err hcs
  exact ⟨he.gs, he.fs, he.vec, he.err, he.rip, he.cs, he.flags, he.rsp, he.frame⟩

/-- **C70** for the interrupts that end in `iret_restore`: whatever the program was doing, and whatever the
kernel does in between, the program continues with all registers, the flags, the stack, the segment bases and
the floating point and vector state it had, and the next interrupt finds the core's control block again.
Missing: the interrupts that end differently; see `c70_corrupted`, `c70_debugger`. -/
theorem c70_continues_partial {kcb sa stack low : Nat} {m m2 : M} (h : Layout kcb sa stack m) (hcs : m.cs ≠ 8)
    (vec : Nat) (err : Option Nat)
    (hh : Handled sa low (run (isr vec err.isSome) (trap (stack + 256) err m)) m2) :
    (run iretRestore m2).context = m.context ∧ (run iretRestore m2).cs = 27 ∧
    (run iretRestore m2).kgs = kcb ∧
    ∀ a, (a < low ∨ low + 64 ≤ a) → (run iretRestore m2).mem a = m2.mem a := by
  have he := isr_entered h vec err hcs
  have hl := iret_left (hh.holds he.holds) hh.rdi hh.rsp hh.stack
  refine ⟨?_, hl.cs, by rw [hl.kgs, hh.gs, he.gs], hl.frame⟩
  simp only [M.context, hl.reg, hl.rip, hl.flags, hl.fs, hl.fx, hl.gs, hh.kgs, he.kgs]

/-- Exactly the following end in `iret_restore`: page faults of the program at addresses that are mapped by
now, requests of other cores, of the log and of other machines, and the timer; if the core has an executor. -/
theorem c70_which (i : Info) (vec : Nat) :
    dispatch i vec = .iret ↔
      i.exec = true ∧ (vec = 14 ∧ i.user = true ∧ i.mapped = true ∨ vec = 249 ∧ i.client = true ∨ vec = 250 ∨
        vec = 251 ∨ vec = 252) := by
  obtain ⟨x, d, u, p, c⟩ := i
  by_cases h14 : vec = 14
  · subst h14
    cases x <;> cases u <;> cases p <;> simp [dispatch]
  by_cases h49 : vec = 249
  · subst h49
    cases x <;> cases c <;> simp [dispatch]
  by_cases h50 : vec = 250
  · subst h50
    cases x <;> simp [dispatch]
  by_cases h51 : vec = 251
  · subst h51
    cases x <;> simp [dispatch]
  by_cases h52 : vec = 252
  · subst h52
    cases x <;> simp [dispatch]
  unfold dispatch
  rw [if_neg h14, if_neg h49, if_neg h50, if_neg h51, if_neg h52]
  cases x <;> cases d <;> simp only [Bool.false_eq_true, if_true, if_false, h14, h49, h50, h51, h52,
    false_and, or_false, and_false, iff_false, reduceCtorEq] <;>
    (repeat' split) <;> simp

/-- What the other way back, `restore`, does: `rcx` becomes the instruction pointer, `r11` and the flags a
constant; the rest is as before. -/
theorem c70_sysret {kcb sa stack low : Nat} {m m2 : M} (h : Layout kcb sa stack m) (hcs : m.cs ≠ 8)
    (vec : Nat) (err : Option Nat)
    (hh : Handled sa low (run (isr vec err.isSome) (trap (stack + 256) err m)) m2) :
    (run sysretRestore m2).context =
      { m.context with reg := upd (upd m.reg .rcx m.rip) .r11 userFlags, flags := userFlags } ∧
    (run sysretRestore m2).kgs = kcb := by
  have he := isr_entered h vec err hcs
  have hl := sysret_left (hh.holds he.holds) hh.rdi
  refine ⟨?_, by rw [hl.kgs, hh.gs, he.gs]⟩
  simp only [M.context, hl.reg, hl.rip, hl.flags, hl.fs, hl.fx, hl.gs, hh.kgs, he.kgs]

/-- **C70** is false for device interrupts and breakpoints that arrive while upcalls are disabled, and for
debug exceptions: they end in `restore`, and any program that does not happen to have its own instruction
pointer in `rcx` is changed. -/
theorem c70_corrupted {kcb sa stack low : Nat} {m m2 : M} (h : Layout kcb sa stack m) (hcs : m.cs ≠ 8)
    (vec : Nat) (err : Option Nat)
    (hh : Handled sa low (run (isr vec err.isSome) (trap (stack + 256) err m)) m2)
    (hr : m.reg .rcx ≠ m.rip ∨ m.reg .r11 ≠ userFlags ∨ m.flags ≠ userFlags) :
    (∀ i : Info, i.exec = true → i.disabled = true → 30 < vec → vec < 249 → vec ≠ 35 →
      dispatch i vec = .sysret) ∧
    (∀ i : Info, i.exec = true → dispatch i 1 = .sysret) ∧
    (∀ i : Info, i.exec = true → i.disabled = true → dispatch i 3 = .sysret) ∧
    (run sysretRestore m2).context ≠ m.context := by
  refine ⟨fun i h1 h2 h3 h4 h5 => ?_, fun i h1 => ?_, fun i h1 h2 => ?_, fun he => ?_⟩
  · unfold dispatch
    rw [if_pos ⟨h3, h4, h5⟩, h1, h2]
    rfl
  · unfold dispatch
    rw [h1]
    rfl
  · unfold dispatch
    rw [h1, h2]
    rfl
  · rw [(c70_sysret h hcs vec err hh).1] at he
    have h1 := congrFun (congrArg Context.reg he) .rcx
    have h2 := congrFun (congrArg Context.reg he) .r11
    have h3 := congrArg Context.flags he
    simp only [M.context] at h1 h2 h3
    rw [upd_ne _ _ (by decide), upd_same] at h1
    rw [upd_same] at h2
    rcases hr with hr | hr | hr
    · exact hr h1.symm
    · exact hr h2.symm
    · exact hr h3.symm

/-- A byte on the debugger's serial line while a program runs: the kernel goes back to the program as if it
had interrupted the kernel, and the program runs with the privileges of the kernel. -/
theorem c70_debugger {kcb sa stack low : Nat} {m m2 : M} (h : Layout kcb sa stack m) (hcs : m.cs ≠ 8)
    (hh : Handled sa low (run (isr 35 false) (trap (stack + 256) none m)) m2) :
    (∀ i : Info, dispatch i 35 = .iret0) ∧ (run iretRestore0 m2).rip = m.rip ∧ (run iretRestore0 m2).cs = 8 := by
  have he := isr_entered h 35 none hcs
  have hl := iret0_left (hh.holds he.holds) hh.rdi hh.rsp hh.stack
  exact ⟨fun _ => rfl, hl.rip, hl.cs⟩

/-- The exceptions of a program that end the kernel: all but debug exceptions, breakpoints and page faults at
addresses that are mapped. -/
theorem c70_fatal (i : Info) (vec : Nat) (hv : vec ≤ 30) :
    dispatch i vec = .stop ↔
      vec ≠ 1 ∧ vec ≠ 3 ∧ ¬ (vec = 14 ∧ i.user = true ∧ i.exec = true ∧ i.mapped = true) := by
  obtain ⟨x, d, u, p, c⟩ := i
  have h1 : ¬ (30 < vec ∧ vec < 249 ∧ vec ≠ 35) := fun h => absurd h.1 (by omega)
  unfold dispatch
  rw [if_neg h1]
  by_cases h13 : vec = 13
  · subst h13
    simp
  · rw [if_neg h13]
    by_cases h14 : vec = 14
    · subst h14
      simp
    · rw [if_neg h14]
      by_cases h2 : vec = 1
      · subst h2
        cases x <;> simp
      · rw [if_neg h2]
        by_cases h3 : vec = 3
        · subst h3
          cases x <;> cases d <;> simp
        · rw [if_neg h3, if_neg (by omega), if_neg (by omega), if_neg (by omega), if_neg (by omega),
            if_neg (by omega)]
          simp [h2, h3, h14]

/-! ## Exceptions in the kernel -/

/-- An exception in the kernel finds the control block as well, and keeps the program's `gs`. -/
theorem c70_kernel_entry {kcb sa stack : Nat} {m : M} (h : InKernel kcb sa stack m) (hcs : m.cs = 8) (vec : Nat)
    (err : Option Nat) :
    let n := run (isr vec err.isSome) (trap (stack + 256) err m)
    n.gs = kcb ∧ n.kgs = m.kgs ∧ n.mem (n.reg .rsp + 8) = vec ∧ n.mem (n.reg .rsp + 24) = m.rip ∧
    ∀ a, (a < stack ∨ stack + 256 ≤ a) → (a < sa ∨ sa + 224 ≤ a) → n.mem a = m.mem a := by
  have he := isr_entered_kernel h vec err hcs
  exact ⟨he.gs, he.kgs, he.vec, he.rip, he.frame⟩

/-- A debug exception in the kernel while the core has a program to run: the kernel continues its own code in
user mode, and the context of the program is lost. -/
theorem c70_kernel_debug {kcb sa stack low : Nat} {m m2 : M} (h : InKernel kcb sa stack m) (hcs : m.cs = 8)
    (hh : Handled sa low (run (isr 1 false) (trap (stack + 256) none m)) m2) :
    (∀ i : Info, i.exec = true → dispatch i 1 = .sysret) ∧
    (run sysretRestore m2).rip = m.rip ∧ (run sysretRestore m2).cs = 35 ∧
    (run sysretRestore m2).mem (sa + 16 * 8) = m.rip := by
  have he := isr_entered_kernel h 1 none hcs
  have ho := hh.holds he.holds
  have hl := sysret_left ho hh.rdi
  refine ⟨fun i h1 => ?_, hl.rip, hl.cs, ?_⟩
  · unfold dispatch
    rw [h1]
    rfl
  · rw [hl.mem]
    exact ho.rip

/-- Without a program the kernel continues where it was, with all its registers except `gs`: it continues with
what `gs` was for the last program, and finds its control block only if there was none. -/
theorem c70_kernel_breakpoint {kcb sa stack low : Nat} {m m2 : M} (h : InKernel kcb sa stack m) (hcs : m.cs = 8)
    (vec : Nat) (hh : Handled sa low (run (isr vec false) (trap (stack + 256) none m)) m2) :
    (∀ i : Info, i.exec = false → dispatch i 1 = .iret0 ∧ dispatch i 3 = .iret0) ∧
    (run iretRestore0 m2).context = { m.context with gs := m.kgs } ∧ (run iretRestore0 m2).cs = 8 := by
  have he := isr_entered_kernel h vec none hcs
  have hl := iret0_left (hh.holds he.holds) hh.rdi hh.rsp hh.stack
  refine ⟨fun i h1 => ?_, ?_, hl.cs⟩
  · unfold dispatch
    rw [h1]
    exact ⟨rfl, rfl⟩
  · have hk : m2.kgs = m.kgs := by rw [hh.kgs]; exact he.kgs
    simp only [M.context, hl.reg, hl.rip, hl.flags, hl.fs, hl.fx, hl.gs, hk]

/-! ## A concrete core -/

/-- A program in the middle of something. -/
def sample : M :=
  { reg := fun | .rcx => 77 | .rsp => 0x7000 | .rax => 5 | _ => 1, rip := 0x4000, flags := 0x246, cs := 27,
    ss := 35, fs := 0x9000, gs := 0xa000, kgs := 0x10000, fx := ⟨3, 4⟩,
    mem := fun a => if a = 0x10008 then 0x20000 else 0, fxm := fun _ => ⟨0, 0⟩ }

theorem sample_layout : Layout 0x10000 0x20000 0x30000 sample :=
  ⟨rfl, rfl, .inl (by decide), .inl (by decide), .inl (by decide)⟩

/-- The kernel has used all registers. -/
def sampleHandled : M :=
  { run (isr 252 false) (trap (0x30000 + 256) none sample) with
    reg := fun | .rdi => 0x20000 | .rsp => 0x30040 | _ => 0xbad, fx := ⟨9, 9⟩, fs := 0xbad }

theorem sample_handled : Handled 0x20000 0x30000 (run (isr 252 false) (trap (0x30000 + 256) none sample))
    sampleHandled :=
  ⟨rfl, rfl, fun _ _ => rfl, rfl, rfl, rfl, .inl (by decide)⟩

/-- The timer interrupts the program: it continues as before; had the kernel gone back with `restore`, its
`rcx` would be 0x4000 instead of 77. -/
theorem c70_sample :
    dispatch ⟨true, false, false, false, false⟩ 252 = .iret ∧
    (run iretRestore sampleHandled).context = sample.context ∧
    (run sysretRestore sampleHandled).reg .rcx = 0x4000 ∧ sample.reg .rcx = 77 := by
  have h := c70_continues_partial sample_layout (by decide) 252 none sample_handled
  have h2 := c70_sysret sample_layout (by decide) 252 none sample_handled
  refine ⟨rfl, h.1, ?_, rfl⟩
  have := congrFun (congrArg Context.reg h2.1) .rcx
  exact this

/-- The kernel in a system call of that program. -/
def sampleKernel : M := { sample with cs := 8, ss := 0, gs := 0x10000, kgs := 0xa000, rip := 0x5000 }

theorem sample_kernel : InKernel 0x10000 0x20000 0x30000 sampleKernel :=
  ⟨rfl, rfl, .inl (by decide), .inl (by decide), .inl (by decide)⟩

/-- Any handler that keeps the save area is one. -/
theorem handled_any (m : M) : Handled 0x20000 0x30000 m
    { m with reg := upd (upd m.reg .rdi 0x20000) .rsp 0x30040 } :=
  ⟨rfl, rfl, fun _ _ => rfl, rfl, by simp only; rw [upd_ne _ _ (by decide), upd_same],
    by simp only; rw [upd_same], .inl (by decide)⟩

/-- A breakpoint there. -/
theorem c70_kernel_sample : ∃ m2, Handled 0x20000 0x30000 (run (isr 3 false) (trap (0x30000 + 256) none sampleKernel)) m2 ∧
    (run iretRestore0 m2).gs = 0xa000 :=
  ⟨_, handled_any _, congrArg Context.gs (c70_kernel_breakpoint sample_kernel rfl 3 (handled_any _)).2.1⟩

end NRK.Cpu
