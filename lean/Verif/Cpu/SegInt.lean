import Verif.Cpu.SegProps
import Verif.Cpu.AsmProps

/-!
# C106: what `int` with the vector of an exception does to the kernel's view of a program

On the model of the assembly code (`AsmModel`).
-/

namespace NRK.Cpu

/-- The program the kernel sees instead of the one that ran `int`: everything is one word off. -/
def M.shifted (stack : Nat) (m : M) : M :=
  { m with rip := m.cs, cs := m.flags, flags := m.reg .rsp, reg := upd m.reg .rsp m.ss, ss := m.mem (stack + 248) }

/-- The same machine with another instruction pointer and other flags. -/
def M.at (m : M) (rip flags : Nat) : M := { m with rip := rip, flags := flags }

theorem exec_at (i : Instr) (h1 : i ≠ .iretq) (h2 : i ≠ .sysretq) (m : M) (r f : Nat) :
    i.exec (m.at r f) = (i.exec m).at r f := by
  cases i <;> first | rfl | contradiction | skip
  rename_i r' v
  by_cases h : m.reg r' = v <;> simp [Instr.exec, M.at, h]

theorem run_at (p : List Instr) : (∀ i ∈ p, i ≠ .iretq ∧ i ≠ .sysretq) → ∀ (m : M) (r f : Nat),
    run p (m.at r f) = (run p m).at r f := by
  induction p with
  | nil => intro _ m r f; rfl
  | cons i p ih =>
    intro h m r f
    have hi := h i (List.mem_cons_self ..)
    simp only [run, List.foldl_cons] at ih ⊢
    rw [exec_at i hi.1 hi.2]
    exact ih (fun i hi => h i (List.mem_cons_of_mem _ hi)) _ r f

theorem isr_plain (vec : Nat) : ∀ i ∈ isr vec true, i ≠ .iretq ∧ i ≠ .sysretq := by
  intro i hi
  simp only [isr, if_true, List.nil_append, List.mem_cons, List.not_mem_nil, or_false] at hi
  constructor <;> rintro rfl <;> simp at hi

theorem trap_shifted (stack : Nat) (m : M) :
    trap (stack + 248) none m = (trap (stack + 256) (some m.rip) (m.shifted stack)).at m.rip m.flags := by
  have hm : upd m.mem (stack + 248) (m.mem (stack + 248)) = m.mem := by
    funext a
    by_cases h : a = stack + 248
    · subst h; simp [upd]
    · simp [upd, h]
  have hu : ∀ (f : Reg → Nat) (a b : Nat), upd (upd f .rsp a) .rsp b = upd f .rsp b := by
    intro f a b
    funext r
    by_cases h : r = .rsp
    · subst h; simp [upd]
    · simp [upd, h]
  simp only [trap, M.push, M.shifted, M.at, upd_same, hu, Nat.reduceSubDiff, hm]

theorem isr_shifted (stack vec : Nat) (m : M) : run (isr vec true) (trap (stack + 248) none m) =
    (run (isr vec true) (trap (stack + 256) (some m.rip) (m.shifted stack))).at m.rip m.flags := by
  rw [trap_shifted, run_at _ (isr_plain vec)]

/-- **C106, negation.**  A program that runs `int` with the vector of an exception with an error code: the kernel takes
its instruction pointer for the error code, its code segment for the instruction pointer, its flags for the code segment,
its stack pointer for the flags and its stack segment for the stack pointer. -/
theorem c106_int_frame {kcb sa stack : Nat} {m : M} (h : Layout kcb sa stack m) (hf : m.flags ≠ 8) (vec : Nat) :
    let n := run (isr vec true) (trap (stack + 248) none m)
    n.mem (n.reg .rsp + 8) = vec ∧ n.mem (n.reg .rsp + 16) = m.rip ∧ n.mem (n.reg .rsp + 24) = m.cs ∧
    n.mem (n.reg .rsp + 32) = m.flags ∧ n.mem (n.reg .rsp + 40) = m.reg .rsp ∧ n.mem (n.reg .rsp + 48) = m.ss := by
  have hl : Layout kcb sa stack (m.shifted stack) := ⟨h.kernel, h.area, h.kcbStack, h.areaStack, h.kcbArea⟩
  have he : Entered kcb m.gs sa stack vec m.rip (m.shifted stack)
      (run (isr vec true) (trap (stack + 256) (some m.rip) (m.shifted stack))) :=
    isr_entered hl vec (some m.rip) hf
  rw [isr_shifted]
  generalize run (isr vec true) (trap (stack + 256) (some m.rip) (m.shifted stack)) = n at he
  have hs : n.mem (n.reg .rsp + 48) = m.ss := by rw [he.rsp]; simp [M.shifted, upd_same]
  exact ⟨he.vec, he.err, he.rip, he.cs, he.flags, hs⟩

/-- **C106, negation, and back.**  If the kernel then goes back to the program, as it does for page faults that need
nothing to be done, the program runs at the address that is the number of its code segment, with its old stack pointer
as flags. -/
theorem c106_int_back {kcb sa stack low : Nat} {m m2 : M} (h : Layout kcb sa stack m) (hf : m.flags ≠ 8) (vec : Nat)
    (hh : Handled sa low (run (isr vec true) (trap (stack + 248) none m)) m2) :
    (run iretRestore m2).rip = m.cs ∧ (run iretRestore m2).flags = m.reg .rsp ∧
    (run iretRestore m2).reg .rsp = m.ss := by
  have hl : Layout kcb sa stack (m.shifted stack) := ⟨h.kernel, h.area, h.kcbStack, h.areaStack, h.kcbArea⟩
  rw [isr_shifted] at hh
  have hh : Handled sa low (run (isr vec true) (trap (stack + 256) (some m.rip) (m.shifted stack))) m2 :=
    ⟨hh.gs, hh.kgs, hh.area, hh.image, hh.rdi, hh.rsp, hh.stack⟩
  have hc := (c70_continues_partial hl hf vec (some m.rip) hh).1
  have h1 := congrArg Context.rip hc
  have h2 := congrArg Context.flags hc
  have h3 := congrFun (congrArg Context.reg hc) .rsp
  exact ⟨h1, h2, by simpa [M.context, M.shifted, upd_same] using h3⟩

/-- `handle_generic_exception_early` (`kernel/src/arch/x86_64/irq.rs` lines 627-676): the reason with which the machine
is shut down (`kernel/src/main.rs` lines 107-108). -/
def earlyExit (vec : Nat) : Nat :=
  if vec % 256 = 13 then 8 else if vec % 256 = 14 then 8 else if vec % 256 = 8 then 9 else if vec % 256 = 18 then 9
  else 8

/-- **C106, negation.**  Every program can shut down the machine: `int 8` is allowed in every state of the program, and
the handler it gets to always ends with the exit code for errors of the machine. -/
theorem c106_shutdown (tss : Nat) : ∃ e, Seg.Spec.deliver (Seg.tables tss) 3 .int 8 = some e ∧
    e.handler.early = true ∧ earlyExit e.handler.vec = 9 := by
  refine ⟨_, by rw [Seg.c106_in tss 3 (Nat.le_refl _), if_pos (by decide)], ?_, ?_⟩ <;> rfl

/-- The selectors in the model of the assembly code are those of the tables: the ones pushed for `iretq`, and the ones
`sysretq` loads. -/
theorem c106_selectors : Seg.userSs = 35 ∧ Seg.userCs = 27 ∧ Seg.kernelSs = 16 ∧ Seg.kernelCs = 8 ∧
    ∀ m : M, ((Instr.sysretq.exec m).cs, (Instr.sysretq.exec m).ss) = Seg.Spec.sysretSel (Seg.star 0) := by
  refine ⟨rfl, rfl, rfl, rfl, fun m => ?_⟩
  rw [(Seg.c106_sysret 0 0 (Or.inl rfl)).1]
  rfl

/-- The sample program runs `int 14` at 0x4000, and the kernel goes back to it: it is at address 27. -/
theorem c106_int_sample : ∃ m2,
    Handled 0x20000 0x30000 (run (isr 14 true) (trap (0x30000 + 248) none sample)) m2 ∧
    (run iretRestore m2).rip = 27 ∧ (run iretRestore m2).flags = 0x7000 :=
  ⟨_, handled_any _, (c106_int_back sample_layout (by decide) 14 (handled_any _)).1,
    (c106_int_back sample_layout (by decide) 14 (handled_any _)).2.1⟩

end NRK.Cpu
