import Verif.Cpu.AsmSpec

/-! # C70, C71: the assembly code, executed symbolically -/

namespace NRK.Cpu

/-- The save area at `a` holds the context of `m`. -/
structure Holds (a : Nat) (m : M) (n : M) : Prop where
  rax : n.mem (a + 0) = m.reg .rax
  rbx : n.mem (a + 8) = m.reg .rbx
  rcx : n.mem (a + 16) = m.reg .rcx
  rdx : n.mem (a + 24) = m.reg .rdx
  rsi : n.mem (a + 32) = m.reg .rsi
  rdi : n.mem (a + 40) = m.reg .rdi
  rbp : n.mem (a + 48) = m.reg .rbp
  rsp : n.mem (a + 56) = m.reg .rsp
  r8 : n.mem (a + 64) = m.reg .r8
  r9 : n.mem (a + 72) = m.reg .r9
  r10 : n.mem (a + 80) = m.reg .r10
  r11 : n.mem (a + 88) = m.reg .r11
  r12 : n.mem (a + 96) = m.reg .r12
  r13 : n.mem (a + 104) = m.reg .r13
  r14 : n.mem (a + 112) = m.reg .r14
  r15 : n.mem (a + 120) = m.reg .r15
  rip : n.mem (a + 128) = m.rip
  flags : n.mem (a + 136) = m.flags
  fs : n.mem (a + 152) = m.fs
  fx : n.fxm (a + 224) = m.fx

theorem run_nil (m : M) : run [] m = m := rfl
theorem run_cons (i : Instr) (p : List Instr) (m : M) : run (i :: p) m = run p (i.exec m) := rfl

theorem upd_ne {α β : Type} [DecidableEq α] (f : α → β) {k x : α} (v : β) (h : x ≠ k) :
    upd f k v x = f x := by
  rw [upd_apply, if_neg h]

/-- The state after the entry code; `u` is what `gs` is for the program. -/
structure Entered (kcb u sa stack vec e : Nat) (m n : M) : Prop where
  holds : Holds sa m n
  gs : n.gs = kcb
  kgs : n.kgs = u
  fs : n.fs = m.mem (kcb + 16)
  vec : n.mem (n.reg .rsp + 8) = vec
  err : n.mem (n.reg .rsp + 16) = e
  rip : n.mem (n.reg .rsp + 24) = m.rip
  cs : n.mem (n.reg .rsp + 32) = m.cs
  flags : n.mem (n.reg .rsp + 40) = m.flags
  rsp : n.mem (n.reg .rsp + 48) = m.reg .rsp
  ss : n.mem (n.reg .rsp + 56) = m.ss
  frame : ∀ a, (a < stack ∨ stack + 256 ≤ a) → (a < sa ∨ sa + 224 ≤ a) → n.mem a = m.mem a

theorem isr_entered {kcb sa stack : Nat} {m : M} (h : Layout kcb sa stack m) (vec : Nat) (err : Option Nat)
    (hcs : m.cs ≠ 8) :
    Entered kcb m.gs sa stack vec (err.getD 0) m (run (isr vec err.isSome) (trap (stack + 256) err m)) := by
  obtain ⟨h1, h2, h3, h4, h5⟩ := h
  generalize hn : run (isr vec err.isSome) (trap (stack + 256) err m) = n
  cases err with
  | none =>
    simp (disch := first | decide | omega) only [run_nil, run_cons, isr, trap, Instr.exec, M.push, M.set,
      upd_same, upd_ne, h1, h2, hcs, Option.isSome, Bool.false_eq_true, if_false, List.cons_append,
      List.nil_append, Nat.reduceMul, Nat.reduceSubDiff, Nat.reduceAdd, Nat.add_assoc] at hn
    subst hn
    refine ⟨⟨?_, ?_, ?_, ?_, ?_, ?_, ?_, ?_, ?_, ?_, ?_, ?_, ?_, ?_, ?_, ?_, ?_, ?_, ?_, ?_⟩, rfl, rfl, ?_, ?_,
      ?_, ?_, ?_, ?_, ?_, ?_, ?_⟩
    case refine_29 =>
      intro a ha hb
      simp (disch := omega) only [upd_ne]
    all_goals
      simp (disch := first | decide | omega) only [upd_same, upd_ne, Nat.add_assoc, Nat.reduceAdd,
        Option.getD]
  | some e =>
    simp (disch := first | decide | omega) only [run_nil, run_cons, isr, trap, Instr.exec, M.push, M.set,
      upd_same, upd_ne, h1, h2, hcs, Option.isSome, if_true, if_false,
      List.nil_append, Nat.reduceMul, Nat.reduceSubDiff, Nat.reduceAdd, Nat.add_assoc] at hn
    subst hn
    refine ⟨⟨?_, ?_, ?_, ?_, ?_, ?_, ?_, ?_, ?_, ?_, ?_, ?_, ?_, ?_, ?_, ?_, ?_, ?_, ?_, ?_⟩, rfl, rfl, ?_, ?_,
      ?_, ?_, ?_, ?_, ?_, ?_, ?_⟩
    case refine_29 =>
      intro a ha hb
      simp (disch := omega) only [upd_ne]
    all_goals
      simp (disch := first | decide | omega) only [upd_same, upd_ne, Nat.add_assoc, Nat.reduceAdd,
        Option.getD]

theorem isr_entered_kernel {kcb sa stack : Nat} {m : M} (h : InKernel kcb sa stack m) (vec : Nat) (err : Option Nat)
    (hcs : m.cs = 8) :
    Entered kcb m.kgs sa stack vec (err.getD 0) m (run (isr vec err.isSome) (trap (stack + 256) err m)) := by
  obtain ⟨h1, h2, h3, h4, h5⟩ := h
  generalize hn : run (isr vec err.isSome) (trap (stack + 256) err m) = n
  cases err with
  | none =>
    simp (disch := first | decide | omega) only [run_nil, run_cons, isr, trap, Instr.exec, M.push, M.set,
      upd_same, upd_ne, h1, h2, hcs, Option.isSome, Bool.false_eq_true, if_false, if_true, List.cons_append,
      List.nil_append, Nat.reduceMul, Nat.reduceSubDiff, Nat.reduceAdd, Nat.add_assoc] at hn
    subst hn
    refine ⟨⟨?_, ?_, ?_, ?_, ?_, ?_, ?_, ?_, ?_, ?_, ?_, ?_, ?_, ?_, ?_, ?_, ?_, ?_, ?_, ?_⟩, rfl, rfl, ?_, ?_,
      ?_, ?_, ?_, ?_, ?_, ?_, ?_⟩
    case refine_29 =>
      intro a ha hb
      simp (disch := omega) only [upd_ne]
    all_goals
      simp (disch := first | decide | omega) only [upd_same, upd_ne, Nat.add_assoc, Nat.reduceAdd,
        Option.getD, hcs]
  | some e =>
    simp (disch := first | decide | omega) only [run_nil, run_cons, isr, trap, Instr.exec, M.push, M.set,
      upd_same, upd_ne, h1, h2, hcs, Option.isSome, if_true,
      List.nil_append, Nat.reduceMul, Nat.reduceSubDiff, Nat.reduceAdd, Nat.add_assoc] at hn
    subst hn
    refine ⟨⟨?_, ?_, ?_, ?_, ?_, ?_, ?_, ?_, ?_, ?_, ?_, ?_, ?_, ?_, ?_, ?_, ?_, ?_, ?_, ?_⟩, rfl, rfl, ?_, ?_,
      ?_, ?_, ?_, ?_, ?_, ?_, ?_⟩
    case refine_29 =>
      intro a ha hb
      simp (disch := omega) only [upd_ne]
    all_goals
      simp (disch := first | decide | omega) only [upd_same, upd_ne, Nat.add_assoc, Nat.reduceAdd,
        Option.getD, hcs]

/-- The state after one of the routines that load a context. -/
structure Left (low c : Nat) (m n n' : M) : Prop where
  reg : n'.reg = m.reg
  rip : n'.rip = m.rip
  flags : n'.flags = m.flags
  fs : n'.fs = m.fs
  fx : n'.fx = m.fx
  gs : n'.gs = n.kgs
  kgs : n'.kgs = n.gs
  cs : n'.cs = c
  frame : ∀ a, (a < low ∨ low + 64 ≤ a) → n'.mem a = n.mem a

theorem iret_left {a low : Nat} {m n : M} (h : Holds a m n) (hr : n.reg .rdi = a) (hs : n.reg .rsp = low + 64)
    (hd : a + 224 ≤ low ∨ low + 64 ≤ a) : Left low 27 m n (run iretRestore n) := by
  obtain ⟨h1, h2, h3, h4, h5, h6, h7, h8, h9, h10, h11, h12, h13, h14, h15, h16, h17, h18, h19, h20⟩ := h
  generalize hn : run iretRestore n = n'
  simp (disch := first | decide | omega) only [run_nil, run_cons, iretRestore, Instr.exec, M.push, M.set,
    upd_same, upd_ne, hr, hs, h1, h2, h3, h4, h5, h6, h7, h8, h9, h10, h11, h12, h13, h14, h15, h16, h17, h18,
    h19, h20, Nat.reduceMul, Nat.reduceSubDiff, Nat.reduceAdd, Nat.add_assoc] at hn
  subst hn
  refine ⟨?_, rfl, rfl, rfl, rfl, rfl, rfl, rfl, ?_⟩
  · funext r
    cases r <;> simp (disch := first | decide | omega) only [upd_same, upd_ne]
  · intro b hb
    simp (disch := omega) only [upd_ne]

theorem iret0_left {a low : Nat} {m n : M} (h : Holds a m n) (hr : n.reg .rdi = a)
    (hs : n.reg .rsp = low + 64) (hd : a + 224 ≤ low ∨ low + 64 ≤ a) :
    Left low 8 m n (run iretRestore0 n) := by
  obtain ⟨h1, h2, h3, h4, h5, h6, h7, h8, h9, h10, h11, h12, h13, h14, h15, h16, h17, h18, h19, h20⟩ := h
  generalize hn : run iretRestore0 n = n'
  simp (disch := first | decide | omega) only [run_nil, run_cons, iretRestore0, Instr.exec, M.push, M.set,
    upd_same, upd_ne, hr, hs, h1, h2, h3, h4, h5, h6, h7, h8, h9, h10, h11, h12, h13, h14, h15, h16, h17, h18,
    h19, h20, Nat.reduceMul, Nat.reduceSubDiff, Nat.reduceAdd, Nat.add_assoc] at hn
  subst hn
  refine ⟨?_, rfl, rfl, rfl, rfl, rfl, rfl, rfl, ?_⟩
  · funext r
    cases r <;> simp (disch := first | decide | omega) only [upd_same, upd_ne]
  · intro b hb
    simp (disch := omega) only [upd_ne]

/-- The exit of system calls. -/
structure LeftSys (m n n' : M) : Prop where
  reg : n'.reg = upd (upd m.reg .rcx m.rip) .r11 userFlags
  rip : n'.rip = m.rip
  flags : n'.flags = userFlags
  fs : n'.fs = m.fs
  fx : n'.fx = m.fx
  gs : n'.gs = n.kgs
  kgs : n'.kgs = n.gs
  cs : n'.cs = 35
  mem : n'.mem = n.mem

theorem sysret_left {a : Nat} {m n : M} (h : Holds a m n) (hr : n.reg .rdi = a) :
    LeftSys m n (run sysretRestore n) := by
  obtain ⟨h1, h2, h3, h4, h5, h6, h7, h8, h9, h10, h11, h12, h13, h14, h15, h16, h17, h18, h19, h20⟩ := h
  generalize hn : run sysretRestore n = n'
  simp (disch := decide) only [run_nil, run_cons, sysretRestore, Instr.exec, M.set,
    upd_same, upd_ne, hr, h1, h2, h4, h5, h6, h7, h8, h9, h10, h11, h13, h14, h15, h16, h17,
    h19, h20, Nat.reduceMul] at hn
  subst hn
  refine ⟨?_, rfl, rfl, rfl, rfl, rfl, rfl, rfl, rfl⟩
  funext r
  cases r <;> simp (disch := decide) only [upd_same, upd_ne]

/-- The entry of the program's handler. -/
structure LeftUp (entry ctl vector exception top : Nat) (n n' : M) : Prop where
  rip : n'.rip = entry
  rdi : n'.reg .rdi = ctl
  rsi : n'.reg .rsi = vector
  rdx : n'.reg .rdx = exception
  rsp : n'.reg .rsp = top
  rbp : n'.reg .rbp = top
  flags : n'.flags = userFlags
  gs : n'.gs = n.kgs
  kgs : n'.kgs = n.gs
  fs : n'.fs = n.fs
  sse : n'.fx.sse = n.fx.sse
  mem : n'.mem = n.mem
  fxm : n'.fxm = n.fxm

theorem upcall_left (entry ctl vector exception top : Nat) (n : M) :
    LeftUp entry ctl vector exception top n (run (upcall entry ctl vector exception top) n) := by
  generalize hn : run (upcall entry ctl vector exception top) n = n'
  simp (disch := decide) only [run_nil, run_cons, upcall, Instr.exec, M.set, upd_same, upd_ne] at hn
  subst hn
  refine ⟨rfl, ?_, ?_, ?_, ?_, ?_, rfl, rfl, rfl, rfl, rfl, rfl, rfl⟩ <;>
    simp (disch := decide) only [upd_same, upd_ne]

theorem resume_left {a low : Nat} {m n : M} (h : Holds a m n) (hr : n.reg .rsi = a)
    (hs : n.reg .rsp = low + 64) (hd : a + 224 ≤ low ∨ low + 64 ≤ a) :
    (run resume n).context = { m.context with gs := n.gs } ∧ (run resume n).kgs = n.kgs := by
  obtain ⟨h1, h2, h3, h4, h5, h6, h7, h8, h9, h10, h11, h12, h13, h14, h15, h16, h17, h18, h19, h20⟩ := h
  generalize hn : run resume n = n'
  simp (disch := first | decide | omega) only [run_nil, run_cons, resume, Instr.exec, M.push, M.set,
    upd_same, upd_ne, hr, hs, h1, h2, h3, h4, h5, h6, h7, h8, h9, h10, h11, h12, h13, h14, h15, h16, h17, h18,
    h19, h20, Nat.reduceMul, Nat.reduceSubDiff, Nat.reduceAdd, Nat.add_assoc] at hn
  subst hn
  refine ⟨?_, rfl⟩
  simp only [M.context, Context.mk.injEq, and_true]
  funext r
  cases r <;> simp (disch := first | decide | omega) only [upd_same, upd_ne]

end NRK.Cpu
