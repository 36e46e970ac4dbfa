import Verif.Cpu.UpcallModel
import Verif.Cpu.AsmProps

/-! # C71: interrupts reach the program's handler, which can go back -/

namespace NRK.Cpu

/-! ## The assembly code -/

/-- `copyArea` copies a context. -/
theorem Holds.copied {src dst : Nat} {m n : M} (h : Holds src m n) : Holds dst m (copyArea src dst n) := by
  obtain ⟨h1, h2, h3, h4, h5, h6, h7, h8, h9, h10, h11, h12, h13, h14, h15, h16, h17, h18, h19, h20⟩ := h
  have e : ∀ i v, i < 224 → n.mem (src + i) = v → (copyArea src dst n).mem (dst + i) = v := fun i v hi h => by
    show (if dst ≤ dst + i ∧ dst + i < dst + 224 then _ else _) = v
    rw [if_pos ⟨by omega, by omega⟩, Nat.add_sub_cancel_left, h]
  exact ⟨e _ _ (by decide) h1, e _ _ (by decide) h2, e _ _ (by decide) h3, e _ _ (by decide) h4,
    e _ _ (by decide) h5, e _ _ (by decide) h6, e _ _ (by decide) h7, e _ _ (by decide) h8,
    e _ _ (by decide) h9, e _ _ (by decide) h10, e _ _ (by decide) h11, e _ _ (by decide) h12,
    e _ _ (by decide) h13, e _ _ (by decide) h14, e _ _ (by decide) h15, e _ _ (by decide) h16,
    e _ _ (by decide) h17, e _ _ (by decide) h18, e _ _ (by decide) h19, by
      show upd _ _ _ _ = _
      rw [upd_same, h20]⟩

theorem Holds.of_eq {a : Nat} {m n n' : M} (h : Holds a m n) (h1 : ∀ i, i < 224 → n'.mem (a + i) = n.mem (a + i))
    (h2 : n'.fxm (a + 224) = n.fxm (a + 224)) : Holds a m n' := by
  obtain ⟨g1, g2, g3, g4, g5, g6, g7, g8, g9, g10, g11, g12, g13, g14, g15, g16, g17, g18, g19, g20⟩ := h
  have e : ∀ i v, i < 224 → n.mem (a + i) = v → n'.mem (a + i) = v := fun i v hi h => by rw [h1 i hi, h]
  exact ⟨e _ _ (by decide) g1, e _ _ (by decide) g2, e _ _ (by decide) g3, e _ _ (by decide) g4,
    e _ _ (by decide) g5, e _ _ (by decide) g6, e _ _ (by decide) g7, e _ _ (by decide) g8,
    e _ _ (by decide) g9, e _ _ (by decide) g10, e _ _ (by decide) g11, e _ _ (by decide) g12,
    e _ _ (by decide) g13, e _ _ (by decide) g14, e _ _ (by decide) g15, e _ _ (by decide) g16,
    e _ _ (by decide) g17, e _ _ (by decide) g18, e _ _ (by decide) g19, by rw [h2, g20]⟩

/-- **C71**, entry: the kernel saves the context in the virtual CPU and starts the handler, on its own stack,
with the virtual CPU, the vector and the error code as arguments. -/
theorem c71_handler {kcb sa stack low : Nat} {m m2 : M} (h : Layout kcb sa stack m) (hcs : m.cs ≠ 8)
    (vec : Nat) (err : Option Nat)
    (hh : Handled sa low (run (isr vec err.isSome) (trap (stack + 256) err m)) m2) (e : Exec) :
    let m4 := run (upcall e.entry e.ctl vec (err.getD 0) e.top) (copyArea sa e.ctl m2)
    m4.context = { e with tls := m2.fs }.handler vec (err.getD 0) m2.fx.sse m.context ∧
    m4.kgs = kcb ∧ Holds e.ctl m m4 := by
  have he := isr_entered h vec err hcs
  have hc := (hh.holds he.holds).copied (dst := e.ctl)
  have hg : m2.kgs = m.gs := by rw [hh.kgs, he.kgs]
  have hk : m2.gs = kcb := by rw [hh.gs, he.gs]
  have hl := upcall_left e.entry e.ctl vec (err.getD 0) e.top (copyArea sa e.ctl m2)
  refine ⟨?_, by rw [hl.kgs]; exact hk, hc.of_eq (fun i _ => by rw [hl.mem]) (by rw [hl.fxm])⟩
  generalize hn : run (upcall e.entry e.ctl vec (err.getD 0) e.top) (copyArea sa e.ctl m2) = n'
  simp (disch := decide) only [run_nil, run_cons, upcall, Instr.exec, M.set, upd_same, upd_ne, copyArea] at hn
  subst hn
  simp only [M.context, Exec.handler, Context.mk.injEq, hg, and_true]
  funext r
  cases r <;> simp (disch := decide) only [upd_same, upd_ne]

/-- **C71**, upcalls off: the context in which the program continues is the one the assembly code loads. -/
theorem c71_sysret {kcb sa stack low : Nat} {m m2 : M} (h : Layout kcb sa stack m) (hcs : m.cs ≠ 8)
    (vec : Nat) (err : Option Nat)
    (hh : Handled sa low (run (isr vec err.isSome) (trap (stack + 256) err m)) m2) :
    (run sysretRestore m2).context = m.context.sysret := (c70_sysret h hcs vec err hh).1

/-- **C71**, exit: `resume` in the handler continues the interrupted program exactly where it was, if the
handler left the saved context and `gs` alone, whatever else it did. -/
theorem c71_resume {a low : Nat} {m n : M} (h : Holds a m n) (hr : n.reg .rsi = a) (hs : n.reg .rsp = low + 64)
    (hd : a + 224 ≤ low ∨ low + 64 ≤ a) (hg : n.gs = m.gs) : (run resume n).context = m.context := by
  rw [(resume_left h hr hs hd).1, hg]
  rfl

/-! ## Interrupts, one after the other -/

/-- An interrupt and what the program does until the next one: code of the handler, the end of `resume`, and
code of the program itself. -/
structure Round where
  vec : Nat
  err : Nat
  sse : Nat
  handler : List Context
  leaving : List Context
  program : List Context

def Round.events (r : Round) : List Ev :=
  [.irq r.vec r.err r.sse] ++ r.handler.map .user ++ [.enable] ++ r.leaving.map .user ++ [.restore] ++
    r.program.map .user

/-- No code of the handler changes `gs`. -/
def Round.KeepsGs (r : Round) (g : Nat) : Prop := ∀ c ∈ r.handler ++ r.leaving, c.gs = g

theorem run_append (e : Exec) (u : Prog) (a b : List Ev) : e.run u (a ++ b) = e.run (e.run u a) b := by
  unfold Exec.run
  rw [List.foldl_append]

theorem run_users (e : Exec) (u : Prog) (l : List Context) :
    e.run u (l.map .user) = { u with ctx := (l.getLast?).getD u.ctx } := by
  induction l generalizing u with
  | nil => rfl
  | cons c l ih =>
    show e.run (e.step u (.user c)) (l.map .user) = _
    rw [ih]
    cases l with
    | nil => rfl
    | cons d l => simp [Exec.step, List.getLast?_cons]

theorem last_gs {l : List Context} {c : Context} {g : Nat} (hl : ∀ d ∈ l, d.gs = g) (hc : c.gs = g) :
    ((l.getLast?).getD c).gs = g := by
  cases h : l.getLast? with
  | none => exact hc
  | some d => exact hl d (List.mem_of_getLast? h)

/-- **C71** for one interrupt, if none comes before the program is back: the handler is called, and whatever
it does, the program then continues where it was, with upcalls on. -/
theorem c71_round_partial (e : Exec) (u : Prog) (r : Round) (h : ¬ u.off) (hg : r.KeepsGs u.ctx.gs) :
    e.run u r.events =
      { u with saved := u.ctx, disabled := false, ctx := (r.program.getLast?).getD u.ctx,
               got := u.got ++ [r.vec] } := by
  have hgs : ∀ c ∈ r.handler, c.gs = u.ctx.gs := fun c hc => hg c (List.mem_append_left _ hc)
  have hgs' : ∀ c ∈ r.leaving, c.gs = u.ctx.gs := fun c hc => hg c (List.mem_append_right _ hc)
  unfold Round.events
  rw [run_append, run_append, run_append, run_append, run_append, run_users, run_users, run_users]
  have h0 : e.run u [.irq r.vec r.err r.sse] =
      { u with disabled := true, saved := u.ctx, ctx := e.handler r.vec r.err r.sse u.ctx,
               got := u.got ++ [r.vec] } := if_neg h
  rw [h0]
  have h1 : ((r.handler.getLast?).getD (e.handler r.vec r.err r.sse u.ctx)).gs = u.ctx.gs :=
    last_gs hgs rfl
  have h2 : ((r.leaving.getLast?).getD
      ((r.handler.getLast?).getD (e.handler r.vec r.err r.sse u.ctx))).gs = u.ctx.gs := last_gs hgs' h1
  simp only [Exec.run, Exec.step, List.foldl, h2]

/-- A history of interrupts, each of which comes while upcalls are on, and after the handler of the one
before is done. -/
def Apart (e : Exec) : Prog → List Round → Prop
  | _, [] => True
  | u, r :: rs => ¬ u.off ∧ r.KeepsGs u.ctx.gs ∧ Apart e (e.run u r.events) rs

/-- **C71** for interrupts that do not meet: the handler is called for each of them, in order.  Missing:
interrupts that arrive while upcalls are off; see `c71_lost`, `c71_off_for_ever` and `c71_context_lost`. -/
theorem c71_all_delivered_partial (e : Exec) (u : Prog) (rs : List Round) (h : Apart e u rs) :
    (e.run u (rs.flatMap Round.events)).got = u.got ++ rs.map Round.vec := by
  induction rs generalizing u with
  | nil => simp [Exec.run]
  | cons r rs ih =>
    obtain ⟨h1, h2, h3⟩ := h
    rw [List.flatMap_cons, run_append, ih _ h3, c71_round_partial e u r h1 h2]
    simp

/-! ## Where it goes wrong -/

/-- An interrupt that arrives while upcalls are off is forgotten: the handler is not called, and what is left
does not depend on which interrupt it was. -/
theorem c71_lost (e : Exec) (u : Prog) (h : u.off) (vec err sse vec' err' sse' : Nat) :
    (e.step u (.irq vec err sse)).got = u.got ∧
    e.step u (.irq vec err sse) = e.step u (.irq vec' err' sse') := by
  simp only [Exec.step, if_pos h, and_self]

/-- The program runs `resume` only at the end of an upcall: `k` is the number of upcalls it has not ended. -/
def Disciplined (e : Exec) : Nat → Prog → List Ev → Prop
  | _, _, [] => True
  | k, u, .enable :: evs => 0 < k ∧ Disciplined e (k - 1) (e.step u .enable) evs
  | k, u, .irq v r s :: evs =>
    Disciplined e (k + ((e.step u (.irq v r s)).got.length - u.got.length)) (e.step u (.irq v r s)) evs
  | k, u, .user c :: evs => Disciplined e k (e.step u (.user c)) evs
  | k, u, .restore :: evs => Disciplined e k (e.step u .restore) evs

/-- Nothing but `resume` turns upcalls on again. -/
theorem off_stays (e : Exec) (u : Prog) (h : u.disabled = true) (evs : List Ev) (hev : Disciplined e 0 u evs) :
    (e.run u evs).disabled = true ∧ (e.run u evs).got = u.got := by
  induction evs generalizing u with
  | nil => exact ⟨h, rfl⟩
  | cons ev evs ih =>
    show (e.run (e.step u ev) evs).disabled = true ∧ (e.run (e.step u ev) evs).got = u.got
    cases ev with
    | irq vec err sse =>
      have hs : e.step u (.irq vec err sse) = { u with disabled := true, ctx := u.ctx.sysret } :=
        if_pos (.inl h)
      unfold Disciplined at hev
      rw [hs, Nat.sub_self] at hev
      rw [hs]
      exact ih { u with disabled := true, ctx := u.ctx.sysret } rfl hev
    | user c => exact ih { u with ctx := c } h hev
    | enable => exact absurd hev.1 (Nat.lt_irrefl 0)
    | restore => exact ih { u with ctx := { u.saved with gs := u.ctx.gs } } h hev

/-- An interrupt that arrives in `resume`, after it has turned upcalls on: the program continues where it was,
but upcalls are off, and since the program turns them on only at the end of an upcall, its handler is not
called for any later interrupt. -/
theorem c71_off_for_ever (e : Exec) (u : Prog) (hw : u.window.1 ≤ u.ctx.rip ∧ u.ctx.rip ≤ u.window.2)
    (vec err sse : Nat) (c : Context) (hc : c.gs = u.saved.gs) (evs : List Ev)
    (hev : Disciplined e 0 (e.run u [.irq vec err sse, .user c, .restore]) evs) :
    (e.run u [.irq vec err sse, .user c, .restore]).ctx = u.saved ∧
    (e.run u ([.irq vec err sse, .user c, .restore] ++ evs)).disabled = true ∧
    (e.run u ([.irq vec err sse, .user c, .restore] ++ evs)).got = u.got := by
  have hs : e.step u (.irq vec err sse) = { u with disabled := true, ctx := u.ctx.sysret } :=
    if_pos (.inr hw)
  have hr : e.run u [.irq vec err sse, .user c, .restore] =
      { u with disabled := true, ctx := { u.saved with gs := c.gs } } := by
    simp only [Exec.run, List.foldl, hs]
    rfl
  rw [run_append]
  rw [hr] at hev ⊢
  refine ⟨by rw [hc], off_stays e _ rfl evs hev⟩

/-- If the program has not said where `resume` is (`usr/init/src/init.rs` lines 976-983 does not), an
interrupt in `resume` overwrites the saved context: for every interrupted context the result is the same, the
program goes back to `resume` itself, again and again. -/
theorem c71_context_lost (e : Exec) (u : Prog) (hw : u.window = (0, 0)) (h : u.disabled = false)
    (hr : u.ctx.rip ≠ 0) (inside : Context) (hi : inside.rip ≠ 0)
    (v1 e1 s1 v2 e2 s2 n : Nat) :
    (e.run u ([.irq v1 e1 s1, .enable, .user inside, .irq v2 e2 s2, .enable] ++
      List.replicate (n + 1) .restore)).ctx = inside := by
  rw [run_append]
  have h1 : ¬ u.off := by
    rintro (hd | hd)
    · rw [h] at hd; cases hd
    · rw [hw] at hd; exact hr (Nat.le_zero.1 hd.2)
  have hs : e.run u [.irq v1 e1 s1, .enable, .user inside, .irq v2 e2 s2, .enable] =
      { u with disabled := false, saved := inside, ctx := e.handler v2 e2 s2 inside,
               got := u.got ++ [v1] ++ [v2] } := by
    have ha : e.run u [.irq v1 e1 s1, .enable, .user inside] =
        { u with disabled := false, saved := u.ctx, ctx := inside, got := u.got ++ [v1] } := by
      simp only [Exec.run, List.foldl, Exec.step, if_neg h1]
    have h2 : ¬ Prog.off { u with disabled := false, saved := u.ctx, ctx := inside, got := u.got ++ [v1] } := by
      rintro (hd | hd)
      · cases hd
      · have : inside.rip ≤ u.window.2 := hd.2
        rw [hw] at this
        exact hi (Nat.le_zero.1 this)
    show e.run (e.run u [.irq v1 e1 s1, .enable, .user inside]) [.irq v2 e2 s2, .enable] = _
    rw [ha]
    simp only [Exec.run, List.foldl, Exec.step, if_neg h2]
  rw [hs]
  have hk : ∀ (k : Nat) (p : Prog), p.saved = inside → p.ctx.gs = inside.gs →
      (e.run p (List.replicate (k + 1) .restore)).ctx = inside := by
    intro k
    induction k with
    | zero =>
      intro p h1 h2
      show ({ p.saved with gs := p.ctx.gs } : Context) = inside
      rw [h1, h2]
    | succ k ih =>
      intro p h1 h2
      show (e.run (e.step p .restore) (List.replicate (k + 1) .restore)).ctx = inside
      exact ih _ h1 h2
  exact hk n _ rfl rfl

/-! ## Concrete cases -/

def sampleProg (disabled : Bool) (rip : Nat) (window : Nat × Nat) : Prog :=
  { ctx := { sample.context with rip := rip }, saved := sample.context, window := window,
    disabled := disabled, got := [] }

def sampleExec : Exec := ⟨0x8000, 0x50000, 0x60000, 0⟩

/-- In the handler: the registers as `resume` is called. -/
def sampleHandler : M :=
  let m4 := run (upcall 0x8000 0x50000 252 0 0x60000) (copyArea 0x20000 0x50000 sampleHandled)
  { m4 with reg := upd (upd m4.reg .rsi 0x50000) .rsp 0x5f040 }

/-- Interrupt, handler, back: the program continues exactly. -/
theorem c71_there_and_back : (run resume sampleHandler).context = sample.context := by
  have key : ∀ m4 : M, Holds 0x50000 sample m4 → m4.gs = sample.gs →
      (run resume { m4 with reg := upd (upd m4.reg .rsi 0x50000) .rsp 0x5f040 }).context = sample.context :=
    fun m4 h hg => c71_resume (a := 0x50000) (low := 0x5f000) (h.of_eq (fun _ _ => rfl) rfl)
      (by simp only; rw [upd_ne _ _ (by decide), upd_same])
      (by simp only; rw [upd_same]) (by decide) hg
  have h := c71_handler sample_layout (by decide) 252 none sample_handled sampleExec
  exact key _ h.2.2 (congrArg Context.gs h.1)

/-- Two interrupts, one after the other. -/
def sampleRounds : List Round := [⟨40, 0, 0, [], [], []⟩, ⟨41, 0, 7, [sample.context], [], [sample.context]⟩]

example (e : Exec) : Apart e (sampleProg false 0x4000 (0x100, 0x200)) sampleRounds := by
  have h1 : ¬ (sampleProg false 0x4000 (0x100, 0x200)).off := by decide
  have k1 : (⟨40, 0, 0, [], [], []⟩ : Round).KeepsGs (sampleProg false 0x4000 (0x100, 0x200)).ctx.gs := by
    intro c hc; cases hc
  refine ⟨h1, k1, ?_⟩
  rw [c71_round_partial e _ _ h1 k1]
  refine ⟨?_, ?_, trivial⟩
  · rintro (hd | hd)
    · cases hd
    · exact absurd hd.2 (by decide)
  · intro c hc
    rcases List.mem_append.1 hc with hc | hc
    · rw [List.mem_singleton.1 hc]; rfl
    · cases hc

/-- The second interrupt comes while the handler works: it is lost. -/
theorem c71_lost_sample (e : Exec) :
    (e.run (sampleProg false 0x4000 (0x100, 0x200))
      [.irq 40 0 0, .irq 41 0 0, .enable, .restore]).got = [40] := rfl

/-- An interrupt at the address 0x150 in `resume`: upcalls stay off. -/
example (e : Exec) (vec : Nat) :
    (e.run (sampleProg false 0x150 (0x100, 0x200))
      ([.irq 40 0 0, .user sample.context, .restore] ++ [.irq vec 0 0])).got = [] :=
  (c71_off_for_ever e (sampleProg false 0x150 (0x100, 0x200)) (by decide) 40 0 0 sample.context rfl
    [.irq vec 0 0] trivial).2.2

/-- The window is not set: the program never gets back to address 0x4000. -/
example (e : Exec) (n : Nat) :=
  c71_context_lost e (sampleProg false 0x4000 (0, 0)) rfl rfl (by decide) { sample.context with rip := 0x150 }
    (by decide) 40 0 0 41 0 0 n

end NRK.Cpu
