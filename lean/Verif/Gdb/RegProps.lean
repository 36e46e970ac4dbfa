import Verif.Gdb.RegSpec

/-!
# C85: the debugger's view of the registers
-/

namespace NRK.Gdb

theorem narrow_ok {n m : Nat} {v : BitVec n} (h : v.toNat < 2 ^ m) : narrow m v = .ok (v.setWidth m) := if_pos h

theorem narrow_panic {n m : Nat} {v : BitVec n} (h : ¬ v.toNat < 2 ^ m) : narrow m v = .panic := if_neg h

theorem widen_narrow {n m : Nat} {v : BitVec n} (h : v.toNat < 2 ^ m) : (v.setWidth m).setWidth n = v := by
  apply BitVec.eq_of_toNat_eq
  rw [BitVec.toNat_setWidth, BitVec.toNat_setWidth, Nat.mod_eq_of_lt h, Nat.mod_eq_of_lt v.isLt]

theorem narrow_widen {n m : Nat} (h : n ≤ m) (v : BitVec n) : narrow n (v.setWidth m) = .ok v := by
  have hv : v.toNat < 2 ^ m := Nat.lt_of_lt_of_le v.isLt (Nat.pow_le_pow_right (by decide) h)
  have : (v.setWidth m).toNat < 2 ^ n := by
    rw [BitVec.toNat_setWidth, Nat.mod_eq_of_lt hv]
    exact v.isLt
  rw [narrow_ok this]
  congr 1
  exact widen_narrow hv

theorem fin16_cases {P : Fin 16 → Prop} (h0 : P 0) (h1 : P 1) (h2 : P 2) (h3 : P 3) (h4 : P 4) (h5 : P 5) (h6 : P 6) (h7 : P 7)
    (h8 : P 8) (h9 : P 9) (h10 : P 10) (h11 : P 11) (h12 : P 12) (h13 : P 13) (h14 : P 14) (h15 : P 15) (i : Fin 16) : P i := by
  have : i ∈ List.finRange 16 := List.mem_finRange i
  rw [show List.finRange 16 = [0, 1, 2, 3, 4, 5, 6, 7, 8, 9, 10, 11, 12, 13, 14, 15] from rfl] at this
  simp only [List.mem_cons, List.not_mem_nil, or_false] at this
  rcases this with e | e | e | e | e | e | e | e | e | e | e | e | e | e | e | e <;> subst e <;> assumption

/-- **C85** Reading gives the general registers in GDB's order, and the instruction pointer, the flags, the selectors, the
vector registers and the state of the floating point unit as they were saved.  The numbers of `ds`, `es` and `fs` are 0. -/
theorem c85_read_partial (s : SaveArea) (h : s.Fits) : ∃ r, readRegisters s = .ok r ∧
    (List.finRange 16).map r.regs = s.gprs ∧ r.rip = s.rip ∧ r.eflags.toNat = s.rflags.toNat ∧ r.cs.toNat = s.cs.toNat ∧
    r.ss.toNat = s.ss.toNat ∧ r.gs.toNat = s.gs.toNat ∧ r.ds = 0 ∧ r.es = 0 ∧ r.fs = 0 ∧ r.xmm = s.fx.xmm ∧ r.mxcsr = s.fx.mxcsr ∧
    r.fctrl.toNat = s.fx.fcw.toNat ∧ r.fstat.toNat = s.fx.fsw.toNat ∧ r.ftag.toNat = s.fx.ftw.toNat ∧
    r.fiseg.toNat = s.fx.fcs.toNat ∧ r.fioff = s.fx.fip ∧ r.foseg.toNat = s.fx.fds.toNat ∧ r.fooff = s.fx.fdp ∧
    r.fop.toNat = s.fx.fop.toNat := by
  obtain ⟨h1, h2, h3, h4⟩ := h
  have n32 : ∀ {v : BitVec 64}, v.toNat < 2 ^ 32 → (v.setWidth 32).toNat = v.toNat := fun hv => by
    rw [BitVec.toNat_setWidth, Nat.mod_eq_of_lt hv]
  have w : ∀ {n : Nat} (v : BitVec n), n ≤ 32 → (v.setWidth 32).toNat = v.toNat := fun v hn => by
    rw [BitVec.toNat_setWidth, Nat.mod_eq_of_lt (Nat.lt_of_lt_of_le v.isLt (Nat.pow_le_pow_right (by decide) hn))]
  unfold readRegisters
  rw [narrow_ok h1, narrow_ok h2, narrow_ok h3, narrow_ok h4]
  exact ⟨_, rfl, rfl, rfl, n32 h1, n32 h2, n32 h3, n32 h4, rfl, rfl, rfl, rfl, rfl, w _ (by decide), w _ (by decide),
    w _ (by decide), w _ (by decide), rfl, w _ (by decide), rfl, w _ (by decide)⟩

/-- **C85** Reading crashes the kernel exactly if one of the four values does not fit. -/
theorem c85_read_panics (s : SaveArea) : readRegisters s = .panic ↔ ¬ s.Fits := by
  constructor
  · intro hp hf
    obtain ⟨r, hr, _⟩ := c85_read_partial s hf
    rw [hp] at hr
    cases hr
  · intro hn
    unfold readRegisters
    by_cases h1 : s.rflags.toNat < 2 ^ 32
    · by_cases h2 : s.cs.toNat < 2 ^ 32
      · by_cases h3 : s.ss.toNat < 2 ^ 32
        · by_cases h4 : s.gs.toNat < 2 ^ 32
          · exact absurd ⟨h1, h2, h3, h4⟩ hn
          · rw [narrow_ok h1, narrow_ok h2, narrow_ok h3, narrow_panic h4]
        · rw [narrow_ok h1, narrow_ok h2, narrow_panic h3]
      · rw [narrow_ok h1, narrow_panic h2]
    · rw [narrow_panic h1]

/-- **C85** What is written is what the kernel goes on with: general registers, instruction pointer, flags, vector
registers, and the state of the floating point unit; nothing else of the save area changes.  Not so the
selectors and `gs`, which have no effect, and the floating point registers themselves, which are not written. -/
theorem c85_write_partial (s : SaveArea) (r : CoreRegs) (h : r.Fits) : ∃ s', writeRegisters s r = .ok s' ∧
    (resumeWith s').regs = r.regs ∧ (resumeWith s').rip = r.rip ∧ (resumeWith s').rflags.toNat = r.eflags.toNat ∧
    (resumeWith s').fs.toNat = r.fs.toNat ∧ (resumeWith s').fx.xmm = r.xmm ∧ (resumeWith s').fx.mxcsr = r.mxcsr ∧
    (resumeWith s').fx.fcw.toNat = r.fctrl.toNat ∧ (resumeWith s').fx.fsw.toNat = r.fstat.toNat ∧
    (resumeWith s').fx.ftw.toNat = r.ftag.toNat ∧ (resumeWith s').fx.fcs.toNat = r.fiseg.toNat ∧
    (resumeWith s').fx.fip = r.fioff ∧ (resumeWith s').fx.fds.toNat = r.foseg.toNat ∧ (resumeWith s').fx.fdp = r.fooff ∧
    (resumeWith s').fx.fop.toNat = r.fop.toNat ∧ (resumeWith s').fx.st = s.fx.st ∧
    s'.enabledBps = s.enabledBps ∧ s'.vector = s.vector ∧ s'.exception = s.exception ∧ s'.fx.mxcsrMask = s.fx.mxcsrMask := by
  obtain ⟨h1, h2, h3, h4, h5, h6⟩ := h
  have n : ∀ {m : Nat} {v : BitVec 32}, v.toNat < 2 ^ m → (v.setWidth m).toNat = v.toNat := fun hv => by
    rw [BitVec.toNat_setWidth, Nat.mod_eq_of_lt hv]
  have w : ∀ (v : BitVec 32), (v.setWidth 64).toNat = v.toNat := fun v => by
    rw [BitVec.toNat_setWidth, Nat.mod_eq_of_lt (Nat.lt_of_lt_of_le v.isLt (by decide))]
  unfold writeRegisters
  rw [narrow_ok h1, narrow_ok h2, narrow_ok h3, narrow_ok h4, narrow_ok h5, narrow_ok h6]
  refine ⟨_, rfl, ?_, rfl, w _, w _, rfl, rfl, n h1, n h2, n h3, n h4, rfl, n h5, rfl, n h6, rfl, rfl, rfl, rfl, rfl⟩
  funext i
  revert i
  apply fin16_cases <;> rfl

/-- **C85** Values of the floating point unit that do not fit crash the kernel. -/
theorem c85_write_panics (s : SaveArea) (r : CoreRegs) : writeRegisters s r = .panic ↔ ¬ r.Fits := by
  constructor
  · intro hp hf
    obtain ⟨s', hr, _⟩ := c85_write_partial s r hf
    rw [hp] at hr
    cases hr
  · intro hn
    unfold writeRegisters
    by_cases h1 : r.fctrl.toNat < 2 ^ 16
    · by_cases h2 : r.fstat.toNat < 2 ^ 16
      · by_cases h3 : r.ftag.toNat < 2 ^ 8
        · by_cases h4 : r.fiseg.toNat < 2 ^ 16
          · by_cases h5 : r.foseg.toNat < 2 ^ 16
            · by_cases h6 : r.fop.toNat < 2 ^ 16
              · exact absurd ⟨h1, h2, h3, h4, h5, h6⟩ hn
              · rw [narrow_ok h1, narrow_ok h2, narrow_ok h3, narrow_ok h4, narrow_ok h5, narrow_panic h6]
            · rw [narrow_ok h1, narrow_ok h2, narrow_ok h3, narrow_ok h4, narrow_panic h5]
          · rw [narrow_ok h1, narrow_ok h2, narrow_ok h3, narrow_panic h4]
        · rw [narrow_ok h1, narrow_ok h2, narrow_panic h3]
      · rw [narrow_ok h1, narrow_panic h2]
    · rw [narrow_panic h1]

/-- **C85** GDB writes all registers to change one, because access to single registers is off.  Writing back what was
read leaves everything as it was but `fs`, which becomes 0: the kernel goes on without its thread-local variables. -/
theorem c85_write_back (s : SaveArea) (h : s.Fits) :
    ∃ r, readRegisters s = .ok r ∧ writeRegisters s r = .ok { s with fs := 0 } := by
  obtain ⟨h1, h2, h3, h4⟩ := h
  unfold readRegisters
  rw [narrow_ok h1, narrow_ok h2, narrow_ok h3, narrow_ok h4]
  refine ⟨_, rfl, ?_⟩
  unfold writeRegisters
  dsimp only
  rw [narrow_widen (by decide), narrow_widen (by decide), narrow_widen (by decide), narrow_widen (by decide),
    narrow_widen (by decide), narrow_widen (by decide)]
  dsimp only
  rw [widen_narrow h1, widen_narrow h2, widen_narrow h3, widen_narrow h4]
  rfl

/-- **C85** Changing one general register in the debugger: the kernel goes on with the new value in it, all other general
registers, the instruction pointer and the flags as they were, and `fs` lost. -/
theorem c85_change_one (s : SaveArea) (h : s.Fits) (i : Fin 16) (v : BitVec 64) :
    ∃ r s', readRegisters s = .ok r ∧ writeRegisters s { r with regs := upd r.regs i v } = .ok s' ∧
      (resumeWith s').regs = upd (resumeWith s).regs i v ∧ (resumeWith s').rip = s.rip ∧ (resumeWith s').rflags = s.rflags ∧
      (resumeWith s').fx = s.fx ∧ (resumeWith s').fs = 0 := by
  obtain ⟨r, hr, hg, h1, h2, _, _, _, _, _, h6, h7, h8, h9, h10, h11, h12, h13, h14, h15, h16⟩ := c85_read_partial s h
  have hf : CoreRegs.Fits { r with regs := upd r.regs i v } := by
    refine ⟨?_, ?_, ?_, ?_, ?_, ?_⟩
    · show r.fctrl.toNat < _; rw [h9]; exact s.fx.fcw.isLt
    · show r.fstat.toNat < _; rw [h10]; exact s.fx.fsw.isLt
    · show r.ftag.toNat < _; rw [h11]; exact s.fx.ftw.isLt
    · show r.fiseg.toNat < _; rw [h12]; exact s.fx.fcs.isLt
    · show r.foseg.toNat < _; rw [h14]; exact s.fx.fds.isLt
    · show r.fop.toNat < _; rw [h16]; exact s.fx.fop.isLt
  obtain ⟨s', hw, e1, e2, e3, e4, e5, e6, e7, e8, e9, e10, e11, e12, e13, e14, e15, _, _, _, e19⟩ := c85_write_partial s _ hf
  have hregs : r.regs = (resumeWith s).regs := by
    have : readRegisters s = .ok r := hr
    unfold readRegisters at this
    obtain ⟨f1, f2, f3, f4⟩ := h
    rw [narrow_ok f1, narrow_ok f2, narrow_ok f3, narrow_ok f4] at this
    cases this
    rfl
  refine ⟨r, s', hr, hw, by rw [e1, ← hregs], e2.trans h1, BitVec.eq_of_toNat_eq (e3.trans h2), ?_, ?_⟩
  · show s'.fx = s.fx
    have q : ∀ a b : FxSave, a.fcw = b.fcw → a.fsw = b.fsw → a.ftw = b.ftw → a.fop = b.fop → a.fip = b.fip → a.fcs = b.fcs →
        a.fdp = b.fdp → a.fds = b.fds → a.mxcsr = b.mxcsr → a.mxcsrMask = b.mxcsrMask → a.st = b.st → a.xmm = b.xmm → a = b := by
      intro a b
      cases a; cases b
      simp only [FxSave.mk.injEq]
      intros
      exact ⟨by assumption, by assumption, by assumption, by assumption, by assumption, by assumption, by assumption,
        by assumption, by assumption, by assumption, by assumption, by assumption⟩
    exact q _ _ (BitVec.eq_of_toNat_eq (e7.trans h9)) (BitVec.eq_of_toNat_eq (e8.trans h10))
      (BitVec.eq_of_toNat_eq (e9.trans h11)) (BitVec.eq_of_toNat_eq (e14.trans h16)) (e11.trans h13)
      (BitVec.eq_of_toNat_eq (e10.trans h12)) (e13.trans h15) (BitVec.eq_of_toNat_eq (e12.trans h14)) (e6.trans h8) e19 e15
      (e5.trans h7)
  · apply BitVec.eq_of_toNat_eq
    rw [e4]
    show r.fs.toNat = _
    rw [h6]
    rfl

/-- **C85** Two floating point registers whose saved words agree from bit 48 up look the same in the debugger: of the 64
bits of the mantissa the lower 48 are never shown. -/
theorem c85_st_ignores (f f' : FxSave) (i : Fin 8) (h : f.st i >>> 48 = f'.st i >>> 48) : f.stBytes i = f'.stBytes i := by
  unfold FxSave.stBytes
  apply List.map_congr_left
  intro k hk
  have hk : k < 10 := List.mem_range.1 hk
  have e : 8 * (15 - k) = 48 + (8 * (15 - k) - 48) := by omega
  rw [e, BitVec.shiftRight_add, BitVec.shiftRight_add, h]

/-! ## Witnesses -/

def fxZero : FxSave := ⟨0x37f, 0, 0, 0, 0, 0, 0, 0, 0x1f80, 0xffff, fun _ => 0, fun _ => 0⟩

/-- A stopped kernel: thread-local variables at `0x4000_0010_0000`, and 1.0 in the first floating point register. -/
def sample85 : SaveArea :=
  ⟨1, 2, 3, 4, 5, 6, 7, 0x400000201000, 8, 9, 10, 11, 12, 13, 14, 15, 0x400000001234, 0x202, 0, 0x400000100000, 1, 0, 8, 16, 0,
    { fxZero with st := fun i => if i = 0 then 0x3fff8000000000000000 else 0 }⟩

theorem sample85_fits : sample85.Fits := by
  unfold SaveArea.Fits
  decide

/-- **C85** Witness: the register holds 1.0 and the debugger shows 0, in another byte order. -/
theorem c85_st_wrong :
    sample85.fx.stBytes 0 = [0, 0, 0, 0, 0, 0, 0x3f, 0xff, 0x80, 0] ∧
    stValue (sample85.fx.st 0) = [0, 0, 0, 0, 0, 0, 0, 0x80, 0xff, 0x3f] := by
  decide

/-- **C85** Witness: `rax` changed to 99; the place of the thread-local variables is lost. -/
theorem c85_fs_lost : ∃ r s', readRegisters sample85 = .ok r ∧
    writeRegisters sample85 { r with regs := upd r.regs 0 99 } = .ok s' ∧ s'.rax = 99 ∧ s'.rbx = 2 ∧
    sample85.fs = 0x400000100000 ∧ (resumeWith s').fs = 0 := by
  refine ⟨_, _, rfl, rfl, rfl, rfl, rfl, rfl⟩

end NRK.Gdb
