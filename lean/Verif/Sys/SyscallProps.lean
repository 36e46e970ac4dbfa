import Verif.Sys.SyscallModel

/-!
# C55: system calls

`Means` says what the functions of a user program ask for; it mentions neither numbers nor registers.
-/

namespace NRK.Sys

open NRK.Proc (UserSlice)

/-! ## Specification -/

/-- A buffer of user memory: not in the first page, below the kernel, at most 2 GiB. -/
def Buffer (p len : W) : Prop :=
  4096 ≤ p.toNat ∧ p.toNat + len.toNat < 0x400000000000 ∧ len.toNat ≤ 2147483647

/-- The call `c` of a program of process `pid` asks for `q`.  Descriptors are below 4096, offsets are not
negative, buffers of reads and writes are not empty.  An offset of `-1` for `write_at` means the offset
of the descriptor. -/
inductive Means (pid : Nat) : UserCall → Req → Prop
  | open {p l f m} (hb : Buffer p l) : Means pid (.open p l f m)
      (.open ⟨pid, p.toNat, l.toNat⟩ (.ofBits f.toNat) (.ofBits m.toNat))
  | close {fd : W} {n : Fs.Fd} (hn : fd.toNat = n.val) : Means pid (.close fd) (.close n)
  | read {fd p l : W} {n : Fs.Fd} (hn : fd.toNat = n.val) (hb : Buffer p l) (h0 : l ≠ 0) :
      Means pid (.read fd p l) (.read n ⟨pid, p.toNat, l.toNat⟩)
  | write {fd p l : W} {n : Fs.Fd} (hn : fd.toNat = n.val) (hb : Buffer p l) (h0 : l ≠ 0) :
      Means pid (.write fd p l) (.write n ⟨pid, p.toNat, l.toNat⟩)
  | readAt {fd p l o : W} {n : Fs.Fd} (hn : fd.toNat = n.val) (hb : Buffer p l) (h0 : l ≠ 0)
      (ho : 0 ≤ o.toInt) :
      Means pid (.readAt fd p l o) (.readAt n ⟨pid, p.toNat, l.toNat⟩ o.toNat)
  | writeAt {fd p l o : W} {n : Fs.Fd} (hn : fd.toNat = n.val) (hb : Buffer p l) (h0 : l ≠ 0)
      (ho : 0 ≤ o.toInt) :
      Means pid (.writeAt fd p l o) (.writeAt n ⟨pid, p.toNat, l.toNat⟩ o.toNat)
  | append {fd p l o : W} {n : Fs.Fd} (hn : fd.toNat = n.val) (hb : Buffer p l) (h0 : l ≠ 0)
      (ho : o.toInt = -1) :
      Means pid (.writeAt fd p l o) (.write n ⟨pid, p.toNat, l.toNat⟩)
  | getinfo {p l} (hb : Buffer p l) : Means pid (.getinfo p l) (.getInfo ⟨pid, p.toNat, l.toNat⟩)
  | delete {p l} (hb : Buffer p l) : Means pid (.delete p l) (.delete ⟨pid, p.toNat, l.toNat⟩)
  | rename {p l p' l'} (hb : Buffer p l) (hb' : Buffer p' l') : Means pid (.rename p l p' l')
      (.fileRename ⟨pid, p.toNat, l.toNat⟩ ⟨pid, p'.toNat, l'.toNat⟩)
  | mkdir {p l m} (hb : Buffer p l) : Means pid (.mkdir p l m)
      (.mkdir ⟨pid, p.toNat, l.toNat⟩ (.ofBits m.toNat))
  | irqalloc {v c} : Means pid (.irqalloc v c) (.allocateVector v c)
  | map {b n} : Means pid (.map b n) (.mapMem b n)
  | unmap {b n} : Means pid (.unmap b n) (.unmapMem b)
  | mapPmem {b n} : Means pid (.mapPmem b n) (.mapPMem b n)
  | unmapPmem {b n} : Means pid (.unmapPmem b n) (.unmapPMem b)
  | mapDevice {b n} : Means pid (.mapDevice b n) (.mapDevice b n)
  | mapFrame {f b} : Means pid (.mapFrame f b) (.mapFrameId b f)
  | identify {b} : Means pid (.identify b) (.identify b)
  | allocateBasePage {a} : Means pid .allocateBasePage (.allocatePhysical 4096 a)
  | allocateLargePage {a} : Means pid .allocateLargePage (.allocatePhysical 2097152 a)
  | releaseFrame {i} : Means pid (.releaseFrame i) (.releasePhysical i)
  | requestCore {c e} : Means pid (.requestCore c e) (.requestCore c e)
  | releaseCore {c} : Means pid (.releaseCore c) (.releaseCore c)
  | print {p l} (hb : Buffer p l) : Means pid (.print p l) (.log ⟨pid, p.toNat, l.toNat⟩)
  | vcpuControlArea : Means pid .vcpuControlArea .getVCpuArea
  | processInfo {p l} : Means pid (.processInfo p l) (.getProcessInfo p l)
  | exit {c} : Means pid (.exit c) (.exit c)
  | threads {p l} : Means pid (.threads p l) (.getHardwareThreads p l)
  | stats : Means pid .stats .getStats
  | coreId : Means pid .coreId .getCoreId

/-- What the program gets when the handler returns `a` and `b`. -/
def Returns : UserCall → W → W → List W → Prop
  | .open .., a, _, l | .read .., a, _, l | .write .., a, _, l | .readAt .., a, _, l
  | .writeAt .., a, _, l | .requestCore .., a, _, l | .vcpuControlArea, a, _, l
  | .processInfo .., a, _, l | .threads .., a, _, l | .coreId, a, _, l => l = [a]
  | .getinfo .., a, b, l | .allocateBasePage, a, b, l | .allocateLargePage, a, b, l => l = [a, b]
  | .map base _, a, _, l | .unmap base _, a, _, l | .mapPmem base _, a, _, l
  | .unmapPmem base _, a, _, l | .mapDevice base _, a, _, l | .mapFrame _ base, a, _, l
  | .identify base, a, _, l => l = [base, a]
  | .close .., _, _, l | .delete .., _, _, l | .rename .., _, _, l | .mkdir .., _, _, l
  | .irqalloc .., _, _, l | .releaseFrame .., _, _, l | .releaseCore .., _, _, l | .print .., _, _, l
  | .exit .., _, _, l | .stats, _, _, l => l = []

/-- What the user library takes for granted about the results of handlers. -/
def Agreed : UserCall → W → W → Prop
  | .delete .., a, _ => a = 0
  | .irqalloc v c, a, b => a = v ∧ b = c
  | .map _ n, _, b | .unmap _ n, _, b | .mapPmem _ n, _, b | .unmapPmem _ n, _, b
  | .mapDevice _ n, _, b => b = n
  | .identify _, _, b => b = 0
  | .allocateBasePage, _, b | .allocateLargePage, _, b => 0 < b.toNat
  | .vcpuControlArea, a, _ => a.toNat % 4096 = 0
  | .processInfo _ n, a, _ | .threads _ n, a, _ => a.toNat ≤ n.toNat
  | .exit .., _, _ => False
  | _, _, _ => True

/-! ## Numbers -/

/-- C55: the numbers of system calls and operations: a number is accepted exactly if it is the number of
an operation, and decoded as this operation. -/
theorem c55_numbers (n : W) :
    (∀ c, SystemCall.new n = some c ↔ n = c.num) ∧ (∀ c, ProcessOp.new n = some c ↔ n = c.num) ∧
    (∀ c, VSpaceOp.new n = some c ↔ n = c.num) ∧ (∀ c, FileOp.new n = some c ↔ n = c.num) ∧
    (∀ c, SystemOp.new n = some c ↔ n = c.num) := by
  refine ⟨?_, ?_, ?_, ?_, ?_⟩ <;> intro c
  · constructor
    · intro h; unfold SystemCall.new at h; repeat' split at h
      all_goals first | (injection h with h; subst h; assumption) | cases h
    · rintro rfl; cases c <;> decide
  · constructor
    · intro h; unfold ProcessOp.new at h; repeat' split at h
      all_goals first | (injection h with h; subst h; assumption) | cases h
    · rintro rfl; cases c <;> decide
  · constructor
    · intro h; unfold VSpaceOp.new at h; repeat' split at h
      all_goals first | (injection h with h; subst h; assumption) | cases h
    · rintro rfl; cases c <;> decide
  · constructor
    · intro h; unfold FileOp.new at h; repeat' split at h
      all_goals first | (injection h with h; subst h; assumption) | cases h
    · rintro rfl; cases c <;> decide
  · constructor
    · intro h; unfold SystemOp.new at h; repeat' split at h
      all_goals first | (injection h with h; subst h; assumption) | cases h
    · rintro rfl; cases c <;> decide

/-- C55: every other number is refused with an error, and nothing happens. -/
theorem c55_unknown {S : Type} (h : Handlers S) (cur : Option Nat) (s : S) (f a1 a2 a3 a4 a5 : W)
    (hf : (∀ c : SystemCall, f ≠ c.num) ∨
      (f = SystemCall.process.num ∧ (∀ c : ProcessOp, a1 ≠ c.num)) ∨
      (f = SystemCall.vspace.num ∧ (∀ c : VSpaceOp, a1 ≠ c.num)) ∨
      (f = SystemCall.fileIO.num ∧ (∀ c : FileOp, a1 ≠ c.num)) ∨
      (f = SystemCall.system.num ∧ (∀ c : SystemOp, a1 ≠ c.num))) :
    ∃ e, handle h cur s f a1 a2 a3 a4 a5 = (s, .err e) := by
  rcases hf with hf | ⟨rfl, ha⟩ | ⟨rfl, ha⟩ | ⟨rfl, ha⟩ | ⟨rfl, ha⟩
  · have : SystemCall.new f = none := by
      cases e : SystemCall.new f with
      | none => rfl
      | some c => exact absurd (((c55_numbers f).1 c).1 e) (hf c)
    exact ⟨_, by simp only [handle, this]; rfl⟩
  · have : ProcessOp.new a1 = none := by
      cases e : ProcessOp.new a1 with
      | none => rfl
      | some c => exact absurd (((c55_numbers a1).2.1 c).1 e) (ha c)
    exact ⟨.invalidProcessOperation a1.toNat, by
      rw [handle, ((c55_numbers _).1 _).2 rfl]; simp only [process, this, call]⟩
  · have : VSpaceOp.new a1 = none := by
      cases e : VSpaceOp.new a1 with
      | none => rfl
      | some c => exact absurd (((c55_numbers a1).2.2.1 c).1 e) (ha c)
    exact ⟨.invalidVSpaceOperation a1.toNat, by
      rw [handle, ((c55_numbers _).1 _).2 rfl]; simp only [vspace, this, call]⟩
  · have : FileOp.new a1 = none := by
      cases e : FileOp.new a1 with
      | none => rfl
      | some c => exact absurd (((c55_numbers a1).2.2.2.1 c).1 e) (ha c)
    exact ⟨.invalidFileOperation a1.toNat, by
      rw [handle, ((c55_numbers _).1 _).2 rfl]; simp only [fileio, this, call]⟩
  · have : SystemOp.new a1 = none := by
      cases e : SystemOp.new a1 with
      | none => rfl
      | some c => exact absurd (((c55_numbers a1).2.2.2.2 c).1 e) (ha c)
    exact ⟨.invalidSystemOperation a1.toNat, by
      rw [handle, ((c55_numbers _).1 _).2 rfl]; simp only [system, this, call]⟩

/-! ## The path through the registers -/

/-- The registers that a system call leaves alone. -/
structure Kept (r r' : Regs) : Prop where
  rbx : r'.rbx = r.rbx
  rdx : r'.rdx = r.rdx
  rbp : r'.rbp = r.rbp
  rsp : r'.rsp = r.rsp
  r8 : r'.r8 = r.r8
  r9 : r'.r9 = r.r9
  r10 : r'.r10 = r.r10
  r12 : r'.r12 = r.r12
  r13 : r'.r13 = r.r13
  r14 : r'.r14 = r.r14
  r15 : r'.r15 = r.r15
  fs : r'.fs = r.fs

theorem syscall_eq {S : Type} (h : Handlers S) (cur : Option Nat) (area : SaveArea) (next : W) (s : S)
    (r : Regs) : syscall h cur area next s r =
      ((handle h cur s r.rdi r.rsi r.rdx r.r10 r.r8 r.r9).1,
        (setResult ((r.trap next).save area) (handle h cur s r.rdi r.rsi r.rdx r.r10 r.r8 r.r9).2).map
          (restore · userFlags)) := rfl

theorem ofKError_ne (e : KError) : SysError.ofKError e ≠ .ok := by
  unfold SysError.ofKError; split <;> nofun

theorem SysError.num_ne {e : SysError} (h : e ≠ .ok) : e.num ≠ 0 := by
  cases e <;> first | exact absurd rfl h | decide

theorem ofKError_num_ne (e : KError) : (SysError.ofKError e).num ≠ 0 :=
  SysError.num_ne (ofKError_ne e)

/-- C55: the kernel is entered with the registers of the program as arguments; the program resumes after
its `syscall` with the result in `rax`, `rdi` and `rsi`, and with its other registers. -/
theorem c55_registers {S : Type} (h : Handlers S) (cur : Option Nat) (area : SaveArea) (next : W)
    (s s' : S) (r : Regs) (out : Outcome (W × W))
    (hh : handle h cur s r.rdi r.rsi r.rdx r.r10 r.r8 r.r9 = (s', out)) :
    (∀ a b, out = .ok (a, b) → ∃ r', syscall h cur area next s r = (s', some r') ∧ Kept r r' ∧
      r'.rip = next ∧ r'.rax = 0 ∧ r'.rdi = a ∧ r'.rsi = b) ∧
    (∀ e, out = .err e → ∃ r', syscall h cur area next s r = (s', some r') ∧ Kept r r' ∧
      r'.rip = next ∧ r'.rax = (SysError.ofKError e).num ∧ r'.rax ≠ 0 ∧ r'.rdi = r.rdi ∧
      r'.rsi = r.rsi) ∧
    (out = .panic → syscall h cur area next s r = (s', none)) := by
  rw [syscall_eq, hh]
  refine ⟨?_, ?_, ?_⟩
  · rintro a b rfl
    exact ⟨_, rfl, ⟨rfl, rfl, rfl, rfl, rfl, rfl, rfl, rfl, rfl, rfl, rfl, rfl⟩, rfl, rfl, rfl, rfl⟩
  · rintro e rfl
    refine ⟨_, rfl, ⟨rfl, rfl, rfl, rfl, rfl, rfl, rfl, rfl, rfl, rfl, rfl, rfl⟩, rfl, rfl, ?_, rfl, rfl⟩
    exact ofKError_num_ne e
  · rintro rfl; rfl

/-! ## Arguments -/

theorem forCurrentProc_ok {pid : Nat} {p l : W} (h : Buffer p l) :
    UserSlice.forCurrentProc (some pid) p l = .ok ⟨pid, p.toNat, l.toNat⟩ := by
  obtain ⟨h1, h2, h3⟩ := h
  have hk : NRK.Proc.KERNEL_BASE = 0x400000000000 := rfl
  have hm : NRK.Proc.MAX_USER_LEN = 2147483647 := rfl
  have hu : NRK.Proc.uvaddr p.toNat = .ok p.toNat := by
    rw [NRK.Proc.uvaddr, if_pos (by omega)]
  simp only [UserSlice.forCurrentProc, hu, Outcome.bind, UserSlice.new, NRK.Proc.checkedAdd]
  rw [if_neg (by omega), if_pos (show p.toNat + l.toNat < 2 ^ 64 by omega)]
  simp only
  rw [if_pos ⟨h1, by omega⟩]

theorem forCurrentProc_err {pid : Nat} {p l : W} (h : ¬ Buffer p l) :
    ∃ e, UserSlice.forCurrentProc (some pid) p l = .err e := by
  have hk : NRK.Proc.KERNEL_BASE = 0x400000000000 := rfl
  have hm : NRK.Proc.MAX_USER_LEN = 2147483647 := rfl
  simp only [UserSlice.forCurrentProc, NRK.Proc.uvaddr]
  split
  · simp only [Outcome.bind, UserSlice.new, NRK.Proc.checkedAdd]
    split
    · exact ⟨_, rfl⟩
    · split
      · split
        · rename_i e he hc
          split at he
          · injection he with he
            subst he
            exact absurd ⟨hc.1, by omega, by omega⟩ h
          · cases he
        · exact ⟨_, rfl⟩
      · exact ⟨_, rfl⟩
  · exact ⟨_, rfl⟩

theorem tryFrom_ok {fd : W} {n : Fs.Fd} (h : fd.toNat = n.val) : Fs.Fd.tryFrom fd.toNat = .ok n := by
  rw [Fs.Fd.tryFrom, dif_pos (by rw [h]; exact n.isLt)]
  congr 1
  exact Fin.ext h

theorem tryFrom_cases (fd : W) :
    (∃ n : Fs.Fd, fd.toNat = n.val ∧ Fs.Fd.tryFrom fd.toNat = .ok n) ∨
    ((∀ n : Fs.Fd, fd.toNat ≠ n.val) ∧ ∃ e, Fs.Fd.tryFrom fd.toNat = .err e) := by
  by_cases h : fd.toNat < Fs.MAX_FILES
  · exact .inl ⟨⟨_, h⟩, rfl, by rw [Fs.Fd.tryFrom, dif_pos h]⟩
  · exact .inr ⟨fun n e => h (e ▸ n.isLt), _, by rw [Fs.Fd.tryFrom, dif_neg h]⟩

theorem buffer_cases (pid : Nat) (p l : W) :
    (Buffer p l ∧ UserSlice.forCurrentProc (some pid) p l = .ok ⟨pid, p.toNat, l.toNat⟩) ∨
    (¬ Buffer p l ∧ ∃ e, UserSlice.forCurrentProc (some pid) p l = .err e) := by
  by_cases h : Buffer p l
  · exact .inl ⟨h, forCurrentProc_ok h⟩
  · exact .inr ⟨h, forCurrentProc_err h⟩

theorem tryI64_cases (o : W) :
    (0 ≤ o.toInt ∧ tryI64 o = .ok o.toNat) ∨ (o.toInt < 0 ∧ ∃ e, tryI64 o = .err e) := by
  by_cases h : o.toNat < 2 ^ 63
  · refine .inl ⟨?_, by rw [tryI64, if_pos h]⟩
    rw [BitVec.toInt_eq_toNat_cond]; rw [if_pos (by omega)]; omega
  · refine .inr ⟨?_, _, by rw [tryI64, if_neg h]⟩
    have := o.isLt
    rw [BitVec.toInt_eq_toNat_cond]; rw [if_neg (by omega)]; omega

theorem neg_one_iff (o : W) : o = -1 ↔ o.toInt = -1 := by
  constructor
  · rintro rfl; decide
  · intro h; exact BitVec.eq_of_toInt_eq (by rw [h]; decide)

/-- The call of the dispatch made by the stub of a function. -/
def Stub.call {S : Type} (h : Handlers S) (cur : Option Nat) (s : S) (r : Regs) : S × Outcome (W × W) :=
  handle h cur s r.rdi r.rsi r.rdx r.r10 r.r8 r.r9

/-- Either the program's call means something, and the handler is called with it, or it means nothing, and
the dispatch returns an error. -/
theorem deliver {S : Type} (h : Handlers S) (pid : Nat) (s : S) (r : Regs) (c : UserCall) :
    (∃ q l, Means pid c q ∧ c.args = .ok l ∧ Stub.call h (some pid) s (r.load l) = h q s) ∨
    ((∀ q, ¬ Means pid c q) ∧ ((∃ e, c.args = .error e ∧ e ≠ .ok) ∨
      ∃ e l, c.args = .ok l ∧ Stub.call h (some pid) s (r.load l) = (s, .err e))) := by
  cases c with
  | «open» p l f m =>
    rcases buffer_cases pid p l with ⟨hb, e⟩ | ⟨hb, x, e⟩
    · exact .inl ⟨_, _, .open hb, rfl, by
        show Sys.call h s ((UserSlice.forCurrentProc (some pid) p l).map _) = _; rw [e]; rfl⟩
    · refine .inr ⟨fun q hq => by cases hq; exact hb ‹_›, .inr ⟨x, _, rfl, ?_⟩⟩
      show Sys.call h s ((UserSlice.forCurrentProc (some pid) p l).map _) = _; rw [e]; rfl
  | close fd =>
    rcases tryFrom_cases fd with ⟨n, hn, e⟩ | ⟨hn, x, e⟩
    · exact .inl ⟨_, _, .close hn, rfl, by
        show Sys.call h s ((Fs.Fd.tryFrom fd.toNat).map _) = _; rw [e]; rfl⟩
    · refine .inr ⟨fun q hq => by cases hq; exact hn _ ‹_›, .inr ⟨x, _, rfl, ?_⟩⟩
      show Sys.call h s ((Fs.Fd.tryFrom fd.toNat).map _) = _; rw [e]; rfl
  | read fd p l =>
    by_cases h0 : l = 0
    · exact .inr ⟨fun q hq => by cases hq; exact absurd h0 ‹_›,
        .inl ⟨_, by rw [UserCall.args, fileioArgs, if_pos h0], by decide⟩⟩
    have ha : UserCall.args (.read fd p l) = .ok [SystemCall.fileIO.num, FileOp.read.num, fd, p, l] := by
      rw [UserCall.args, fileioArgs, if_neg h0]
    have hs : Stub.call h (some pid) s (r.load [SystemCall.fileIO.num, FileOp.read.num, fd, p, l]) =
        Sys.call h s ((Fs.Fd.tryFrom fd.toNat).bind fun n =>
          (UserSlice.forCurrentProc (some pid) p l).map fun b => .read n b) := rfl
    rcases tryFrom_cases fd with ⟨n, hn, e⟩ | ⟨hn, x, e⟩
    · rcases buffer_cases pid p l with ⟨hb, e'⟩ | ⟨hb, x, e'⟩
      · exact .inl ⟨_, _, .read hn hb h0, ha, by rw [hs, e, Outcome.bind, e']; rfl⟩
      · exact .inr ⟨fun q hq => by cases hq; exact hb ‹_›,
          .inr ⟨x, _, ha, by rw [hs, e, Outcome.bind, e']; rfl⟩⟩
    · exact .inr ⟨fun q hq => by cases hq; exact hn _ ‹_›, .inr ⟨x, _, ha, by rw [hs, e]; rfl⟩⟩
  | write fd p l =>
    by_cases h0 : l = 0
    · exact .inr ⟨fun q hq => by cases hq; exact absurd h0 ‹_›,
        .inl ⟨_, by rw [UserCall.args, fileioArgs, if_pos h0], by decide⟩⟩
    have ha : UserCall.args (.write fd p l) = .ok [SystemCall.fileIO.num, FileOp.write.num, fd, p, l] := by
      rw [UserCall.args, fileioArgs, if_neg h0]
    have hs : Stub.call h (some pid) s (r.load [SystemCall.fileIO.num, FileOp.write.num, fd, p, l]) =
        Sys.call h s ((Fs.Fd.tryFrom fd.toNat).bind fun n =>
          (UserSlice.forCurrentProc (some pid) p l).map fun b => .write n b) := rfl
    rcases tryFrom_cases fd with ⟨n, hn, e⟩ | ⟨hn, x, e⟩
    · rcases buffer_cases pid p l with ⟨hb, e'⟩ | ⟨hb, x, e'⟩
      · exact .inl ⟨_, _, .write hn hb h0, ha, by rw [hs, e, Outcome.bind, e']; rfl⟩
      · exact .inr ⟨fun q hq => by cases hq; exact hb ‹_›,
          .inr ⟨x, _, ha, by rw [hs, e, Outcome.bind, e']; rfl⟩⟩
    · exact .inr ⟨fun q hq => by cases hq; exact hn _ ‹_›, .inr ⟨x, _, ha, by rw [hs, e]; rfl⟩⟩
  | readAt fd p l o =>
    by_cases h0 : l = 0
    · exact .inr ⟨fun q hq => by cases hq <;> exact absurd h0 ‹_›,
        .inl ⟨.badFileDescriptor, by simp only [UserCall.args, fileioAtArgs, if_pos h0], by decide⟩⟩
    by_cases h1 : o = -1
    · have h2 := (neg_one_iff o).1 h1
      exact .inr ⟨fun q hq => by cases hq; omega,
        .inl ⟨.offsetError, by simp only [UserCall.args, fileioAtArgs, if_neg h0, if_pos h1], by decide⟩⟩
    have h2 : o.toInt ≠ -1 := fun h => h1 ((neg_one_iff o).2 h)
    have ha : UserCall.args (.readAt fd p l o) =
        .ok [SystemCall.fileIO.num, FileOp.readAt.num, fd, p, l, o] := by
      simp only [UserCall.args, fileioAtArgs, if_neg h0, if_neg h1]
    have hs : Stub.call h (some pid) s (r.load [SystemCall.fileIO.num, FileOp.readAt.num, fd, p, l, o]) =
        Sys.call h s ((Fs.Fd.tryFrom fd.toNat).bind fun n =>
          (UserSlice.forCurrentProc (some pid) p l).bind fun b => (tryI64 o).map fun i =>
            .readAt n b i) := rfl
    rcases tryFrom_cases fd with ⟨n, hn, e⟩ | ⟨hn, x, e⟩
    · rcases buffer_cases pid p l with ⟨hb, e'⟩ | ⟨hb, x, e'⟩
      · rcases tryI64_cases o with ⟨ho, e''⟩ | ⟨ho, x, e''⟩
        · exact .inl ⟨_, _, .readAt hn hb h0 ho, ha, by
            rw [hs, e, Outcome.bind, e', Outcome.bind, e'']; rfl⟩
        · exact .inr ⟨fun q hq => by cases hq <;> omega,
            .inr ⟨x, _, ha, by rw [hs, e, Outcome.bind, e', Outcome.bind, e'']; rfl⟩⟩
      · exact .inr ⟨fun q hq => by cases hq <;> exact hb ‹_›,
          .inr ⟨x, _, ha, by rw [hs, e, Outcome.bind, e']; rfl⟩⟩
    · exact .inr ⟨fun q hq => by cases hq <;> exact hn _ ‹_›, .inr ⟨x, _, ha, by rw [hs, e]; rfl⟩⟩
  | writeAt fd p l o =>
    by_cases h0 : l = 0
    · exact .inr ⟨fun q hq => by cases hq <;> exact absurd h0 ‹_›,
        .inl ⟨.badFileDescriptor, by simp only [UserCall.args, fileioAtArgs, if_pos h0], by decide⟩⟩
    by_cases h1 : o = -1
    · have h2 := (neg_one_iff o).1 h1
      have ha : UserCall.args (.writeAt fd p l o) =
          .ok [SystemCall.fileIO.num, FileOp.write.num, fd, p, l] := by
        rw [UserCall.args, fileioAtArgs, if_neg h0, if_pos h1]; exact if_neg h0
      have hs : Stub.call h (some pid) s (r.load [SystemCall.fileIO.num, FileOp.write.num, fd, p, l]) =
          Sys.call h s ((Fs.Fd.tryFrom fd.toNat).bind fun n =>
            (UserSlice.forCurrentProc (some pid) p l).map fun b => .write n b) := rfl
      rcases tryFrom_cases fd with ⟨n, hn, e⟩ | ⟨hn, x, e⟩
      · rcases buffer_cases pid p l with ⟨hb, e'⟩ | ⟨hb, x, e'⟩
        · exact .inl ⟨_, _, .append hn hb h0 h2, ha, by rw [hs, e, Outcome.bind, e']; rfl⟩
        · exact .inr ⟨fun q hq => by cases hq <;> exact hb ‹_›,
            .inr ⟨x, _, ha, by rw [hs, e, Outcome.bind, e']; rfl⟩⟩
      · exact .inr ⟨fun q hq => by cases hq <;> exact hn _ ‹_›, .inr ⟨x, _, ha, by rw [hs, e]; rfl⟩⟩
    have h2 : o.toInt ≠ -1 := fun h => h1 ((neg_one_iff o).2 h)
    have ha : UserCall.args (.writeAt fd p l o) =
        .ok [SystemCall.fileIO.num, FileOp.writeAt.num, fd, p, l, o] := by
      simp only [UserCall.args, fileioAtArgs, if_neg h0, if_neg h1]
    have hs : Stub.call h (some pid) s (r.load [SystemCall.fileIO.num, FileOp.writeAt.num, fd, p, l, o]) =
        Sys.call h s ((Fs.Fd.tryFrom fd.toNat).bind fun n =>
          (UserSlice.forCurrentProc (some pid) p l).bind fun b => (tryI64 o).map fun i =>
            .writeAt n b i) := rfl
    rcases tryFrom_cases fd with ⟨n, hn, e⟩ | ⟨hn, x, e⟩
    · rcases buffer_cases pid p l with ⟨hb, e'⟩ | ⟨hb, x, e'⟩
      · rcases tryI64_cases o with ⟨ho, e''⟩ | ⟨ho, x, e''⟩
        · exact .inl ⟨_, _, .writeAt hn hb h0 ho, ha, by
            rw [hs, e, Outcome.bind, e', Outcome.bind, e'']; rfl⟩
        · exact .inr ⟨fun q hq => by cases hq <;> omega,
            .inr ⟨x, _, ha, by rw [hs, e, Outcome.bind, e', Outcome.bind, e'']; rfl⟩⟩
      · exact .inr ⟨fun q hq => by cases hq <;> exact hb ‹_›,
          .inr ⟨x, _, ha, by rw [hs, e, Outcome.bind, e']; rfl⟩⟩
    · exact .inr ⟨fun q hq => by cases hq <;> exact hn _ ‹_›, .inr ⟨x, _, ha, by rw [hs, e]; rfl⟩⟩
  | getinfo p l =>
    rcases buffer_cases pid p l with ⟨hb, e⟩ | ⟨hb, x, e⟩
    · exact .inl ⟨_, _, .getinfo hb, rfl, by
        show Sys.call h s ((UserSlice.forCurrentProc (some pid) p l).map _) = _; rw [e]; rfl⟩
    · refine .inr ⟨fun q hq => by cases hq; exact hb ‹_›, .inr ⟨x, _, rfl, ?_⟩⟩
      show Sys.call h s ((UserSlice.forCurrentProc (some pid) p l).map _) = _; rw [e]; rfl
  | delete p l =>
    rcases buffer_cases pid p l with ⟨hb, e⟩ | ⟨hb, x, e⟩
    · exact .inl ⟨_, _, .delete hb, rfl, by
        show Sys.call h s ((UserSlice.forCurrentProc (some pid) p l).map _) = _; rw [e]; rfl⟩
    · refine .inr ⟨fun q hq => by cases hq; exact hb ‹_›, .inr ⟨x, _, rfl, ?_⟩⟩
      show Sys.call h s ((UserSlice.forCurrentProc (some pid) p l).map _) = _; rw [e]; rfl
  | rename p l p' l' =>
    have hs : Stub.call h (some pid) s
        (r.load [SystemCall.fileIO.num, FileOp.fileRename.num, p, l, p', l']) =
        Sys.call h s ((UserSlice.forCurrentProc (some pid) p l).bind fun b =>
          (UserSlice.forCurrentProc (some pid) p' l').map fun b' => .fileRename b b') := rfl
    rcases buffer_cases pid p l with ⟨hb, e⟩ | ⟨hb, x, e⟩
    · rcases buffer_cases pid p' l' with ⟨hb', e'⟩ | ⟨hb', x, e'⟩
      · exact .inl ⟨_, _, .rename hb hb', rfl, by rw [hs, e, Outcome.bind, e']; rfl⟩
      · exact .inr ⟨fun q hq => by cases hq; exact hb' ‹_›,
          .inr ⟨x, _, rfl, by rw [hs, e, Outcome.bind, e']; rfl⟩⟩
    · exact .inr ⟨fun q hq => by cases hq; exact hb ‹_›, .inr ⟨x, _, rfl, by rw [hs, e]; rfl⟩⟩
  | mkdir p l m =>
    rcases buffer_cases pid p l with ⟨hb, e⟩ | ⟨hb, x, e⟩
    · exact .inl ⟨_, _, .mkdir hb, rfl, by
        show Sys.call h s ((UserSlice.forCurrentProc (some pid) p l).map _) = _; rw [e]; rfl⟩
    · refine .inr ⟨fun q hq => by cases hq; exact hb ‹_›, .inr ⟨x, _, rfl, ?_⟩⟩
      show Sys.call h s ((UserSlice.forCurrentProc (some pid) p l).map _) = _; rw [e]; rfl
  | irqalloc _ _ => exact .inl ⟨_, _, .irqalloc, rfl, rfl⟩
  | map _ _ => exact .inl ⟨_, _, .map, rfl, rfl⟩
  | unmap _ _ => exact .inl ⟨_, _, .unmap, rfl, rfl⟩
  | mapPmem _ _ => exact .inl ⟨_, _, .mapPmem, rfl, rfl⟩
  | unmapPmem _ _ => exact .inl ⟨_, _, .unmapPmem, rfl, rfl⟩
  | mapDevice _ _ => exact .inl ⟨_, _, .mapDevice, rfl, rfl⟩
  | mapFrame _ _ => exact .inl ⟨_, _, .mapFrame, rfl, rfl⟩
  | identify _ => exact .inl ⟨_, _, .identify, rfl, rfl⟩
  | allocateBasePage => exact .inl ⟨_, _, .allocateBasePage, rfl, rfl⟩
  | allocateLargePage => exact .inl ⟨_, _, .allocateLargePage, rfl, rfl⟩
  | releaseFrame _ => exact .inl ⟨_, _, .releaseFrame, rfl, rfl⟩
  | requestCore _ _ => exact .inl ⟨_, _, .requestCore, rfl, rfl⟩
  | releaseCore _ => exact .inl ⟨_, _, .releaseCore, rfl, rfl⟩
  | print p l =>
    rcases buffer_cases pid p l with ⟨hb, e⟩ | ⟨hb, x, e⟩
    · exact .inl ⟨_, _, .print hb, rfl, by
        show Sys.call h s ((UserSlice.forCurrentProc (some pid) p l).map _) = _; rw [e]; rfl⟩
    · refine .inr ⟨fun q hq => by cases hq; exact hb ‹_›, .inr ⟨x, _, rfl, ?_⟩⟩
      show Sys.call h s ((UserSlice.forCurrentProc (some pid) p l).map _) = _; rw [e]; rfl
  | vcpuControlArea => exact .inl ⟨_, _, .vcpuControlArea, rfl, rfl⟩
  | processInfo _ _ => exact .inl ⟨_, _, .processInfo, rfl, rfl⟩
  | exit _ => exact .inl ⟨_, _, .exit, rfl, rfl⟩
  | threads _ _ => exact .inl ⟨_, _, .threads, rfl, rfl⟩
  | stats => exact .inl ⟨_, _, .stats, rfl, rfl⟩
  | coreId => exact .inl ⟨_, _, .coreId, rfl, rfl⟩

theorem SysError.ofNum_num {e : SysError} (h : e ≠ .ok) : SysError.ofNum e.num = e := by
  cases e <;> first | exact absurd rfl h | decide

theorem result_ok {c : UserCall} {a b : W} (h : Agreed c a b) :
    ∃ l, Returns c a b l ∧ c.result 0 a b = .ok l := by
  cases c
  case delete => exact ⟨_, rfl, if_pos ⟨rfl, h⟩⟩
  case irqalloc => exact ⟨_, rfl, (if_pos h.1.symm).trans (if_pos h.2.symm)⟩
  case map | unmap | mapPmem | unmapPmem | mapDevice => exact ⟨_, rfl, if_pos (Eq.symm h)⟩
  case identify => exact ⟨_, rfl, if_pos (Eq.symm h)⟩
  case allocateBasePage | allocateLargePage | vcpuControlArea | processInfo | threads =>
    exact ⟨_, rfl, if_pos h⟩
  case exit => exact h.elim
  all_goals exact ⟨_, rfl, rfl⟩

theorem result_err {c : UserCall} {e : KError} (r1 r2 : W) (hi : ∀ v n, c ≠ .irqalloc v n)
    (he : ∀ n, c ≠ .exit n) : c.result (SysError.ofKError e).num r1 r2 = .err (.ofKError e) := by
  have h1 := ofKError_num_ne e
  have h2 := SysError.ofNum_num (ofKError_ne e)
  cases c <;>
    simp only [UserCall.result, vspaceRes, h1, h2, if_false, false_and]
  · exact absurd rfl (hi _ _)
  · exact absurd rfl (he _)

/-! ## C55: what the program asks for is what is done -/

/-- C55: a call that means something is carried out: the handler runs exactly once with the arguments of
the program, and the program gets its results. -/
theorem c55_delivered {S : Type} (h : Handlers S) (pid : Nat) (area : SaveArea) (next : W) (s : S)
    (r : Regs) (c : UserCall) (hm : ∃ q, Means pid c q) :
    ∃ q, Means pid c q ∧
      (∀ s' a b, h q s = (s', .ok (a, b)) → Agreed c a b →
        ∃ l, Returns c a b l ∧ c.run h (some pid) area next s r = (s', some (.ok l))) ∧
      (∀ s' e, h q s = (s', .err e) → (∀ v n, c ≠ .irqalloc v n) → (∀ n, c ≠ .exit n) →
        c.run h (some pid) area next s r = (s', some (.err (.ofKError e))) ∧ SysError.ofKError e ≠ .ok) ∧
      (∀ s', h q s = (s', .panic) → c.run h (some pid) area next s r = (s', none)) := by
  rcases deliver h pid s r c with ⟨q, l, hq, hl, hc⟩ | ⟨hn, _⟩
  · refine ⟨q, hq, ?_, ?_, ?_⟩
    · intro s' a b hh ha
      rw [Stub.call, hh] at hc
      obtain ⟨r', e1, _, _, e2, e3, e4⟩ := (c55_registers h (some pid) area next s s' _ _ hc).1 a b rfl
      obtain ⟨v, hv, ev⟩ := result_ok ha
      refine ⟨v, hv, ?_⟩
      simp only [UserCall.run, hl, e1, Option.map_some, e2, e3, e4, ev]
    · intro s' e hh h1 h2
      rw [Stub.call, hh] at hc
      obtain ⟨r', e1, _, _, e2, _, _⟩ := (c55_registers h (some pid) area next s s' _ _ hc).2.1 e rfl
      refine ⟨?_, ofKError_ne e⟩
      simp only [UserCall.run, hl, e1, Option.map_some, e2, result_err _ _ h1 h2]
    · intro s' hh
      rw [Stub.call, hh] at hc
      have e1 := (c55_registers h (some pid) area next s s' _ _ hc).2.2 rfl
      simp only [UserCall.run, hl, e1, Option.map_none]
  · obtain ⟨q, hq⟩ := hm
    exact absurd hq (hn q)

/-- C55: a call that means nothing -- a bad buffer, descriptor or offset -- gives the program an error,
and no handler runs. -/
theorem c55_rejected {S : Type} (h : Handlers S) (pid : Nat) (area : SaveArea) (next : W) (s : S)
    (r : Regs) (c : UserCall) (hm : ∀ q, ¬ Means pid c q) :
    ∃ e, e ≠ .ok ∧ c.run h (some pid) area next s r = (s, some (.err e)) := by
  rcases deliver h pid s r c with ⟨q, l, hq, hl, hc⟩ | ⟨_, ⟨e, he, h0⟩ | ⟨e, l, hl, hc⟩⟩
  · exact absurd hq (hm q)
  · exact ⟨e, h0, by simp only [UserCall.run, he]⟩
  · obtain ⟨r', e1, _, _, e2, _, _⟩ := (c55_registers h (some pid) area next s s _ _ hc).2.1 e rfl
    refine ⟨_, ofKError_ne e, ?_⟩
    simp only [UserCall.run, hl, e1, Option.map_some, e2]
    rw [result_err]
    · rintro v n rfl; exact hm _ .irqalloc
    · rintro n rfl; exact hm _ .exit

/-- A call has at most one meaning, up to the unused affinity of an allocation. -/
theorem c55_means_one {pid : Nat} {c : UserCall} {q q' : Req} (h : Means pid c q) (h' : Means pid c q')
    (ha : c ≠ .allocateBasePage ∧ c ≠ .allocateLargePage) : q = q' := by
  cases h <;> cases h' <;> first
    | rfl
    | exact absurd rfl ha.1
    | exact absurd rfl ha.2
    | omega
    | (congr 1; apply Fin.ext; omega)

/-! ## Concrete cases -/

/-- Registers that hold 0. -/
def Regs.zero : Regs := ⟨0, 0, 0, 0, 0, 0, 0, 0, 0, 0, 0, 0, 0, 0, 0, 0, 0, 0, 0⟩

/-- Handlers that record their call and return 7 and 4096. -/
def recorder : Handlers (List Req) := fun q s => (q :: s, .ok (7, 4096))

/-- A read that goes through, to the handler of `read` and no other. -/
example : Means 3 (.read 5 0x10000 100) (.read ⟨5, by rw [Fs.MAX_FILES_eq]; decide⟩ ⟨3, 0x10000, 100⟩) :=
  .read rfl ⟨by decide, by decide, by decide⟩ (by decide)

example : UserCall.run (.map 0x200000 4096) recorder (some 3) (fun _ => 0) 0x401000 [] .zero =
    ([.mapMem 0x200000 4096], some (.ok [0x200000, 7])) := rfl

example : UserCall.run (.getinfo 0x10000 5) recorder (some 3) (fun _ => 0) 0x401000 [] .zero =
    ([.getInfo ⟨3, 0x10000, 5⟩], some (.ok [7, 4096])) := rfl

/-- A buffer in the kernel means nothing, and nothing happens. -/
example : (∀ q, ¬ Means 3 (.print 0xffff800000000000 5) q) ∧
    UserCall.run (.print 0xffff800000000000 5) recorder (some 3) (fun _ => 0) 0x401000 [] .zero =
      ([], some (.err .internalError)) := by
  refine ⟨fun q h => ?_, rfl⟩
  cases h with
  | print hb => exact absurd hb.2.1 (by decide)

/-- The numbers 6 for a system call, 11 for an operation are not assigned. -/
example : handle recorder (some 3) [] 6 1 0 0 0 0 = ([], .err (.invalidSyscallArgument1 6)) := rfl
example : handle recorder (some 3) [] 4 11 0 0 0 0 = ([], .err (.invalidFileOperation 11)) := rfl

/-! ## Findings -/

/-- Finding.  The stubs of functions with one or two results do not tell the compiler that the kernel
writes `rdi` and `rsi` (`syscalls/macros.rs`): after `print` -- whose stub declares both as inputs only --
the registers do not hold the values that the program put there. -/
theorem c55_undeclared_clobber :
    ∃ (r r' : Regs) (l : List W), UserCall.args (.print 0x10000 5) = .ok l ∧
      (syscall recorder (some 3) (fun _ => 0) 0x401000 [] (r.load l)).2 = some r' ∧
      UserCall.declaresRdi (.print 0x10000 5) = false ∧ r'.rdi ≠ (r.load l).rdi ∧
      UserCall.declaresRsi (.print 0x10000 5) = false ∧ r'.rsi ≠ (r.load l).rsi :=
  ⟨.zero, _, _, rfl, rfl, rfl, by decide, rfl, by decide⟩

/-- Finding.  Unknown file and system operations are not reported as unsupported, unlike those of the
other two kinds. -/
theorem c55_wrong_error (n : W) (hf : ∀ c : FileOp, n ≠ c.num) (hs : ∀ c : SystemOp, n ≠ c.num)
    (hp : ∀ c : ProcessOp, n ≠ c.num) (hv : ∀ c : VSpaceOp, n ≠ c.num) (a2 a3 a4 a5 : W)
    (cur : Option Nat) :
    (∃ e, fileio cur n a2 a3 a4 a5 = .err e ∧ SysError.ofKError e = .internalError) ∧
    (∃ e, system n a2 a3 = .err e ∧ SysError.ofKError e = .internalError) ∧
    (∃ e, process cur n a2 a3 = .err e ∧ SysError.ofKError e = .notSupported) ∧
    (∃ e, vspace n a2 a3 = .err e ∧ SysError.ofKError e = .notSupported) := by
  have h4 : VSpaceOp.new n = none := by
    cases e : VSpaceOp.new n with
    | none => rfl
    | some c => exact absurd (((c55_numbers n).2.2.1 c).1 e) (hv c)
  have h1 : FileOp.new n = none := by
    cases e : FileOp.new n with
    | none => rfl
    | some c => exact absurd (((c55_numbers n).2.2.2.1 c).1 e) (hf c)
  have h2 : SystemOp.new n = none := by
    cases e : SystemOp.new n with
    | none => rfl
    | some c => exact absurd (((c55_numbers n).2.2.2.2 c).1 e) (hs c)
  have h3 : ProcessOp.new n = none := by
    cases e : ProcessOp.new n with
    | none => rfl
    | some c => exact absurd (((c55_numbers n).2.1 c).1 e) (hp c)
  exact ⟨⟨.invalidFileOperation n.toNat, by simp only [fileio, h1], rfl⟩,
    ⟨.invalidSystemOperation n.toNat, by simp only [system, h2], rfl⟩,
    ⟨.invalidProcessOperation n.toNat, by simp only [process, h3], rfl⟩,
    ⟨.invalidVSpaceOperation n.toNat, by simp only [vspace, h4], rfl⟩⟩

/-- C55: the test system call multiplies its arguments, if there is no overflow and they are in ascending
order; otherwise it is refused. -/
theorem c55_test (a b c d : W) :
    test 0 a b c d = .ok (1, 2) ∧
    (a.toNat + 1 < 2 ^ 64 → test 1 a b c d = .ok (a, a + 1)) ∧
    (¬ a.toNat < b.toNat → test 2 a b c d = .err .invalidSyscallTestArg2) ∧
    (a.toNat < b.toNat → a.toNat * b.toNat + 1 < 2 ^ 64 →
      ∃ x y, test 2 a b c d = .ok (x, y) ∧ x.toNat = a.toNat * b.toNat ∧ y.toNat = x.toNat + 1) ∧
    (¬ (a.toNat < b.toNat ∧ b.toNat < c.toNat) → test 3 a b c d = .err .invalidSyscallTestArg3) ∧
    (a.toNat < b.toNat ∧ b.toNat < c.toNat → a.toNat * b.toNat * c.toNat + 1 < 2 ^ 64 →
      ∃ x y, test 3 a b c d = .ok (x, y) ∧ x.toNat = a.toNat * b.toNat * c.toNat ∧
        y.toNat = x.toNat + 1) := by
  have mulOk : ∀ x y : W, x.toNat * y.toNat < 2 ^ 64 →
      mulW x y = .ok (x * y) ∧ (x * y).toNat = x.toNat * y.toNat := by
    intro x y h
    refine ⟨if_pos h, ?_⟩
    rw [BitVec.toNat_mul, Nat.mod_eq_of_lt h]
  have addOk : ∀ x : W, x.toNat + 1 < 2 ^ 64 →
      addW x 1 = .ok (x + 1) ∧ (x + 1).toNat = x.toNat + 1 := by
    intro x h
    have h1 : (1 : W).toNat = 1 := rfl
    refine ⟨if_pos (by rw [h1]; exact h), ?_⟩
    rw [BitVec.toNat_add, h1, Nat.mod_eq_of_lt h]
  refine ⟨rfl, ?_, ?_, ?_, ?_, ?_⟩
  · intro h
    show (addW a 1).map _ = _
    rw [(addOk a h).1]; rfl
  · intro h; exact if_neg h
  · intro h hm
    obtain ⟨m1, m2⟩ := mulOk a b (by omega)
    obtain ⟨p1, p2⟩ := addOk (a * b) (by rw [m2]; exact hm)
    refine ⟨a * b, a * b + 1, ?_, m2, p2⟩
    show (if a.toNat < b.toNat then _ else _) = _
    rw [if_pos h, m1]
    show (addW (a * b) 1).map _ = _
    rw [p1]; rfl
  · intro h; exact if_neg h
  · intro h hm
    have hle : a.toNat * b.toNat ≤ a.toNat * b.toNat * c.toNat := Nat.le_mul_of_pos_right _ (by omega)
    obtain ⟨m1, m2⟩ := mulOk a b (by omega)
    obtain ⟨n1, n2⟩ := mulOk (a * b) c (by rw [m2]; omega)
    obtain ⟨p1, p2⟩ := addOk (a * b * c) (by rw [n2, m2]; exact hm)
    refine ⟨a * b * c, a * b * c + 1, ?_, by rw [n2, m2], p2⟩
    show (if a.toNat < b.toNat ∧ b.toNat < c.toNat then _ else _) = _
    rw [if_pos h, m1]
    show (mulW (a * b) c).bind _ = _
    rw [n1]
    show (addW (a * b * c) 1).map _ = _
    rw [p1]; rfl

/-- Finding.  A program can stop a kernel that was built with overflow checks, by the test system
call. -/
theorem c55_test_overflow : handle recorder (some 3) [] 5 1 (-1) 0 0 0 = ([], .panic) ∧
    handle recorder (some 3) [] 5 4 (-1) (-1) 0 0 = ([], .panic) := ⟨rfl, rfl⟩

/-- Finding.  A read of no bytes from any descriptor is reported as a bad descriptor, and never reaches
the kernel. -/
theorem c55_empty_read {S : Type} (h : Handlers S) (cur : Option Nat) (area : SaveArea) (next : W)
    (s : S) (r : Regs) (fd p : W) :
    UserCall.run (.read fd p 0) h cur area next s r = (s, some (.err .badFileDescriptor)) := rfl

/-- Finding.  `unmap` does not pass its length to the kernel; if the mapping has another length the
program stops, in builds with debug assertions, after the kernel has removed the mapping. -/
theorem c55_unmap_length :
    UserCall.run (.unmap 0x200000 8192) recorder (some 3) (fun _ => 0) 0x401000 [] .zero =
      ([.unmapMem 0x200000], some .panic) := rfl

/-- Finding.  The affinity that is passed along with the allocation of a page is what happens to be in
`r10`. -/
theorem c55_affinity_unset {S : Type} (h : Handlers S) (pid : Nat) (s : S) (r : Regs) :
    ∃ l, UserCall.args .allocateBasePage = .ok l ∧
      Stub.call h (some pid) s (r.load l) = h (.allocatePhysical 4096 r.r10) s := ⟨_, rfl, rfl⟩

/-- Finding.  If the kernel refuses an interrupt vector the program does not get the error: it stops,
because it compares the result registers before it looks at the error. -/
theorem c55_irqalloc_error {S : Type} (h : Handlers S) (pid : Nat) (area : SaveArea) (next : W) (s s' : S)
    (r : Regs) (v c : W) (e : KError) (hh : h (.allocateVector v c) s = (s', .err e))
    (hv : v ≠ SystemCall.process.num) :
    UserCall.run (.irqalloc v c) h (some pid) area next s r = (s', some .panic) := by
  have hc : Stub.call h (some pid) s
      (r.load [SystemCall.process.num, ProcessOp.allocateVector.num, v, c]) = (s', .err e) := hh
  obtain ⟨r', e1, _, _, e2, _, e3, e4⟩ := (c55_registers h (some pid) area next s s' _ _ hc).2.1 e rfl
  have ha : UserCall.args (.irqalloc v c) =
    .ok [SystemCall.process.num, ProcessOp.allocateVector.num, v, c] := rfl
  simp only [UserCall.run, ha, e1, Option.map_some]
  have : v ≠ r'.rdi := by rw [e3]; exact hv
  simp only [UserCall.result, check, if_neg this]

end NRK.Sys
