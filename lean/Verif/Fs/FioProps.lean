import Verif.Fs.FioSteps

/-!
# C83: the file system calls behave like the reference of the user-level test
-/

namespace NRK.Fs

open NRK.Sys (SysError)

theorem FioSim.start (nlogs pid : Nat) : FioSim pid (fioStart nlogs pid) ModelFIO.init FdTable.default := by
  refine ⟨Tracks.init, ?_, by simp [fioStart, Node.call, Node.submitMut, Modify.logs, Node.dispatchMut, Node.processAdd,
    Node.init, Node.setTable, MlnrFS.init, Env.good], ?_, fun fd => trivial⟩
  · intro mn x hx
    have hx' : MlnrFS.init.mnodes mn = some x := hx
    simp only [MlnrFS.init, upd_apply] at hx'
    split at hx'
    · rename_i e; subst e; cases hx'; rfl
    · cases hx'
  · simp [fioStart, Node.call, Node.submitMut, Modify.logs, Node.dispatchMut, Node.processAdd, Node.init, Node.setTable,
      Env.good]

theorem FioSim.step {pid nlogs : Nat} {n : Node} {m : ModelFIO} {t : FdTable} (h : FioSim pid n m t) (hn : 0 < nlogs)
    (a : FioAction) (ha : TameCall pid n a) : StepOk pid (fioSys nlogs pid n a) (fioRef m a) := by
  cases a with
  | read fd dst =>
    simp only [fioSys, fioRef]
    by_cases h0 : dst.length = 0
    · rw [if_pos h0]
      unfold ModelFIO.readAt
      rw [if_pos h0]
      exact ⟨rfl, t, h⟩
    · rw [if_neg h0]
      exact h.readStep hn fd dst h0 none (fun _ e he => ha e (by rw [h.fd?, he]))
  | readAt fd dst off =>
    simp only [fioSys, fioRef]
    by_cases h0 : dst.length = 0
    · rw [if_pos h0]
      unfold ModelFIO.readAt
      rw [if_pos h0]
      exact ⟨rfl, t, h⟩
    · rw [if_neg h0]
      exact h.readStep hn fd dst h0 (some off) (fun hc => by cases hc)
  | write fd pat len =>
    simp only [fioSys, fioRef]
    by_cases h0 : len = 0
    · rw [if_pos h0]
      subst h0
      exact ⟨rfl, t, h⟩
    · rw [if_neg h0]
      exact h.writeStep hn fd pat len h0 none (fun _ e he => ha e (by rw [h.fd?, he]))
  | writeAt fd pat len off =>
    simp only [fioSys, fioRef]
    by_cases h0 : len = 0
    · rw [if_pos h0]
      subst h0
      exact ⟨rfl, t, h⟩
    · rw [if_neg h0]
      exact h.writeStep hn fd pat len h0 (some off) (fun hc => by cases hc)
  | «open» name flags modes =>
    obtain ⟨h1, h2, fd, h3⟩ := ha
    exact h.openStep name flags modes h1 h2 ⟨fd, by rw [← h.fd?, h3]⟩
  | delete name => exact h.deleteStep name ha
  | close fd => exact h.closeStep fd

/-- **C83** For every sequence of file system calls of a process, of any length, that stays within `Tame`, the program
sees call by call what the reference predicts: the same descriptors, counts, bytes and error numbers. -/
theorem c83_same_results_partial (nlogs pid : Nat) (hn : 0 < nlogs) (as : List FioAction)
    (ht : Tame nlogs pid (fioStart nlogs pid) as) :
    fioSysRun nlogs pid (fioStart nlogs pid) as = fioRefRun ModelFIO.init as := by
  have key : ∀ as n m t, FioSim pid n m t → Tame nlogs pid n as → fioSysRun nlogs pid n as = fioRefRun m as := by
    intro as
    induction as with
    | nil => intro n m t _ _; rfl
    | cons a as ih =>
      intro n m t h ht
      obtain ⟨h1, t', h2⟩ := h.step hn a ht.1
      rw [fioSysRun, fioRefRun, h1, ih _ _ t' h2 ht.2]
  exact key as _ _ _ (FioSim.start nlogs pid) ht

/-- **C83** In such a sequence no call crashes the kernel. -/
theorem c83_no_panic (nlogs pid : Nat) (hn : 0 < nlogs) (as : List FioAction)
    (ht : Tame nlogs pid (fioStart nlogs pid) as) : .panic ∉ fioSysRun nlogs pid (fioStart nlogs pid) as := by
  rw [c83_same_results_partial nlogs pid hn as ht]
  have hr : ∀ (m : ModelFIO) a, (fioRef m a).1 ≠ .panic := by
    intro m a
    have rd : ∀ fd dst off, (m.readAt fd dst off).1 ≠ .panic := by
      intro fd dst off
      unfold ModelFIO.readAt
      split
      · simp
      · split
        · simp
        · dsimp only
          split
          · simp
          · split
            · split
              · simp
              · split
                · simp
                · simp
            · simp
    have wr : ∀ fd d off, (m.writeAt fd d off).1 ≠ .panic := by
      intro fd d off
      unfold ModelFIO.writeAt
      split
      · simp
      · split
        · simp
        · split
          · simp
          · split
            · dsimp only
              split <;> simp
            · simp
    cases a with
    | read fd dst => exact rd _ _ _
    | readAt fd dst off => exact rd _ _ _
    | write fd pat len => exact wr _ _ _
    | writeAt fd pat len off => exact wr _ _ _
    | «open» name flags modes =>
      show (m.open name flags modes).1 ≠ _
      unfold ModelFIO.open
      split
      · simp
      · split
        · split
          · simp
          · split
            · simp
            · split
              · split <;> simp
              · simp
        · split
          · simp
          · dsimp only
            split <;> simp
    | delete name =>
      show (m.delete name).1 ≠ _
      unfold ModelFIO.delete
      split <;> simp
    | close fd =>
      show (m.close fd).1 ≠ _
      unfold ModelFIO.close
      split <;> simp
  clear ht
  generalize ModelFIO.init = m
  induction as generalizing m with
  | nil => simp [fioRefRun]
  | cons a as ih =>
    rw [fioRefRun, List.mem_cons]
    rintro (h | h)
    · exact hr m a h.symm
    · exact ih _ h

/-! ## A sequence that meets the hypothesis -/

/-- `TameCall` as a test, with one descriptor that is to be free. -/
def tameCallB (pid : Nat) (free : Fd) (n : Node) : FioAction → Bool
  | .open name flags _ => decide (name ≠ "/") && !(flags.append && flags.truncate) && (n.fd? pid free).isNone
  | .delete name => decide (name ≠ "/")
  | .read fd _ => (n.fd? pid fd).all fun e => !e.flags.append || !e.flags.read
  | .write fd _ _ => (n.fd? pid fd).all fun e => !e.flags.append || (n.fs.mnodes e.mnode).isSome
  | _ => true

def tameB (nlogs pid : Nat) (free : Fd) : Node → List FioAction → Bool
  | _, [] => true
  | n, a :: as => tameCallB pid free n a && tameB nlogs pid free (fioSys nlogs pid n a).2 as

theorem tame_of_tameB (nlogs pid : Nat) (free : Fd) : ∀ (as : List FioAction) (n : Node),
    tameB nlogs pid free n as = true → Tame nlogs pid n as := by
  intro as
  induction as with
  | nil => intro n _; trivial
  | cons a as ih =>
    intro n h
    rw [tameB, Bool.and_eq_true] at h
    refine ⟨?_, ih _ h.2⟩
    have h1 := h.1
    cases a with
    | read fd dst =>
      intro e he ha
      simp [tameCallB, he, ha] at h1; exact h1
    | write fd pat len =>
      intro e he ha
      simp [tameCallB, he, ha] at h1
      rw [Option.isSome_iff_exists] at h1
      obtain ⟨x, hx⟩ := h1
      rw [hx]; simp
    | readAt => trivial
    | writeAt => trivial
    | «open» name flags modes =>
      simp [tameCallB] at h1
      exact ⟨h1.1.1, fun hc => by simp [hc.1, hc.2] at h1, free, h1.2⟩
    | delete name => simpa [tameCallB, TameCall] using h1
    | close => trivial

/-- Read, write and create. -/
def rwc : Flags := ⟨true, true, true, false, false⟩
/-- Write, create and append. -/
def wca : Flags := ⟨false, true, true, false, true⟩

/-- Descriptors of the examples. -/
def fdN (i : Nat) (h : i < 4096) : Fd := ⟨i, by rw [MAX_FILES_eq]; exact h⟩
def d0 : Fd := fdN 0 (by decide)
def d1 : Fd := fdN 1 (by decide)
def d9 : Fd := fdN 9 (by decide)

/-- Two descriptors for one file, one of them appending; a gap; truncation; deletion of an open file. -/
def sample83 : List FioAction :=
  [.open "a" rwc ⟨true, true, true⟩, .write d0 7 3, .write d0 8 2, .readAt d0 [1, 1, 1, 1] 2,
   .open "a" wca ⟨true, true, true⟩, .write d1 9 1, .read d1 [0], .writeAt d0 4 1 8, .readAt d0 [1, 1, 1, 1, 1, 1] 4,
   .close d1, .close d1, .open "a" ⟨true, true, false, true, false⟩ ⟨true, true, true⟩, .readAt d0 [6] 0, .write d0 5 1,
   .readAt d1 [1, 1, 1, 1, 1, 1] 0, .delete "a", .read d0 [0], .write d0 1 1, .delete "a",
   .open "a" ⟨true, true, false, false, false⟩ ⟨true, true, true⟩, .write d0 1 0]

theorem sample83_tame : Tame 4 1 (fioStart 4 1) sample83 := by
  apply tame_of_tameB 4 1 d9
  decide +kernel

theorem sample83_results : fioSysRun 4 1 (fioStart 4 1) sample83 =
    [.num 0, .num 3, .num 2, .data 3 [7, 8, 8, 1], .num 1, .num 1, .err .internalError, .num 1,
     .data 5 [8, 9, 0, 0, 4, 1], .done, .err .internalError, .num 1, .data 0 [6], .num 1,
     .data 6 [0, 0, 0, 0, 0, 5], .done, .err .internalError, .err .internalError, .err .internalError,
     .err .internalError, .err .badFileDescriptor] := by
  decide +kernel

/-! ## Outside `Tame` the reference is not met -/

/-- **C83** Witness: opening for appending and truncating at once is accepted; the reference refuses it. -/
theorem c83_append_truncate :
    let as : List FioAction := [.open "a" ⟨true, true, true, true, true⟩ ⟨true, true, true⟩]
    fioSysRun 4 1 (fioStart 4 1) as = [.num 0] ∧ fioRefRun ModelFIO.init as = [.err .internalError] := by
  decide +kernel

/-- **C83** Witness: a descriptor opened for appending reads from the start of the file; in the reference it reads
from the end. -/
theorem c83_append_read :
    let as : List FioAction := [.open "a" rwc ⟨true, true, true⟩, .write d0 7 2,
      .open "a" ⟨true, true, false, false, true⟩ ⟨true, true, true⟩, .read d1 [0, 0]]
    fioSysRun 4 1 (fioStart 4 1) as = [.num 0, .num 2, .num 1, .data 2 [7, 7]] ∧
    fioRefRun ModelFIO.init as = [.num 0, .num 2, .num 1, .data 0 [0, 0]] := by
  decide +kernel

/-- **C83** Witness: appending to a deleted file crashes the kernel; the reference reports an error. -/
theorem c83_append_deleted :
    let as : List FioAction := [.open "a" wca ⟨true, true, true⟩, .delete "a", .write d0 7 2]
    fioSysRun 4 1 (fioStart 4 1) as = [.num 0, .done, .panic] ∧
    fioRefRun ModelFIO.init as = [.num 0, .done, .err .internalError] := by
  decide +kernel

/-- **C83** Witness: reading the root directory crashes the kernel; the reference reports an error. -/
theorem c83_root :
    let as : List FioAction := [.open "/" rwc ⟨true, true, true⟩, .read d0 [0]]
    fioSysRun 4 1 (fioStart 4 1) as = [.num 0, .panic] ∧
    fioRefRun ModelFIO.init as = [.num 0, .err .internalError] := by
  decide +kernel

/-- **C83** With all 4096 descriptors in use both refuse to create a file, but the reference has created it: after a
descriptor is closed it opens the file without the create flag, and the system does not. -/
theorem c83_full_table (nlogs pid : Nat) (n : Node) (m : ModelFIO) (t : FdTable) (h : FioSim pid n m t)
    (hfull : ∀ fd, t fd ≠ none) (name : String) (flags : Flags) (modes : Modes) (hc : flags.create = true)
    (hat : (flags.append && flags.truncate) = false) (hnew : n.fs.files name = none) :
    (fioSys nlogs pid n (.open name flags modes)).1 = .err .internalError ∧
    (fioRef m (.open name flags modes)).1 = .err .internalError ∧
    (fioSys nlogs pid n (.open name flags modes)).2.fs.files name = none ∧
    (fioRef m (.open name flags modes)).2.log.lookup name = some (m.log.counter + 1) := by
  have hpos : t.position = none := by
    cases hp : t.position with
    | none => rfl
    | some i => exact absurd ((t.position_spec).1 i hp).1 (hfull i)
  have hsys : n.call nlogs (.open pid name flags modes) .good = (.err .notSupported, n) := by
    rw [call_open_eq, Node.fileOpen_cases]
    simp only [MlnrFS.lookup, hnew, hc, h.table, hpos, Bool.not_true, Bool.and_false, Bool.false_eq_true, if_false]
  have href : m.open name flags modes = (.err .internalError,
      { m with log := ⟨m.log.oplog ++ [.created name modes (m.log.counter + 1)], m.log.counter + 1⟩ }) := by
    unfold ModelFIO.open ModelFS.lookup FdTable.allocate
    rw [h.tracks.path, hnew, hat, h.position, hpos]
    simp [hc]
  simp only [fioSys, fioRef, hsys, href]
  refine ⟨by first | rfl | trivial, by first | rfl | trivial, hnew, ?_⟩
  show ((m.log.oplog ++ [_]).reverse).findSome? _ = _
  rw [List.reverse_append, List.reverse_singleton, List.singleton_append, List.findSome?_cons]
  simp [RefOp.namedMnode]

/-- **C83** The flags of the project's test are numbers below `0xfff` (`usr/init/src/fs.rs` line 586): it never opens a
file for appending, so it sees none of the differences about appending. -/
theorem c83_test_never_appends (n : Nat) (h : n < 0xfff) : (Flags.ofBits n).append = false := by
  show n.testBit 13 = false
  exact Nat.testBit_lt_two_pow (by omega)

end NRK.Fs
