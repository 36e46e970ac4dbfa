import Verif.Rump.FileProps
import Verif.Fs.FioModel

/-! # C98: concrete cases -/

namespace NRK.Rump

open NRK.Fs NRK.Rump.Spec

/-- The process of the rump kernel has just been added. -/
def fstart : Node := fioStart 4 1

theorem fstart_reachable : Reachable 4 fstart := ⟨[(.addProcess 1, .good)], rfl⟩

theorem fstart_ready : Ready 1 fstart := by
  refine ⟨by simp [fstart, fioStart, Node.call, Node.submitMut, Modify.logs, Node.dispatchMut, Node.processAdd, Node.init, Env.good, Node.setTable], ?_, ?_⟩
  · intro fd e he
    simp [fstart, fioStart, Node.call, Node.submitMut, Modify.logs, Node.dispatchMut, Node.processAdd, Node.init, Env.good,
      Node.setTable, Node.fd?, FdTable.default] at he
  · intro name h
    simp only [fstart, fioStart, Node.call, Node.submitMut, Modify.logs, Node.dispatchMut, Node.processAdd, Node.init, Env.good,
      Node.setTable, MlnrFS.init] at h
    simp only [Bool.false_eq_true, if_false, upd_apply] at h
    split at h
    · assumption
    · cases h

/-- Create a file, write to it twice, read it, ask for its size, close it, and try to read again. -/
def fsample : List FileCall :=
  [.open (some "a") 6, .write 0 [[1, 2, 3]] (-1), .write 0 [[9]] 1, .read 0 [[7, 7, 7, 7, 7]] 0, .write 0 [[4]] (-1),
   .info (some "a"), .close 0, .read 0 [[7]] 0, .open (some "b") 2, .open none 0, .close (-5)]

theorem fsample_plain : ∀ c ∈ fsample, Plain c := by
  intro c hc
  simp only [fsample, List.mem_cons, List.not_mem_nil, or_false] at hc
  rcases hc with rfl | rfl | rfl | rfl | rfl | rfl | rfl | rfl | rfl | rfl | rfl
  · exact ⟨by decide, by decide, by decide⟩
  · exact ⟨⟨_, rfl, by decide⟩, by decide⟩
  · exact ⟨⟨_, rfl, by decide⟩, by decide⟩
  · exact ⟨⟨_, rfl, by decide⟩, by decide⟩
  · exact ⟨⟨_, rfl, by decide⟩, by decide⟩
  · show some "a" ≠ some "/"; decide
  · trivial
  · exact ⟨⟨_, rfl, by decide⟩, by decide⟩
  · exact ⟨by decide, by decide, by decide⟩
  · exact ⟨by decide, by decide, by decide⟩
  · trivial

theorem fsample_answers : (fileCalls 4 1 fstart fsample).map (·.1) =
    some [⟨0, some 0, none, []⟩, ⟨0, some 3, none, [[1, 2, 3]]⟩, ⟨0, some 1, none, [[9]]⟩,
      ⟨0, some 3, none, [[1, 9, 3, 7, 7]]⟩, ⟨0, some 1, none, [[4]]⟩, ⟨0, none, some (2, 4), []⟩, ⟨0, none, none, []⟩,
      ⟨22, none, none, [[7]]⟩, ⟨22, none, none, []⟩, ⟨22, none, none, []⟩, ⟨9, none, none, []⟩] := by
  decide +kernel

/-- Finding.  A file that is open only to write is read. -/
theorem c98_write_only_read : (fileCalls 4 1 fstart [.open (some "a") 5, .write 0 [[1, 2]] 0, .read 0 [[7, 7]] 0]).map (·.1) =
    some [⟨0, some 0, none, []⟩, ⟨0, some 2, none, [[1, 2]]⟩, ⟨0, some 2, none, [[1, 2]]⟩] := by
  decide +kernel

/-- Finding.  A file that must not exist is opened although it does. -/
theorem c98_excl_opened : (fileCalls 4 1 fstart [.open (some "a") 6, .open (some "a") 14]).map (·.1) =
    some [⟨0, some 0, none, []⟩, ⟨0, some 1, none, []⟩] := by
  decide +kernel

/-- Finding.  The root directory: a question about it, or a read from it, ends in a panic of the kernel. -/
theorem c98_root_panics : fileCalls 4 1 fstart [.info (some "/")] = none ∧
    (fileCalls 4 1 fstart [.open (some "/") 0, .read 0 [[7]] 0]).isNone = true := by
  constructor
  · have : (fileCalls 4 1 fstart [.info (some "/")]).isNone = true := by decide +kernel
    exact Option.isNone_iff_eq_none.1 this
  · decide +kernel

end NRK.Rump
