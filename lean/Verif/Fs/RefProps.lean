import Verif.Fs.RefSim

/-!
# C82: the file system behaves like the project's reference model
-/

namespace NRK.Fs

open Spec (overwrite zeroExtend writeAt readAt)

theorem Tracks.step {fs : MlnrFS} {m : ModelFS} (h : Tracks fs m) (a : TestAction) :
    (fsStep fs a).1.agrees (refStep m a).1 ∧ Tracks (fsStep fs a).2 (refStep m a).2 := by
  cases a with
  | read mn dst off =>
    refine ⟨?_, h⟩
    show (TestRes.read (fs.read mn dst off)).agrees (TestRes.read (m.read mn dst off))
    rcases h.read mn dst off with ⟨he, e, he'⟩ | ⟨x, n, b, k, b', _, h1, h2, _, _, _, hk, ht, hz⟩
    · rw [← he, he']; rfl
    · rw [h1, h2]
      exact ⟨hk, ht, fun i hi hn => (hz i hi hn).1⟩
  | write mn off pat len =>
    obtain ⟨h1, h2, _⟩ := h.write mn off pat len
    refine ⟨?_, h2⟩
    show (TestRes.write _).agrees (TestRes.write _)
    rw [h1]; rfl
  | create name modes =>
    obtain ⟨h1, h2⟩ := h.create name modes
    refine ⟨?_, h2⟩
    show (TestRes.create _).agrees (TestRes.create _)
    rw [h1]; rfl
  | delete name =>
    obtain ⟨h1, h2⟩ := h.delete name
    refine ⟨?_, h2⟩
    show (TestRes.delete _).agrees (TestRes.delete _)
    rw [h1]; rfl
  | lookup name =>
    refine ⟨?_, h⟩
    show (TestRes.lookup (fs.files name)).agrees (TestRes.lookup (m.pathToMnode name))
    rw [h.path]; rfl

/-- **C82** For every sequence of creations, writes of a repeated byte, reads, deletions and lookups, of any length,
with any names, modes, inode numbers, offsets and lengths, the file system gives call by call the result of the
reference log: the same inode numbers, counts and errors, and the same bytes.  Only a read may report more bytes than
the reference: those in gaps that were never written, and they are zero. -/
theorem c82_agree (as : List TestAction) : Agree (fsRun MlnrFS.init as) (refRun ModelFS.init as) := by
  have key : ∀ as fs m, Tracks fs m → Agree (fsRun fs as) (refRun m as) := by
    intro as
    induction as with
    | nil => intro fs m _; trivial
    | cons a as ih =>
      intro fs m h
      obtain ⟨h1, h2⟩ := h.step a
      exact ⟨h1, ih _ _ h2⟩
  exact key as _ _ Tracks.init

/-! ## Without gaps -/

/-- Every byte of every file has been written. -/
def Full (fs : MlnrFS) (m : ModelFS) : Prop :=
  ∀ mn x, fs.mnodes mn = some x → ∀ i, i < x.bytes.length → lastWrite m.oplog mn i ≠ none

theorem fsWrite_cases (fs : MlnrFS) (h : fs.Inv) (mn off : Nat) (d : List UInt8) :
    ((∃ e, (fs.write mn d off .good).1 = .err e) ∧
      ∀ j x, (fs.write mn d off .good).2.mnodes j = some x → fs.mnodes j = some x) ∨
    ∃ x y, fs.mnodes mn = some x ∧ (fs.write mn d off .good).1 = .ok d.length ∧
      (fs.write mn d off .good).2.mnodes = upd fs.mnodes mn (some y) ∧ y.bytes = writeAt x.bytes off d := by
  unfold MlnrFS.write
  cases hx : fs.mnodes mn with
  | none => exact Or.inl ⟨⟨_, rfl⟩, fun _ _ h => h⟩
  | some x =>
    obtain ⟨_, _, _, _, hno, hyes⟩ := runOp_wf x (.write off d) .none (h.wf mn x hx)
    have hrun : x.runOp (.write off d) .none = x.write d off Env.good.oom := rfl
    rw [hrun] at hno hyes
    cases hw : x.canWrite with
    | false =>
      left
      obtain ⟨e2, e1⟩ := hno hw
      refine ⟨⟨_, e1⟩, fun j z hz => ?_⟩
      have hz' : (upd fs.mnodes mn (some (x.write d off Env.good.oom).2)) j = some z := hz
      rw [e2, upd_apply] at hz'
      split at hz'
      · rename_i e; cases hz'; rw [e, hx]
      · exact hz'
    | true =>
      rcases hyes hw with ⟨e1, e2⟩ | ⟨_, hne, _⟩
      · exact Or.inr ⟨x, _, rfl, e1, rfl, e2⟩
      · exact absurd rfl hne

theorem sizeOf'_eq {fs : MlnrFS} (h : fs.Inv) {mn : Nat} {x : MemNode} (hx : fs.mnodes mn = some x) :
    sizeOf' fs mn = x.bytes.length := by
  unfold sizeOf' MlnrFS.fileInfo
  rw [hx]
  cases x with
  | directory => rfl
  | file f => exact getSize_eq f (h.wf mn _ hx)

theorem Full.write {fs : MlnrFS} {m : ModelFS} (h : Tracks fs m) (hf : Full fs m) (mn off : Nat) (pat : UInt8)
    (len : Nat) (hoff : off ≤ sizeOf' fs mn) :
    Full (fsStep fs (.write mn off pat len)).2 (refStep m (.write mn off pat len)).2 := by
  have hres := (h.write mn off pat len).1
  have hlog : (∃ e, (m.write mn (List.replicate len pat) off).1 = .err e) ∧
        (m.write mn (List.replicate len pat) off).2 = m ∨
      (len = 0 ∧ (m.write mn (List.replicate len pat) off).2 = m) ∨
      (m.write mn (List.replicate len pat) off).2.oplog = m.oplog ++ [.write mn off pat len] := by
    unfold ModelFS.write
    split
    · split
      · exact Or.inl ⟨⟨_, rfl⟩, rfl⟩
      · cases len with
        | zero => exact Or.inr (Or.inl ⟨rfl, rfl⟩)
        | succ n =>
          right; right
          show m.oplog ++ [RefOp.write mn off pat (List.replicate (n + 1) pat).length] = _
          rw [List.length_replicate]
    · exact Or.inl ⟨⟨_, rfl⟩, rfl⟩
  intro j z hz i hi
  show lastWrite (m.write mn (List.replicate len pat) off).2.oplog j i ≠ none
  have hz' : (fs.write mn (List.replicate len pat) off .good).2.mnodes j = some z := hz
  have mono : lastWrite m.oplog j i ≠ none →
      lastWrite (m.write mn (List.replicate len pat) off).2.oplog j i ≠ none := by
    intro hne
    rcases hlog with ⟨_, e⟩ | ⟨_, e⟩ | e
    · rw [e]; exact hne
    · rw [e]; exact hne
    · rw [e, lastWrite_append]
      cases RefOp.patAt j i (.write mn off pat len) with
      | none => exact hne
      | some p => simp
  rcases fsWrite_cases fs h.inv mn off (List.replicate len pat) with ⟨_, hsame⟩ | ⟨x, y, hx, hok, hup, hby⟩
  · exact mono (hf j z (hsame j z hz') i hi)
  · rw [hup, upd_apply] at hz'
    split at hz'
    · rename_i e
      subst e
      cases hz'
      rw [hby, writeAt_length, List.length_replicate] at hi
      rw [sizeOf'_eq h.inv hx] at hoff
      by_cases hin : i < x.bytes.length
      · exact mono (hf j x hx i hin)
      · rcases hlog with ⟨⟨e, he⟩, _⟩ | ⟨h0, _⟩ | e
        · rw [← hres, hok] at he; cases he
        · omega
        · rw [e, lastWrite_append]
          simp only [RefOp.patAt]
          rw [if_pos ⟨trivial, by omega, by omega⟩]
          simp
    · exact mono (hf j z hz' i hi)

theorem Full.step {fs : MlnrFS} {m : ModelFS} (h : Tracks fs m) (hf : Full fs m) (a : TestAction)
    (hw : ∀ mn off pat len, a = .write mn off pat len → off ≤ sizeOf' fs mn) :
    Full (fsStep fs a).2 (refStep m a).2 := by
  cases a with
  | read mn dst off => exact hf
  | lookup name => exact hf
  | write mn off pat len => exact Full.write h hf mn off pat len (hw _ _ _ _ rfl)
  | create name modes =>
    show Full (fs.create name modes .good).2 (m.create name modes).2
    unfold MlnrFS.create ModelFS.create MlnrFS.addNode
    rw [h.path]
    cases hq : fs.files name with
    | some k => exact hf
    | none =>
      have hg : Env.good.createOom = false := rfl
      simp only [hg, Bool.false_eq_true, if_false, Option.isSome_none]
      intro j z hz i hi
      have hz' : (upd fs.mnodes fs.next (some (.file (File.new modes)))) j = some z := hz
      show lastWrite (m.oplog ++ [_]) j i ≠ none
      rw [lastWrite_append]
      show lastWrite m.oplog j i ≠ none
      rw [upd_apply] at hz'
      split at hz'
      · cases hz'; simp [MemNode.bytes, File.new] at hi
      · exact hf j z hz' i hi
  | delete name =>
    show Full (fs.delete name .good).2 (m.delete name).2
    unfold MlnrFS.delete ModelFS.delete
    have hg : Env.good.pinned = false := rfl
    cases hq : fs.files name with
    | none =>
      cases hl : lastIdx name m.oplog with
      | none => exact hf
      | some k =>
        obtain ⟨md, mn, hm⟩ := lastIdx_some hl
        rw [(h.names name mn).2 ⟨md, List.mem_of_getElem? hm⟩] at hq
        cases hq
    | some k =>
      simp only [hg, Bool.false_eq_true, if_false]
      intro j z hz i hi
      have hz' : (upd fs.mnodes k none) j = some z := hz
      rw [upd_apply] at hz'
      split at hz'
      · cases hz'
      · have := hf j z hz' i hi
        cases hl : lastIdx name m.oplog with
        | none => exact this
        | some q =>
          obtain ⟨md, mn, hm⟩ := lastIdx_some hl
          show lastWrite (m.oplog.eraseIdx q) j i ≠ none
          rw [lastWrite_eraseIdx]
          · exact this
          · intro o ho; rw [hm] at ho; cases ho; rfl

/-- **C82** If every write begins within the file or at its end, the results are exactly those of the reference, as
the caller sees them: the same counts and the same bytes. -/
theorem c82_exact (as : List TestAction) (hn : NoHoles MlnrFS.init as) :
    (fsRun MlnrFS.init as).map TestRes.seen = (refRun ModelFS.init as).map TestRes.seen := by
  have key : ∀ as fs m, Tracks fs m → Full fs m → NoHoles fs as →
      (fsRun fs as).map TestRes.seen = (refRun m as).map TestRes.seen := by
    intro as
    induction as with
    | nil => intro fs m _ _ _; rfl
    | cons a as ih =>
      intro fs m h hf hn
      have hw : ∀ mn off pat len, a = .write mn off pat len → off ≤ sizeOf' fs mn := by
        rintro mn off pat len rfl; exact hn.1
      have hn' : NoHoles (fsStep fs a).2 as := by
        cases a with
        | write => exact hn.2
        | read => exact hn
        | create => exact hn
        | delete => exact hn
        | lookup => exact hn
      have hstep := h.step a
      have hrest := ih _ _ hstep.2 (Full.step h hf a hw) hn'
      rw [fsRun, refRun, List.map_cons, List.map_cons, hrest]
      congr 1
      cases a with
      | read mn dst off =>
        show (TestRes.read (fs.read mn dst off)).seen = (TestRes.read (m.read mn dst off)).seen
        rcases h.read mn dst off with ⟨he, _⟩ | ⟨x, n, b, k, b', hx, h1, h2, hnn, _, _, hk, ht, hz⟩
        · rw [he]
        · have : k = n := by
            apply Classical.byContradiction
            intro hne
            refine hf mn x hx (off + k) ?_ (hz k (Nat.le_refl _) (by omega)).2
            omega
          subst this
          rw [h1, h2]
          show TestRes.read (.ok (k, b.take k)) = TestRes.read (.ok (k, b'.take k))
          rw [ht]
      | write mn off pat len =>
        show (TestRes.write _).seen = (TestRes.write _).seen
        rw [(h.write mn off pat len).1]
      | create name modes =>
        show (TestRes.create _).seen = (TestRes.create _).seen
        rw [(h.create name modes).1]
      | delete name =>
        show (TestRes.delete _).seen = (TestRes.delete _).seen
        rw [(h.delete name).1]
      | lookup name =>
        show (TestRes.lookup (fs.files name)).seen = (TestRes.lookup (m.pathToMnode name)).seen
        rw [h.path]
  refine key as _ _ Tracks.init ?_ hn
  intro mn x hx i hi
  simp only [MlnrFS.init, upd_apply] at hx
  split at hx
  · cases hx; simp [MemNode.bytes] at hi
  · cases hx

/-- **C82** The comparison as the project's test makes it: its read buffers are `Vec::with_capacity(len)`, which have
length 0 (`fs/test.rs` lines 462-466).  With empty buffers the results are always equal, so the test never sees the
contents of a file, nor the gaps. -/
theorem c82_test_reads_nothing (as : List TestAction) (he : ∀ mn dst off, TestAction.read mn dst off ∈ as → dst = []) :
    fsRun MlnrFS.init as = refRun ModelFS.init as := by
  have key : ∀ as fs m, Tracks fs m → (∀ mn dst off, TestAction.read mn dst off ∈ as → dst = []) →
      fsRun fs as = refRun m as := by
    intro as
    induction as with
    | nil => intro fs m _ _; rfl
    | cons a as ih =>
      intro fs m h he
      rw [fsRun, refRun, ih _ _ (h.step a).2 (fun mn dst off hm => he mn dst off (List.mem_cons_of_mem _ hm))]
      congr 1
      cases a with
      | read mn dst off =>
        have hd := he mn dst off (by simp)
        subst hd
        show TestRes.read (fs.read mn [] off) = TestRes.read (m.read mn [] off)
        rcases h.read mn [] off with ⟨he, _⟩ | ⟨x, n, b, k, b', hx, h1, h2, hnn, hb, hb', hk, ht, hz⟩
        · rw [he]
        · rw [h1, h2]
          have e1 : b = [] := List.length_eq_zero_iff.1 hb
          have e2 : b' = [] := List.length_eq_zero_iff.1 hb'
          have e3 : n = 0 := by rw [hnn]; simp
          subst e1 e2 e3
          have : k = 0 := by omega
          subst this
          rfl
      | write mn off pat len =>
        show TestRes.write _ = TestRes.write _
        rw [(h.write mn off pat len).1]
      | create name modes =>
        show TestRes.create _ = TestRes.create _
        rw [(h.create name modes).1]
      | delete name =>
        show TestRes.delete _ = TestRes.delete _
        rw [(h.delete name).1]
      | lookup name =>
        show TestRes.lookup (fs.files name) = TestRes.lookup (m.pathToMnode name)
        rw [h.path]
  exact key as _ _ Tracks.init he

/-! ## Witnesses -/

/-- All permissions. -/
def rwx : Modes := ⟨true, true, true⟩

/-- A sequence without gaps: overlapping writes, a file that may not be read, deletion and new creation. -/
def sample82 : List TestAction :=
  [.create "a" rwx, .create "a" rwx, .write 2 0 7 4, .write 2 2 9 4, .read 2 [0, 0, 0, 0, 0, 0, 0, 0] 1,
   .create "b" ⟨false, true, true⟩, .write 3 0 1 2, .read 3 [0] 0, .read 1 [0] 0, .write 1 0 1 1, .lookup "b",
   .delete "a", .delete "a", .read 2 [0] 0, .create "a" rwx, .read 4 [5] 0, .lookup "a"]

theorem sample82_noHoles : NoHoles MlnrFS.init sample82 := by
  simp only [sample82, NoHoles]
  decide +kernel

/-- The results of the sample. -/
theorem sample82_results : fsRun MlnrFS.init sample82 =
    [.create (.ok 2), .create (.err .alreadyPresent), .write (.ok 4), .write (.ok 4),
     .read (.ok (5, [7, 9, 9, 9, 9, 0, 0, 0])), .create (.ok 3), .write (.ok 2), .read (.err .permissionError),
     .read (.err .permissionError), .write (.err .permissionError), .lookup (some 3), .delete (.ok ()),
     .delete (.err .invalidFile), .read (.err .invalidFile), .create (.ok 4), .read (.ok (0, [5])),
     .lookup (some 4)] := by
  decide +kernel

/-- **C82** Witness: a read in a gap.  The file system reads the zeros of the gap, the reference nothing. -/
theorem c82_gap :
    let as : List TestAction := [.create "a" rwx, .write 2 4 7 2, .read 2 [1, 1] 1]
    fsRun MlnrFS.init as = [.create (.ok 2), .write (.ok 2), .read (.ok (2, [0, 0]))] ∧
    refRun ModelFS.init as = [.create (.ok 2), .write (.ok 2), .read (.ok (0, [0, 0]))] := by
  decide +kernel

/-- **C82** Witness: a write of no bytes behind the end makes the file longer; the reference ignores it. -/
theorem c82_empty_write :
    let as : List TestAction := [.create "a" rwx, .write 2 3 7 0, .read 2 [1, 1] 0]
    fsRun MlnrFS.init as = [.create (.ok 2), .write (.ok 0), .read (.ok (2, [0, 0]))] ∧
    refRun ModelFS.init as = [.create (.ok 2), .write (.ok 0), .read (.ok (0, [0, 0]))] := by
  decide +kernel

end NRK.Fs
