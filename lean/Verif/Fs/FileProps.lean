import Verif.Fs.FileLemmas

/-!
# Properties of single files (C01, C02, C03, C04)

The specification (`Spec.writeAt`, `Spec.readAt`, `Spec.applyOps`) is a flat byte list.
-/

namespace NRK.Fs

open Spec

/-! ## Helper lemmas local to this file -/

/-- Layout invariant of an inode (helper). -/
def MemNode.Wf : MemNode → Prop
  | .directory => True
  | .file f => Chunked f.mcache

/-- The stored bytes of an inode (helper, only used inside proofs). -/
def MemNode.bytes : MemNode → List UInt8
  | .directory => []
  | .file f => f.mcache.flatten

/-- The permissions of an inode; a directory has none for data access. -/
def MemNode.canWrite : MemNode → Bool
  | .directory => false
  | .file f => f.modes.writable

/-- See `canWrite`. -/
def MemNode.canRead : MemNode → Bool
  | .directory => false
  | .file f => f.modes.readable

theorem zeroExtend_of_le (bs : List UInt8) (n : Nat) (h : n ≤ bs.length) :
    zeroExtend bs n = bs := by
  simp [zeroExtend, Nat.sub_eq_zero_of_le h]

theorem zeroExtend_length (bs : List UInt8) (n : Nat) :
    (zeroExtend bs n).length = max bs.length n := by
  simp [zeroExtend]; omega

theorem writeAt_length (bs : List UInt8) (o : Nat) (d : List UInt8) :
    (writeAt bs o d).length = max bs.length (o + d.length) := by
  unfold writeAt
  rw [overwrite_length, zeroExtend_length]
  rw [zeroExtend_length]; omega

theorem writeFile_spec (f : File) (d : List UInt8) (o : Nat) (oom : Oom) (h : Chunked f.mcache) :
    (∃ g, f.writeFile d o oom = (.ok d.length, g) ∧ g.modes = f.modes ∧ Chunked g.mcache ∧
        g.mcache.flatten = writeAt f.mcache.flatten o d) ∨
    (∃ g, f.writeFile d o oom = (.err .outOfMemory, g) ∧ oom ≠ .none ∧ g.modes = f.modes ∧
        Chunked g.mcache ∧ f.mcache.flatten.length < o + d.length ∧
        ∃ n, n ≤ o + d.length ∧ g.mcache.flatten = zeroExtend f.mcache.flatten n) := by
  -- the copy, once the file is large enough
  have copy : ∀ g : File, Chunked g.mcache → o + d.length ≤ g.mcache.flatten.length →
      ∃ bufs, writeLoop g.mcache (offsetToBuffernum o PAGE)
        (o - offsetToBuffernum o PAGE * PAGE) d = .ok bufs ∧ Chunked bufs ∧
        bufs.flatten = overwrite g.mcache.flatten o d := by
    intro g hg hl
    have hk : offsetToBuffernum o PAGE * PAGE + (o - offsetToBuffernum o PAGE * PAGE) = o := by
      unfold offsetToBuffernum; pomega
    have hoff : o - offsetToBuffernum o PAGE * PAGE < PAGE := by
      unfold offsetToBuffernum; pomega
    obtain ⟨bufs, e1, e2, e3⟩ := writeLoop_spec g.mcache _ _ d hg hoff (by rw [hk]; exact hl)
    rw [hk] at e3
    exact ⟨bufs, e1, e2, e3⟩
  unfold File.writeFile
  rw [getSize_eq f h]
  simp only
  by_cases hg : f.mcache.flatten.length < o + d.length
  · have hcond : o + d.length > 0 ∧ o + d.length > f.mcache.flatten.length := by omega
    rw [if_pos hcond]
    have hinc := increaseFileSize_spec f (o + d.length) oom h hg
    rw [getSize_eq f h] at hinc
    revert hinc
    generalize f.increaseFileSize f.mcache.flatten.length (o + d.length) oom = r
    obtain ⟨r1, g⟩ := r
    cases r1 with
    | panic => intro hf; exact hf.elim
    | err e =>
      rintro ⟨a1, a2, a3, a4, n, a5, a6⟩
      right
      exact ⟨g, rfl, a4, a1, a2, hg, n, a5, a6⟩
    | ok u =>
      rintro ⟨a1, a2, a3⟩
      left
      obtain ⟨bufs, e1, e2, e3⟩ := copy g a2 (by rw [a3, zeroExtend_length]; omega)
      simp only [e1]
      exact ⟨_, rfl, a1, e2, by simp only; rw [e3, a3]; rfl⟩
  · have hcond : ¬ (o + d.length > 0 ∧ o + d.length > f.mcache.flatten.length) := by omega
    rw [if_neg hcond]
    left
    obtain ⟨bufs, e1, e2, e3⟩ := copy f h (by omega)
    simp only [e1]
    refine ⟨_, rfl, rfl, e2, ?_⟩
    simp only
    rw [e3]
    unfold writeAt
    rw [zeroExtend_of_le _ _ (by omega)]

theorem read_spec (f : File) (h : Chunked f.mcache) (hr : f.modes.readable = true)
    (dst : List UInt8) (o : Nat) :
    (MemNode.file f).read dst o =
      .ok ((readAt f.mcache.flatten o dst.length).length,
        readAt f.mcache.flatten o dst.length
          ++ dst.drop (readAt f.mcache.flatten o dst.length).length) := by
  unfold MemNode.read
  simp only [hr, Bool.not_true, Bool.false_eq_true, if_false]
  rw [getSize_eq f h]
  by_cases h1 : o > f.mcache.flatten.length
  · rw [if_pos h1]
    have : readAt f.mcache.flatten o dst.length = [] := by
      simp only [readAt]; rw [List.drop_of_length_le (by omega)]; simp
    simp [this]
  · rw [if_neg h1]
    have hlen : (readAt f.mcache.flatten o dst.length).length
        = min (f.mcache.flatten.length - o) dst.length := by
      simp [readAt, Nat.min_comm]
    by_cases h2 : min (f.mcache.flatten.length - o) dst.length = 0
    · rw [if_pos h2]
      have : readAt f.mcache.flatten o dst.length = [] :=
        List.length_eq_zero_iff.1 (by rw [hlen, h2])
      simp [this]
    · rw [if_neg h2, if_neg (by omega)]
      unfold File.readFile
      simp only
      rw [if_neg (by omega)]
      have hk : offsetToBuffernum o PAGE * PAGE + (o - offsetToBuffernum o PAGE * PAGE) = o := by
        unfold offsetToBuffernum; pomega
      have hoff : o - offsetToBuffernum o PAGE * PAGE < PAGE := by
        unfold offsetToBuffernum; pomega
      generalize hb : min (f.mcache.flatten.length - o) dst.length = b at *
      have hb1 : o + b - o = b := by omega
      rw [hb1]
      rw [readLoop_spec f.mcache _ _ _ 0 b dst [] dst h hoff (by omega) (by simp) rfl
        (by omega) (by rw [hk]; omega) (by intro _; omega)]
      rw [hk, hlen]
      simp only [Nat.sub_zero, List.nil_append]
      congr 3
      unfold readAt
      rw [List.take_eq_take_iff]
      simp only [List.length_drop]
      omega

/-! ## The specification says what the English says -/

/-- Pointwise meaning of `Spec.writeAt`: inside the written range the new data, elsewhere the
old byte, and zeros in the gap between the old end and the written range. -/
theorem writeAt_getElem? (bs d : List UInt8) (o i : Nat) :
    (writeAt bs o d)[i]? =
      if o ≤ i ∧ i < o + d.length then d[i - o]?
      else if i < bs.length then bs[i]?
      else if i < o + d.length then some 0
      else none := by
  unfold writeAt overwrite
  have hz := zeroExtend_length bs (o + d.length)
  have hto : ((zeroExtend bs (o + d.length)).take o).length = o := by
    simp [hz]; omega
  have hze : ∀ j, (zeroExtend bs (o + d.length))[j]? =
      if j < bs.length then bs[j]? else if j < o + d.length then some 0 else none := by
    intro j
    unfold zeroExtend
    rw [List.getElem?_append]
    split
    · rfl
    · rw [List.getElem?_replicate]
      split <;> split <;> first | rfl | omega
  rw [List.append_assoc, List.getElem?_append, hto]
  split
  · rename_i hi
    rw [List.getElem?_take, if_pos hi, hze, if_neg (c := o ≤ i ∧ i < o + d.length) (by omega)]
  · rw [List.getElem?_append]
    split
    · rename_i h1 h2
      rw [if_pos (by omega)]
    · rename_i h1 h2
      have : o + d.length + (i - o - d.length) = i := by omega
      rw [List.getElem?_drop, hze, this, if_neg (c := o ≤ i ∧ i < o + d.length) (by omega)]

/-! ## Histories on one inode -/

/-- Run one operation of a history on an inode, with the environment's allocation outcome. The
result is what the system reports (`truncate` reports no count, shown as 0). -/
def MemNode.runOp (m : MemNode) (op : FileOp) (oom : Oom) : Outcome Nat × MemNode :=
  match op with
  | .write o d => m.write d o oom
  | .truncate => let r := m.truncate; (r.1.map (fun _ => 0), r.2)

/-- Run a history; collect the reported results. -/
def MemNode.runOps (m : MemNode) : List (FileOp × Oom) → List (Outcome Nat) × MemNode
  | [] => ([], m)
  | (op, oom) :: rest =>
    let r := m.runOp op oom
    let q := r.2.runOps rest
    (r.1 :: q.1, q.2)

/-- The result a flat byte array reports. -/
def expected : FileOp → Outcome Nat
  | .write _ d => .ok d.length
  | .truncate => .ok 0

theorem runOp_wf (m : MemNode) (op : FileOp) (oom : Oom) (h : m.Wf) :
    (m.runOp op oom).2.Wf ∧ (m.runOp op oom).2.canWrite = m.canWrite ∧
    (m.runOp op oom).2.canRead = m.canRead ∧ (m.runOp op oom).1 ≠ .panic ∧
    (m.canWrite = false → (m.runOp op oom).2 = m ∧ (m.runOp op oom).1 = .err .permissionError) ∧
    (m.canWrite = true →
      ((m.runOp op oom).1 = expected op ∧
        (m.runOp op oom).2.bytes = applyOp m.bytes op) ∨
      ((m.runOp op oom).1 = .err .outOfMemory ∧ oom ≠ .none ∧
        ∃ o d n, op = .write o d ∧ m.bytes.length < o + d.length ∧ n ≤ o + d.length ∧
          (m.runOp op oom).2.bytes = zeroExtend m.bytes n)) := by
  cases m with
  | directory =>
    cases op <;>
      simp [MemNode.runOp, MemNode.write, MemNode.truncate, Outcome.map, MemNode.canWrite,
        MemNode.canRead, MemNode.Wf]
  | file f =>
    have hch : Chunked f.mcache := h
    cases op with
    | truncate =>
      by_cases hw : f.modes.writable = true
      · simp [MemNode.runOp, MemNode.truncate, hw, MemNode.canWrite, MemNode.canRead,
          MemNode.Wf, File.truncate, Chunked, Outcome.map, expected, applyOp, MemNode.bytes]
      · have hw' : f.modes.writable = false := by simpa using hw
        simp only [MemNode.runOp, MemNode.truncate, hw', MemNode.canWrite, MemNode.canRead,
          Outcome.map, Bool.not_false, if_true]
        exact ⟨h, by simp [hw'], by simp, by simp, by simp, by simp⟩
    | write o d =>
      by_cases hw : f.modes.writable = true
      · simp only [MemNode.runOp, MemNode.write, hw, Bool.not_true, Bool.false_eq_true,
          if_false]
        rcases writeFile_spec f d o oom hch with ⟨g, e, e1, e2, e3⟩ | ⟨g, e, e0, e1, e2, e3, n, e4, e5⟩
        · rw [e]
          refine ⟨e2, ?_, ?_, ?_, ?_, ?_⟩
          · simp [MemNode.canWrite, e1]
          · simp [MemNode.canRead, e1]
          · simp
          · intro hc; simp [MemNode.canWrite, hw] at hc
          · intro _; left; exact ⟨rfl, e3⟩
        · rw [e]
          refine ⟨e2, ?_, ?_, ?_, ?_, ?_⟩
          · simp [MemNode.canWrite, e1]
          · simp [MemNode.canRead, e1]
          · simp
          · intro hc; simp [MemNode.canWrite, hw] at hc
          · intro _; right; exact ⟨rfl, e0, o, d, n, rfl, e3, e4, e5⟩
      · have hw' : f.modes.writable = false := by simpa using hw
        simp only [MemNode.runOp, MemNode.write, hw', MemNode.canWrite, MemNode.canRead,
          Bool.not_false, if_true]
        exact ⟨h, by simp [hw'], by simp, by simp, by simp, by simp⟩

theorem runOps_wf (m : MemNode) (ops : List (FileOp × Oom)) (h : m.Wf) :
    (m.runOps ops).2.Wf ∧ (m.runOps ops).2.canWrite = m.canWrite ∧
    (m.runOps ops).2.canRead = m.canRead ∧ (∀ r ∈ (m.runOps ops).1, r ≠ .panic) ∧
    (m.canWrite = false → (m.runOps ops).2 = m ∧
      ∀ r ∈ (m.runOps ops).1, r = .err .permissionError) := by
  induction ops generalizing m with
  | nil => exact ⟨h, rfl, rfl, by simp [MemNode.runOps], by simp [MemNode.runOps]⟩
  | cons x xs ih =>
    obtain ⟨op, oom⟩ := x
    obtain ⟨a1, a2, a3, a4, a5, _⟩ := runOp_wf m op oom h
    obtain ⟨b1, b2, b3, b4, b5⟩ := ih _ a1
    simp only [MemNode.runOps]
    refine ⟨b1, b2.trans a2, b3.trans a3, ?_, ?_⟩
    · intro r hr
      rcases List.mem_cons.1 hr with hr | hr
      · rw [hr]; exact a4
      · exact b4 r hr
    · intro hc
      obtain ⟨c1, c2⟩ := a5 hc
      obtain ⟨d1, d2⟩ := b5 (by rw [a2]; exact hc)
      refine ⟨by rw [d1, c1], ?_⟩
      intro r hr
      rcases List.mem_cons.1 hr with hr | hr
      · rw [hr]; exact c2
      · exact d2 r hr

theorem runOps_content (m : MemNode) (ops : List FileOp) (h : m.Wf) (hw : m.canWrite = true) :
    (m.runOps (ops.map (·, .none))).1 = ops.map expected ∧
    (m.runOps (ops.map (·, .none))).2.bytes = applyOps m.bytes ops := by
  induction ops generalizing m with
  | nil => exact ⟨rfl, rfl⟩
  | cons op ops ih =>
    obtain ⟨a1, a2, _, _, _, a6⟩ := runOp_wf m op .none h
    rcases a6 hw with ⟨c1, c2⟩ | ⟨_, c2, _⟩
    · obtain ⟨d1, d2⟩ := ih _ a1 (by rw [a2]; exact hw)
      simp only [List.map_cons, MemNode.runOps, c1, d1, d2, c2]
      exact ⟨trivial, rfl⟩
    · exact absurd rfl c2

theorem file_of_canWrite {m : MemNode} (h : m.canWrite = true) : ∃ f, m = .file f := by
  cases m with
  | directory => simp [MemNode.canWrite] at h
  | file f => exact ⟨f, rfl⟩

theorem file_of_canRead {m : MemNode} (h : m.canRead = true) : ∃ f, m = .file f := by
  cases m with
  | directory => simp [MemNode.canRead] at h
  | file f => exact ⟨f, rfl⟩

/-! ## Property theorems -/

/-- **C01** A file behaves as a flat byte array.  Start from a freshly created file that is
readable and writable, run any history of writes (any offsets, any data) and truncations for
which memory is available.  Every operation reports what a flat byte array reports, and any
read (any buffer, any offset) returns exactly the bytes of the flat byte array that went
through the same history, leaving the rest of the caller's buffer alone. -/
theorem c01_file_is_flat_byte_array (modes : Modes) (hr : modes.readable = true)
    (hw : modes.writable = true) (ops : List FileOp) :
    let run := (MemNode.file (File.new modes)).runOps (ops.map (·, .none))
    let bs := applyOps [] ops
    run.1 = ops.map expected ∧
    ∀ (dst : List UInt8) (o : Nat),
      run.2.read dst o = .ok ((readAt bs o dst.length).length,
        readAt bs o dst.length ++ dst.drop (readAt bs o dst.length).length) := by
  have hwf : (MemNode.file (File.new modes)).Wf := by simp [MemNode.Wf, File.new, Chunked]
  obtain ⟨r1, r2⟩ := runOps_content _ ops hwf hw
  refine ⟨r1, ?_⟩
  intro dst o
  obtain ⟨w1, w2, w3, _, _⟩ := runOps_wf _ (ops.map (·, Oom.none)) hwf
  obtain ⟨f, hf⟩ := file_of_canRead (w3.trans hr)
  have hbytes : f.mcache.flatten = applyOps [] ops := by
    rw [hf] at r2; simpa [MemNode.bytes, File.new] using r2
  rw [hf] at w1 w3 ⊢
  rw [← hbytes]
  exact read_spec f w1 (by rw [show (MemNode.file f).canRead = f.modes.readable from rfl] at w3; exact w3.trans hr) dst o

/-- Non-vacuity of C01: a write that leaves a gap, one that straddles nothing, a truncate. -/
example : (⟨true, true, false⟩ : Modes).readable = true ∧
    applyOps [] [.write 0 [1, 2], .truncate, .write 2 [7], .write 4 [9]] = [0, 0, 7, 0, 9] := by
  decide

/-- **C02** The reported size is the true length: after any history, including failed
allocations, the size reported equals the number of bytes that a sufficiently long read
returns; a successful write of `d` at `o` makes it `max old (o + d.length)` and a successful
truncate makes it 0. -/
theorem c02_size_is_length (modes : Modes) (hr : modes.readable = true)
    (ops : List (FileOp × Oom)) :
    let m := ((MemNode.file (File.new modes)).runOps ops).2
    ∃ size, m.getFileSize = .ok size ∧
      (∀ dst : List UInt8, dst.length ≥ size → ∃ dst', m.read dst 0 = .ok (size, dst')) ∧
      (∀ o d oom, (m.runOp (.write o d) oom).1 = .ok d.length →
        (m.runOp (.write o d) oom).2.getFileSize = .ok (max size (o + d.length))) ∧
      (∀ oom, (m.runOp .truncate oom).1 = .ok 0 →
        (m.runOp .truncate oom).2.getFileSize = .ok 0) := by
  have hwf : (MemNode.file (File.new modes)).Wf := by simp [MemNode.Wf, File.new, Chunked]
  obtain ⟨w1, w2, w3, _, _⟩ := runOps_wf _ ops hwf
  have hread := w3.trans hr
  simp only
  generalize hm : ((MemNode.file (File.new modes)).runOps ops).2 = m at *
  obtain ⟨f, hf⟩ := file_of_canRead hread
  subst hf
  have size_of : ∀ g : File, Chunked g.mcache →
      (MemNode.file g).getFileSize = .ok (MemNode.file g).bytes.length := by
    intro g hg; simp [MemNode.getFileSize, getSize_eq g hg, MemNode.bytes]
  refine ⟨(MemNode.file f).bytes.length, size_of f w1, ?_, ?_, ?_⟩
  · intro dst hd
    rw [read_spec f w1 hread dst 0]
    have : (readAt f.mcache.flatten 0 dst.length).length = f.mcache.flatten.length := by
      have hd' : dst.length ≥ f.mcache.flatten.length := hd
      simp only [readAt, List.drop_zero, List.length_take]
      omega
    exact ⟨_, by rw [this]; rfl⟩
  · intro o d oom hok
    obtain ⟨a1, a2, a3, _, a5, a6⟩ := runOp_wf (.file f) (.write o d) oom w1
    have hw : (MemNode.file f).canWrite = true := by
      by_cases hw : (MemNode.file f).canWrite = true
      · exact hw
      · have := (a5 (by simpa using hw)).2
        rw [hok] at this; cases this
    obtain ⟨g, hg⟩ := file_of_canWrite (a2.trans hw)
    rcases a6 hw with ⟨_, c2⟩ | ⟨c1, _⟩
    · rw [hg] at a1 c2 ⊢
      rw [size_of g a1, c2, applyOp, writeAt_length]
    · rw [hok] at c1; cases c1
  · intro oom hok
    obtain ⟨a1, a2, a3, _, a5, a6⟩ := runOp_wf (.file f) .truncate oom w1
    have hw : (MemNode.file f).canWrite = true := by
      by_cases hw : (MemNode.file f).canWrite = true
      · exact hw
      · have := (a5 (by simpa using hw)).2
        rw [hok] at this; cases this
    obtain ⟨g, hg⟩ := file_of_canWrite (a2.trans hw)
    rcases a6 hw with ⟨_, c2⟩ | ⟨c1, _⟩
    · rw [hg] at a1 c2 ⊢
      rw [size_of g a1, c2]; rfl
    · rw [hok] at c1; cases c1

/-- Non-vacuity of C02: a history with a failing allocation in the middle. -/
example : ((MemNode.file (File.new ⟨true, true, false⟩)).runOps
    [(.write 0 [1, 2, 3], .none), (.write 1 [9, 9, 9], .lastResize)]).1
    = [.ok 3, .err .outOfMemory] := by decide +kernel

/-- **C03** Reads return exactly the requested existing bytes.  After any history on any file:
the read fails with a permission error exactly when the file is not readable (and directories
never are); otherwise it returns `min n (size - o)` bytes, namely the stored bytes from `o`
on (`bs` is the same for all reads), and the rest of the caller's buffer is unchanged. -/
theorem c03_read_exact (modes : Modes) (ops : List (FileOp × Oom)) :
    let m := ((MemNode.file (File.new modes)).runOps ops).2
    (modes.readable = false → ∀ dst o, m.read dst o = .err .permissionError) ∧
    (modes.readable = true → ∃ bs : List UInt8, m.getFileSize = .ok bs.length ∧
      ∀ (dst : List UInt8) (o : Nat),
        m.read dst o = .ok (min dst.length (bs.length - o),
          (bs.drop o).take dst.length ++ dst.drop (bs.length - o))) ∧
    (∀ dst o, MemNode.directory.read dst o = .err .permissionError) := by
  have hwf : (MemNode.file (File.new modes)).Wf := by simp [MemNode.Wf, File.new, Chunked]
  obtain ⟨w1, w2, w3, w4, w5⟩ := runOps_wf _ ops hwf
  refine ⟨?_, ?_, fun _ _ => rfl⟩
  · intro hr dst o
    have hread := w3.trans hr
    generalize ((MemNode.file (File.new modes)).runOps ops).2 = m at *
    cases m with
    | directory => rfl
    | file f =>
      have : f.modes.readable = false := hread
      simp [MemNode.read, this]
  · intro hr
    have hread := w3.trans hr
    generalize ((MemNode.file (File.new modes)).runOps ops).2 = m at *
    obtain ⟨f, hf⟩ := file_of_canRead hread
    subst hf
    refine ⟨f.mcache.flatten, by simp [MemNode.getFileSize, getSize_eq f w1], ?_⟩
    intro dst o
    rw [read_spec f w1 hread dst o]
    have hl : (readAt f.mcache.flatten o dst.length).length
        = min dst.length (f.mcache.flatten.length - o) := by simp [readAt]
    rw [hl]
    congr 2
    simp only [readAt]
    congr 1
    rcases Nat.le_total dst.length (f.mcache.flatten.length - o) with hle | hle
    · rw [Nat.min_eq_left hle, List.drop_length, List.drop_of_length_le hle]
    · rw [Nat.min_eq_right hle]

/-- Non-vacuity of C03: both permission cases occur, and a read in the middle. -/
example : (readAt [1, 2, 3, 4] 1 2) = [2, 3] := by decide

/-- **C04** (single inode part) A file created without write permission never changes: any
history leaves it exactly as created and every operation reports a permission error.  A file
created without read permission never yields data: every read reports a permission error and
returns no buffer contents. -/
theorem c04_permissions_enforced (modes : Modes) (ops : List (FileOp × Oom)) :
    let start := MemNode.file (File.new modes)
    let run := start.runOps ops
    (modes.writable = false → run.2 = start ∧ ∀ r ∈ run.1, r = .err .permissionError) ∧
    (modes.readable = false → ∀ dst o, run.2.read dst o = .err .permissionError) ∧
    (∀ r ∈ run.1, r ≠ .panic) := by
  have hwf : (MemNode.file (File.new modes)).Wf := by simp [MemNode.Wf, File.new, Chunked]
  obtain ⟨w1, w2, w3, w4, w5⟩ := runOps_wf _ ops hwf
  exact ⟨fun h => w5 h, (c03_read_exact modes ops).1, w4⟩

/-- Non-vacuity of C04: a read-only file and a write attempt. -/
example : (⟨true, false, false⟩ : Modes).writable = false ∧
    ((MemNode.file (File.new ⟨true, false, false⟩)).runOps [(.write 0 [1], .none)]).1
      = [.err .permissionError] := by decide +kernel

/-- **C01, allocation failures.**  A write that fails because memory runs out keeps all
existing bytes: the contents are the old bytes followed by zero or more zero bytes, no further
than the end of the requested range.  (Holds in every state reached by any history.) -/
theorem c01_failed_write_keeps_bytes (modes : Modes) (hr : modes.readable = true)
    (ops : List (FileOp × Oom)) (o : Nat) (d : List UInt8) (oom : Oom) :
    let m := ((MemNode.file (File.new modes)).runOps ops).2
    let r := m.runOp (.write o d) oom
    r.1 = .err .outOfMemory →
    ∃ (bs : List UInt8) (k : Nat), bs.length + k ≤ max bs.length (o + d.length) ∧
      (∀ dst o', m.read dst o' = .ok ((readAt bs o' dst.length).length,
        readAt bs o' dst.length ++ dst.drop (readAt bs o' dst.length).length)) ∧
      (∀ dst o', r.2.read dst o' =
        .ok ((readAt (bs ++ List.replicate k 0) o' dst.length).length,
          readAt (bs ++ List.replicate k 0) o' dst.length
            ++ dst.drop (readAt (bs ++ List.replicate k 0) o' dst.length).length)) := by
  have hwf : (MemNode.file (File.new modes)).Wf := by simp [MemNode.Wf, File.new, Chunked]
  obtain ⟨w1, w2, w3, _, _⟩ := runOps_wf _ ops hwf
  have hread := w3.trans hr
  simp only
  generalize ((MemNode.file (File.new modes)).runOps ops).2 = m at *
  intro herr
  obtain ⟨f, hf⟩ := file_of_canRead hread
  subst hf
  obtain ⟨a1, a2, a3, _, a5, a6⟩ := runOp_wf (.file f) (.write o d) oom w1
  have hw : (MemNode.file f).canWrite = true := by
    by_cases hw : (MemNode.file f).canWrite = true
    · exact hw
    · have := (a5 (by simpa using hw)).2
      rw [herr] at this; cases this
  rcases a6 hw with ⟨c1, _⟩ | ⟨_, _, o', d', n, heq, c3, c4, c5⟩
  · rw [herr] at c1; cases c1
  · cases heq
    obtain ⟨g, hg⟩ := file_of_canRead (a3.trans hread)
    refine ⟨f.mcache.flatten, n - f.mcache.flatten.length, ?_, ?_, ?_⟩
    · have : (MemNode.file f).bytes.length = f.mcache.flatten.length := rfl
      omega
    · exact fun dst o' => read_spec f w1 hread dst o'
    · intro dst o'
      rw [hg] at a1 a3 c5 ⊢
      have hb : g.mcache.flatten = f.mcache.flatten
          ++ List.replicate (n - f.mcache.flatten.length) 0 := c5
      rw [← hb]
      exact read_spec g a1 (a3.trans hread) dst o'

/-- Finding: a write that reports "out of memory" may nevertheless have made the file longer
(`increase_file_size` fills up the last buffer before it allocates new ones and does not undo
that).  Here a one byte file reports 4096 bytes after the failed write. -/
theorem c02_failed_write_may_grow_file :
    let m := ((MemNode.file (File.new ⟨true, true, false⟩)).runOps [(.write 0 [1], .none)]).2
    let r := m.runOp (.write 4096 [2]) .newBuffers
    r.1 = .err .outOfMemory ∧ m.getFileSize = .ok 1 ∧ r.2.getFileSize = .ok 4096 := by
  decide +kernel

end NRK.Fs
