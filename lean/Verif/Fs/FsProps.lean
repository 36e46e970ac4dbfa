import Verif.Fs.FsLemmas

/-!
# Properties of descriptors, names and the file-system interface (C04-C11)
-/

namespace NRK.Fs

open Spec

/-! ## Helpers -/

theorem Reachable.inv {nlogs : Nat} {n : Node} (h : Reachable nlogs n) : n.Inv := by
  obtain ⟨cs, rfl⟩ := h
  exact (Node.init_inv.calls_inv nlogs cs).1
where
  Node.init_inv.calls_inv := fun nlogs cs => Node.calls_inv Node.init Node.init_inv nlogs cs

theorem Node.calls_append (n : Node) (nlogs : Nat) (a b : List (Call × Env)) :
    (n.calls nlogs (a ++ b)).2 = ((n.calls nlogs a).2.calls nlogs b).2 := by
  induction a generalizing n with
  | nil => rfl
  | cons x a ih => obtain ⟨c, e⟩ := x; exact ih _

theorem Reachable.calls {nlogs : Nat} {n : Node} (h : Reachable nlogs n)
    (cs : List (Call × Env)) : Reachable nlogs (n.calls nlogs cs).2 := by
  obtain ⟨cs0, rfl⟩ := h
  exact ⟨cs0 ++ cs, (Node.calls_append _ _ _ _).symm⟩

theorem Reachable.call {nlogs : Nat} {n : Node} (h : Reachable nlogs n) (c : Call) (env : Env) :
    Reachable nlogs (n.call nlogs c env).2 := h.calls [(c, env)]

theorem contents_file {n : Node} {m : Nat} {bs : List UInt8} (h : n.contents m = some bs) :
    ∃ f, n.fs.mnodes m = some (.file f) ∧ f.mcache.flatten = bs := by
  unfold Node.contents at h
  split at h
  · rename_i f hf; cases h; exact ⟨f, hf, rfl⟩
  · cases h

theorem modes_file {n : Node} {m : Nat} {mo : Modes} (h : n.modes? m = some mo) :
    ∃ f, n.fs.mnodes m = some (.file f) ∧ f.modes = mo := by
  unfold Node.modes? at h
  split at h
  · rename_i f hf; cases h; exact ⟨f, hf, rfl⟩
  · cases h

theorem file_mnode_ge {n : Node} (h : n.Inv) {m : Nat} {f : File}
    (hm : n.fs.mnodes m = some (.file f)) : 2 ≤ m := by
  have h1 := (h.fs.bound m _ hm).1
  by_cases q : m = 1
  · subst q; have := h.fs.root _ hm; cases this
  · omega

theorem submit_fdToMnode (n : Node) (nlogs pid : Nat) (fd : Fd) (e : FdEntry)
    (he : n.fd? pid fd = some e) :
    n.submit nlogs (.fdToMnode pid fd) = (.ok (.mappedFileToMnode e.mnode), n) := by
  unfold Node.fd? at he
  simp only [Node.submit, Access.logs, Node.dispatch]
  cases hp : n.procs pid with
  | none => rw [hp] at he; cases he
  | some t => rw [hp] at he; simp [show t fd = some e from he]

theorem call_write_eq (n : Node) (nlogs pid : Nat) (fd : Fd) (e : FdEntry) (d : List UInt8)
    (off : Option Nat) (env : Env) (hn : 0 < nlogs) (he : n.fd? pid fd = some e)
    (hm : 2 ≤ e.mnode) :
    n.call nlogs (.write pid fd d off) env = n.fileWrite pid fd d off env := by
  simp only [Node.call, submit_fdToMnode n nlogs pid fd e he, Node.submitMut, Modify.logs, logOf]
  rw [if_neg (by omega)]
  rfl

theorem call_read_eq (n : Node) (nlogs pid : Nat) (fd : Fd) (e : FdEntry) (d : List UInt8)
    (off : Option Nat) (env : Env) (hn : 0 < nlogs) (he : n.fd? pid fd = some e)
    (hm : 2 ≤ e.mnode) :
    n.call nlogs (.read pid fd d off) env = n.fileRead pid fd d off := by
  simp only [Node.call, submit_fdToMnode n nlogs pid fd e he]
  simp only [Node.submit, Access.logs, logOf]
  rw [if_neg (by omega)]
  rfl

theorem fd?_table {n : Node} {pid : Nat} {fd : Fd} {e : FdEntry} (he : n.fd? pid fd = some e) :
    ∃ t, n.procs pid = some t ∧ t fd = some e := by
  unfold Node.fd? at he
  split at he
  · rename_i t ht; exact ⟨t, ht, he⟩
  · cases he

/-- A permitted write, by cases on the offset argument. -/
theorem write_effect (n : Node) (h : n.Inv) (nlogs pid : Nat) (fd : Fd) (e : FdEntry)
    (d : List UInt8) (off : Option Nat) (hn : 0 < nlogs)
    (he : n.fd? pid fd = some e) (hw : e.flags.write = true) (bs : List UInt8)
    (hbs : n.contents e.mnode = some bs) (mo : Modes) (hmo : n.modes? e.mnode = some mo)
    (hmw : mo.writable = true) :
    let o := off.getD (if e.flags.append then bs.length else e.offset)
    ∃ n', n.call nlogs (.write pid fd d off) Env.good = (.ok (.fileAccessed d.length), n') ∧
      n'.contents e.mnode = some (writeAt bs o d) ∧ n'.modes? e.mnode = some mo ∧
      n'.fs.files = n.fs.files ∧
      (∀ m, m ≠ e.mnode → n'.fs.mnodes m = n.fs.mnodes m) ∧
      n'.fd? pid fd = some (if off.isNone then { e with offset := o + d.length } else e) ∧
      (∀ pid' fd', (pid', fd') ≠ (pid, fd) → n'.fd? pid' fd' = n.fd? pid' fd') := by
  obtain ⟨f, hf, hfb⟩ := contents_file hbs
  obtain ⟨f', hf', hfm⟩ := modes_file hmo
  rw [hf] at hf'
  have hff : f = f' := by simpa using hf'
  subst hff
  have h2 := file_mnode_ge h hf
  rw [call_write_eq n nlogs pid fd e d off Env.good hn he h2]
  obtain ⟨t, ht, hte⟩ := fd?_table he
  have hch : Chunked f.mcache := h.fs.wf _ _ hf
  have hoff : n.writeOffset e off = .ok (off.getD (if e.flags.append then bs.length else e.offset)) := by
    unfold Node.writeOffset
    cases off with
    | some o => rfl
    | none =>
      simp only [Option.getD_none]
      split
      · simp [MlnrFS.fileInfo, hf, Outcome.map, getSize_eq f hch, hfb]
      · rfl
  simp only
  generalize (off.getD (if e.flags.append then bs.length else e.offset)) = o at *
  unfold Node.fileWrite
  simp only [ht, hte, hw, Bool.not_true, Bool.false_eq_true, if_false, hoff]
  have hwr := writeFile_spec f d o Env.good.oom hch
  rcases hwr with ⟨g, w1, w2, w3, w4⟩ | ⟨g, _, w2, _⟩
  · have : n.fs.write e.mnode d o Env.good =
        (.ok d.length, { n.fs with mnodes := upd n.fs.mnodes e.mnode (some (.file g)) }) := by
      simp [MlnrFS.write, hf, MemNode.write, hfm, hmw, w1]
    rw [this]
    refine ⟨_, rfl, ?_, ?_, rfl, ?_, ?_, ?_⟩
    · simp [Node.contents, w4, hfb]
    · simp [Node.modes?, w2, hfm]
    · intro m hm; simp [upd_other _ _ hm]
    · rw [Node.setEntry_fd? n pid t ht]; simp
    · intro pid' fd' hne
      rw [Node.setEntry_fd? n pid t ht, if_neg]
      intro q; exact hne (by rw [q.1, q.2])
  · exact absurd rfl w2

/-- A permitted read. -/
theorem read_effect (n : Node) (h : n.Inv) (nlogs pid : Nat) (fd : Fd) (e : FdEntry)
    (dst : List UInt8) (off : Option Nat) (env : Env) (hn : 0 < nlogs)
    (he : n.fd? pid fd = some e) (hw : e.flags.read = true) (bs : List UInt8)
    (hbs : n.contents e.mnode = some bs) (mo : Modes) (hmo : n.modes? e.mnode = some mo)
    (hmw : mo.readable = true) :
    let o := off.getD e.offset
    let p := readAt bs o dst.length
    ∃ n', n.call nlogs (.read pid fd dst off) env =
        (.ok (.fileRead p.length (p ++ dst.drop p.length)), n') ∧
      n'.fs = n.fs ∧
      n'.fd? pid fd = some (if off.isNone then { e with offset := o + p.length } else e) ∧
      (∀ pid' fd', (pid', fd') ≠ (pid, fd) → n'.fd? pid' fd' = n.fd? pid' fd') := by
  obtain ⟨f, hf, hfb⟩ := contents_file hbs
  obtain ⟨f', hf', hfm⟩ := modes_file hmo
  rw [hf] at hf'
  have hff : f = f' := by simpa using hf'
  subst hff
  have h2 := file_mnode_ge h hf
  rw [call_read_eq n nlogs pid fd e dst off env hn he h2]
  obtain ⟨t, ht, hte⟩ := fd?_table he
  have hch : Chunked f.mcache := h.fs.wf _ _ hf
  simp only
  unfold Node.fileRead
  simp only [ht, hte, hw, Bool.not_true, Bool.false_eq_true, if_false]
  have : n.fs.read e.mnode dst (off.getD e.offset) =
      .ok ((readAt bs (off.getD e.offset) dst.length).length,
        readAt bs (off.getD e.offset) dst.length
          ++ dst.drop (readAt bs (off.getD e.offset) dst.length).length) := by
    simp only [MlnrFS.read, hf]
    rw [read_spec f hch (by rw [hfm]; exact hmw), hfb]
  rw [this]
  refine ⟨_, rfl, rfl, ?_, ?_⟩
  · simp only [Node.setTable]
    rw [Node.setEntry_fd? n pid t ht]; simp
  · intro pid' fd' hne
    simp only [Node.setTable]
    rw [Node.setEntry_fd? n pid t ht, if_neg]
    intro q; exact hne (by rw [q.1, q.2])

theorem contents_congr {n n' : Node} (h : n'.fs = n.fs) (m : Nat) :
    n'.contents m = n.contents m ∧ n'.modes? m = n.modes? m := by
  simp [Node.contents, Node.modes?, h]

theorem readAt_append (bs : List UInt8) (o a b : Nat) :
    readAt bs o (a + b) = readAt bs o a ++ readAt bs (o + (readAt bs o a).length) b := by
  simp only [readAt, List.length_take, List.length_drop]
  rw [List.take_add]
  congr 1
  rw [List.drop_drop]
  rcases Nat.le_total a (bs.length - o) with h | h
  · rw [Nat.min_eq_left h]
  · rw [Nat.min_eq_right h, List.drop_of_length_le (by omega), List.drop_of_length_le (by omega)]

theorem overwrite_full (l d : List UInt8) (o : Nat) (h : o = l.length) :
    overwrite (l ++ List.replicate d.length 0) o d = l ++ d := by
  subst h; simp [overwrite]

theorem writeAt_end (bs d : List UInt8) : writeAt bs bs.length d = bs ++ d := by
  unfold writeAt zeroExtend
  rw [show bs.length + d.length - bs.length = d.length by omega]
  exact overwrite_full bs d _ rfl

theorem writeAt_writeAt (bs a b : List UInt8) (o : Nat) :
    writeAt (writeAt bs o a) (o + a.length) b = writeAt bs o (a ++ b) := by
  apply List.ext_getElem?
  intro i
  simp only [writeAt_getElem?, writeAt_length, List.length_append, List.getElem?_append]
  have e1 : i - (o + a.length) = i - o - a.length := by omega
  rw [e1]
  repeat' split
  all_goals first | rfl | omega | skip
  all_goals simp_all
  all_goals omega

/-! ## C04: permissions, through the whole interface -/

/-- **C04** Once a file without write permission exists, no sequence of calls by anybody
changes a byte of it (it can only be deleted): its inode is the same object or gone. -/
theorem c04_readonly_file_never_changes (nlogs : Nat) (n : Node) (hr : Reachable nlogs n)
    (m : Nat) (mo : Modes) (bs : List UInt8) (hmo : n.modes? m = some mo)
    (hbs : n.contents m = some bs) (hw : mo.writable = false) (cs : List (Call × Env)) :
    let n' := (n.calls nlogs cs).2
    (n'.contents m = some bs ∧ n'.modes? m = some mo) ∨ n'.fs.mnodes m = none := by
  have hev := (n.calls_inv hr.inv nlogs cs).2
  obtain ⟨f, hf, hfm⟩ := modes_file hmo
  simp only
  cases hx : (n.calls nlogs cs).2.fs.mnodes m with
  | none => exact .inr rfl
  | some y =>
    left
    have hk := hev.kind m _ y hf hx
    cases y with
    | directory => exact hk.elim
    | file g =>
      have hfg : f = g := hk.2 (by rw [hfm]; exact hw)
      subst hfg
      simp [Node.contents, Node.modes?, hf, hx] at *
      exact ⟨hbs, hmo⟩

/-- **C04** A file without read permission never yields data, whatever flags it was opened
with; in particular the caller's buffer is never returned filled. -/
theorem c04_unreadable_file_never_read (nlogs : Nat) (n : Node) (hr : Reachable nlogs n)
    (hn : 0 < nlogs) (pid : Nat) (fd : Fd) (e : FdEntry) (he : n.fd? pid fd = some e) (mo : Modes)
    (hmo : n.modes? e.mnode = some mo) (hw : mo.readable = false) (dst : List UInt8)
    (off : Option Nat) (env : Env) :
    n.call nlogs (.read pid fd dst off) env = (.err .permissionError, n) := by
  obtain ⟨f, hf, hfm⟩ := modes_file hmo
  rw [call_read_eq n nlogs pid fd e dst off env hn he (file_mnode_ge hr.inv hf)]
  obtain ⟨t, ht, hte⟩ := fd?_table he
  unfold Node.fileRead
  simp only [ht, hte]
  split
  · rfl
  · simp [MlnrFS.read, hf, MemNode.read, hfm, hw]

/-- **C04** The flags given at open time restrict as well: without the write (read) flag every
write (read) through the descriptor fails and changes nothing. -/
theorem c04_flags_enforced (nlogs : Nat) (n : Node) (hr : Reachable nlogs n)
    (hn : 0 < nlogs) (pid : Nat) (fd : Fd) (e : FdEntry) (he : n.fd? pid fd = some e)
    (hfile : (n.modes? e.mnode).isSome) (d : List UInt8) (off : Option Nat) (env : Env) :
    (e.flags.write = false →
      n.call nlogs (.write pid fd d off) env = (.err .permissionError, n)) ∧
    (e.flags.read = false →
      n.call nlogs (.read pid fd d off) env = (.err .permissionError, n)) := by
  obtain ⟨mo, hmo⟩ := Option.isSome_iff_exists.1 hfile
  obtain ⟨f, hf, hfm⟩ := modes_file hmo
  obtain ⟨t, ht, hte⟩ := fd?_table he
  constructor
  · intro h
    rw [call_write_eq n nlogs pid fd e d off env hn he (file_mnode_ge hr.inv hf)]
    simp [Node.fileWrite, ht, hte, h]
  · intro h
    rw [call_read_eq n nlogs pid fd e d off env hn he (file_mnode_ge hr.inv hf)]
    simp [Node.fileRead, ht, hte, h]

/-! ## C05, C06: descriptors -/

theorem fd_le_of_not_lt {i j : Fd} (h : ¬ i < j) : j ≤ i := Fin.not_lt.1 h

theorem call_open_eq (n : Node) (nlogs pid : Nat) (name : String) (flags : Flags)
    (modes : Modes) (env : Env) :
    n.call nlogs (.open pid name flags modes) env = n.fileOpen pid name flags modes env := rfl

/-- **C05** A successful open returns the smallest descriptor that was not open in the process
before, and changes no other descriptor of any process. -/
theorem c05_open_returns_lowest (n n' : Node) (nlogs pid : Nat) (name : String) (flags : Flags)
    (modes : Modes) (env : Env) (fd : Fd)
    (h : n.call nlogs (.open pid name flags modes) env = (.ok (.fileOpened fd), n')) :
    n.fd? pid fd = none ∧ (∀ j, j < fd → n.fd? pid j ≠ none) ∧ n'.fd? pid fd ≠ none ∧
    (∀ pid' fd', (pid', fd') ≠ (pid, fd) → n'.fd? pid' fd' = n.fd? pid' fd') := by
  rw [call_open_eq, Node.fileOpen_cases] at h
  split at h
  · cases h
  · cases hp : n.procs pid with
    | none => rw [hp] at h; cases h
    | some t =>
      rw [hp] at h
      simp only at h
      cases hpos : t.position with
      | none => rw [hpos] at h; cases h
      | some fid =>
        rw [hpos] at h
        simp only at h
        revert h
        generalize n.openTarget name flags modes env = r
        obtain ⟨r1, fs1⟩ := r
        cases r1 with
        | panic => intro h; cases h
        | err e => intro h; cases h
        | ok m =>
          intro h
          cases h
          obtain ⟨q1, q2⟩ := (t.position_spec.1 fd hpos)
          refine ⟨by simp [Node.fd?, hp, q1], ?_, ?_, ?_⟩
          · intro j hj; simpa [Node.fd?, hp] using q2 j hj
          · rw [Node.setEntry_fd? n pid t hp]; simp
          · intro pid' fd' hne
            rw [Node.setEntry_fd? n pid t hp, if_neg]
            intro q; exact hne (by rw [q.1, q.2])

/-- **C05** Opening fails for lack of descriptors exactly when all of them are in use (for a
registered process and a name that exists or may be created). -/
theorem c05_out_of_fds_iff (n : Node) (nlogs pid : Nat) (name : String) (flags : Flags)
    (modes : Modes) (env : Env) (hp : n.procs pid ≠ none) (hr : Reachable nlogs n)
    (hname : n.fs.lookup name ≠ none ∨ flags.create = true) :
    (n.call nlogs (.open pid name flags modes) env).1 = .err .notSupported ↔
      ∀ fd, n.fd? pid fd ≠ none := by
  have hi := hr.inv.fs
  rw [call_open_eq, Node.fileOpen_cases]
  have hcond : ((n.fs.lookup name).isNone && !flags.create) = false := by
    rcases hname with h | h
    · cases hq : n.fs.lookup name <;> simp_all
    · simp [h]
  rw [if_neg (by simp [hcond])]
  cases hp' : n.procs pid with
  | none => exact absurd hp' hp
  | some t =>
    simp only
    cases hpos : t.position with
    | none =>
      simp only [true_iff]
      intro fd; simpa [Node.fd?, hp'] using t.position_spec.2 hpos fd
    | some fid =>
      simp only
      constructor
      · intro h
        exfalso
        obtain ⟨a1, _⟩ := n.openTarget_facts hi name flags modes env
        have : (n.openTarget name flags modes env).1 ≠ .err .notSupported := by
          unfold Node.openTarget
          split
          · split
            · simp only [MlnrFS.truncate]
              split
              · split
                · rename_i x _
                  cases x with
                  | directory => simp [MemNode.truncate, Outcome.map]
                  | file f => simp only [MemNode.truncate]; split <;> simp [Outcome.map]
                · simp [Outcome.map]
              · simp [Outcome.map]
            · simp
          · simp only [MlnrFS.create, MlnrFS.addNode]
            split
            · simp
            · split <;> simp
        revert h a1 this
        generalize n.openTarget name flags modes env = r
        obtain ⟨r1, fs1⟩ := r
        cases r1 <;> simp
      · intro h
        have := (t.position_spec.1 fid hpos).1
        exact absurd (by simp [Node.fd?, hp', this]) (h fid)

/-- **C05** A failed open leaves every descriptor of every process as it was. -/
theorem c05_failed_open_keeps_fds (n : Node) (nlogs pid : Nat) (name : String) (flags : Flags)
    (modes : Modes) (env : Env) (er : KError)
    (h : (n.call nlogs (.open pid name flags modes) env).1 = .err er) (pid' : Nat) (fd' : Fd) :
    (n.call nlogs (.open pid name flags modes) env).2.fd? pid' fd' = n.fd? pid' fd' := by
  rw [call_open_eq, Node.fileOpen_cases] at h ⊢
  split
  · rfl
  · rename_i hc
    rw [if_neg hc] at h
    cases hp : n.procs pid with
    | none => rfl
    | some t =>
      rw [hp] at h
      simp only at h ⊢
      cases hpos : t.position with
      | none => rfl
      | some fid =>
        rw [hpos] at h
        simp only at h ⊢
        revert h
        generalize n.openTarget name flags modes env = r
        obtain ⟨r1, fs1⟩ := r
        cases r1 with
        | panic => intro h; cases h
        | ok m => intro h; cases h
        | err e =>
          intro _
          simp only
          rw [Node.setEntry_fd? n pid t hp]
          split
          · rename_i q
            rw [q.1, q.2]
            simp [Node.fd?, hp, (t.position_spec.1 fid hpos).1]
          · rfl

/-- **C05** Closing: an open descriptor is freed and nothing else changes; closing one that is
not open is an error without effect. -/
theorem c05_close (n : Node) (nlogs pid : Nat) (fd : Fd) (env : Env) (hp : n.procs pid ≠ none) :
    let r := n.call nlogs (.close pid fd) env
    (n.fd? pid fd ≠ none → r.1 = .ok (.fileClosed fd) ∧ r.2.fd? pid fd = none) ∧
    (n.fd? pid fd = none → r.1 = .err .invalidFileDescriptor ∧ r.2.fd? pid fd = none) ∧
    (∀ pid' fd', (pid', fd') ≠ (pid, fd) → r.2.fd? pid' fd' = n.fd? pid' fd') ∧
    r.2.fs = n.fs := by
  have heq : n.call nlogs (.close pid fd) env = n.fileClose pid fd := rfl
  simp only [heq]
  unfold Node.fileClose
  cases hp' : n.procs pid with
  | none => exact absurd hp' hp
  | some t =>
    simp only [FdTable.deallocate]
    cases ht : t fd with
    | none =>
      simp only [Node.setTable]
      have hfd : n.fd? pid fd = none := by simp [Node.fd?, hp', ht]
      have hsame : ∀ p q, Node.fd? { procs := upd n.procs pid (some t), fs := n.fs } p q = n.fd? p q := by
        intro p q
        simp only [Node.fd?, upd_apply]
        by_cases hq : p = pid
        · subst hq; simp [hp']
        · simp [hq]
      refine ⟨fun h => absurd hfd h, fun _ => ⟨by trivial, ?_⟩, fun p q _ => hsame p q, by trivial⟩
      rw [hsame, hfd]
    | some e =>
      simp only [Node.setTable]
      have hfd : n.fd? pid fd ≠ none := by simp [Node.fd?, hp', ht]
      refine ⟨fun _ => ⟨by trivial, ?_⟩, fun h => absurd h hfd, ?_, by trivial⟩
      · rw [Node.setEntry_fd? n pid t hp']; simp
      · intro p q hne
        rw [Node.setEntry_fd? n pid t hp', if_neg]
        intro hq; exact hne (by rw [hq.1, hq.2])

/-- **C06** After a successful open the descriptor refers to the inode the name denotes now,
with the given flags and implicit offset 0, whatever the number was used for before. -/
theorem c06_fresh_descriptor (n n' : Node) (nlogs pid : Nat) (hr : Reachable nlogs n) (name : String)
    (flags : Flags) (modes : Modes) (env : Env) (fd : Fd)
    (h : n.call nlogs (.open pid name flags modes) env = (.ok (.fileOpened fd), n')) :
    ∃ m, n'.fs.lookup name = some m ∧ n'.fd? pid fd = some ⟨m, flags, 0⟩ ∧
      (∀ m0, n.fs.lookup name = some m0 → m = m0) ∧
      (n.fs.lookup name = none → n'.contents m = some [] ∧ n'.modes? m = some modes) ∧
      (flags.truncate = true → n'.contents m = some []) ∧
      (flags.truncate = false → ∀ m0, n.fs.lookup name = some m0 → n'.fs = n.fs) := by
  have hi := hr.inv.fs
  rw [call_open_eq, Node.fileOpen_cases] at h
  split at h
  · cases h
  · cases hp : n.procs pid with
    | none => rw [hp] at h; cases h
    | some t =>
      rw [hp] at h
      simp only at h
      cases hpos : t.position with
      | none => rw [hpos] at h; cases h
      | some fid =>
        rw [hpos] at h
        simp only at h
        obtain ⟨_, _, _, a4⟩ := n.openTarget_facts hi name flags modes env
        -- facts about the table part
        have key : ∀ m fs1, n.openTarget name flags modes env = (.ok m, fs1) →
            (∀ m0, n.fs.lookup name = some m0 → m = m0) ∧
            (n.fs.lookup name = none → fs1.mnodes m = some (.file (File.new modes))) ∧
            (flags.truncate = true → ∃ g, fs1.mnodes m = some (.file g) ∧ g.mcache = []) ∧
            (flags.truncate = false → ∀ m0, n.fs.lookup name = some m0 → fs1 = n.fs) := by
          intro m fs1 ho
          unfold Node.openTarget at ho
          cases hl : n.fs.lookup name with
          | some m0 =>
            rw [hl] at ho
            simp only at ho
            split at ho
            · rename_i htr
              have hq : ∃ x g, n.fs.mnodes m0 = some x ∧ (n.fs.truncate name) =
                  (.ok (), { n.fs with mnodes := upd n.fs.mnodes m0 (some (.file g)) }) ∧
                  g.mcache = [] := by
                have hl' : n.fs.files name = some m0 := hl
                obtain ⟨x, hx⟩ := hi.live name m0 hl'
                unfold MlnrFS.truncate at ho ⊢
                rw [hl'] at ho ⊢
                simp only [hx] at ho ⊢
                cases x with
                | directory => simp [MemNode.truncate, Outcome.map] at ho
                | file f =>
                  simp only [MemNode.truncate] at ho ⊢
                  by_cases hw : f.modes.writable = true
                  · exact ⟨_, f.truncate, rfl, by simp [hw], rfl⟩
                  · simp [hw, Outcome.map] at ho
              obtain ⟨x, g, _, hq2, hq3⟩ := hq
              rw [hq2] at ho
              simp only [Outcome.map, Prod.mk.injEq, Outcome.ok.injEq] at ho
              obtain ⟨rfl, rfl⟩ := ho
              refine ⟨fun q hq => by simpa using hq, fun hq => by simp at hq, fun _ => ⟨g, by simp, hq3⟩,
                fun hq => by rw [htr] at hq; cases hq⟩
            · rename_i htr
              cases ho
              exact ⟨fun q hq => by simpa using hq, fun hq => by simp at hq,
                fun hq => absurd hq htr, fun _ _ _ => rfl⟩
          | none =>
            rw [hl] at ho
            simp only [MlnrFS.create, MlnrFS.addNode] at ho
            rw [show n.fs.files name = none from hl] at ho
            simp only at ho
            split at ho
            · cases ho
            · cases ho
              exact ⟨fun q hq => by simp at hq, fun _ => by simp,
                fun _ => ⟨_, by simp; rfl, rfl⟩, fun _ _ hq => by simp at hq⟩
        revert h a4 key
        generalize n.openTarget name flags modes env = r
        obtain ⟨r1, fs1⟩ := r
        cases r1 with
        | panic => intro h; cases h
        | err e => intro h; cases h
        | ok m =>
          intro h a4 key
          cases h
          obtain ⟨k1, k2, k3, k4⟩ := key m fs1 rfl
          refine ⟨m, a4 m rfl, ?_, k1, ?_, ?_, ?_⟩
          · rw [Node.setEntry_fd? n pid t hp]; simp
          · intro hq; simp [Node.contents, Node.modes?, k2 hq, File.new]
          · intro hq
            obtain ⟨g, hg, hg'⟩ := k3 hq
            simp [Node.contents, hg, hg']
          · exact k4

/-! ## C07: implicit offsets -/

/-- **C07** Consecutive writes without explicit offset through a descriptor concatenate at the
descriptor's offset: writing the pieces `ds` one by one has the effect of writing their
concatenation once at the offset where the descriptor was. -/
theorem c07_sequential_writes (nlogs : Nat) (hn : 0 < nlogs) (n : Node)
    (hr : Reachable nlogs n) (pid : Nat) (fd : Fd) (e : FdEntry) (he : n.fd? pid fd = some e)
    (hw : e.flags.write = true) (hna : e.flags.append = false) (bs : List UInt8)
    (hbs : n.contents e.mnode = some bs) (mo : Modes) (hmo : n.modes? e.mnode = some mo)
    (hmw : mo.writable = true) (d : List UInt8) (ds : List (List UInt8)) :
    let r := n.calls nlogs ((d :: ds).map fun x => (.write pid fd x none, Env.good))
    r.1 = (d :: ds).map (fun x => .ok (.fileAccessed x.length)) ∧
    r.2.contents e.mnode = some (writeAt bs e.offset (d :: ds).flatten) ∧
    r.2.fd? pid fd = some { e with offset := e.offset + (d :: ds).flatten.length } := by
  induction ds generalizing n bs e d with
  | nil =>
    obtain ⟨n', w1, w2, _, _, _, w6, _⟩ := write_effect n hr.inv nlogs pid fd e d none hn he hw bs
      hbs mo hmo hmw
    simp only [List.map_cons, List.map_nil, Node.calls, w1]
    simp only [hna] at w2 w6
    simpa using ⟨w2, w6⟩
  | cons d2 ds ih =>
    obtain ⟨n', w1, w2, w3, _, _, w6, _⟩ := write_effect n hr.inv nlogs pid fd e d none hn he hw bs
      hbs mo hmo hmw
    have hr' : Reachable nlogs n' := by
      have := hr.call (.write pid fd d none) Env.good
      rw [w1] at this; exact this
    simp only [hna, Bool.false_eq_true, if_false, Option.getD_none, Option.isNone_none,
      if_true] at w2 w6
    obtain ⟨i1, i2, i3⟩ := ih n' hr' { e with offset := e.offset + d.length } w6 hw hna _ w2 w3 d2
    rw [List.map_cons]
    simp only [Node.calls, w1]
    refine ⟨?_, ?_, ?_⟩
    · rw [i1]; rfl
    · rw [i2, writeAt_writeAt]; simp
    · rw [i3]; simp [Nat.add_assoc]

/-- **C07** Through a descriptor opened for appending, writes without explicit offset add to
the end of the file. -/
theorem c07_sequential_appends (nlogs : Nat) (hn : 0 < nlogs) (n : Node)
    (hr : Reachable nlogs n) (pid : Nat) (fd : Fd) (e : FdEntry) (he : n.fd? pid fd = some e)
    (hw : e.flags.write = true) (hna : e.flags.append = true) (bs : List UInt8)
    (hbs : n.contents e.mnode = some bs) (mo : Modes) (hmo : n.modes? e.mnode = some mo)
    (hmw : mo.writable = true) (ds : List (List UInt8)) :
    let r := n.calls nlogs (ds.map fun x => (.write pid fd x none, Env.good))
    r.1 = ds.map (fun x => .ok (.fileAccessed x.length)) ∧
    r.2.contents e.mnode = some (bs ++ ds.flatten) := by
  induction ds generalizing n bs e with
  | nil => simpa [Node.calls] using hbs
  | cons d ds ih =>
    obtain ⟨n', w1, w2, w3, _, _, w6, _⟩ := write_effect n hr.inv nlogs pid fd e d none hn he hw bs
      hbs mo hmo hmw
    have hr' : Reachable nlogs n' := by
      have := hr.call (.write pid fd d none) Env.good
      rw [w1] at this; exact this
    simp only [hna, if_true, Option.getD_none, Option.isNone_none, writeAt_end] at w2 w6
    obtain ⟨i1, i2⟩ := ih n' hr' { e with offset := bs.length + d.length } w6 hw hna _ w2 w3
    rw [List.map_cons]
    simp only [Node.calls, w1]
    refine ⟨?_, ?_⟩
    · rw [i1]; rfl
    · rw [i2]; simp

/-- **C07** Consecutive reads without explicit offset (on one replica) return consecutive pieces
of the file: together the pieces are what one big read at the descriptor's offset returns, and
the file is unchanged. -/
theorem c07_sequential_reads (nlogs : Nat) (hn : 0 < nlogs) (n : Node)
    (hr : Reachable nlogs n) (pid : Nat) (fd : Fd) (e : FdEntry) (he : n.fd? pid fd = some e)
    (hrd : e.flags.read = true) (bs : List UInt8)
    (hbs : n.contents e.mnode = some bs) (mo : Modes) (hmo : n.modes? e.mnode = some mo)
    (hmr : mo.readable = true) (dsts : List (List UInt8)) :
    let r := n.calls nlogs (dsts.map fun x => (.read pid fd x none, Env.good))
    ∃ pieces : List (List UInt8), pieces.length = dsts.length ∧
      r.1 = List.zipWith (fun p d => .ok (.fileRead p.length (p ++ d.drop p.length))) pieces dsts ∧
      pieces.flatten = readAt bs e.offset (dsts.map List.length).sum ∧
      r.2.fs = n.fs ∧
      r.2.fd? pid fd = some { e with offset := e.offset + pieces.flatten.length } := by
  induction dsts generalizing n e with
  | nil => exact ⟨[], rfl, rfl, by simp [readAt], rfl, by simpa [Node.calls] using he⟩
  | cons d ds ih =>
    obtain ⟨n', w1, w2, w3, _⟩ := read_effect n hr.inv nlogs pid fd e d none Env.good hn he hrd bs
      hbs mo hmo hmr
    have hr' : Reachable nlogs n' := by
      have := hr.call (.read pid fd d none) Env.good
      rw [w1] at this; exact this
    simp only [Option.getD_none, Option.isNone_none, if_true] at w1 w3
    have hc := contents_congr w2 e.mnode
    obtain ⟨ps, i1, i2, i3, i4, i5⟩ := ih n' hr'
      { e with offset := e.offset + (readAt bs e.offset d.length).length } w3 hrd
      (hc.1.trans hbs) (hc.2.trans hmo)
    refine ⟨readAt bs e.offset d.length :: ps, by simp [i1], ?_, ?_, ?_, ?_⟩
    · rw [List.map_cons]
      simp only [Node.calls, w1, i2, List.zipWith_cons_cons]
    · simp only [List.flatten_cons, List.map_cons, List.sum_cons, i3]
      rw [readAt_append]
    · rw [List.map_cons]
      simp only [Node.calls, w1, i4, w2]
    · rw [List.map_cons]
      simp only [Node.calls, w1, i5, List.flatten_cons, List.length_append, Nat.add_assoc]

/-- **C07** I/O with an explicit offset uses that offset and does not move the implicit one. -/
theorem c07_explicit_offset (nlogs : Nat) (hn : 0 < nlogs) (n : Node)
    (hr : Reachable nlogs n) (pid : Nat) (fd : Fd) (e : FdEntry) (he : n.fd? pid fd = some e)
    (bs : List UInt8) (hbs : n.contents e.mnode = some bs) (mo : Modes)
    (hmo : n.modes? e.mnode = some mo) (d : List UInt8) (o : Nat) :
    (e.flags.write = true → mo.writable = true →
      let r := n.call nlogs (.write pid fd d (some o)) Env.good
      r.1 = .ok (.fileAccessed d.length) ∧ r.2.contents e.mnode = some (writeAt bs o d) ∧
      r.2.fd? pid fd = some e) ∧
    (e.flags.read = true → mo.readable = true →
      let r := n.call nlogs (.read pid fd d (some o)) Env.good
      r.1 = .ok (.fileRead (readAt bs o d.length).length
        (readAt bs o d.length ++ d.drop (readAt bs o d.length).length)) ∧
      r.2.fs = n.fs ∧ r.2.fd? pid fd = some e) := by
  constructor
  · intro h1 h2
    obtain ⟨n', w1, w2, _, _, _, w6, _⟩ := write_effect n hr.inv nlogs pid fd e d (some o) hn he h1 bs
      hbs mo hmo h2
    simp only [w1]
    exact ⟨by trivial, by simpa using w2, by simpa using w6⟩
  · intro h1 h2
    obtain ⟨n', w1, w2, w3, _⟩ := read_effect n hr.inv nlogs pid fd e d (some o) Env.good hn he h1 bs
      hbs mo hmo h2
    simp only [w1]
    exact ⟨by simp, w2, by simpa using w3⟩

/-- **C02** The information call on an existing name reports kind and true size: a file is reported
as a file (type 2) with exactly the length of its contents, a directory (type 1) other than the
root with size 0; the call changes nothing. -/
theorem c02_info_call (nlogs : Nat) (hn : 0 < nlogs) (n : Node) (hr : Reachable nlogs n)
    (pid : Nat) (name : String) (m : Nat) (env : Env) (hp : n.procs pid ≠ none)
    (hm : n.fs.lookup name = some m) (h2 : 2 ≤ m) :
    (∀ bs, n.contents m = some bs →
      n.call nlogs (.info pid name) env = (.ok (.fileInfo (2, bs.length)), n)) ∧
    (n.fs.mnodes m = some .directory →
      n.call nlogs (.info pid name) env = (.ok (.fileInfo (1, 0)), n)) := by
  obtain ⟨t, ht⟩ := Option.ne_none_iff_exists'.1 hp
  have hl : logOf m nlogs = .ok ((m - 2) % nlogs) := by
    unfold logOf; rw [if_neg (by omega)]
  have hcall : n.call nlogs (.info pid name) env = ((n.fs.fileInfo m).map .fileInfo, n) := by
    simp [Node.call, Node.submit, Access.logs, Node.dispatch, ht, hm, hl, Outcome.map]
  rw [hcall]
  constructor
  · intro bs hbs
    obtain ⟨f, hf, hfb⟩ := contents_file hbs
    simp [MlnrFS.fileInfo, hf, Outcome.map, getSize_eq f (hr.inv.fs.wf _ _ hf), hfb]
  · intro hd
    simp [MlnrFS.fileInfo, hd, Outcome.map]

/-! ## C08: names and inodes -/

/-- **C08** In every reachable state each name denotes an existing inode, different names denote
different inodes and every inode has a name. -/
theorem c08_names_denote_distinct_live_inodes (nlogs : Nat) (n : Node) (hr : Reachable nlogs n) :
    (∀ a m, n.fs.lookup a = some m → ∃ x, n.fs.mnodes m = some x) ∧
    (∀ a b m, n.fs.lookup a = some m → n.fs.lookup b = some m → a = b) ∧
    (∀ m x, n.fs.mnodes m = some x → ∃ a, n.fs.lookup a = some m) :=
  ⟨hr.inv.fs.live, hr.inv.fs.inj, hr.inv.fs.named⟩

/-- **C08** Inode numbers are never reused: if a name once denoted inode `m` and at a later time
no name does, then no name ever denotes `m` again. -/
theorem c08_inode_numbers_not_reused (nlogs : Nat) (n : Node) (hr : Reachable nlogs n)
    (a : String) (m : Nat) (ha : n.fs.lookup a = some m) (cs cs' : List (Call × Env))
    (hgone : ∀ b, (n.calls nlogs cs).2.fs.lookup b ≠ some m) :
    ∀ b, ((n.calls nlogs cs).2.calls nlogs cs').2.fs.lookup b ≠ some m := by
  intro b hb
  obtain ⟨x, hx⟩ := hr.inv.fs.live a m ha
  have h1 := n.calls_inv hr.inv nlogs cs
  have h2 := (n.calls nlogs cs).2.calls_inv h1.1 nlogs cs'
  obtain ⟨y, hy⟩ := h2.1.fs.live b m hb
  have hlt := Nat.lt_of_lt_of_le (hr.inv.fs.bound m x hx).2 h1.2.next
  have hnone : (n.calls nlogs cs).2.fs.mnodes m = none := by
    cases hz : (n.calls nlogs cs).2.fs.mnodes m with
    | none => rfl
    | some z =>
      obtain ⟨c, hc⟩ := h1.1.fs.named m z hz
      exact absurd hc (hgone c)
  rw [h2.2.dead m hlt hnone] at hy
  cases hy

/-- **C08** An inode keeps its kind and permissions as long as it exists: a directory never
gets contents, a file never becomes a directory, its modes never change. -/
theorem c08_kind_is_stable (nlogs : Nat) (n : Node) (hr : Reachable nlogs n) (m : Nat)
    (x y : MemNode) (cs : List (Call × Env)) (hx : n.fs.mnodes m = some x)
    (hy : (n.calls nlogs cs).2.fs.mnodes m = some y) :
    (x = .directory ↔ y = .directory) ∧
    (n.calls nlogs cs).2.modes? m = n.modes? m := by
  have hk := (n.calls_inv hr.inv nlogs cs).2.kind m x y hx hy
  cases x <;> cases y <;> simp_all [MemNode.SameKind, Node.modes?]

/-! ## C09, C10: namespace operations -/

/-- Other names than `a`. -/
theorem file?_upd_other {n : Node} {fs' : MlnrFS} {a b : String} {m : Nat} {x : MemNode}
    (hi : n.fs.Inv) (hm : n.fs.mnodes m = none ∨ n.fs.files a = some m) (hb : b ≠ a)
    (h1 : fs'.files b = n.fs.files b)
    (h2 : ∀ k, k ≠ m → fs'.mnodes k = n.fs.mnodes k) (_hx : True ∨ fs'.mnodes m = some x) :
    Node.file? { n with fs := fs' } b = n.file? b := by
  simp only [Node.file?, h1]
  cases hq : n.fs.files b with
  | none => rfl
  | some k =>
    simp only
    apply h2
    intro hkm
    subst hkm
    rcases hm with hm | hm
    · obtain ⟨z, hz⟩ := hi.live b k hq
      rw [hm] at hz; cases hz
    · exact hb (hi.inj _ _ _ hq hm)

/-- **C09** Deleting removes exactly the named entry: the name denotes nothing afterwards, all
other names denote the same inodes with the same contents, descriptors are untouched. -/
theorem c09_delete (nlogs : Nat) (n : Node) (hr : Reachable nlogs n) (pid : Nat)
    (hp : n.procs pid ≠ none) (name : String) (hex : n.fs.lookup name ≠ none) :
    let r := n.call nlogs (.delete pid name) Env.good
    r.1 = .ok .fileDeleted ∧ r.2.fs.lookup name = none ∧
    (∀ b, b ≠ name → r.2.fs.lookup b = n.fs.lookup b ∧ r.2.file? b = n.file? b) ∧
    r.2.procs = n.procs := by
  have heq : n.call nlogs (.delete pid name) Env.good = n.fileDelete pid name Env.good := rfl
  simp only [heq, Node.fileDelete]
  cases hp' : n.procs pid with
  | none => exact absurd hp' hp
  | some t =>
    simp only [MlnrFS.delete]
    cases hm : n.fs.files name with
    | none => exact absurd hm hex
    | some m =>
      simp only [Env.good, Bool.false_eq_true, if_false]
      refine ⟨by trivial, by simp [MlnrFS.lookup], ?_, by trivial⟩
      intro b hb
      have h1 : upd n.fs.files name none b = n.fs.files b := upd_other _ _ hb
      refine ⟨h1, ?_⟩
      exact file?_upd_other (x := .directory) hr.inv.fs (.inr hm) hb h1
        (fun k hk => upd_other _ _ hk) (.inl trivial)

/-- **C09** Making a directory: a new name denotes a directory afterwards, all other names are
unaffected. -/
theorem c09_mkdir (nlogs : Nat) (n : Node) (hr : Reachable nlogs n) (pid : Nat)
    (hp : n.procs pid ≠ none) (name : String) (modes : Modes)
    (hex : n.fs.lookup name = none) :
    let r := n.call nlogs (.mkdir pid name modes) Env.good
    r.1 = .ok .dirCreated ∧ r.2.file? name = some .directory ∧
    (∀ b, b ≠ name → r.2.fs.lookup b = n.fs.lookup b ∧ r.2.file? b = n.file? b) ∧
    r.2.procs = n.procs := by
  have heq : n.call nlogs (.mkdir pid name modes) Env.good = n.mkDir pid name modes Env.good := rfl
  simp only [heq, Node.mkDir]
  cases hp' : n.procs pid with
  | none => exact absurd hp' hp
  | some t =>
    have hex' : n.fs.files name = none := hex
    simp only [MlnrFS.mkdir, MlnrFS.addNode, hex', Env.good, Bool.false_eq_true, if_false]
    have hnb : n.fs.mnodes n.fs.next = none := by
      cases hq : n.fs.mnodes n.fs.next with
      | none => rfl
      | some y => exact absurd (hr.inv.fs.bound _ _ hq).2 (Nat.lt_irrefl _)
    refine ⟨by trivial, by simp [Node.file?], ?_, by trivial⟩
    intro b hb
    have h1 : upd n.fs.files name (some n.fs.next) b = n.fs.files b := upd_other _ _ hb
    exact ⟨h1, file?_upd_other (x := .directory) hr.inv.fs (.inl hnb) hb h1
      (fun k hk => upd_other _ _ hk) (.inl trivial)⟩

/-- **C09** Opening: names other than the opened one are unaffected; without `O_TRUNC` an
existing file is not changed either. -/
theorem c09_open_frame (nlogs : Nat) (n : Node) (hr : Reachable nlogs n) (pid : Nat)
    (name : String) (flags : Flags) (modes : Modes) (env : Env) :
    let r := n.call nlogs (.open pid name flags modes) env
    (∀ b, b ≠ name → r.2.fs.lookup b = n.fs.lookup b ∧ r.2.file? b = n.file? b) ∧
    (flags.truncate = false → n.fs.lookup name ≠ none → r.2.fs = n.fs) := by
  have key : ∀ r, r = n.openTarget name flags modes env →
      (∀ b, b ≠ name → r.2.files b = n.fs.files b ∧
        Node.file? { n with fs := r.2 } b = n.file? b) ∧
      (flags.truncate = false → n.fs.lookup name ≠ none → r.2 = n.fs) := by
    intro r hrr
    subst hrr
    unfold Node.openTarget
    cases hl : n.fs.lookup name with
    | some m =>
      have hl' : n.fs.files name = some m := hl
      simp only
      split
      · rename_i ht
        refine ⟨?_, fun q => by rw [ht] at q; cases q⟩
        intro b hb
        have h1 := (n.fs.truncate_facts name).2.2
        refine ⟨by rw [h1], ?_⟩
        refine file?_upd_other (x := .directory) hr.inv.fs (.inr hl') hb (by rw [h1]) ?_ (.inl trivial)
        intro k hk
        simp only [MlnrFS.truncate, hl']
        split
        · simp [upd_other _ _ hk]
        · rfl
      · exact ⟨fun b _ => ⟨rfl, rfl⟩, fun _ _ => rfl⟩
    | none =>
      have hl' : n.fs.files name = none := hl
      simp only [MlnrFS.create, MlnrFS.addNode, hl']
      have hnb : n.fs.mnodes n.fs.next = none := by
        cases hq : n.fs.mnodes n.fs.next with
        | none => rfl
        | some y => exact absurd (hr.inv.fs.bound _ _ hq).2 (Nat.lt_irrefl _)
      split
      · exact ⟨fun b _ => ⟨rfl, rfl⟩, fun _ q => absurd rfl q⟩
      · refine ⟨?_, fun _ q => absurd rfl q⟩
        intro b hb
        have h1 : upd n.fs.files name (some n.fs.next) b = n.fs.files b := upd_other _ _ hb
        exact ⟨h1, file?_upd_other (x := .directory) hr.inv.fs (.inl hnb) hb h1
          (fun k hk => upd_other _ _ hk) (.inl trivial)⟩
  simp only [call_open_eq, Node.fileOpen_cases]
  have kk := key _ rfl
  split
  · exact ⟨fun b _ => ⟨rfl, rfl⟩, fun _ _ => rfl⟩
  · cases hp : n.procs pid with
    | none => exact ⟨fun b _ => ⟨rfl, rfl⟩, fun _ _ => rfl⟩
    | some t =>
      simp only
      cases hpos : t.position with
      | none => exact ⟨fun b _ => ⟨rfl, rfl⟩, fun _ _ => rfl⟩
      | some fid =>
        simp only
        revert kk
        generalize n.openTarget name flags modes env = r
        obtain ⟨r1, fs1⟩ := r
        rintro ⟨k1, k2⟩
        cases r1 <;> exact ⟨k1, k2⟩

/-- **C09/C10 (partial)** Renaming a file to a *different* name: the old name is gone, the new
name denotes what the old one did (replacing whatever it denoted before), all other names are
unaffected.  The full C10 also asks this for equal names, which fails, see
`c10_rename_to_itself_deletes`. -/
theorem c10_rename_to_other_name_partial (nlogs : Nat) (n : Node) (hr : Reachable nlogs n)
    (pid : Nat) (hp : n.procs pid ≠ none) (old new : String) (hne : old ≠ new)
    (hex : n.fs.lookup old ≠ none) :
    let r := n.call nlogs (.rename pid old new) Env.good
    r.1 = .ok .fileRenamed ∧ r.2.fs.lookup old = none ∧
    r.2.fs.lookup new = n.fs.lookup old ∧ r.2.file? new = n.file? old ∧
    (∀ b, b ≠ old → b ≠ new → r.2.fs.lookup b = n.fs.lookup b ∧ r.2.file? b = n.file? b) ∧
    r.2.procs = n.procs := by
  have heq : n.call nlogs (.rename pid old new) Env.good = n.fileRename pid old new Env.good := rfl
  simp only [heq, Node.fileRename]
  cases hp' : n.procs pid with
  | none => exact absurd hp' hp
  | some t =>
    simp only [MlnrFS.rename]
    cases hm : n.fs.files old with
    | none => exact absurd hm hex
    | some m =>
      simp only
      cases hm2 : n.fs.files new with
      | none =>
        simp only [MlnrFS.moveEntry, hm]
        rw [upd_other _ _ (Ne.symm hne), hm2]
        refine ⟨by trivial, ?_, ?_, ?_, ?_, by trivial⟩
        · simp [MlnrFS.lookup, upd_other _ _ hne]
        · simp [MlnrFS.lookup, hm]
        · simp [Node.file?, hm]
        · intro b hb1 hb2
          have : upd (upd n.fs.files old none) new (some m) b = n.fs.files b := by
            rw [upd_other _ _ hb2, upd_other _ _ hb1]
          refine ⟨this, ?_⟩
          simp only [Node.file?, this]
      | some k =>
        simp only [MlnrFS.delete, hm2, Env.good, Bool.false_eq_true, if_false, MlnrFS.moveEntry]
        have hmk : m ≠ k := by
          intro q; subst q; exact hne (hr.inv.fs.inj _ _ _ hm hm2)
        rw [upd_other _ _ hne, hm]
        simp only
        rw [upd_other _ _ (Ne.symm hne), upd_same]
        refine ⟨by trivial, ?_, ?_, ?_, ?_, by trivial⟩
        · simp [MlnrFS.lookup, upd_other _ _ hne]
        · simp [MlnrFS.lookup, hm]
        · simp [Node.file?, hm, upd_other _ _ hmk]
        · intro b hb1 hb2
          have hbf : upd (upd (upd n.fs.files new none) old none) new (some m) b
              = n.fs.files b := by
            rw [upd_other _ _ hb2, upd_other _ _ hb1, upd_other _ _ hb2]
          refine ⟨hbf, ?_⟩
          simp only [Node.file?, hbf]
          cases hq : n.fs.files b with
          | none => rfl
          | some j =>
            simp only
            apply upd_other
            intro q; subst q; exact hb2 (hr.inv.fs.inj _ _ _ hq hm2)

/-- **C10 is false of the code**: renaming an existing file to its own name deletes it and
reports an error (in every reachable state in which the name exists). -/
theorem c10_rename_to_itself_deletes (nlogs : Nat) (n : Node)
    (pid : Nat) (hp : n.procs pid ≠ none) (a : String) (hex : n.fs.lookup a ≠ none) :
    let r := n.call nlogs (.rename pid a a) Env.good
    r.1 = .err .invalidFile ∧ r.2.fs.lookup a = none ∧ r.2.file? a = none := by
  have heq : n.call nlogs (.rename pid a a) Env.good = n.fileRename pid a a Env.good := rfl
  simp only [heq, Node.fileRename]
  cases hp' : n.procs pid with
  | none => exact absurd hp' hp
  | some t =>
    simp only [MlnrFS.rename]
    cases hm : n.fs.files a with
    | none => exact absurd hm hex
    | some m =>
      simp [MlnrFS.delete, hm, Env.good, MlnrFS.moveEntry, Outcome.map, MlnrFS.lookup, Node.file?]

/-- **C09** A namespace call that reports an error leaves every name and every descriptor as it
was (with `rename` to the same name excluded, see C10). -/
theorem c09_failed_calls_change_nothing (nlogs : Nat) (n : Node) (hr : Reachable nlogs n)
    (c : Call) (env : Env) (er : KError)
    (hc : match c with
      | .write .. | .read .. => False
      | .rename _ a b => a ≠ b
      | _ => True)
    (h : (n.call nlogs c env).1 = .err er) :
    (∀ b, (n.call nlogs c env).2.fs.lookup b = n.fs.lookup b ∧
      (n.call nlogs c env).2.file? b = n.file? b) ∧
    (∀ pid fd, (n.call nlogs c env).2.fd? pid fd = n.fd? pid fd) := by
  have same : ∀ n' : Node, n' = n → (∀ b, n'.fs.lookup b = n.fs.lookup b ∧ n'.file? b = n.file? b) ∧
      (∀ pid fd, n'.fd? pid fd = n.fd? pid fd) := by
    intro n' h; subst h; exact ⟨fun _ => ⟨rfl, rfl⟩, fun _ _ => rfl⟩
  cases c with
  | write => exact hc.elim
  | read => exact hc.elim
  | addProcess pid =>
    apply same
    revert h
    simp only [Node.call, Node.submitMut, Modify.logs, Node.dispatchMut, Node.processAdd]
    split
    · simp
    · split <;> simp
  | «open» pid name flags modes =>
    refine ⟨?_, c05_failed_open_keeps_fds n nlogs pid name flags modes env er h⟩
    intro b
    by_cases hb : b = name
    · subst hb
      rw [call_open_eq, Node.fileOpen_cases] at h ⊢
      split
      · exact ⟨rfl, rfl⟩
      · rename_i hc2
        rw [if_neg hc2] at h
        cases hp : n.procs pid with
        | none => exact ⟨rfl, rfl⟩
        | some t =>
          rw [hp] at h
          simp only at h ⊢
          cases hpos : t.position with
          | none => exact ⟨rfl, rfl⟩
          | some fid =>
            rw [hpos] at h
            simp only at h ⊢
            have key : ∀ e, (n.openTarget b flags modes env).1 = .err e →
                (n.openTarget b flags modes env).2.files b = n.fs.files b ∧
                Node.file? { n with fs := (n.openTarget b flags modes env).2 } b = n.file? b := by
              intro e he
              unfold Node.openTarget at he ⊢
              cases hl : n.fs.lookup b with
              | some m =>
                have hl' : n.fs.files b = some m := hl
                rw [hl] at he
                simp only at he ⊢
                split
                · rename_i ht
                  rw [if_pos ht] at he
                  simp only [MlnrFS.truncate, hl'] at he ⊢
                  cases hx : n.fs.mnodes m with
                  | none => exact ⟨hl', by simp [Node.file?]⟩
                  | some x =>
                    rw [hx] at he
                    simp only at he ⊢
                    refine ⟨hl', ?_⟩
                    simp only [Node.file?, hl', upd_same]
                    cases x with
                    | directory => simp [MemNode.truncate, hx]
                    | file f =>
                      simp only [MemNode.truncate] at he ⊢
                      split
                      · simp [hx]
                      · rename_i hq; simp [hq, Outcome.map] at he
                · rename_i ht
                  rw [if_neg ht] at he
                  cases he
              | none =>
                have hl' : n.fs.files b = none := hl
                rw [hl] at he
                simp only [MlnrFS.create, MlnrFS.addNode, hl'] at he ⊢
                split
                · exact ⟨hl', by simp [Node.file?, hl']⟩
                · rename_i hq; simp [hq] at he
            revert h key
            generalize n.openTarget b flags modes env = r
            obtain ⟨r1, fs1⟩ := r
            cases r1 with
            | ok m => intro h; cases h
            | panic => intro h; cases h
            | err e => intro _ key; exact key e rfl
    · exact (c09_open_frame nlogs n hr pid name flags modes env).1 b hb
  | close pid fd =>
    by_cases hp : n.procs pid = none
    · apply same
      have : n.call nlogs (.close pid fd) env = n.fileClose pid fd := rfl
      rw [this]; simp [Node.fileClose, hp]
    · have hcl := c05_close n nlogs pid fd env hp
      simp only at hcl
      have hfs := hcl.2.2.2
      refine ⟨fun b => by simp [hfs, Node.file?], ?_⟩
      intro pid' fd'
      by_cases hq : (pid', fd') = (pid, fd)
      · cases hq
        by_cases hfd : n.fd? pid fd = none
        · rw [hfd]; exact (hcl.2.1 hfd).2
        · rw [(hcl.1 hfd).1] at h; cases h
      · exact hcl.2.2.1 pid' fd' hq
  | delete pid name =>
    apply same
    have heq : n.call nlogs (.delete pid name) env = n.fileDelete pid name env := rfl
    rw [heq] at h ⊢
    unfold Node.fileDelete at h ⊢
    split
    · rfl
    · rename_i t ht
      rw [ht] at h
      simp only [MlnrFS.delete] at h ⊢
      split
      · rename_i m hm
        rw [hm] at h
        simp only at h
        split
        · rfl
        · rename_i hq; simp [hq, Outcome.map] at h
      · rfl
  | info pid name =>
    have : (n.call nlogs (.info pid name) env).2 = n := by
      have hd : ∀ op, (∀ p f m d o, op ≠ .fileRead p f m d o) → (n.submit nlogs op).2 = n := by
        intro op hop
        unfold Node.submit
        split
        · cases op with
          | fileRead p f m d o => exact absurd rfl (hop p f m d o)
          | fileInfo => simp only [Node.dispatch]; split <;> (try split) <;> rfl
          | fdToMnode => simp only [Node.dispatch]; split <;> (try split) <;> rfl
          | fileNameToMnode => simp only [Node.dispatch]; split <;> (try split) <;> rfl
          | synchronize => rfl
        · rfl
        · rfl
      have h1 := hd (.fileNameToMnode pid name) (by simp)
      simp only [Node.call]
      split
      all_goals
        rename_i q
        rw [q] at h1
        simp only at h1
      · rw [h1]; exact hd _ (by simp)
      · exact h1
      · exact h1
      · exact h1
    exact same _ this
  | rename pid old new =>
    apply same
    have heq : n.call nlogs (.rename pid old new) env = n.fileRename pid old new env := rfl
    rw [heq] at h ⊢
    unfold Node.fileRename at h ⊢
    split
    · rfl
    · rename_i t ht
      rw [ht] at h
      have hne : old ≠ new := hc
      simp only [MlnrFS.rename] at h ⊢
      split
      · rfl
      · rename_i m hm
        rw [hm] at h
        simp only at h
        split
        · rename_i hm2
          rw [hm2] at h
          simp only [MlnrFS.moveEntry, hm] at h
          rw [upd_other _ _ (Ne.symm hne), hm2] at h
          simp [Outcome.map] at h
        · rename_i k hm2
          rw [hm2] at h
          simp only [MlnrFS.delete, hm2] at h ⊢
          by_cases hpn : env.pinned = true
          · simp [hpn, Outcome.map] at h
          · simp only [hpn, MlnrFS.moveEntry] at h
            simp [upd_other _ _ hne, upd_other _ _ (Ne.symm hne), hm, Outcome.map] at h
  | mkdir pid name modes =>
    have heq : n.call nlogs (.mkdir pid name modes) env = n.mkDir pid name modes env := rfl
    rw [heq] at h ⊢
    unfold Node.mkDir at h ⊢
    split
    · exact same _ rfl
    · rename_i t ht
      rw [ht] at h
      simp only [MlnrFS.mkdir, MlnrFS.addNode] at h ⊢
      split
      · exact same _ rfl
      · rename_i hm
        rw [hm] at h
        simp only at h
        split
        · exact ⟨fun b => ⟨rfl, rfl⟩, fun _ _ => rfl⟩
        · rename_i hq; simp [hq, Outcome.map] at h

/-! ## C11: crashes -/

/-- The process on whose behalf a call is made. -/
def Call.pid : Call → Nat
  | .addProcess pid => pid
  | .open pid .. => pid
  | .write pid .. => pid
  | .read pid .. => pid
  | .close pid _ => pid
  | .delete pid _ => pid
  | .info pid _ => pid
  | .rename pid .. => pid
  | .mkdir pid .. => pid

theorem memnode_no_panic (x : MemNode) (hx : x.Wf) (d : List UInt8) (o : Nat) (oom : Oom) :
    (x.write d o oom).1 ≠ .panic ∧ x.read d o ≠ .panic := by
  refine ⟨(runOp_wf x (.write o d) oom hx).2.2.2.1, ?_⟩
  cases x with
  | directory => simp [MemNode.read]
  | file f =>
    by_cases hr : f.modes.readable = true
    · rw [read_spec f hx hr]; simp
    · simp [MemNode.read, hr]

/-- **C11 (what remains true)** For a registered process, in every reachable state, a call crashes
the kernel *exactly* in the following cases: data access through a descriptor of the root
directory, file information of the root directory, an append write (implicit offset) through a
descriptor whose file was deleted, and a rename onto an existing name while another thread's
lookup of that name is in progress. -/
theorem c11_crash_iff_partial (nlogs : Nat) (hn : 0 < nlogs) (n : Node) (hr : Reachable nlogs n)
    (c : Call) (env : Env) (hp : n.procs c.pid ≠ none) :
    (n.call nlogs c env).1 = .panic ↔
      match c with
      | .write pid fd _ off => ∃ e, n.fd? pid fd = some e ∧
          (e.mnode = 1 ∨ (off = none ∧ e.flags.write = true ∧ e.flags.append = true ∧
            n.fs.mnodes e.mnode = none))
      | .read pid fd _ _ => ∃ e, n.fd? pid fd = some e ∧ e.mnode = 1
      | .info _ name => n.fs.lookup name = some 1
      | .rename _ old new => n.fs.lookup old ≠ none ∧ n.fs.lookup new ≠ none ∧ env.pinned = true
      | _ => False := by
  have hi := hr.inv
  cases c with
  | addProcess pid =>
    simp only [Node.call, Node.submitMut, Modify.logs, Node.dispatchMut, Node.processAdd, iff_false]
    split
    · simp
    · split <;> simp
  | «open» pid name flags modes =>
    simp only [iff_false]
    rw [call_open_eq, Node.fileOpen_cases]
    split
    · simp
    · cases hp' : n.procs pid with
      | none => exact absurd hp' hp
      | some t =>
        simp only
        cases hpos : t.position with
        | none => simp
        | some fid =>
          simp only
          have := (n.openTarget_facts hi.fs name flags modes env).1
          revert this
          generalize n.openTarget name flags modes env = r
          obtain ⟨r1, fs1⟩ := r
          cases r1 <;> simp
  | close pid fd =>
    have h := c05_close n nlogs pid fd env hp
    simp only [iff_false]
    by_cases hfd : n.fd? pid fd = none
    · rw [(h.2.1 hfd).1]; simp
    · rw [(h.1 hfd).1]; simp
  | delete pid name =>
    have heq : n.call nlogs (.delete pid name) env = n.fileDelete pid name env := rfl
    simp only [iff_false, heq, Node.fileDelete]
    split
    · simp
    · simp only [MlnrFS.delete]
      split
      · split <;> simp [Outcome.map]
      · simp [Outcome.map]
  | mkdir pid name modes =>
    have heq : n.call nlogs (.mkdir pid name modes) env = n.mkDir pid name modes env := rfl
    simp only [iff_false, heq, Node.mkDir]
    split
    · simp
    · simp only [MlnrFS.mkdir, MlnrFS.addNode]
      split
      · simp [Outcome.map]
      · split <;> simp [Outcome.map]
  | rename pid old new =>
    have heq : n.call nlogs (.rename pid old new) env = n.fileRename pid old new env := rfl
    simp only [heq, Node.fileRename]
    have hmove : ∀ fs' : MlnrFS, (fs'.moveEntry old new).1 ≠ .panic := by
      intro fs'
      simp only [MlnrFS.moveEntry]
      split
      · split <;> simp
      · simp
    have hmm : ∀ x : Outcome Unit, x.map (fun _ => NodeResult.fileRenamed) = .panic ↔ x = .panic := by
      intro x; cases x <;> simp [Outcome.map]
    cases hp' : n.procs pid with
    | none => exact absurd hp' hp
    | some t =>
      simp only [MlnrFS.rename, MlnrFS.lookup, hmm]
      cases hm : n.fs.files old with
      | none => simp
      | some m =>
        simp only
        cases hm2 : n.fs.files new with
        | none => simp [hmove]
        | some k =>
          simp only [MlnrFS.delete, hm2]
          by_cases hpn : env.pinned = true
          · simp [hpn]
          · simp [hpn, hmove]
  | info pid name =>
    simp only [Node.call, Node.submit, Access.logs, Node.dispatch]
    cases hp' : n.procs pid with
    | none => exact absurd hp' hp
    | some t =>
      simp only
      cases hl : n.fs.lookup name with
      | none => simp
      | some m =>
        obtain ⟨x, hx⟩ := hi.fs.live name m hl
        have hb := (hi.fs.bound m x hx).1
        simp only [logOf]
        by_cases hm : m = 1
        · subst hm; simp [Outcome.map]
        · rw [if_neg (by omega)]
          simp only [Outcome.map, hp', hl]
          constructor
          · intro h
            exfalso
            cases x with
            | directory => simp [MlnrFS.fileInfo, hx] at h
            | file f => simp [MlnrFS.fileInfo, hx] at h
          · intro h; exact absurd (by simpa using h) hm
  | write pid fd d off =>
    simp only
    cases he : n.fd? pid fd with
    | none =>
      simp only [Node.call, Node.submit, Access.logs, Node.dispatch]
      cases hp' : n.procs pid with
      | none => exact absurd hp' hp
      | some t =>
        have : t fd = none := by simpa [Node.fd?, hp'] using he
        simp [this]
    | some e =>
      have hb := hi.fds pid fd e he
      by_cases hm : e.mnode = 1
      · simp only [Node.call, submit_fdToMnode n nlogs pid fd e he]
        simp [Node.submitMut, Modify.logs, logOf, hm, Outcome.map]
      · rw [call_write_eq n nlogs pid fd e d off env hn he (by omega)]
        obtain ⟨t, ht, hte⟩ := fd?_table he
        simp only [Node.fileWrite, ht, hte]
        cases hw : e.flags.write with
        | false => simp [hm, hw]
        | true =>
          simp only [Bool.not_true, Bool.false_eq_true, if_false]
          have hwr : ∀ o, (n.fs.write e.mnode d o env).1 ≠ .panic := by
            intro o
            simp only [MlnrFS.write]
            split
            · rename_i x hx; exact (memnode_no_panic x (hi.fs.wf _ _ hx) d o env.oom).1
            · simp
          cases off with
          | some o =>
            simp only [Node.writeOffset]
            have := hwr o
            revert this
            generalize n.fs.write e.mnode d o env = r
            obtain ⟨r1, fs1⟩ := r
            cases r1 <;> simp [hm]
          | none =>
            simp only [Node.writeOffset]
            cases ha : e.flags.append with
            | false =>
              simp only [Bool.false_eq_true, if_false]
              have := hwr e.offset
              revert this
              generalize n.fs.write e.mnode d e.offset env = r
              obtain ⟨r1, fs1⟩ := r
              cases r1 <;> simp [hm, ha]
            | true =>
              simp only [if_true, MlnrFS.fileInfo]
              cases hx : n.fs.mnodes e.mnode with
              | none => simp [Outcome.map, hw, ha, hx]
              | some x =>
                have hgo : ∀ o, (match n.fs.write e.mnode d o env with
                    | (.ok len, fs1) =>
                      ((.ok (.fileAccessed len),
                        { procs := upd n.procs pid (some (upd t fd (some
                            (if (none : Option Nat).isNone = true then
                              { e with offset := o + len } else e)))), fs := fs1 }) :
                        Outcome NodeResult × Node)
                    | (.err er, fs1) => (.err er, { n with fs := fs1 })
                    | (.panic, fs1) => (.panic, { n with fs := fs1 })).1 ≠ .panic := by
                  intro o
                  have := hwr o
                  revert this
                  generalize n.fs.write e.mnode d o env = r
                  obtain ⟨r1, fs1⟩ := r
                  cases r1 <;> simp
                cases x with
                | directory =>
                  simp only [Outcome.map]
                  constructor
                  · intro h; exact absurd h (hgo 0)
                  · rintro ⟨e', he', h⟩
                    cases he'
                    rcases h with h | ⟨_, _, _, h⟩
                    · exact absurd h hm
                    · rw [hx] at h; cases h
                | file f =>
                  simp only [Outcome.map]
                  constructor
                  · intro h; exact absurd h (hgo f.getSize)
                  · rintro ⟨e', he', h⟩
                    cases he'
                    rcases h with h | ⟨_, _, _, h⟩
                    · exact absurd h hm
                    · rw [hx] at h; cases h
  | read pid fd d off =>
    simp only
    cases he : n.fd? pid fd with
    | none =>
      simp only [Node.call, Node.submit, Access.logs, Node.dispatch]
      cases hp' : n.procs pid with
      | none => exact absurd hp' hp
      | some t =>
        have : t fd = none := by simpa [Node.fd?, hp'] using he
        simp [this]
    | some e =>
      have hb := hi.fds pid fd e he
      by_cases hm : e.mnode = 1
      · simp only [Node.call, submit_fdToMnode n nlogs pid fd e he]
        simp [Node.submit, Access.logs, logOf, hm, Outcome.map]
      · rw [call_read_eq n nlogs pid fd e d off env hn he (by omega)]
        obtain ⟨t, ht, hte⟩ := fd?_table he
        simp only [Node.fileRead, ht, hte]
        cases hw : e.flags.read with
        | false => simp [hm]
        | true =>
          simp only [Bool.not_true, Bool.false_eq_true, if_false]
          have hrd : n.fs.read e.mnode d (off.getD e.offset) ≠ .panic := by
            simp only [MlnrFS.read]
            split
            · rename_i x hx; exact (memnode_no_panic x (hi.fs.wf _ _ hx) d _ env.oom).2
            · simp
          revert hrd
          cases n.fs.read e.mnode d (off.getD e.offset) with
          | ok p => simp [hm]
          | err e => simp [hm]
          | panic => simp

/-- Some descriptor number, for concrete runs. -/
def fd0 : Fd := ⟨0, by rw [MAX_FILES_eq]; decide⟩

/-- The concrete run used as witness: create a file for appending, delete it, write. -/
def crashRun : List (Call × Env) :=
  [(.addProcess 1, Env.good),
   (.open 1 "f" ⟨true, true, true, false, true⟩ ⟨true, true, false⟩, Env.good),
   (.delete 1 "f", Env.good),
   (.write 1 fd0 [1] none, Env.good)]

/-- **C11 is false of the code**: a process can crash the kernel by appending through a
descriptor of a file that was deleted. -/
theorem c11_append_after_delete_crashes :
    (Node.init.calls 4 crashRun).1 =
      [.ok (.processAdded 1), .ok (.fileOpened fd0), .ok .fileDeleted, .panic] := by
  decide +kernel

/-- **C11 is false of the code**: asking for information about "/" crashes (the inode number of
the root is below `MNODE_OFFSET`). -/
theorem c11_info_on_root_crashes :
    (Node.init.calls 4 [(.addProcess 1, Env.good), (.info 1 "/", Env.good)]).1 =
      [.ok (.processAdded 1), .panic] := by
  decide +kernel

/-! ## Non-vacuity: a concrete reachable state that meets the hypotheses above -/

/-- A run that leaves one file "a" with contents `[5, 6]`, open read-write as descriptor 0. -/
def demoRun : List (Call × Env) :=
  [(.addProcess 1, Env.good),
   (.open 1 "a" ⟨true, true, true, false, false⟩ ⟨true, true, false⟩, Env.good),
   (.write 1 fd0 [5, 6] none, Env.good)]

/-- The state after `demoRun`. -/
def demo : Node := (Node.init.calls 4 demoRun).2

theorem demo_reachable : Reachable 4 demo := ⟨demoRun, rfl⟩

/-- C04-C07, C09, C10: the hypotheses hold in `demo`. -/
example : demo.fd? 1 fd0 = some ⟨2, ⟨true, true, true, false, false⟩, 2⟩ ∧
    demo.contents 2 = some [5, 6] ∧ demo.modes? 2 = some ⟨true, true, false⟩ ∧
    demo.fs.lookup "a" = some 2 ∧ demo.fs.lookup "b" = none ∧
    (demo.procs 1).isSome = true := by decide +kernel

/-- C10: renaming "a" to "b" in `demo`, and to itself. -/
example : (demo.call 4 (.rename 1 "a" "b") Env.good).1 = .ok .fileRenamed ∧
    (demo.call 4 (.rename 1 "a" "a") Env.good).1 = .err .invalidFile := by decide +kernel

/-- C02: the information call on "a" in `demo` (the facts above are its hypotheses). -/
example : (demo.call 4 (.info 1 "a") Env.good).1 = .ok (.fileInfo (2, 2)) := by decide +kernel

/-- C07: two reads of one byte each, after reopening (descriptor 1). -/
example : (demo.calls 4 [(.open 1 "a" ⟨true, false, false, false, false⟩ ⟨true, true, false⟩, Env.good),
    (.read 1 ⟨1, by rw [MAX_FILES_eq]; decide⟩ [0] none, Env.good),
    (.read 1 ⟨1, by rw [MAX_FILES_eq]; decide⟩ [0, 0] none, Env.good)]).1 =
    [.ok (.fileOpened ⟨1, by rw [MAX_FILES_eq]; decide⟩), .ok (.fileRead 1 [5]),
     .ok (.fileRead 1 [6, 0])] := by decide +kernel

end NRK.Fs
