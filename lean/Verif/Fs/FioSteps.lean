import Verif.Fs.FioSim
import Verif.Fs.FsProps

/-!
# The calls, one by one
-/

namespace NRK.Fs

open NRK.Sys (SysError)
open Spec (overwrite zeroExtend readAt)

/-- The same result, and the relation holds afterwards. -/
def StepOk (pid : Nat) (r : SysRes × Node) (r' : SysRes × ModelFIO) : Prop :=
  r.1 = r'.1 ∧ ∃ t, FioSim pid r.2 r'.2 t

theorem FioSim.setFd {pid : Nat} {n : Node} {m : ModelFIO} {t : FdTable} (h : FioSim pid n m t) (fd : Fd)
    {a b : Option FdEntry} (hab : FdRel a b) :
    FioSim pid { n with procs := upd n.procs pid (some (upd t fd a)) } { m with fds := upd m.fds fd b } (upd t fd a) :=
  ⟨h.tracks, h.size, h.root, upd_same _ _ _, FdRel.upd h.fds fd hab⟩

theorem call_write_none (n : Node) (nlogs pid : Nat) (fd : Fd) (d : List UInt8) (off : Option Nat) (env : Env)
    {t : FdTable} (hp : n.procs pid = some t) (he : t fd = none) :
    n.call nlogs (.write pid fd d off) env = (.err .invalidFileDescriptor, n) := by
  simp only [Node.call, Node.submit, Access.logs, Node.dispatch, hp, he]

theorem call_read_none (n : Node) (nlogs pid : Nat) (fd : Fd) (d : List UInt8) (off : Option Nat) (env : Env)
    {t : FdTable} (hp : n.procs pid = some t) (he : t fd = none) :
    n.call nlogs (.read pid fd d off) env = (.err .invalidFileDescriptor, n) := by
  simp only [Node.call, Node.submit, Access.logs, Node.dispatch, hp, he]

theorem FdRel.none_right {b : Option FdEntry} (h : FdRel none b) : b = none := by
  cases b with
  | none => rfl
  | some _ => cases h

theorem FdRel.some_right {e : FdEntry} {b : Option FdEntry} (h : FdRel (some e) b) :
    ∃ e', b = some e' ∧ e.mnode = e'.mnode ∧ e.flags = e'.flags ∧
      (e.flags.append = false → e.offset = e'.offset) ∧ 2 ≤ e.mnode := by
  cases b with
  | none => cases h
  | some e' => exact ⟨e', rfl, h⟩

theorem Tracks.denied {fs : MlnrFS} {m : ModelFS} (h : Tracks fs m) {mn : Nat} {x : MemNode} (hx : fs.mnodes mn = some x) :
    m.oplog.any (RefOp.noWrite mn) = !x.canWrite ∧ m.oplog.any (RefOp.noRead mn) = !x.canRead := by
  constructor
  · cases hw : x.canWrite with
    | true =>
      rw [Bool.not_true, List.any_eq_false]
      intro o ho hc
      cases o with
      | write => simp [RefOp.noWrite] at hc
      | created n md k =>
        simp [RefOp.noWrite] at hc
        obtain ⟨rfl, hc⟩ := hc
        rw [(h.modes hx ho).2, hw] at hc; cases hc
    | false =>
      rw [Bool.not_false, List.any_eq_true]
      obtain ⟨n, md, hm, _, h2⟩ := h.entry hx
      exact ⟨_, hm, by simp [RefOp.noWrite, ← h2, hw]⟩
  · cases hw : x.canRead with
    | true =>
      rw [Bool.not_true, List.any_eq_false]
      intro o ho hc
      cases o with
      | write => simp [RefOp.noRead] at hc
      | created n md k =>
        simp [RefOp.noRead] at hc
        obtain ⟨rfl, hc⟩ := hc
        rw [(h.modes hx ho).1, hw] at hc; cases hc
    | false =>
      rw [Bool.not_false, List.any_eq_true]
      obtain ⟨n, md, hm, h1, _⟩ := h.entry hx
      exact ⟨_, hm, by simp [RefOp.noRead, ← h1, hw]⟩

theorem FdRel.mk {e e' : FdEntry} (hm : e.mnode = e'.mnode) (hf : e.flags = e'.flags)
    (ho : e.flags.append = false → e.offset = e'.offset) (h2 : 2 ≤ e.mnode) : FdRel (some e) (some e') :=
  ⟨hm, hf, ho, h2⟩

/-! ## Write -/

theorem FioSim.writeStep {pid nlogs : Nat} {n : Node} {m : ModelFIO} {t : FdTable} (h : FioSim pid n m t) (hn : 0 < nlogs)
    (fd : Fd) (pat : UInt8) (len : Nat) (hl : len ≠ 0) (off : Option Nat)
    (ht : off = none → ∀ e, t fd = some e → e.flags.append = true → n.fs.mnodes e.mnode ≠ none) :
    StepOk pid (toUser (n.call nlogs (.write pid fd (List.replicate len pat) off) .good).1,
        (n.call nlogs (.write pid fd (List.replicate len pat) off) .good).2)
      (m.writeAt fd (List.replicate len pat) off) := by
  obtain ⟨k, rfl⟩ : ∃ k, len = k + 1 := ⟨len - 1, by omega⟩
  have hlen : (List.replicate (k + 1) pat).length = k + 1 := List.length_replicate
  have hfd := h.fds fd
  cases he : t fd with
  | none =>
    rw [he] at hfd
    rw [call_write_none n nlogs pid fd _ off _ h.table he]
    refine ⟨?_, t, ?_⟩ <;> simp only [ModelFIO.writeAt, List.replicate_succ, hfd.none_right]
    · rfl
    · exact h
  | some e =>
    rw [he] at hfd
    obtain ⟨e', he', hm, hf, ho, h2⟩ := hfd.some_right
    rw [call_write_eq n nlogs pid fd e _ off _ hn (by rw [h.fd?, he]) h2]
    have href : m.writeAt fd (List.replicate (k + 1) pat) off =
        if !e.flags.write then (.err .internalError, m)
        else if m.log.mnodeExists e.mnode then
          let o := off.getD (if e.flags.append then fileSize m.log.oplog e.mnode else e'.offset)
          if m.log.oplog.any (RefOp.noWrite e.mnode) then (.err .internalError, m)
          else
            (.num (k + 1),
              ⟨{ m.log with oplog := m.log.oplog ++ [.write e.mnode o pat (k + 1)] },
               if off.isNone then upd m.fds fd (some { e' with offset := o + (k + 1) }) else m.fds⟩)
        else (.err .internalError, m) := by
      rw [hm, hf]
      simp only [ModelFIO.writeAt, List.replicate_succ, he']
      rw [← List.replicate_succ, hlen]
    rw [href]
    unfold Node.fileWrite
    simp only [h.table, he]
    cases hw : e.flags.write with
    | false =>
      simp only [Bool.not_false, if_true]
      exact ⟨rfl, t, h⟩
    | true =>
      simp only [Bool.not_true, Bool.false_eq_true, if_false, h.tracks.exists_iff]
      cases hx : n.fs.mnodes e.mnode with
      | none =>
        have hoff : n.writeOffset e off = .ok (off.getD e.offset) := by
          unfold Node.writeOffset
          cases off with
          | some o => rfl
          | none =>
            cases ha : e.flags.append with
            | false => rfl
            | true => exact absurd hx (ht rfl e he ha)
        rw [hoff]
        have hwr : ∀ d o, n.fs.write e.mnode d o .good = (.err .invalidFile, n.fs) := by
          intro d o; unfold MlnrFS.write; rw [hx]
        simp only [hwr, Option.isSome_none, Bool.false_eq_true, if_false]
        exact ⟨rfl, t, h⟩
      | some x =>
        simp only [Option.isSome_some, if_true]
        have hsz := h.size _ _ hx
        have hoff : n.writeOffset e off =
            .ok (off.getD (if e.flags.append then fileSize m.log.oplog e.mnode else e'.offset)) := by
          unfold Node.writeOffset
          cases off with
          | some o => rfl
          | none =>
            cases ha : e.flags.append with
            | false => simp [ho ha]
            | true =>
              have h3 := sizeOf'_eq h.tracks.inv hx
              rw [← hsz, ← h3]
              simp only [if_true]
              unfold sizeOf' MlnrFS.fileInfo
              rw [hx]
              cases x <;> rfl
        rw [hoff]
        generalize (off.getD (if e.flags.append then fileSize m.log.oplog e.mnode else e'.offset)) = o
        obtain ⟨t1, t2, _⟩ := h.tracks.write e.mnode o pat (k + 1)
        have hmw : m.log.write e.mnode (List.replicate (k + 1) pat) o =
            if m.log.oplog.any (RefOp.noWrite e.mnode) then (.err .permissionError, m.log)
            else (.ok (k + 1), { m.log with oplog := m.log.oplog ++ [.write e.mnode o pat (k + 1)] }) := by
          unfold ModelFS.write
          rw [h.tracks.exists_iff, hx]
          simp only [Option.isSome_some, if_true, List.replicate_succ]
          rw [← List.replicate_succ, hlen]
        rw [hmw] at t1 t2
        have hcases := fsWrite_cases n.fs h.tracks.inv e.mnode o (List.replicate (k + 1) pat)
        have hroot : (n.fs.write e.mnode (List.replicate (k + 1) pat) o .good).2.files = n.fs.files := by
          unfold MlnrFS.write; rw [hx]
        dsimp only
        generalize n.fs.write e.mnode (List.replicate (k + 1) pat) o .good = r at t1 t2 hcases hroot ⊢
        obtain ⟨r1, fs1⟩ := r
        simp only at t1 t2 hcases hroot
        cases hd : m.log.oplog.any (RefOp.noWrite e.mnode) with
        | true =>
          simp only [hd, if_true] at t1 t2 ⊢
          subst t1
          refine ⟨rfl, t, t2, ?_, by show fs1.files "/" = _; rw [hroot]; exact h.root, h.table, h.fds⟩
          intro j z hz
          rcases hcases with ⟨_, hs⟩ | ⟨_, _, _, hc, _⟩
          · exact h.size j z (hs j z hz)
          · cases hc
        | false =>
          simp only [hd, Bool.false_eq_true, if_false] at t1 t2 ⊢
          subst t1
          rcases hcases with ⟨⟨_, hc⟩, _⟩ | ⟨x', y, hx', _, hup, hby⟩
          · cases hc
          · rw [hx] at hx'; cases hx'
            refine ⟨rfl, upd t fd (some (if off.isNone then { e with offset := o + (k + 1) } else e)), t2, ?_,
              by show fs1.files "/" = _; rw [hroot]; exact h.root, upd_same _ _ _, ?_⟩
            · intro j z hz
              show z.bytes.length = fileSize (m.log.oplog ++ [_]) j
              rw [fileSize_write]
              have hz' : fs1.mnodes j = some z := hz
              rw [hup, upd_apply] at hz'
              split at hz'
              · rename_i e2
                subst e2; cases hz'
                rw [if_pos rfl, hby, writeAt_length, hlen, hsz]; omega
              · rename_i e2
                rw [if_neg e2]; exact h.size j z hz'
            · intro i
              cases off with
              | some o' =>
                simp only [Option.isNone_some, Bool.false_eq_true, if_false]
                rw [upd_apply]
                split
                · rename_i e2; subst e2; rw [← he]; exact h.fds i
                · exact h.fds i
              | none =>
                simp only [Option.isNone_none, if_true]
                refine FdRel.upd h.fds fd ?_ i
                exact FdRel.mk hm hf (fun _ => rfl) h2

/-! ## Read -/

theorem gatherFio_eq (mn off : Nat) : ∀ (l : List RefOp) (buf : List (Option UInt8)),
    (∀ n md, RefOp.created n md mn ∈ l → md.readable = true) → gather mn off l buf = some (gatherFio mn off l buf) := by
  intro l
  induction l with
  | nil => intro buf _; rfl
  | cons o l ih =>
    intro buf hr
    have hr' : ∀ n md, RefOp.created n md mn ∈ l → md.readable = true :=
      fun n md h => hr n md (List.mem_cons_of_mem _ h)
    cases o with
    | created n md m =>
      unfold gather gatherFio
      rw [if_neg, ih buf hr']
      rintro ⟨rfl, hm⟩
      rw [hr n md List.mem_cons_self] at hm; cases hm
    | write m o p n =>
      unfold gather gatherFio
      split <;> exact ih _ hr'

theorem FioSim.readStep {pid nlogs : Nat} {n : Node} {m : ModelFIO} {t : FdTable} (h : FioSim pid n m t) (hn : 0 < nlogs)
    (fd : Fd) (dst : List UInt8) (hl : dst.length ≠ 0) (off : Option Nat)
    (ht : off = none → ∀ e, t fd = some e → e.flags.append = true → e.flags.read = false) :
    StepOk pid (toUser (n.call nlogs (.read pid fd dst off) .good).1,
        (n.call nlogs (.read pid fd dst off) .good).2)
      (m.readAt fd dst off) := by
  have hfd := h.fds fd
  unfold ModelFIO.readAt
  rw [if_neg hl]
  cases he : t fd with
  | none =>
    rw [he] at hfd
    rw [call_read_none n nlogs pid fd _ off _ h.table he]
    simp only [hfd.none_right]
    exact ⟨rfl, t, h⟩
  | some e =>
    rw [he] at hfd
    obtain ⟨e', he', hm, hf, ho, h2⟩ := hfd.some_right
    rw [call_read_eq n nlogs pid fd e _ off _ hn (by rw [h.fd?, he]) h2]
    simp only [he', ← hm, ← hf]
    unfold Node.fileRead
    simp only [h.table, he]
    cases hw : e.flags.read with
    | false =>
      simp only [Bool.not_false, if_true]
      exact ⟨rfl, t, h⟩
    | true =>
      have hoff : off.getD e'.offset = off.getD e.offset := by
        cases off with
        | some o => rfl
        | none =>
          cases ha : e.flags.append with
          | false => simp [ho ha]
          | true => rw [ht rfl e he ha] at hw; cases hw
      simp only [Bool.not_true, Bool.false_eq_true, if_false, h.tracks.exists_iff, hoff]
      generalize hoe : off.getD e.offset = o
      cases hx : n.fs.mnodes e.mnode with
      | none =>
        have : n.fs.read e.mnode dst o = .err .invalidFile := by unfold MlnrFS.read; rw [hx]
        simp only [this, Option.isSome_none, Bool.false_eq_true, if_false]
        exact ⟨rfl, t, h⟩
      | some x =>
        simp only [Option.isSome_some, if_true, (h.tracks.denied hx).2]
        have hsz := h.size _ _ hx
        cases hr : x.canRead with
        | false =>
          have : n.fs.read e.mnode dst o = .err .permissionError := by
            unfold MlnrFS.read; rw [hx]
            cases x with
            | directory => rfl
            | file f =>
              have : f.modes.readable = false := hr
              simp [MemNode.read, this]
          simp only [this, Bool.not_false, if_true]
          exact ⟨rfl, t, h⟩
        | true =>
          obtain ⟨f, rfl⟩ : ∃ f, x = .file f := file_of_canRead hr
          have hwf : Chunked f.mcache := h.tracks.inv.wf _ _ hx
          have hrd : n.fs.read e.mnode dst o = .ok ((readAt f.mcache.flatten o dst.length).length,
              readAt f.mcache.flatten o dst.length ++ dst.drop (readAt f.mcache.flatten o dst.length).length) := by
            unfold MlnrFS.read; rw [hx]; exact read_spec f hwf hr dst o
          simp only [hrd, Bool.not_true, Bool.false_eq_true, if_false]
          have hby : (MemNode.file f).bytes = f.mcache.flatten := rfl
          have hsame := h.tracks.same _ _ hx
          rw [hby] at hsz hsame
          generalize f.mcache.flatten = bs at hsz hsame
          have hrl : (readAt bs o dst.length).length = min (bs.length - o) dst.length := by
            simp [readAt]; omega
          rw [← hsz]
          by_cases hge : bs.length ≤ o
          · rw [if_pos hge]
            have h0 : readAt bs o dst.length = [] := by
              apply List.length_eq_zero_iff.1; rw [hrl]; omega
            rw [h0]
            refine ⟨by simp [toUser], upd t fd (some (if off.isNone then { e with offset := o + 0 } else e)), h.tracks, h.size,
              h.root, upd_same _ _ _, ?_⟩
            intro i
            have hee : (if off.isNone then { e with offset := o + 0 } else e) = e := by
              cases off with
              | some _ => rfl
              | none => subst hoe; rfl
            rw [hee, upd_apply]
            split
            · rename_i e2; subst e2; rw [← he]; exact h.fds i
            · exact h.fds i
          · rw [if_neg hge]
            have hread : ∀ nm md, RefOp.created nm md e.mnode ∈ m.log.oplog.reverse → md.readable = true :=
              fun nm md hm' => by rw [(h.tracks.modes hx (List.mem_reverse.1 hm')).1, hr]
            obtain ⟨buf, hg, hblen, hbuf⟩ := gather_spec e.mnode o m.log.oplog.reverse
              (List.replicate (min (bs.length - o) dst.length) none) hread
            rw [gatherFio_eq _ _ _ _ hread] at hg
            rw [Option.some.inj hg]
            rw [List.length_replicate] at hblen
            have hdata : buf.map (fun v => v.getD 0) = readAt bs o dst.length := by
              apply List.ext_getElem?
              intro i
              rw [List.getElem?_map]
              by_cases hi : i < min (bs.length - o) dst.length
              · rw [hbuf i none (by rw [List.getElem?_replicate, if_pos hi])]
                have hbs : ∃ b, bs[o + i]? = some b := ⟨bs[o + i]'(by omega), by rw [List.getElem?_eq_getElem]⟩
                obtain ⟨b, hb⟩ := hbs
                have : (readAt bs o dst.length)[i]? = some b := by
                  unfold readAt
                  rw [List.getElem?_take, if_pos (by omega), List.getElem?_drop, hb]
                rw [this, hsame _ b hb]
                rfl
              · rw [List.getElem?_eq_none (by omega), List.getElem?_eq_none (by omega)]
                rfl
            rw [hdata, hrl]
            refine ⟨rfl, upd t fd (some (if off.isNone then { e with offset := o + min (bs.length - o) dst.length } else e)),
              ?_⟩
            cases off with
            | some o' =>
              refine ⟨h.tracks, h.size, h.root, upd_same _ _ _, ?_⟩
              intro i
              simp only [Option.isNone_some, Bool.false_eq_true, if_false]
              rw [upd_apply]
              split
              · rename_i e2; subst e2; rw [← he]; exact h.fds i
              · exact h.fds i
            | none =>
              refine ⟨h.tracks, h.size, h.root, upd_same _ _ _, ?_⟩
              exact FdRel.upd h.fds fd (FdRel.mk rfl rfl (fun _ => rfl) h2)

/-! ## Close, delete, open -/

theorem FioSim.closeStep {pid nlogs : Nat} {n : Node} {m : ModelFIO} {t : FdTable} (h : FioSim pid n m t) (fd : Fd) :
    StepOk pid (toUser (n.call nlogs (.close pid fd) .good).1, (n.call nlogs (.close pid fd) .good).2) (m.close fd) := by
  have hc : n.call nlogs (.close pid fd) .good = n.fileClose pid fd := rfl
  rw [hc]
  unfold Node.fileClose ModelFIO.close FdTable.deallocate
  have hfd := h.fds fd
  simp only [h.table]
  cases he : t fd with
  | none =>
    rw [he] at hfd
    simp only [hfd.none_right]
    exact ⟨rfl, t, h.tracks, h.size, h.root, upd_same _ _ _, h.fds⟩
  | some e =>
    rw [he] at hfd
    obtain ⟨e', he', _⟩ := hfd.some_right
    simp only [he']
    exact ⟨rfl, _, h.setFd fd (a := none) (b := none) trivial⟩

theorem FioSim.deleteStep {pid nlogs : Nat} {n : Node} {m : ModelFIO} {t : FdTable} (h : FioSim pid n m t) (name : String)
    (hname : name ≠ "/") :
    StepOk pid (toUser (n.call nlogs (.delete pid name) .good).1, (n.call nlogs (.delete pid name) .good).2)
      (m.delete name) := by
  have hc : n.call nlogs (.delete pid name) .good = n.fileDelete pid name .good := rfl
  have hinv := (n.fs.delete_inv h.tracks.inv name .good).1
  rw [hc]
  unfold Node.fileDelete ModelFIO.delete ModelFS.lookup
  unfold MlnrFS.delete at hinv ⊢
  rw [h.tracks.path]
  simp only [h.table]
  cases hf : n.fs.files name with
  | none => exact ⟨rfl, t, h⟩
  | some mn =>
    rw [hf] at hinv
    have hg : Env.good.pinned = false := rfl
    simp only [hg, Bool.false_eq_true, if_false] at hinv ⊢
    refine ⟨rfl, t, h.tracks.remove hf hinv, ?_, ?_, h.table, h.fds⟩
    · intro k z hz
      have hz' : (upd n.fs.mnodes mn none) k = some z := hz
      rw [upd_apply] at hz'
      split at hz'
      · cases hz'
      · rename_i e
        show z.bytes.length = fileSize (removeEntries m.log.oplog mn true true) k
        rw [removeEntries_eq, fileSize_filter _ _ _ _ _ e]
        exact h.size k z hz'
    · show (upd n.fs.files name none) "/" = _
      rw [upd_apply, if_neg (Ne.symm hname)]
      exact h.root

theorem modesOf_eq {fs : MlnrFS} {m : ModelFS} (h : Tracks fs m) {name : String} {mn : Nat} {x : MemNode}
    (hf : fs.files name = some mn) (hx : fs.mnodes mn = some x) (given : Modes) :
    (modesOf m.oplog name given).writable = x.canWrite := by
  unfold modesOf
  cases hl : lastIdx name m.oplog with
  | none =>
    obtain ⟨md, hm⟩ := (h.names name mn).1 hf
    exact absurd hm (lastIdx_none hl md mn)
  | some k =>
    obtain ⟨md, mn', hm⟩ := lastIdx_some hl
    simp only [hm]
    have hm' := List.mem_of_getElem? hm
    have : mn' = mn := by
      have := (h.names name mn').2 ⟨md, hm'⟩
      rw [hf] at this; cases this; rfl
    subst this
    exact (h.modes hx hm').2

theorem FioSim.openStep {pid nlogs : Nat} {n : Node} {m : ModelFIO} {t : FdTable} (h : FioSim pid n m t) (name : String)
    (flags : Flags) (modes : Modes) (hname : name ≠ "/") (hat : ¬ (flags.append = true ∧ flags.truncate = true))
    (hfree : ∃ fd, t fd = none) :
    StepOk pid (toUser (n.call nlogs (.open pid name flags modes) .good).1,
      (n.call nlogs (.open pid name flags modes) .good).2) (m.open name flags modes) := by
  rw [call_open_eq, Node.fileOpen_cases]
  unfold ModelFIO.open ModelFS.lookup FdTable.allocate MlnrFS.lookup
  rw [h.tracks.path, h.position]
  have hat' : (flags.append && flags.truncate) = false := by
    cases ha : flags.append <;> cases hb : flags.truncate <;> simp_all
  rw [hat']
  obtain ⟨fid, hpos⟩ : ∃ fid, t.position = some fid := by
    cases hp : t.position with
    | some f => exact ⟨f, rfl⟩
    | none =>
      obtain ⟨fd, hfd⟩ := hfree
      exact absurd hfd ((t.position_spec).2 hp fd)
  have hnone := ((t.position_spec).1 fid hpos).1
  simp only [h.table, hpos, Bool.false_eq_true, if_false]
  cases hf : n.fs.files name with
  | none =>
    cases hc : flags.create with
    | false =>
      simp only [Option.isNone_none, Bool.not_false, Bool.and_self, if_true]
      exact ⟨rfl, t, h⟩
    | true =>
      obtain ⟨c1, c2⟩ := h.tracks.create name modes
      have hmc : m.log.create name modes =
          (.ok (m.log.counter + 1), ⟨m.log.oplog ++ [.created name modes (m.log.counter + 1)], m.log.counter + 1⟩) := by
        unfold ModelFS.create
        rw [h.tracks.path, hf]; rfl
      rw [hmc] at c1 c2
      have hot : n.openTarget name flags modes .good = n.fs.create name modes .good := by
        unfold Node.openTarget MlnrFS.lookup; rw [hf]
      have hnew : (n.fs.create name modes .good).2 =
          { mnodes := upd n.fs.mnodes n.fs.next (some (.file (File.new modes)))
            files := upd n.fs.files name (some n.fs.next), next := n.fs.next + 1 } := by
        unfold MlnrFS.create MlnrFS.addNode
        rw [hf]; rfl
      rw [hot]
      generalize n.fs.create name modes .good = r at c1 c2 hnew ⊢
      obtain ⟨r1, fs1⟩ := r
      simp only at c1 c2 hnew
      subst c1
      simp only [Option.isNone_none, Bool.not_true, Bool.and_false, Bool.false_eq_true, if_false]
      refine ⟨rfl, upd t fid (some ⟨m.log.counter + 1, flags, 0⟩), c2, ?_, ?_, upd_same _ _ _, ?_⟩
      · intro k z hz
        have hz' : fs1.mnodes k = some z := hz
        rw [hnew] at hz'
        have hz2 : (upd n.fs.mnodes n.fs.next (some (.file (File.new modes)))) k = some z := hz'
        rw [upd_apply] at hz2
        show z.bytes.length = fileSize (m.log.oplog ++ [_]) k
        rw [fileSize_created]
        have hnx := h.tracks.next
        split at hz2
        · rename_i e; cases hz2; rw [if_pos (by omega)]; rfl
        · rename_i e; rw [if_neg (by omega)]; exact h.size k z hz2
      · show fs1.files "/" = _
        rw [hnew]
        show (upd n.fs.files name _) "/" = _
        rw [upd_apply, if_neg (Ne.symm hname)]
        exact h.root
      · intro i
        show FdRel _ (upd (upd m.fds fid _) fid _ i)
        rw [upd_upd]
        refine FdRel.upd h.fds fid (FdRel.mk rfl rfl (fun _ => rfl) ?_) i
        have := h.tracks.inv.next2
        have := h.tracks.next
        show 2 ≤ m.log.counter + 1
        omega
  | some mn =>
    simp only [Option.isNone_some, Bool.false_and, Bool.false_eq_true, if_false]
    obtain ⟨x, hx⟩ := h.tracks.inv.live name mn hf
    have hmn : 2 ≤ mn := by
      have := (h.tracks.inv.bound mn x hx).1
      by_cases e : mn = 1
      · subst e; exact absurd (h.tracks.inv.inj _ _ _ hf h.root) hname
      · omega
    cases htr : flags.truncate with
    | false =>
      have hot : n.openTarget name flags modes .good = (.ok mn, n.fs) := by
        unfold Node.openTarget MlnrFS.lookup; rw [hf, htr]; rfl
      rw [hot]
      cases ha : flags.append with
      | true =>
        simp only [if_true]
        refine ⟨rfl, upd t fid (some ⟨mn, flags, 0⟩), h.tracks, h.size, h.root, upd_same _ _ _, ?_⟩
        intro i
        show FdRel _ (upd (upd m.fds fid _) fid _ i)
        rw [upd_upd]
        refine FdRel.upd h.fds fid ?_ i
        exact FdRel.mk rfl rfl (fun hne => by rw [ha] at hne; cases hne) hmn
      | false =>
        simp only [Bool.false_eq_true, if_false]
        refine ⟨rfl, upd t fid (some ⟨mn, flags, 0⟩), h.tracks, h.size, h.root, upd_same _ _ _, ?_⟩
        intro i
        show FdRel _ (upd (upd m.fds fid _) fid _ i)
        rw [upd_upd]
        exact FdRel.upd h.fds fid (FdRel.mk rfl rfl (fun _ => rfl) hmn) i
    | true =>
      have ha : flags.append = false := by
        cases ha : flags.append with
        | false => rfl
        | true => exact absurd ⟨ha, htr⟩ hat
      simp only [ha, Bool.false_eq_true, if_false, if_true, modesOf_eq h.tracks hf hx]
      have hinv := (n.fs.truncate_inv h.tracks.inv name).1
      have hot : n.openTarget name flags modes .good = ((x.truncate).1.map (fun _ => mn),
          { n.fs with mnodes := upd n.fs.mnodes mn (some (x.truncate).2) }) := by
        unfold Node.openTarget MlnrFS.lookup MlnrFS.truncate; rw [hf, htr]; simp only [hx, if_true]
      have hti : (n.fs.truncate name).2 = { n.fs with mnodes := upd n.fs.mnodes mn (some (x.truncate).2) } := by
        unfold MlnrFS.truncate; rw [hf]; simp only [hx]
      rw [hti] at hinv
      rw [hot]
      obtain ⟨_, hcw, hcr, _, hno, hyes⟩ := runOp_wf x .truncate .none (h.tracks.inv.wf mn x hx)
      cases hw : x.canWrite with
      | false =>
        have hq : x.truncate = (.err .permissionError, x) := by
          cases x with
          | directory => rfl
          | file f =>
            have : f.modes.writable = false := hw
            simp [MemNode.truncate, this]
        rw [hq]
        simp only [Outcome.map, Bool.false_eq_true, if_false]
        have hsame : ({ n.fs with mnodes := upd n.fs.mnodes mn (some x) } : MlnrFS) = n.fs := by
          have : upd n.fs.mnodes mn (some x) = n.fs.mnodes := by
            funext k
            rw [upd_apply]
            split
            · rename_i e; rw [e, hx]
            · rfl
          rw [this]
        rw [hsame]
        refine ⟨rfl, upd t fid none, h.tracks, h.size, h.root, upd_same _ _ _, ?_⟩
        intro i
        show FdRel _ (upd (upd m.fds fid _) fid _ i)
        rw [upd_upd]
        exact FdRel.upd h.fds fid (a := none) (b := none) trivial i
      | true =>
        obtain ⟨f, rfl⟩ : ∃ f, x = .file f := by
          cases x with
          | directory => cases hw
          | file f => exact ⟨f, rfl⟩
        have hfw : f.modes.writable = true := hw
        have hq : (MemNode.file f).truncate = (.ok (), .file f.truncate) := by
          simp [MemNode.truncate, hfw]
        rw [hq] at hinv ⊢
        simp only [Outcome.map, if_true]
        refine ⟨rfl, upd t fid (some ⟨mn, flags, 0⟩), h.tracks.truncate hx rfl rfl rfl hinv, ?_, h.root, upd_same _ _ _, ?_⟩
        · intro k z hz
          have hz' : (upd n.fs.mnodes mn (some (.file f.truncate))) k = some z := hz
          rw [upd_apply] at hz'
          show z.bytes.length = fileSize (removeEntries m.log.oplog mn false true) k
          rw [removeEntries_eq]
          split at hz'
          · rename_i e
            subst e; cases hz'
            rw [fileSize_none]
            · rfl
            · intro o ho
              rw [mem_filter_removed] at ho
              cases o with
              | created => simp [RefOp.target]
              | write q =>
                intro e
                cases e
                have := ho.2
                simp [RefOp.removed] at this
          · rename_i e
            rw [fileSize_filter _ _ _ _ _ e]
            exact h.size k z hz'
        · intro i
          show FdRel _ (upd (upd m.fds fid _) fid _ i)
          rw [upd_upd]
          exact FdRel.upd h.fds fid (FdRel.mk rfl rfl (fun _ => rfl) hmn) i

end NRK.Fs
