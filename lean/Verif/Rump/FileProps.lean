import Verif.Fs.FsProps
import Verif.Rump.FileModel

/-!
# C98: the files of a rump kernel
-/

namespace NRK.Rump

open NRK.Fs NRK.Rump.Spec
open NRK.Fs.Spec (readAt writeAt)

/-! ## What a rump kernel can see of the file system -/

def objOf : MemNode → Obj
  | .directory => .dir
  | .file f => .file f.mcache.flatten f.modes.readable f.modes.writable

def handleOf (e : FdEntry) : Handle := ⟨e.mnode, e.flags.read, e.flags.write, e.offset⟩

/-- Names, objects, and the descriptors of the process. -/
def store (pid : Nat) (n : Node) : Store where
  names := n.fs.files
  objs := fun i => (n.fs.mnodes i).map objOf
  fds := fun k => if h : k < MAX_FILES then (n.fd? pid ⟨k, h⟩).map handleOf else none

/-- The call that the rump kernel means. -/
def opOf : FileCall → Op
  | .open name mode => .open name (OpenMode.ofNumber mode)
  | .close fd => .close fd
  | .info name => .info name
  | .read fd iov off => .read fd iov.flatten.length (if off = -1 then none else some off.toNat)
  | .write fd iov off => .write fd iov.flatten (if off = -1 then none else some off.toNat)

/-- The buffers of the caller. -/
def FileCall.bufs : FileCall → List (List UInt8)
  | .read _ iov _ => iov
  | .write _ iov _ => iov
  | _ => []

/-- The answer says so. -/
def Shows (c : FileCall) (a : Ans) : Res → Prop
  | .fd k => a.code = 0 ∧ a.val = some k
  | .done => a.code = 0
  | .info d s => a.code = 0 ∧ a.info = some (if d then 1 else 2, s)
  | .got data => a.code = 0 ∧ a.val = some data.length ∧ a.bufs.flatten = data ++ c.bufs.flatten.drop data.length
  | .wrote k => a.code = 0 ∧ a.val = some k ∧ a.bufs = c.bufs
  | .error => a.code ≠ 0 ∧ a.bufs = c.bufs

/-- The calls for which the property holds: not on the root directory, not only to write, not to fail if the file exists,
with one buffer that is not empty; reads have an offset. -/
def Plain : FileCall → Prop
  | .open name mode => name ≠ some "/" ∧ mode % 4 ≠ 1 ∧ ¬ (mode / 4 % 2 = 1 ∧ mode / 8 % 2 = 1)
  | .close _ => True
  | .info name => name ≠ some "/"
  | .read _ iov off => (∃ b, iov = [b] ∧ b ≠ []) ∧ 0 ≤ off
  | .write _ iov off => (∃ b, iov = [b] ∧ b ≠ []) ∧ -1 ≤ off

/-- The process exists; it has neither the root directory open nor a file to append to; the root has one name. -/
structure Ready (pid : Nat) (n : Node) : Prop where
  proc : n.procs pid ≠ none
  fds : ∀ fd e, n.fd? pid fd = some e → 2 ≤ e.mnode ∧ e.flags.append = false
  root : ∀ name, n.fs.files name = some 1 → name = "/"

theorem openFlags_eq (mode : Nat) :
    openFlags mode = ⟨true, decide (mode % 4 ≠ 0), decide (mode / 4 % 2 = 1), false, false⟩ := by
  have h : ∀ m, m < 16 → openFlags m = ⟨true, decide (m % 4 ≠ 0), decide (m / 4 % 2 = 1), false, false⟩ := by decide
  have e : openFlags mode = openFlags (mode % 16) := by unfold openFlags; rw [Nat.mod_mod]
  rw [e, h _ (Nat.mod_lt _ (by decide))]
  have h1 : mode % 16 % 4 = mode % 4 := by omega
  have h2 : mode % 16 / 4 % 2 = mode / 4 % 2 := by omega
  rw [h1, h2]

theorem store_fds {pid : Nat} {n n' : Node} {fd : Fd} {x : Option FdEntry} (h : n'.fd? pid fd = x)
    (ho : ∀ fd', fd' ≠ fd → n'.fd? pid fd' = n.fd? pid fd') :
    (store pid n').fds = upd (store pid n).fds fd.val (x.map handleOf) := by
  funext k
  simp only [store, upd_apply]
  by_cases hk : k < MAX_FILES
  · rw [dif_pos hk, dif_pos hk]
    by_cases he : k = fd.val
    · subst he
      rw [if_pos rfl]
      exact congrArg _ h
    · rw [if_neg he, ho _ (fun c => he (by rw [← c]))]
  · rw [dif_neg hk, if_neg (fun c => hk (by rw [c]; exact fd.isLt)), dif_neg hk]

theorem store_ext {pid : Nat} {n' : Node} {a : String → Option Nat} {b : Nat → Option Obj} {c : Nat → Option Handle}
    (h1 : n'.fs.files = a) (h2 : (store pid n').objs = b) (h3 : (store pid n').fds = c) : store pid n' = ⟨a, b, c⟩ := by
  subst h1 h2 h3
  rfl

theorem store_eta {pid : Nat} {n n' : Node} (hf : n'.fs = n.fs) (ho : ∀ fd, n'.fd? pid fd = n.fd? pid fd) :
    store pid n' = store pid n := by
  unfold store
  rw [hf]
  congr 1
  funext k
  split
  · rw [ho]
  · rfl

theorem handle_some {pid : Nat} {n : Node} {fd : Int} {f : Fd} {e : FdEntry} (hf : fdOf fd = some f)
    (he : n.fd? pid f = some e) : (store pid n).handle fd = some (handleOf e) ∧ fd.toNat = f.val := by
  unfold fdOf at hf
  split at hf
  · rename_i h
    cases hf
    refine ⟨?_, rfl⟩
    simp only [Store.handle, store]
    rw [if_pos h.1, dif_pos h.2, he]
    rfl
  · cases hf

theorem handle_none {pid : Nat} {n : Node} {fd : Int} (h : ∀ f, fdOf fd = some f → n.fd? pid f = none) :
    (store pid n).handle fd = none := by
  simp only [Store.handle, store]
  split
  · rename_i h0
    split
    · rename_i h1
      rw [h ⟨fd.toNat, h1⟩ (by unfold fdOf; rw [dif_pos ⟨h0, h1⟩])]
      rfl
    · rfl
  · rfl

/-! ## The calls -/

/-- What is to be shown of a call. -/
def Good (nlogs pid : Nat) (n : Node) (c : FileCall) : Prop :=
  ∃ a n' r, fileCall nlogs pid n c = (.ok a, n') ∧ Shows c a r ∧ Step (store pid n) (opOf c) r (store pid n') ∧
    Ready pid n' ∧ (∀ p, p ≠ pid → ∀ fd, n'.fd? p fd = n.fd? p fd)

theorem good_error {nlogs pid : Nat} {n : Node} {c : FileCall} {a : Ans} (hd : Ready pid n)
    (h : fileCall nlogs pid n c = (.ok a, n)) (ha : a.code ≠ 0) (hb : a.bufs = c.bufs)
    (hs : Step (store pid n) (opOf c) .error (store pid n)) : Good nlogs pid n c :=
  ⟨a, n, .error, h, ⟨ha, hb⟩, hs, hd, fun _ _ _ => rfl⟩

theorem open_good {nlogs pid : Nat} {n : Node} (hi : n.Inv) (hd : Ready pid n) (name : Option String) (mode : Nat)
    (hp : Plain (.open name mode)) : Good nlogs pid n (.open name mode) := by
  obtain ⟨h0, h1, h2⟩ := hp
  have hM : MAX_FILES = 4096 := MAX_FILES_eq
  cases name with
  | none => exact good_error hd rfl (by decide) rfl .openBad
  | some name =>
  have h0 : name ≠ "/" := fun c => h0 (by rw [c])
  obtain ⟨t, ht⟩ := Option.ne_none_iff_exists'.1 hd.proc
  have hc : fileCall nlogs pid n (.open (some name) mode) =
      match n.fileOpen pid name ⟨true, decide (mode % 4 ≠ 0), decide (mode / 4 % 2 = 1), false, false⟩ ⟨true, true, false⟩ .good with
      | (.ok (.fileOpened fd), n') => (.ok { code := 0, val := some fd.val }, n')
      | (.ok _, n') => (.panic, n')
      | (.err _, n') => (.ok { code := 22 }, n')
      | (.panic, n') => (.panic, n') := by
    simp only [fileCall, ropen, openFlags_eq, call_open_eq]
    rfl
  have hm : opOf (.open (some name) mode) =
      .open (some name) ⟨true, decide (mode % 4 ≠ 0), decide (mode / 4 % 2 = 1), decide (mode / 8 % 2 = 1)⟩ := by
    simp only [opOf, OpenMode.ofNumber]
    rw [decide_eq_true h1]
  unfold Good
  rw [hm, hc, Node.fileOpen_cases]
  have hx : ¬ (decide (mode / 4 % 2 = 1) = true ∧ decide (mode / 8 % 2 = 1) = true) := by simpa using h2
  generalize decide (mode % 4 ≠ 0) = w at *
  generalize decide (mode / 4 % 2 = 1) = cr at *
  generalize decide (mode / 8 % 2 = 1) = ex at *
  cases hl : n.fs.files name with
  | none =>
    cases cr with
    | false =>
      refine ⟨{ code := 22 }, n, .error, ?_, ⟨by decide, rfl⟩, .openMissing hl rfl, hd, fun _ _ _ => rfl⟩
      simp [MlnrFS.lookup, hl]
    | true =>
      simp only [MlnrFS.lookup, hl, Option.isNone_none, Bool.not_true, Bool.and_false, Bool.false_eq_true, if_false, ht]
      cases hpos : t.position with
      | none =>
        refine ⟨{ code := 22 }, n, .error, rfl, ⟨by decide, rfl⟩, .openFull ?_, hd, fun _ _ _ => rfl⟩
        intro fd hfd
        have := t.position_spec.2 hpos ⟨fd, by rw [hM]; exact hfd⟩
        obtain ⟨e, he⟩ := Option.ne_none_iff_exists'.1 this
        simp only [store]
        rw [dif_pos (by rw [hM]; exact hfd)]
        simp [Node.fd?, ht, he]
      | some fid =>
        have hfree := (t.position_spec.1 fid hpos).1
        simp only [Node.openTarget, MlnrFS.lookup, hl, MlnrFS.create, MlnrFS.addNode, Env.good, Bool.false_eq_true, if_false]
        have hnew : n.fs.mnodes n.fs.next = none := by
          cases hq : n.fs.mnodes n.fs.next with
          | none => rfl
          | some x => have := (hi.fs.bound _ _ hq).2; omega
        have hfd : ∀ (fs : MlnrFS) p f', Node.fd? { procs := upd n.procs pid (some (upd t fid (some
            ⟨n.fs.next, ⟨true, w, true, false, false⟩, 0⟩))), fs := fs } p f' = _ :=
          fun fs p f' => Node.setEntry_fd? n pid t ht fid _ fs p f'
        refine ⟨_, _, .fd fid.val, rfl, ⟨rfl, rfl⟩, ?_, ⟨?_, ?_, ?_⟩, ?_⟩
        · have := Step.openNew (s := store pid n) (name := name) (m := ⟨true, w, true, ex⟩) (i := n.fs.next) (fd := fid.val)
            hl rfl (by simp [store, hnew])
            (by simp only [store]; rw [dif_pos fid.isLt]; simp [Node.fd?, ht, hfree])
          refine cast (congrArg _ (Eq.symm (store_ext rfl ?_ ?_))) this
          · funext i
            simp only [store, upd_apply]
            split
            · simp [objOf, File.new]
            · rfl
          · exact store_fds (fd := fid) ((hfd _ _ _).trans (if_pos ⟨rfl, rfl⟩)) (fun f' hf' => (hfd _ _ _).trans (if_neg (fun c => hf' c.2)))
        · simp [upd]
        · intro fd e he
          rw [hfd] at he
          split at he
          · cases he; exact ⟨hi.fs.next2, rfl⟩
          · exact hd.fds fd e he
        · intro nm hnm
          simp only [upd_apply] at hnm
          split at hnm
          · have := hi.fs.next2
            have := Option.some.inj hnm
            omega
          · exact hd.root nm hnm
        · intro p hp' fd
          rw [hfd, if_neg (fun c => hp' c.1)]
  | some m =>
    simp only [MlnrFS.lookup, hl, Option.isNone_some, Bool.false_and, Bool.false_eq_true, if_false, ht]
    cases hpos : t.position with
    | none =>
      refine ⟨{ code := 22 }, n, .error, rfl, ⟨by decide, rfl⟩, .openFull ?_, hd, fun _ _ _ => rfl⟩
      intro fd hfd
      have := t.position_spec.2 hpos ⟨fd, by rw [hM]; exact hfd⟩
      obtain ⟨e, he⟩ := Option.ne_none_iff_exists'.1 this
      simp only [store]
      rw [dif_pos (by rw [hM]; exact hfd)]
      simp [Node.fd?, ht, he]
    | some fid =>
      have hfree := (t.position_spec.1 fid hpos).1
      simp only [Node.openTarget, MlnrFS.lookup, hl, Bool.false_eq_true, if_false]
      have hfd : ∀ (fs : MlnrFS) p f', Node.fd? { procs := upd n.procs pid (some (upd t fid (some
          ⟨m, ⟨true, w, cr, false, false⟩, 0⟩))), fs := fs } p f' = _ :=
        fun fs p f' => Node.setEntry_fd? n pid t ht fid _ fs p f'
      refine ⟨_, _, .fd fid.val, rfl, ⟨rfl, rfl⟩, ?_, ⟨?_, ?_, ?_⟩, ?_⟩
      · have := Step.openOld (s := store pid n) (name := name) (m := ⟨true, w, cr, ex⟩) (i := m) (fd := fid.val)
          hl hx (by simp only [store]; rw [dif_pos fid.isLt]; simp [Node.fd?, ht, hfree])
        refine cast (congrArg _ (Eq.symm (store_ext rfl rfl ?_))) this
        exact store_fds (fd := fid) ((hfd _ _ _).trans (if_pos ⟨rfl, rfl⟩)) (fun f' hf' => (hfd _ _ _).trans (if_neg (fun c => hf' c.2)))
      · simp [upd]
      · intro fd e he
        rw [hfd] at he
        split at he
        · cases he
          refine ⟨?_, rfl⟩
          obtain ⟨x, hx'⟩ := hi.fs.live _ _ hl
          have h1 := (hi.fs.bound _ _ hx').1
          have : m ≠ 1 := fun c => h0 (hd.root name (by rw [hl, c]))
          show 2 ≤ m
          omega
        · exact hd.fds fd e he
      · exact hd.root
      · intro p hp' fd
        rw [hfd, if_neg (fun c => hp' c.1)]

theorem close_good {nlogs pid : Nat} {n : Node} (hd : Ready pid n) (fd : Int) : Good nlogs pid n (.close fd) := by
  cases hf : fdOf fd with
  | none =>
    exact good_error (a := { code := 9 }) hd (by simp only [fileCall, rclose, hf]) (by decide) rfl
      (.closeBad (handle_none (by intro f c; rw [hf] at c; cases c)))
  | some f =>
    obtain ⟨t, ht⟩ := Option.ne_none_iff_exists'.1 hd.proc
    cases he : t f with
    | none =>
      have hn : n.fd? pid f = none := by simp [Node.fd?, ht, he]
      have hset : n.setTable pid t = n := by
        unfold Node.setTable
        congr 1
        funext p
        by_cases hp : p = pid
        · subst hp; rw [upd_same, ht]
        · rw [upd_other _ _ hp]
      refine good_error (a := { code := 9 }) hd ?_ (by decide) rfl
        (.closeBad (handle_none (by intro f' c; rw [hf] at c; cases c; exact hn)))
      simp only [fileCall, rclose, hf, Node.call, Node.submitMut, Modify.logs, Node.dispatchMut, Node.fileClose, ht,
        FdTable.deallocate, he, hset]
    | some e =>
      have hn : n.fd? pid f = some e := by simp [Node.fd?, ht, he]
      obtain ⟨h1, h2⟩ := handle_some hf hn
      have hfd : ∀ p f', Node.fd? (n.setTable pid (upd t f none)) p f' = _ :=
        fun p f' => Node.setEntry_fd? n pid t ht f none n.fs p f'
      refine ⟨{ code := 0 }, n.setTable pid (upd t f none), .done, ?_, rfl, ?_, ⟨?_, ?_, hd.root⟩, ?_⟩
      · simp only [fileCall, rclose, hf, Node.call, Node.submitMut, Modify.logs, Node.dispatchMut, Node.fileClose, ht,
          FdTable.deallocate, he]
      · have := Step.close (s := store pid n) h1
        refine cast (congrArg _ (Eq.symm (store_ext rfl rfl ?_))) this
        rw [h2]
        exact store_fds (fd := f) ((hfd _ _).trans (if_pos ⟨rfl, rfl⟩)) (fun f' hf' => (hfd _ _).trans (if_neg (fun c => hf' c.2)))
      · simp [Node.setTable, upd]
      · intro fd e he
        rw [hfd] at he
        split at he
        · cases he
        · exact hd.fds fd e he
      · intro p hp' fd
        rw [hfd, if_neg (fun c => hp' c.1)]

theorem info_good {nlogs pid : Nat} {n : Node} (hn : 0 < nlogs) (hr : Reachable nlogs n) (hd : Ready pid n)
    (name : Option String) (hp : Plain (.info name)) : Good nlogs pid n (.info name) := by
  cases name with
  | none => exact good_error hd rfl (by decide) rfl .infoBad
  | some name =>
  have hp : name ≠ "/" := fun c => hp (by rw [c])
  obtain ⟨t, ht⟩ := Option.ne_none_iff_exists'.1 hd.proc
  cases hl : n.fs.files name with
  | none =>
    refine good_error (a := { code := 2 }) hd ?_ (by decide) rfl (.infoMissing hl)
    simp only [fileCall, rinfo, Node.call, Node.submit, Access.logs, Node.dispatch, ht, MlnrFS.lookup, hl]
  | some m =>
    obtain ⟨x, hx⟩ := hr.inv.fs.live _ _ hl
    have h1 := (hr.inv.fs.bound _ _ hx).1
    have h2 : 2 ≤ m := by
      have : m ≠ 1 := fun c => hp (hd.root name (by rw [hl, c]))
      omega
    obtain ⟨c1, c2⟩ := c02_info_call nlogs hn n hr pid name m .good hd.proc hl h2
    cases x with
    | directory =>
      refine ⟨{ code := 0, info := some (1, 0) }, n, .info true 0, ?_, ⟨rfl, rfl⟩, ?_, hd, fun _ _ _ => rfl⟩
      · simp only [fileCall, rinfo, c2 hx]
      · exact .infoDir hl (by simp [store, hx, objOf])
    | file f =>
      have hc : n.contents m = some f.mcache.flatten := by simp only [Node.contents, hx]
      refine ⟨{ code := 0, info := some (2, f.mcache.flatten.length) }, n, .info false f.mcache.flatten.length, ?_, ⟨rfl, rfl⟩, ?_,
        hd, fun _ _ _ => rfl⟩
      · simp only [fileCall, rinfo, c1 _ hc]
      · exact .infoFile (rd := f.modes.readable) (wr := f.modes.writable) hl (by simp only [store, hx, Option.map_some, objOf])

theorem read_good {nlogs pid : Nat} {n : Node} (hn : 0 < nlogs) (hr : Reachable nlogs n) (hd : Ready pid n)
    (fd : Int) (iov : List (List UInt8)) (off : Int) (hp : Plain (.read fd iov off)) :
    Good nlogs pid n (.read fd iov off) := by
  obtain ⟨⟨dst, rfl, hne⟩, ho⟩ := hp
  have hl : dst.length ≠ 0 := fun c => hne (List.length_eq_zero_iff.1 c)
  have ho1 : off ≠ -1 := by omega
  have hop : opOf (.read fd [dst] off) = .read fd dst.length (some off.toNat) := by
    simp only [opOf, if_neg ho1, List.flatten_cons, List.flatten_nil, List.append_nil]
  have hcall : ∀ f, fdOf fd = some f → fileCall nlogs pid n (.read fd [dst] off) =
      match n.call nlogs (.read pid f dst (some off.toNat)) .good with
      | (.ok (.fileRead len buf), n') => (.ok { code := 0, val := some len, bufs := [buf] }, n')
      | (.ok _, n') => (.panic, n')
      | (.err _, n') => (.ok { code := 22, bufs := [dst] }, n')
      | (.panic, n') => (.panic, n') := by
    intro f hf
    simp only [fileCall, iovread, if_neg hl, if_neg ho1, hf, decide_eq_true ho]
    rfl
  cases hf : fdOf fd with
  | none =>
    refine good_error (a := { code := 22, bufs := [dst] }) hd ?_ (by simp) rfl ?_
    · simp only [fileCall, iovread, if_neg hl, if_neg ho1, hf]
    · rw [hop]
      refine .readBad (fun h b wr hh => ?_)
      rw [handle_none (by intro f c; rw [hf] at c; cases c)] at hh
      cases hh
  | some f =>
    obtain ⟨t, ht⟩ := Option.ne_none_iff_exists'.1 hd.proc
    cases he : t f with
    | none =>
      have hnn : n.fd? pid f = none := by simp [Node.fd?, ht, he]
      refine good_error (a := { code := 22, bufs := [dst] }) hd ?_ (by simp) rfl ?_
      · rw [hcall f hf]
        simp only [Node.call, Node.submit, Access.logs, Node.dispatch, ht, he]
      · rw [hop]
        refine .readBad (fun h b wr hh => ?_)
        rw [handle_none (by intro f' c; rw [hf] at c; cases c; exact hnn)] at hh
        cases hh
    | some e =>
      have hnn : n.fd? pid f = some e := by simp [Node.fd?, ht, he]
      obtain ⟨h1, h2⟩ := handle_some hf hnn
      have hm2 := (hd.fds f e hnn).1
      have bad : (e.flags.read = true → ∀ b wr, (n.fs.mnodes e.mnode).map objOf ≠ some (.file b true wr)) →
          (∃ er, n.fileRead pid f dst (some off.toNat) = (.err er, n)) → Good nlogs pid n (.read fd [dst] off) := by
        intro hb ⟨er, her⟩
        refine good_error (a := { code := 22, bufs := [dst] }) hd ?_ (by simp) rfl ?_
        · rw [hcall f hf, call_read_eq n nlogs pid f e dst _ _ hn hnn hm2, her]
        · rw [hop]
          refine .readBad (fun h b wr hh hrd => ?_)
          rw [h1] at hh
          cases hh
          exact hb hrd b wr
      by_cases hrd : e.flags.read = true
      · cases hx : n.fs.mnodes e.mnode with
        | none =>
          exact bad (fun _ b wr => by rw [hx]; simp) ⟨.invalidFile, by simp [Node.fileRead, ht, he, hrd, MlnrFS.read, hx]⟩
        | some x =>
          cases x with
          | directory =>
            exact bad (fun _ b wr => by rw [hx]; simp [objOf])
              ⟨.permissionError, by simp [Node.fileRead, ht, he, hrd, MlnrFS.read, hx, MemNode.read]⟩
          | file g =>
            cases hg : g.modes.readable with
            | false =>
              exact bad (fun _ b wr => by rw [hx]; simp [objOf, hg])
                ⟨.permissionError, by simp [Node.fileRead, ht, he, hrd, MlnrFS.read, hx, MemNode.read, hg]⟩
            | true =>
              obtain ⟨n', e1, e2, e3, e4⟩ := read_effect n hr.inv nlogs pid f e dst (some off.toNat) .good hn hnn hrd
                g.mcache.flatten (by simp only [Node.contents, hx]) g.modes (by simp only [Node.modes?, hx]) hg
              have hfds : ∀ f', n'.fd? pid f' = n.fd? pid f' := by
                intro f'
                by_cases hff : f' = f
                · subst hff; rw [e3, hnn]; rfl
                · exact e4 pid f' (by simp [hff])
              refine ⟨⟨0, some (readAt g.mcache.flatten off.toNat dst.length).length, none,
                  [readAt g.mcache.flatten off.toNat dst.length ++
                    dst.drop (readAt g.mcache.flatten off.toNat dst.length).length]⟩, n',
                .got (readAt g.mcache.flatten off.toNat dst.length), ?_, ?_, ?_, ⟨?_, ?_, ?_⟩, ?_⟩
              · rw [hcall f hf, e1]
                rfl
              · exact ⟨rfl, rfl, by simp [FileCall.bufs]⟩
              · rw [hop, store_eta e2 hfds]
                exact Step.read (s := store pid n) h1 hrd (show (store pid n).objs e.mnode = some (.file g.mcache.flatten true g.modes.writable) by
                  simp only [store, hx, Option.map_some, objOf, hg])
              · intro c
                have := hfds f
                rw [hnn] at this
                simp [Node.fd?, c] at this
              · intro fd e he; rw [hfds] at he; exact hd.fds fd e he
              · rw [e2]; exact hd.root
              · intro p hp' fd
                exact e4 p fd (by simp [hp'])
      · exact bad (fun c => absurd c hrd) ⟨.permissionError, by simp [Node.fileRead, ht, he, hrd]⟩

theorem write_good {nlogs pid : Nat} {n : Node} (hn : 0 < nlogs) (hr : Reachable nlogs n) (hd : Ready pid n)
    (fd : Int) (iov : List (List UInt8)) (off : Int) (hp : Plain (.write fd iov off)) :
    Good nlogs pid n (.write fd iov off) := by
  obtain ⟨⟨src, rfl, hne⟩, ho⟩ := hp
  have hl : src.length ≠ 0 := fun c => hne (List.length_eq_zero_iff.1 c)
  have hop : opOf (.write fd [src] off) = .write fd src (if off = -1 then none else some off.toNat) := by
    simp only [opOf, List.flatten_cons, List.flatten_nil, List.append_nil]
  generalize hoo : (if off = -1 then none else some off.toNat) = oo at hop
  have hcall : ∀ f, fdOf fd = some f → fileCall nlogs pid n (.write fd [src] off) =
      match n.call nlogs (.write pid f src oo) .good with
      | (.ok (.fileAccessed len), n') => (.ok { code := 0, val := some len, bufs := [src] }, n')
      | (.ok _, n') => (.panic, n')
      | (.err _, n') => (.ok { code := 22, bufs := [src] }, n')
      | (.panic, n') => (.panic, n') := by
    intro f hf
    simp only [fileCall, iovwrite, if_neg hl, hf, decide_eq_true ho, hoo]
    rfl
  cases hf : fdOf fd with
  | none =>
    refine good_error (a := { code := 22, bufs := [src] }) hd ?_ (by simp) rfl ?_
    · simp only [fileCall, iovwrite, if_neg hl, hf]
    · rw [hop]
      refine .writeBad (fun h b rd hh => ?_)
      rw [handle_none (by intro f c; rw [hf] at c; cases c)] at hh
      cases hh
  | some f =>
    obtain ⟨t, ht⟩ := Option.ne_none_iff_exists'.1 hd.proc
    cases he : t f with
    | none =>
      have hnn : n.fd? pid f = none := by simp [Node.fd?, ht, he]
      refine good_error (a := { code := 22, bufs := [src] }) hd ?_ (by simp) rfl ?_
      · rw [hcall f hf]
        simp only [Node.call, Node.submit, Access.logs, Node.dispatch, ht, he]
      · rw [hop]
        refine .writeBad (fun h b rd hh => ?_)
        rw [handle_none (by intro f' c; rw [hf] at c; cases c; exact hnn)] at hh
        cases hh
    | some e =>
      have hnn : n.fd? pid f = some e := by simp [Node.fd?, ht, he]
      obtain ⟨h1, h2⟩ := handle_some hf hnn
      obtain ⟨hm2, hap⟩ := hd.fds f e hnn
      have hwo : n.writeOffset e oo = .ok (oo.getD e.offset) := by
        unfold Node.writeOffset
        cases oo with
        | some o => rfl
        | none => simp [hap]
      have bad : (e.flags.write = true → ∀ b rd, (n.fs.mnodes e.mnode).map objOf ≠ some (.file b rd true)) →
          (∃ er, n.fileWrite pid f src oo .good = (.err er, n)) → Good nlogs pid n (.write fd [src] off) := by
        intro hb ⟨er, her⟩
        refine good_error (a := { code := 22, bufs := [src] }) hd ?_ (by simp) rfl ?_
        · rw [hcall f hf, call_write_eq n nlogs pid f e src _ _ hn hnn hm2, her]
        · rw [hop]
          refine .writeBad (fun h b wr hh hrd => ?_)
          rw [h1] at hh
          cases hh
          exact hb hrd b wr
      have same : ∀ x, n.fs.mnodes e.mnode = some x →
          ({ n with fs := { n.fs with mnodes := upd n.fs.mnodes e.mnode (some x) } } : Node) = n := by
        intro x hx
        have : upd n.fs.mnodes e.mnode (some x) = n.fs.mnodes := by
          funext i
          by_cases hi : i = e.mnode
          · subst hi; rw [upd_same, hx]
          · rw [upd_other _ _ hi]
        rw [this]
      by_cases hwr : e.flags.write = true
      · cases hx : n.fs.mnodes e.mnode with
        | none =>
          exact bad (fun _ b wr => by rw [hx]; simp) ⟨.invalidFile, by simp [Node.fileWrite, ht, he, hwr, hwo, MlnrFS.write, hx]⟩
        | some x =>
          cases x with
          | directory =>
            refine bad (fun _ b wr => by rw [hx]; simp [objOf]) ⟨.permissionError, ?_⟩
            have := same _ hx
            simp [Node.fileWrite, ht, he, hwr, hwo, MlnrFS.write, hx, MemNode.write, this]
          | file g =>
            cases hg : g.modes.writable with
            | false =>
              refine bad (fun _ b wr => by rw [hx]; simp [objOf, hg]) ⟨.permissionError, ?_⟩
              have := same _ hx
              simp [Node.fileWrite, ht, he, hwr, hwo, MlnrFS.write, hx, MemNode.write, hg, this]
            | true =>
              obtain ⟨n', e1, e2, e3, e4, e5, e6, e7⟩ := write_effect n hr.inv nlogs pid f e src oo hn hnn hwr
                g.mcache.flatten (by simp only [Node.contents, hx]) g.modes (by simp only [Node.modes?, hx]) hg
              simp only [hap, Bool.false_eq_true, if_false] at e2 e6
              obtain ⟨g', g1, g2⟩ := contents_file e2
              obtain ⟨g'', g3, g4⟩ := modes_file e3
              rw [g1] at g3
              cases g3
              have hobjs : (store pid n').objs = upd (store pid n).objs e.mnode
                  (some (.file (writeAt g.mcache.flatten (oo.getD e.offset) src) g.modes.readable true)) := by
                funext i
                simp only [store, upd_apply]
                split
                · rename_i hi
                  subst hi
                  rw [g1]
                  simp only [Option.map_some, objOf, g2, g4, hg]
                · rename_i hi
                  rw [e5 i hi]
              have hfds := store_fds (n := n) e6 (fun f' hf' => e7 pid f' (by simp [hf']))
              refine ⟨{ code := 0, val := some src.length, bufs := [src] }, n', .wrote src.length, ?_, ?_, ?_,
                ⟨?_, ?_, ?_⟩, ?_⟩
              · rw [hcall f hf, e1]
              · exact ⟨rfl, rfl, rfl⟩
              · rw [hop]
                have := Step.write (s := store pid n) (fd := fd) (data := src) (off := oo) h1 hwr
                  (show (store pid n).objs e.mnode = some (.file g.mcache.flatten g.modes.readable true) by
                    simp only [store, hx, Option.map_some, objOf, hg])
                refine cast (congrArg _ (Eq.symm ?_)) this
                cases oo with
                | none =>
                  rw [if_pos rfl]
                  refine store_ext e4 hobjs ?_
                  rw [hfds, h2]
                  rfl
                | some o =>
                  rw [if_neg (by simp)]
                  refine store_ext e4 hobjs ?_
                  rw [hfds]
                  funext k
                  rw [upd_apply]
                  split
                  · rename_i hk
                    subst hk
                    simp only [store]
                    rw [dif_pos f.isLt]
                    simp [hnn]
                  · rfl
              · intro c
                simp [Node.fd?, c] at e6
              · intro fd e' he'
                by_cases hff : fd = f
                · subst hff
                  rw [e6] at he'
                  cases he'
                  split <;> exact ⟨hm2, hap⟩
                · rw [e7 pid fd (by simp [hff])] at he'
                  exact hd.fds fd e' he'
              · rw [e4]; exact hd.root
              · intro p hp' fd
                exact e7 p fd (by simp [hp'])
      · exact bad (fun c => absurd c hwr) ⟨.permissionError, by simp [Node.fileWrite, ht, he, hwr]⟩

theorem fileCall_reachable {nlogs pid : Nat} {n : Node} (hr : Reachable nlogs n) (c : FileCall) :
    Reachable nlogs (fileCall nlogs pid n c).2 := by
  have key : ∀ (k : Call), Reachable nlogs (n.call nlogs k .good).2 := fun k => hr.call k .good
  cases c with
  | «open» name mode =>
    simp only [fileCall, ropen]
    split
    · exact hr
    · rename_i name
      have := key (.open pid name (openFlags mode) (Modes.ofBits (4 ||| 2)))
      generalize n.call nlogs (.open pid name (openFlags mode) (Modes.ofBits (4 ||| 2))) .good = r at this
      obtain ⟨r1, r2⟩ := r
      split <;> simp_all
  | close fd =>
    simp only [fileCall, rclose]
    split
    · exact hr
    · rename_i f _
      have := key (.close pid f)
      generalize n.call nlogs (.close pid f) .good = r at this
      obtain ⟨r1, r2⟩ := r
      split <;> simp_all
  | info name =>
    simp only [fileCall, rinfo]
    split
    · exact hr
    · rename_i name
      have := key (.info pid name)
      generalize n.call nlogs (.info pid name) .good = r at this
      obtain ⟨r1, r2⟩ := r
      split <;> simp_all
  | read fd iov off =>
    simp only [fileCall, iovread]
    split
    · rename_i dst
      split
      · exact hr
      · split
        · exact hr
        · split
          · rename_i f _ _
            have := key (.read pid f dst (some off.toNat))
            generalize n.call nlogs (.read pid f dst (some off.toNat)) .good = r at this
            obtain ⟨r1, r2⟩ := r
            split <;> simp_all
          · exact hr
    · exact hr
  | write fd iov off =>
    simp only [fileCall, iovwrite]
    split
    · rename_i src
      split
      · exact hr
      · split
        · rename_i f _ _
          have := key (.write pid f src (if off = -1 then none else some off.toNat))
          generalize n.call nlogs (.write pid f src (if off = -1 then none else some off.toNat)) .good = r at this
          obtain ⟨r1, r2⟩ := r
          split <;> simp_all
        · exact hr
    · exact hr

/-! ## The property -/

/-- **C98**, one call.  Partial: the calls are `Plain` and the process is `Ready`.  In every state the file system can be in,
whatever other processes did, a call gives an answer that the specification allows, and has exactly the effect that goes
with it; the descriptors of other processes stay as they are. -/
theorem c98_call_partial {nlogs pid : Nat} {n : Node} (hn : 0 < nlogs) (hr : Reachable nlogs n) (hd : Ready pid n)
    (c : FileCall) (hp : Plain c) :
    ∃ a n' r, fileCall nlogs pid n c = (.ok a, n') ∧ Shows c a r ∧ Step (store pid n) (opOf c) r (store pid n') ∧
      Ready pid n' ∧ Reachable nlogs n' ∧ (∀ p, p ≠ pid → ∀ fd, n'.fd? p fd = n.fd? p fd) := by
  have g : Good nlogs pid n c := by
    cases c with
    | «open» name mode => exact open_good hr.inv hd name mode hp
    | close fd => exact close_good hd fd
    | info name => exact info_good hn hr hd name hp
    | read fd iov off => exact read_good hn hr hd fd iov off hp
    | write fd iov off => exact write_good hn hr hd fd iov off hp
  obtain ⟨a, n', r, h1, h2, h3, h4, h5⟩ := g
  refine ⟨a, n', r, h1, h2, h3, h4, ?_, h5⟩
  have := fileCall_reachable (pid := pid) hr c
  rwa [h1] at this

/-- **C98**, sequences of calls.  No call panics, and the answers are those of some run of the specification. -/
theorem c98_calls_partial {nlogs pid : Nat} (hn : 0 < nlogs) : ∀ (cs : List FileCall) {n : Node}, Reachable nlogs n →
    Ready pid n → (∀ c ∈ cs, Plain c) →
    ∃ as n' rs, fileCalls nlogs pid n cs = some (as, n') ∧ as.length = cs.length ∧ rs.length = cs.length ∧
      (∀ (i : Nat) c a r, cs[i]? = some c → as[i]? = some a → rs[i]? = some r → Shows c a r) ∧
      Steps (store pid n) ((cs.map opOf).zip rs) (store pid n')
  | [], n, _, _, _ => ⟨[], n, [], rfl, rfl, rfl, by simp, .nil⟩
  | c :: cs, n, hr, hd, hp => by
    obtain ⟨a, n1, r, h1, h2, h3, h4, h5, -⟩ := c98_call_partial hn hr hd c (hp c (by simp))
    obtain ⟨as, n', rs, g1, g2, g3, g4, g5⟩ := c98_calls_partial hn cs h5 h4 (fun c hc => hp c (by simp [hc]))
    refine ⟨a :: as, n', r :: rs, ?_, by simp [g2], by simp [g3], ?_, .cons h3 g5⟩
    · simp only [fileCalls, h1, g1, Option.map_some]
    · intro i c' a' r' hc ha hr'
      cases i with
      | zero => simp only [List.getElem?_cons_zero, Option.some.injEq] at hc ha hr'; subst hc ha hr'; exact h2
      | succ i => simp only [List.getElem?_cons_succ] at hc ha hr'; exact g4 i c' a' r' hc ha hr'

/-- The code of every error. -/
theorem c98_codes {nlogs pid : Nat} {n n' : Node} {c : FileCall} {a : Ans} (h : fileCall nlogs pid n c = (.ok a, n')) :
    a.code = 0 ∨ a.code = (match c with | .close _ => 9 | .info (some _) => 2 | _ => 22) := by
  cases c with
  | «open» name mode =>
    cases name with
    | none => cases h; exact .inr rfl
    | some name =>
      simp only [fileCall, ropen] at h
      split at h <;> cases h
      · exact .inl rfl
      · exact .inr rfl
  | close fd =>
    simp only [fileCall, rclose] at h
    cases hf : fdOf fd with
    | none => rw [hf] at h; cases h; exact .inr rfl
    | some f =>
      rw [hf] at h
      simp only at h
      split at h <;> cases h
      · exact .inl rfl
      · exact .inr rfl
  | info name =>
    cases name with
    | none => cases h; exact .inr rfl
    | some name =>
      simp only [fileCall, rinfo] at h
      split at h <;> cases h
      · exact .inl rfl
      · exact .inr rfl
  | read fd iov off =>
    match iov, h with
    | [], h => cases h
    | _ :: _ :: _, h => cases h
    | [dst], h =>
      simp only [fileCall, iovread] at h
      by_cases h1 : dst.length = 0
      · rw [if_pos h1] at h; cases h; exact .inr rfl
      · rw [if_neg h1] at h
        by_cases h2 : off = -1
        · rw [if_pos h2] at h; cases h; exact .inr rfl
        · rw [if_neg h2] at h
          cases hf : fdOf fd with
          | none => rw [hf] at h; cases h; exact .inr rfl
          | some f =>
            cases hd : decide (0 ≤ off) with
            | false => rw [hf, hd] at h; cases h; exact .inr rfl
            | true =>
              rw [hf, hd] at h
              simp only at h
              split at h <;> cases h
              · exact .inl rfl
              · exact .inr rfl
  | write fd iov off =>
    match iov, h with
    | [], h => cases h
    | _ :: _ :: _, h => cases h
    | [src], h =>
      simp only [fileCall, iovwrite] at h
      by_cases h1 : src.length = 0
      · rw [if_pos h1] at h; cases h; exact .inr rfl
      · rw [if_neg h1] at h
        cases hf : fdOf fd with
        | none => rw [hf] at h; cases h; exact .inr rfl
        | some f =>
          cases hd : decide (-1 ≤ off) with
          | false => rw [hf, hd] at h; cases h; exact .inr rfl
          | true =>
            rw [hf, hd] at h
            simp only at h
            split at h <;> cases h
            · exact .inl rfl
            · exact .inr rfl

/-! ## What is not so -/

/-- Finding.  A file that is opened only to write can be read: the flag to read is the number 0, which every set of flags
contains. -/
theorem c98_write_only (mode : Nat) : (openFlags mode).read = true ∧ (OpenMode.ofNumber (4 * mode + 1)).rd = false := by
  rw [openFlags_eq]
  refine ⟨rfl, ?_⟩
  simp only [OpenMode.ofNumber, decide_eq_false_iff_not]
  omega

/-- Finding.  `RUMPUSER_OPEN_EXCL` is ignored. -/
theorem c98_excl (nlogs pid : Nat) (n : Node) (name : Option String) (mode : Nat) (h : mode / 8 % 2 = 0) :
    ropen nlogs pid n name (mode + 8) = ropen nlogs pid n name mode := by
  have : openFlags (mode + 8) = openFlags mode := by
    rw [openFlags_eq, openFlags_eq]
    have h1 : (mode + 8) % 4 = mode % 4 := by omega
    have h2 : (mode + 8) / 4 % 2 = mode / 4 % 2 := by omega
    rw [h1, h2]
  simp only [ropen, this]

/-- Finding.  A read at the position of the descriptor (offset -1) always fails, while a write there works. -/
theorem c98_read_here (nlogs pid : Nat) (n : Node) (fd : Int) (dst : List UInt8) :
    iovread nlogs pid n fd [dst] (-1) = (.ok { code := 22, bufs := [dst] }, n) := by
  simp [iovread]

/-- Finding.  More than one buffer, or none: the program ends with a panic. -/
theorem c98_vectors (nlogs pid : Nat) (n : Node) (fd : Int) (iov : List (List UInt8)) (off : Int) (h : iov.length ≠ 1) :
    iovread nlogs pid n fd iov off = (.panic, n) ∧ iovwrite nlogs pid n fd iov off = (.panic, n) := by
  match iov, h with
  | [], _ => exact ⟨rfl, rfl⟩
  | _ :: _ :: _, _ => exact ⟨rfl, rfl⟩

/-- Finding.  To read or write nothing is an error. -/
theorem c98_nothing (nlogs pid : Nat) (n : Node) (fd off : Int) :
    iovread nlogs pid n fd [[]] off = (.ok { code := 22, bufs := [[]] }, n) ∧
    iovwrite nlogs pid n fd [[]] off = (.ok { code := 22, bufs := [[]] }, n) := by
  simp [iovread, iovwrite]

/-- An offset below -1 is an error without effect. -/
theorem c98_negative (nlogs pid : Nat) (n : Node) (fd off : Int) (b : List UInt8) (h : off < -1) :
    iovread nlogs pid n fd [b] off = (.ok { code := 22, bufs := [b] }, n) ∧
    iovwrite nlogs pid n fd [b] off = (.ok { code := 22, bufs := [b] }, n) := by
  have h1 : decide (0 ≤ off) = false := decide_eq_false (by omega)
  have h2 : decide (-1 ≤ off) = false := decide_eq_false (by omega)
  simp only [iovread, iovwrite, h1, h2]
  constructor <;> (split <;> simp_all)

end NRK.Rump
