import Verif.Rack.RemoteFsModel
import Verif.Rpc.Props
import Verif.Fs.FsProps

/-!
# Helper lemmas for remote file operations
-/

namespace NRK.Rack.Remote

open Rpc (Header Res received Carries ENTRY ENTRY_eq)
open Fs (Node Env Fd Flags Modes NodeResult)
open Fs.Spec (overwrite)

/-! ## Encoding -/

theorem le8_length (n : Nat) : (le8 n).length = 8 := rfl

theorem leVal_le8 (n : Nat) (h : n < 2 ^ 64) : leVal (le8 n) = n := by
  simp only [leVal, le8, List.foldr_cons, List.foldr_nil, UInt8.toNat_ofNat']
  omega

theorem encWords_length (ws : List Nat) : (encWords ws).length = 8 * ws.length := by
  induction ws with
  | nil => rfl
  | cons w ws ih =>
    simp only [encWords, List.flatMap_cons, List.length_append, le8_length, List.length_cons] at *
    omega

theorem encWords_cons (w : Nat) (ws : List Nat) : encWords (w :: ws) = le8 w ++ encWords ws := rfl

theorem decWords_enc (ws : List Nat) (h : ∀ w ∈ ws, w < 2 ^ 64) (rest : List UInt8) :
    decWords ws.length (encWords ws ++ rest) = some (ws, rest) := by
  induction ws with
  | nil => rfl
  | cons w ws ih =>
    rw [List.length_cons, decWords, encWords_cons, List.append_assoc]
    have e1 : (le8 w ++ (encWords ws ++ rest)).take 8 = le8 w := rfl
    have e2 : (le8 w ++ (encWords ws ++ rest)).drop 8 = encWords ws ++ rest := rfl
    rw [if_neg (by rw [List.length_append, le8_length]; omega), e1, e2,
      ih (fun x hx => h x (List.mem_cons_of_mem _ hx)), leVal_le8 w (h w List.mem_cons_self)]
    rfl

theorem flags_roundtrip (f : Flags) : Flags.ofBits (flagBits f) = f := by
  obtain ⟨a, b, c, d, e⟩ := f
  revert a b c d e
  decide

theorem modes_roundtrip (m : Modes) : Modes.ofBits (modeBits m) = m := by
  obtain ⟨a, b, c⟩ := m
  revert a b c
  decide

theorem flagBits_lt (f : Flags) : flagBits f < 2 ^ 64 := by
  unfold flagBits; repeat' split
  all_goals omega

theorem modeBits_lt (m : Modes) : modeBits m < 2 ^ 64 := by
  unfold modeBits; repeat' split
  all_goals omega

theorem offset_roundtrip (o : Option Nat) (h : ∀ x, o = some x → x < 2 ^ 63) :
    offsetOf (offsetBits o) = o ∧ offsetBits o < 2 ^ 64 := by
  cases o with
  | none => exact ⟨rfl, by decide⟩
  | some x =>
    have := h x rfl
    have e : offsetBits (some x) = x := rfl
    rw [e]
    refine ⟨?_, by omega⟩
    unfold offsetOf
    rw [if_neg (by omega)]

theorem fdOf_val (fd : Fd) : fdOf fd.val = some fd := by
  simp only [fdOf, dif_pos fd.isLt]

theorem fd_lt (fd : Fd) : fd.val < 2 ^ 64 := by
  have := fd.isLt
  have := Fs.MAX_FILES_eq
  omega

/-- An error a reply can carry. -/
def Wire (r : Outcome (UInt64 × UInt64)) : Prop := ∀ e, r = .err e → e ∈ plainErrors

theorem errOf_words (e : KError) (h : e ∈ plainErrors) :
    errOf (errWords e).1 (errWords e).2 = some e ∧ (errWords e).1 + 1 < 2 ^ 64 ∧
      (errWords e).2 < 2 ^ 64 := by
  revert e
  decide +kernel

theorem encRes_length (r : Outcome (UInt64 × UInt64)) : (encRes r).length = RES_SIZE := by
  cases r <;> simp only [encRes, encWords_length, RES_SIZE, List.length_cons, List.length_nil]

theorem decRes_enc (r : Outcome (UInt64 × UInt64)) (h : Wire r) (hp : r ≠ .panic) :
    decRes (encRes r) = some (r, []) := by
  cases r with
  | panic => exact absurd rfl hp
  | ok v =>
    obtain ⟨a, b⟩ := v
    have := decWords_enc [0, a.toNat, b.toNat] (by
      intro w hw
      simp only [List.mem_cons, List.not_mem_nil, or_false] at hw
      rcases hw with rfl | rfl | rfl
      · decide
      · exact a.toNat_lt
      · exact b.toNat_lt) []
    rw [List.append_nil] at this
    simp only [decRes, encRes]
    rw [show decWords 3 _ = _ from this]
    simp
  | err e =>
    obtain ⟨h1, h2, h3⟩ := errOf_words e (h e rfl)
    have := decWords_enc [(errWords e).1 + 1, (errWords e).2, 0] (by
      intro w hw
      simp only [List.mem_cons, List.not_mem_nil, or_false] at hw
      rcases hw with rfl | rfl | rfl
      · exact h2
      · exact h3
      · decide) []
    rw [List.append_nil] at this
    simp only [decRes, encRes]
    rw [show decWords 3 _ = _ from this]
    simp only [h1, Option.map_some]

theorem strBytes_length (s : String) : (strBytes s).length = s.utf8ByteSize := by
  simp [strBytes]

/-- The bytes between two strings of bytes. -/
theorem strFrom_mid (a : List UInt8) (s : String) (rest : List UInt8) (i j : Nat) (hi : i = a.length)
    (hj : j = a.length + (strBytes s).length) :
    strFrom (a ++ (strBytes s ++ rest)) i j = .ok s := by
  subst hi hj
  have e : ((a ++ (strBytes s ++ rest)).take (a.length + (strBytes s).length)).drop a.length
      = strBytes s := by
    rw [← List.append_assoc, ← List.length_append, List.take_left, List.drop_left]
  unfold strFrom
  rw [if_neg (by simp only [List.length_append]; omega), e]
  have e2 : (⟨(strBytes s).toArray⟩ : ByteArray) = s.toByteArray := by simp [strBytes]
  have e3 : String.fromUTF8? s.toByteArray = some s := by
    unfold String.fromUTF8?
    rw [dif_pos s.isValidUTF8]
    rfl
  rw [e2, e3]

/-! ## One call -/

theorem received_length (old b : List UInt8) (h : b.length ≤ old.length) :
    (received old b).length = old.length := by
  simp only [received, List.length_append, List.length_drop]; omega

/-- What a call does if the handler behaves like `constructRet` of some result; the reply
is left in the controller's buffer. -/
theorem rpc_eq_full {σ : Type} (c : Ctrl σ) (p : Params σ) (l : Link) (id : KernelRpc)
    (dataIn : List (List UInt8)) (name : HandlerName) (h1 : l.slot1.length = ENTRY)
    (h2 : l.slot2.length = ENTRY) (hd : c.srv.data.length = ENTRY) (hl : lookup id.num = some name)
    (hn : dataIn.length ≤ 6) (hfit : 4 + dataIn.flatten.length ≤ ENTRY)
    (res : Outcome (UInt64 × UInt64)) (w : World σ) (hw : Wire res)
    (hrun : ∀ h : Header, h.msgType = id.num → h.msgLen.toNat = dataIn.flatten.length →
      c.world.run p name h (received c.srv.data dataIn.flatten) =
        (constructRet h (received c.srv.data dataIn.flatten) res, w)) :
    ∃ srv, srv.data.length = ENTRY ∧ (res ≠ .panic → srv.data.take 24 = encRes res) ∧
      c.rpc p l id dataIn = (res, ⟨srv, w⟩) := by
  have hE := ENTRY_eq
  let req : Header := { l.hdr with msgType := id.num, msgLen := UInt16.ofNat dataIn.flatten.length }
  have hml : req.msgLen.toNat = dataIn.flatten.length := by
    show (UInt16.ofNat dataIn.flatten.length).toNat = _
    rw [UInt16.toNat_ofNat_of_lt' (by simp only [UInt16.size]; omega)]
  have hsend := Rpc.sendMsg_eq l.slot1 req dataIn h1 hn hfit
  have hcs : Rpc.clientSend l.slot1 l.hdr id.num dataIn = .ok (req, some (4 + dataIn.flatten.length,
      overwrite l.slot1 0 (req.bytes ++ dataIn.flatten))) := by
    unfold Rpc.clientSend
    simp only [Rpc.totalLen_eq]
    rw [if_neg (by omega)]
    rw [show Rpc.sendMsg l.slot1
      { l.hdr with msgType := id.num, msgLen := UInt16.ofNat dataIn.flatten.length } dataIn = _ from hsend]
  have hcar := Rpc.carries_of_send l.slot1 h1 _ _ _ hsend
  have hrec := Rpc.receive_eq c.srv _ req dataIn.flatten hcar (by omega)
  have hrl : (received c.srv.data dataIn.flatten).length = ENTRY := by
    rw [received_length _ _ (by omega), hd]
  have hr := hrun req rfl hml
  have hlk : lookup req.msgType = some name := hl
  cases hres : res with
  | panic =>
    subst hres
    refine ⟨{ c.srv with hdr := req, data := received c.srv.data dataIn.flatten }, hrl, fun h => absurd rfl h, ?_⟩
    have hh : c.handle p (4 + dataIn.flatten.length,
        overwrite l.slot1 0 (req.bytes ++ dataIn.flatten)) l.slot2 =
        (none, ⟨{ c.srv with hdr := req, data := received c.srv.data dataIn.flatten }, w⟩) := by
      unfold Ctrl.handle
      rw [hrec]
      simp only [hlk, hr, constructRet]
    simp only [Ctrl.rpc, hcs, hh]
  | _ =>
    rw [← hres]
    have hnp : res ≠ .panic := by rw [hres]; exact (nomatch ·)
    have hret : constructRet req (received c.srv.data dataIn.flatten) res =
        some ({ req with msgLen := UInt16.ofNat RES_SIZE },
          overwrite (received c.srv.data dataIn.flatten) 0 (encRes res)) := by
      rw [hres]
      simp only [constructRet]
      rw [if_neg (by rw [hrl, hE]; decide)]
    generalize hov : overwrite (received c.srv.data dataIn.flatten) 0 (encRes res) = d at hret
    have hdl : d.length = ENTRY := by
      rw [← hov]
      simp only [overwrite, List.take_zero, List.nil_append, List.length_append, List.length_drop, encRes_length, hrl,
        RES_SIZE, hE]
    have htk : d.take 24 = encRes res := by
      rw [← hov, show 24 = (encRes res).length from (encRes_length res).symm]
      exact Rpc.take_overwrite_zero _ _
    obtain ⟨e, he, hce⟩ := Rpc.reply_eq
      { c.srv with hdr := { req with msgLen := UInt16.ofNat RES_SIZE }, data := d } l.slot2 h2 hdl
      (by rw [hE]; show (UInt16.ofNat RES_SIZE).toNat + 4 ≤ 8192; decide)
    have hh : c.handle p (4 + dataIn.flatten.length,
        overwrite l.slot1 0 (req.bytes ++ dataIn.flatten)) l.slot2 =
        (some [e], ⟨{ c.srv with hdr := { req with msgLen := UInt16.ofNat RES_SIZE }, data := d }, w⟩) := by
      unfold Ctrl.handle
      rw [hrec]
      simp only [hlk, hr, hret, he]
    have htk' : (({ c.srv with hdr := { req with msgLen := UInt16.ofNat RES_SIZE }, data := d } :
        Rpc.Server).data.take
        ({ c.srv with hdr := { req with msgLen := UInt16.ofNat RES_SIZE }, data := d } :
        Rpc.Server).hdr.msgLen.toNat) = encRes res := htk
    rw [htk'] at hce
    obtain ⟨n, value⟩ := e
    obtain ⟨c1, c2, c3⟩ := hce
    simp only at c1 c2 c3
    subst c1
    have hrm := Rpc.recvMsg_eq value _ req (encRes res) [List.replicate RES_SIZE 0] c3 c2
      (by simp) (by simp [encRes_length])
    have hsp : Rpc.spread (encRes res) [List.replicate RES_SIZE 0] = [encRes res] := by
      have hl := Rpc.spread_lengths [List.replicate RES_SIZE (0 : UInt8)] (encRes res)
      have hf := Rpc.spread_flatten [List.replicate RES_SIZE (0 : UInt8)] (encRes res)
        (by simp [encRes_length])
      generalize Rpc.spread (encRes res) [List.replicate RES_SIZE 0] = q at hl hf
      have hq : q.length = 1 := by simpa using congrArg List.length hl
      obtain ⟨x, rfl⟩ := List.length_eq_one_iff.mp hq
      simp only [List.flatten_cons, List.flatten_nil, List.append_nil, encRes_length] at hf
      rw [List.drop_of_length_le (by simp), List.append_nil] at hf
      rw [hf]
    refine ⟨{ c.srv with hdr := { req with msgLen := UInt16.ofNat RES_SIZE }, data := d }, hdl, fun _ => htk, ?_⟩
    simp only [Ctrl.rpc, hcs, hh, hrm, hsp, decRes_enc res hw hnp, List.length_nil, gt_iff_lt,
      Nat.lt_irrefl, if_false]

/-- `rpc_eq_full` without the buffer. -/
theorem rpc_eq {σ : Type} (c : Ctrl σ) (p : Params σ) (l : Link) (id : KernelRpc)
    (dataIn : List (List UInt8)) (name : HandlerName) (h1 : l.slot1.length = ENTRY)
    (h2 : l.slot2.length = ENTRY) (hd : c.srv.data.length = ENTRY) (hl : lookup id.num = some name)
    (hn : dataIn.length ≤ 6) (hfit : 4 + dataIn.flatten.length ≤ ENTRY)
    (res : Outcome (UInt64 × UInt64)) (w : World σ) (hw : Wire res)
    (hrun : ∀ h : Header, h.msgType = id.num → h.msgLen.toNat = dataIn.flatten.length →
      c.world.run p name h (received c.srv.data dataIn.flatten) =
        (constructRet h (received c.srv.data dataIn.flatten) res, w)) :
    ∃ srv, srv.data.length = ENTRY ∧ c.rpc p l id dataIn = (res, ⟨srv, w⟩) := by
  obtain ⟨srv, a, _, b⟩ := rpc_eq_full c p l id dataIn name h1 h2 hd hl hn hfit res w hw hrun
  exact ⟨srv, a, b⟩

/-! ## Facts about the file system -/

/-- The outcome carries no error that a reply cannot carry. -/
structure Plain {α : Type} (r : Outcome α) : Prop where
  all : ∀ e, r = .err e → e ∈ plainErrors

theorem plain_ok {α : Type} (a : α) : Plain (.ok a) := ⟨fun _ h => (nomatch h)⟩
theorem plain_panic {α : Type} : Plain (.panic : Outcome α) := ⟨fun _ h => (nomatch h)⟩

theorem plain_err {α : Type} (e : KError) (h : e ∈ plainErrors) : Plain (.err e : Outcome α) := by
  constructor; intro e' he; cases he; exact h

theorem plain_cast {α β : Type} (e : KError) (h : Plain (.err e : Outcome α)) :
    Plain (.err e : Outcome β) := plain_err e (h.all e rfl)

theorem plain_map {α β : Type} (f : α → β) (r : Outcome α) (h : Plain r) : Plain (r.map f) := by
  cases r with
  | ok a => exact plain_ok _
  | panic => exact plain_panic
  | err e => exact plain_cast e h

/-- Closes goals about a literal outcome. -/
macro "plain" : tactic => `(tactic| first
  | exact plain_ok _ | exact plain_panic | exact plain_err _ (by decide +kernel)
  | (apply plain_cast; assumption))

theorem plain_writeLoop (bufs : List (List UInt8)) (k off : Nat) (data : List UInt8) :
    Plain (Fs.writeLoop bufs k off data) := by
  fun_induction Fs.writeLoop bufs k off data <;> first | plain | assumption

theorem plain_readLoop (bufs : List (List UInt8)) (fuel k off copied len start : Nat)
    (dst : List UInt8) : Plain (Fs.readLoop bufs fuel k off copied len start dst) := by
  induction fuel generalizing k off copied start dst with
  | zero => unfold Fs.readLoop; split <;> plain
  | succ fuel ih =>
    unfold Fs.readLoop
    split
    · simp only
      split
      · plain
      · split
        · plain
        · generalize (if len - copied ≥ _ then _ else _) = m
          unfold Fs.writeSubslice
          split
          · plain
          · exact ih ..
    · plain

theorem plain_increase (f : Fs.File) (a b : Nat) (oom : Fs.Oom) :
    Plain (f.increaseFileSize a b oom).1 := by
  unfold Fs.File.increaseFileSize Fs.File.increaseFileSize.addBuffers
  simp only
  repeat' split
  all_goals plain

theorem plain_memWrite (m : Fs.MemNode) (d : List UInt8) (o : Nat) (oom : Fs.Oom) :
    Plain (m.write d o oom).1 := by
  unfold Fs.MemNode.write
  split
  · plain
  · split
    · plain
    · unfold Fs.File.writeFile
      simp only
      split
      · plain
      · plain
      · rename_i g _
        have := plain_writeLoop g.mcache (Fs.offsetToBuffernum o Fs.PAGE)
          (o - Fs.offsetToBuffernum o Fs.PAGE * Fs.PAGE) d
        split
        · plain
        · rename_i e he; rw [he] at this; plain
        · plain

theorem plain_memRead (m : Fs.MemNode) (d : List UInt8) (o : Nat) : Plain (m.read d o) := by
  unfold Fs.MemNode.read
  split
  · plain
  · simp only
    repeat' split
    all_goals try plain
    unfold Fs.File.readFile
    simp only
    split
    · plain
    · exact plain_readLoop ..

theorem plain_fsWrite (fs : Fs.MlnrFS) (m : Nat) (d : List UInt8) (o : Nat) (env : Env) :
    Plain (fs.write m d o env).1 := by
  unfold Fs.MlnrFS.write
  split
  · exact plain_memWrite ..
  · plain

theorem plain_fsRead (fs : Fs.MlnrFS) (m : Nat) (d : List UInt8) (o : Nat) : Plain (fs.read m d o) := by
  unfold Fs.MlnrFS.read
  split
  · exact plain_memRead ..
  · plain

theorem plain_addNode (fs : Fs.MlnrFS) (name : String) (m : Fs.MemNode) (env : Env) :
    Plain (fs.addNode name m env).1 := by
  unfold Fs.MlnrFS.addNode
  repeat' split
  all_goals plain

theorem plain_delete (fs : Fs.MlnrFS) (name : String) (env : Env) : Plain (fs.delete name env).1 := by
  unfold Fs.MlnrFS.delete
  repeat' split
  all_goals plain

theorem plain_rename (fs : Fs.MlnrFS) (old new : String) (env : Env) :
    Plain (fs.rename old new env).1 := by
  unfold Fs.MlnrFS.rename Fs.MlnrFS.moveEntry
  simp only
  repeat' split
  all_goals plain

theorem plain_fileInfo (fs : Fs.MlnrFS) (m : Nat) : Plain (fs.fileInfo m) := by
  unfold Fs.MlnrFS.fileInfo
  split <;> plain

theorem plain_deallocate (t : Fs.FdTable) (fd : Fd) : Plain (t.deallocate fd).1 := by
  unfold Fs.FdTable.deallocate
  split <;> plain

theorem plain_openTarget (n : Node) (name : String) (flags : Flags) (modes : Modes) (env : Env) :
    Plain (n.openTarget name flags modes env).1 := by
  unfold Node.openTarget
  split
  · split
    · refine plain_map _ _ ?_
      unfold Fs.MlnrFS.truncate Fs.MemNode.truncate
      simp only
      repeat' split
      all_goals plain
    · plain
  · exact plain_addNode ..

theorem plain_fileOpen (n : Node) (pid : Nat) (name : String) (flags : Flags) (modes : Modes) (env : Env) :
    Plain (n.fileOpen pid name flags modes env).1 := by
  unfold Node.fileOpen
  simp only
  split
  · plain
  · split
    · plain
    · split
      · plain
      · rename_i t fid t1 _
        have h1 := plain_openTarget n name flags modes env
        have h2 := plain_deallocate t1 fid
        split
        · plain
        · rename_i e _ he
          rw [he] at h1
          split
          · plain
          · rename_i e' he'; rw [he'] at h2; plain
          · plain
        · plain

theorem plain_fileWrite (n : Node) (pid : Nat) (fd : Fd) (d : List UInt8) (o : Option Nat) (env : Env) :
    Plain (n.fileWrite pid fd d o env).1 := by
  unfold Node.fileWrite
  split
  · plain
  · split
    · plain
    · split
      · plain
      · rename_i e _ _
        have h1 : Plain (n.writeOffset e o) := by
          unfold Node.writeOffset
          split
          · plain
          · split
            · exact plain_map _ _ (plain_fileInfo ..)
            · plain
        split
        · plain
        · rename_i er he; rw [he] at h1; plain
        · rename_i curr _
          have h2 := plain_fsWrite n.fs e.mnode d curr env
          split
          · plain
          · rename_i er _ he; rw [he] at h2; plain
          · plain

theorem plain_dispatchMut (n : Node) (op : Fs.Modify) (env : Env) : Plain (n.dispatchMut op env).1 := by
  unfold Node.dispatchMut
  split
  · unfold Node.processAdd
    repeat' split
    all_goals plain
  · exact plain_fileOpen ..
  · exact plain_fileWrite ..
  · rename_i pid fd
    unfold Node.fileClose
    split
    · plain
    · rename_i t _
      have h := plain_deallocate t fd
      split
      · plain
      · rename_i e _ he; rw [he] at h; plain
      · plain
  · unfold Node.fileDelete
    split
    · plain
    · exact plain_map _ _ (plain_delete ..)
  · unfold Node.fileRename
    split
    · plain
    · exact plain_map _ _ (plain_rename ..)
  · unfold Node.mkDir
    split
    · plain
    · exact plain_map _ _ (plain_map _ _ (plain_addNode ..))

theorem plain_dispatch (n : Node) (op : Fs.Access) : Plain (n.dispatch op).1 := by
  unfold Node.dispatch
  split
  · unfold Node.fileRead
    split
    · plain
    · split
      · plain
      · rename_i pid fd _ dst o _ t _ _ e _
        split
        · plain
        · have h := plain_fsRead n.fs e.mnode dst (o.getD e.offset)
          simp only
          split
          · plain
          · rename_i er he; rw [he] at h; plain
          · plain
  · split
    · plain
    · split
      · plain
      · exact plain_map _ _ (plain_fileInfo ..)
  · repeat' split
    all_goals plain
  · repeat' split
    all_goals plain
  · plain

theorem plain_logOf (m nlogs : Nat) : Plain (Fs.logOf m nlogs) := by
  unfold Fs.logOf
  split <;> plain

theorem plain_submitMut (n : Node) (nlogs : Nat) (op : Fs.Modify) (env : Env) :
    Plain (n.submitMut nlogs op env).1 := by
  have h : Plain (op.logs nlogs) := by
    unfold Fs.Modify.logs
    split
    · exact plain_map _ _ (plain_logOf ..)
    · plain
  unfold Node.submitMut
  split
  · exact plain_dispatchMut ..
  · rename_i e he; rw [he] at h; plain
  · plain

theorem plain_submit (n : Node) (nlogs : Nat) (op : Fs.Access) : Plain (n.submit nlogs op).1 := by
  have h : Plain (op.logs nlogs) := by
    unfold Fs.Access.logs
    split
    · exact plain_map _ _ (plain_logOf ..)
    · exact plain_map _ _ (plain_logOf ..)
    · plain
    · plain
    · split <;> plain
  unfold Node.submit
  split
  · exact plain_dispatch ..
  · rename_i e he; rw [he] at h; plain
  · plain

theorem plain_call (n : Node) (nlogs : Nat) (c : Fs.Call) (env : Env) : Plain (n.call nlogs c env).1 := by
  unfold Node.call
  split
  · exact plain_submitMut ..
  · exact plain_submitMut ..
  · split
    · exact plain_submitMut ..
    · plain
    · plain
    · plain
  · split
    · exact plain_submit ..
    · plain
    · plain
    · plain
  · exact plain_submitMut ..
  · exact plain_submitMut ..
  · rename_i pid name
    have h := plain_submit n nlogs (.fileNameToMnode pid name)
    split
    · exact plain_submit ..
    · plain
    · rename_i e _ he; rw [he] at h; plain
    · plain
  · exact plain_submitMut ..
  · exact plain_submitMut ..

theorem wire_call (n : Node) (nlogs : Nat) (c : Fs.Call) (env : Env) :
    Wire ((n.call nlogs c env).1.map values) :=
  (plain_map _ _ (plain_call ..)).all

/-- What a read with two buffers of the same length does. -/
theorem read_two (n : Node) (h : n.Inv) (nlogs pid : Nat) (fd : Fd) (d d' : List UInt8) (o : Option Nat)
    (env env' : Env) (hl : d.length = d'.length) :
    let r := n.call nlogs (.read pid fd d o) env
    let r' := n.call nlogs (.read pid fd d' o) env'
    r.2 = r'.2 ∧
    ((∃ x : List UInt8, x.length ≤ d.length ∧ r.1 = .ok (.fileRead x.length (x ++ d.drop x.length)) ∧
        r'.1 = .ok (.fileRead x.length (x ++ d'.drop x.length))) ∨
     (r.1 = r'.1 ∧ ∀ q, r.1 ≠ .ok q)) := by
  have key : ∀ m off,
      (∃ x : List UInt8, x.length ≤ d.length ∧ n.fs.read m d off = .ok (x.length, x ++ d.drop x.length) ∧
        n.fs.read m d' off = .ok (x.length, x ++ d'.drop x.length)) ∨
      (n.fs.read m d off = n.fs.read m d' off ∧ ∀ q, n.fs.read m d off ≠ .ok q) := by
    intro m off
    unfold Fs.MlnrFS.read
    cases hm : n.fs.mnodes m with
    | none => exact .inr ⟨rfl, fun q hq => (nomatch hq)⟩
    | some x =>
      cases x with
      | directory => exact .inr ⟨rfl, fun q hq => (nomatch hq)⟩
      | file f =>
        have hc : Fs.Chunked f.mcache := h.fs.wf m _ hm
        by_cases hr : f.modes.readable = true
        · left
          have e1 := Fs.read_spec f hc hr d off
          have e2 := Fs.read_spec f hc hr d' off
          rw [← hl] at e2
          refine ⟨Fs.Spec.readAt f.mcache.flatten off d.length, ?_, e1, e2⟩
          simp only [Fs.Spec.readAt, List.length_take]
          omega
        · right
          have e : ∀ b, (Fs.MemNode.file f).read b off = .err .permissionError := by
            intro b
            simp only [Fs.MemNode.read]
            rw [if_pos (by simpa using hr)]
          simp only [e]
          exact ⟨trivial, fun q hq => (nomatch hq)⟩
  simp only [Node.call, Node.submit, Fs.Access.logs, Node.dispatch]
  cases hp : n.procs pid with
  | none => exact ⟨rfl, .inr ⟨rfl, fun q hq => (nomatch hq)⟩⟩
  | some t =>
    simp only
    cases ht : t fd with
    | none => exact ⟨rfl, .inr ⟨rfl, fun q hq => (nomatch hq)⟩⟩
    | some e =>
      simp only
      cases hlog : Fs.logOf e.mnode nlogs with
      | panic => exact ⟨rfl, .inr ⟨rfl, fun q hq => (nomatch hq)⟩⟩
      | err er => exact ⟨rfl, .inr ⟨rfl, fun q hq => (nomatch hq)⟩⟩
      | ok lg =>
        simp only [Outcome.map, Node.fileRead, hp, ht]
        by_cases hfr : e.flags.read = true
        · rw [if_neg (by simp [hfr]), if_neg (by simp [hfr])]
          rcases key e.mnode (o.getD e.offset) with ⟨x, hx, h1, h2⟩ | ⟨h1, h2⟩
          · rw [h1, h2]
            exact ⟨rfl, .inl ⟨x, hx, rfl, rfl⟩⟩
          · rw [← h1]
            cases hq : n.fs.read e.mnode d (o.getD e.offset) with
            | ok q => exact absurd hq (h2 q)
            | err er => exact ⟨rfl, .inr ⟨rfl, fun q hq => (nomatch hq)⟩⟩
            | panic => exact ⟨rfl, .inr ⟨rfl, fun q hq => (nomatch hq)⟩⟩
        · rw [if_pos (by simpa using hfr), if_pos (by simpa using hfr)]
          exact ⟨rfl, .inr ⟨rfl, fun q hq => (nomatch hq)⟩⟩

end NRK.Rack.Remote
