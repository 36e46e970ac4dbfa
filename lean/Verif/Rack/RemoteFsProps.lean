import Verif.Rack.RemoteFsLemmas

/-!
# Property theorem C60: file operations on a client machine of a rack behave like local ones

`localCall` is the call on one machine, whose meaning is the subject of C01 to C11; `remoteCall` goes
through the encoding, the message queues, the controller's handlers and back.
-/

namespace NRK.Rack.Remote

open Rpc (Header received ENTRY ENTRY_eq)
open Fs (Node Env Fd Flags Modes NodeResult)
open Fs.Spec (overwrite)

/-! ## Specification -/

/-- The bytes of the request: the fixed fields and the names or data sent with it. -/
def Op.requestLen : Op → Nat
  | .open name _ _ => 24 + name.utf8ByteSize
  | .read _ _ _ => 40
  | .write _ data _ => 40 + data.length
  | .close _ => 16
  | .info name => 8 + name.utf8ByteSize
  | .delete name => 8 + name.utf8ByteSize
  | .rename old new => 16 + (old.utf8ByteSize + new.utf8ByteSize)
  | .mkdir name _ => 16 + name.utf8ByteSize

/-- The request fits into a queue entry of 8192 bytes after a header of 4 bytes, a read asks for at most
8192 bytes. -/
def Op.Fits (op : Op) : Prop :=
  op.requestLen ≤ 8188 ∧ ∀ fd buf o, op = .read fd buf o → buf.length ≤ 8192

/-- Arguments are 64-bit values; offsets are not negative, or absent. -/
def Op.Offsets (op : Op) : Prop :=
  ∀ o, ((∃ fd b, op = .read fd b (some o)) ∨ ∃ fd b, op = .write fd b (some o)) → o < 2 ^ 63

/-- The memory of a client: queue slots and the server's buffer are 8192 bytes, the shared buffer too. -/
structure LinkOk {σ : Type} (l : Link) (c : Ctrl σ) : Prop where
  slot1 : l.slot1.length = ENTRY
  slot2 : l.slot2.length = ENTRY
  ptr : l.ptr < 2 ^ 64
  srv : c.srv.data.length = ENTRY
  shm : (c.world.shm l.ptr).length = 8192

/-! ## One call -/

theorem fs_case {σ : Type} (c : Ctrl σ) (p : Params σ) (l : Link) (hok : LinkOk l c) (id : KernelRpc)
    (dataIn : List (List UInt8)) (name : HandlerName) (hl : lookup id.num = some name)
    (hn : dataIn.length ≤ 6) (hfit : dataIn.flatten.length ≤ 8188) (call : Fs.Call)
    (hrun : ∀ h : Header, h.msgType = id.num → h.msgLen.toNat = dataIn.flatten.length →
      ∀ rest, c.world.run p name h (dataIn.flatten ++ rest) =
        c.world.fsReply p h (dataIn.flatten ++ rest) call) :
    ∃ srv : Rpc.Server, srv.data.length = ENTRY ∧ c.rpc p l id dataIn =
      ((c.world.node.call p.nlogs call p.env).1.map values,
        ⟨srv, { c.world with node := (c.world.node.call p.nlogs call p.env).2 }⟩) :=
  rpc_eq c p l id dataIn name hok.slot1 hok.slot2 hok.srv hl hn (by rw [ENTRY_eq]; omega) _ _
    (wire_call _ _ _ _) (fun h h1 h2 => hrun h h1 h2 _)

theorem run_str {σ : Type} (w : World σ) (p : Params σ) (h : Header) (ws : List Nat) (s : String)
    (rest : List UInt8) (call : String → Fs.Call) (start : Nat) (hs : start = 8 * ws.length)
    (hm : h.msgLen.toNat = (encWords ws ++ strBytes s).length) :
    w.strReply p h (encWords ws ++ (strBytes s ++ rest)) start call =
      w.fsReply p h (encWords ws ++ (strBytes s ++ rest)) (call s) := by
  unfold World.strReply
  rw [strFrom_mid _ s rest start _ (by rw [encWords_length, hs]) (by rw [hm, List.length_append])]

theorem lt1 {a : Nat} (h1 : a < 2 ^ 64) : ∀ w ∈ [a], w < 2 ^ 64 := by
  intro w hw; simp only [List.mem_cons, List.not_mem_nil, or_false] at hw; subst hw; exact h1

theorem lt2 {a b : Nat} (h1 : a < 2 ^ 64) (h2 : b < 2 ^ 64) : ∀ w ∈ [a, b], w < 2 ^ 64 := by
  intro w hw
  rcases List.mem_cons.mp hw with rfl | hw
  · exact h1
  · exact lt1 h2 w hw

theorem lt3 {a b c : Nat} (h1 : a < 2 ^ 64) (h2 : b < 2 ^ 64) (h3 : c < 2 ^ 64) :
    ∀ w ∈ [a, b, c], w < 2 ^ 64 := by
  intro w hw
  rcases List.mem_cons.mp hw with rfl | hw
  · exact h1
  · exact lt2 h2 h3 w hw

theorem lt5 {a b c d e : Nat} (h1 : a < 2 ^ 64) (h2 : b < 2 ^ 64) (h3 : c < 2 ^ 64) (h4 : d < 2 ^ 64)
    (h5 : e < 2 ^ 64) : ∀ w ∈ [a, b, c, d, e], w < 2 ^ 64 := by
  intro w hw
  rcases List.mem_cons.mp hw with rfl | hw
  · exact h1
  rcases List.mem_cons.mp hw with rfl | hw
  · exact h2
  · exact lt3 h3 h4 h5 w hw

/-- All calls but reads. -/
theorem remote_other {σ : Type} (c : Ctrl σ) (p : Params σ) (l : Link) (hok : LinkOk l c) (pid : Nat)
    (hpid : pid < 2 ^ 64) (op : Op) (hfit : op.Fits) (hoff : op.Offsets)
    (hnr : ∀ fd buf o, op ≠ .read fd buf o) :
    ∃ srv : Rpc.Server, srv.data.length = ENTRY ∧ remoteCall c p l pid op =
      ((c.world.node.call p.nlogs (op.call pid) p.env).1.map values, [],
        ⟨srv, { c.world with node := (c.world.node.call p.nlogs (op.call pid) p.env).2 }⟩) := by
  have hf := hfit.1
  cases op with
  | read fd buf o => exact absurd rfl (hnr fd buf o)
  | «open» name flags modes =>
    simp only [Op.requestLen] at hf
    obtain ⟨srv, h1, h2⟩ := fs_case c p l hok .open
      [encWords [pid, flagBits flags, modeBits modes], strBytes name] .open rfl (by simp)
      (by simp only [List.flatten_cons, List.flatten_nil, List.append_nil, List.length_append,
            encWords_length, strBytes_length, List.length_cons, List.length_nil]; omega)
      (.open pid name flags modes) (by
        intro h _ hm rest
        simp only [List.flatten_cons, List.flatten_nil, List.append_nil, List.append_assoc] at hm ⊢
        have hd := decWords_enc _ (lt3 hpid (flagBits_lt flags) (modeBits_lt modes)) (strBytes name ++ rest)
        simp only [World.run, World.handleOpen]
        rw [show decWords 3 _ = _ from hd]
        simp only
        rw [run_str _ _ _ _ _ _ _ _ (by simp) hm, flags_roundtrip, modes_roundtrip])
    exact ⟨srv, h1, by simp only [remoteCall, Ctrl.rpcOpen, h2, Op.call]⟩
  | mkdir name modes =>
    simp only [Op.requestLen] at hf
    obtain ⟨srv, h1, h2⟩ := fs_case c p l hok .mkDir
      [encWords [pid, modeBits modes], strBytes name] .mkDir rfl (by simp)
      (by simp only [List.flatten_cons, List.flatten_nil, List.append_nil, List.length_append,
            encWords_length, strBytes_length, List.length_cons, List.length_nil]; omega)
      (.mkdir pid name modes) (by
        intro h _ hm rest
        simp only [List.flatten_cons, List.flatten_nil, List.append_nil, List.append_assoc] at hm ⊢
        have hd := decWords_enc _ (lt2 hpid (modeBits_lt modes)) (strBytes name ++ rest)
        simp only [World.run, World.handleMkDir]
        rw [show decWords 2 _ = _ from hd]
        simp only
        rw [run_str _ _ _ _ _ _ _ _ (by simp) hm, modes_roundtrip])
    exact ⟨srv, h1, by simp only [remoteCall, Ctrl.rpcMkDir, h2, Op.call]⟩
  | info name =>
    simp only [Op.requestLen] at hf
    obtain ⟨srv, h1, h2⟩ := fs_case c p l hok .getInfo [encWords [pid], strBytes name] .getInfo rfl (by simp)
      (by simp only [List.flatten_cons, List.flatten_nil, List.append_nil, List.length_append,
            encWords_length, strBytes_length, List.length_cons, List.length_nil]; omega)
      (.info pid name) (by
        intro h _ hm rest
        simp only [List.flatten_cons, List.flatten_nil, List.append_nil, List.append_assoc] at hm ⊢
        have hd := decWords_enc _ (lt1 hpid) (strBytes name ++ rest)
        simp only [World.run, World.handleGetInfo]
        rw [show decWords 1 _ = _ from hd]
        simp only
        rw [run_str _ _ _ _ _ _ _ _ (by simp) hm])
    exact ⟨srv, h1, by simp only [remoteCall, Ctrl.rpcGetInfo, h2, Op.call]⟩
  | delete name =>
    simp only [Op.requestLen] at hf
    obtain ⟨srv, h1, h2⟩ := fs_case c p l hok .delete [encWords [pid], strBytes name] .delete rfl (by simp)
      (by simp only [List.flatten_cons, List.flatten_nil, List.append_nil, List.length_append,
            encWords_length, strBytes_length, List.length_cons, List.length_nil]; omega)
      (.delete pid name) (by
        intro h _ hm rest
        simp only [List.flatten_cons, List.flatten_nil, List.append_nil, List.append_assoc] at hm ⊢
        have hd := decWords_enc _ (lt1 hpid) (strBytes name ++ rest)
        simp only [World.run, World.handleDelete]
        rw [show decWords 1 _ = _ from hd]
        simp only
        rw [run_str _ _ _ _ _ _ _ _ (by simp) hm])
    exact ⟨srv, h1, by simp only [remoteCall, Ctrl.rpcDelete, h2, Op.call]⟩
  | close fd =>
    obtain ⟨srv, h1, h2⟩ := fs_case c p l hok .close [encWords [pid, fd.val]] .close rfl (by simp)
      (by simp only [List.flatten_cons, List.flatten_nil, List.append_nil,
            encWords_length, List.length_cons, List.length_nil]; omega)
      (.close pid fd) (by
        intro h _ hm rest
        simp only [List.flatten_cons, List.flatten_nil, List.append_nil] at hm ⊢
        have hd := decWords_enc _ (lt2 hpid (fd_lt fd)) rest
        simp only [World.run, World.handleClose]
        rw [show decWords 2 _ = _ from hd]
        simp only [fdOf_val])
    exact ⟨srv, h1, by simp only [remoteCall, Ctrl.rpcClose, h2, Op.call]⟩
  | write fd data o =>
    simp only [Op.requestLen] at hf
    have hor := offset_roundtrip o (fun x hx => hoff x (.inr ⟨fd, data, by rw [hx]⟩))
    obtain ⟨srv, h1, h2⟩ := fs_case c p l hok (if o = none then .write else .writeAt)
      [encWords [pid, fd.val, 0, data.length, offsetBits o], data] .write
      (by split <;> rfl) (by simp)
      (by simp only [List.flatten_cons, List.flatten_nil, List.append_nil, List.length_append,
            encWords_length, List.length_cons, List.length_nil]; omega)
      (.write pid fd data o) (by
        intro h ht hm rest
        simp only [List.flatten_cons, List.flatten_nil, List.append_nil, List.append_assoc] at hm ⊢
        have hd := decWords_enc _ (lt5 hpid (fd_lt fd) (by decide : 0 < 2 ^ 64)
          (by omega : data.length < 2 ^ 64) hor.2) (data ++ rest)
        simp only [World.run, World.handleWrite]
        rw [show decWords 5 _ = _ from hd]
        simp only [fdOf_val]
        rw [if_neg (by simp), List.take_left, hor.1]
        have : (if h.msgType = KernelRpc.write.num then none else o) = o := by
          rw [ht]
          cases o with
          | none => simp
          | some x => simp [KernelRpc.num]
        rw [this])
    exact ⟨srv, h1, by simp only [remoteCall, Ctrl.rpcWrite, h2, Op.call]⟩
  | rename old new =>
    simp only [Op.requestLen] at hf
    obtain ⟨srv, h1, h2⟩ := fs_case c p l hok .fileRename
      [encWords [pid, (strBytes old).length], strBytes old, strBytes new] .rename rfl (by simp)
      (by simp only [List.flatten_cons, List.flatten_nil, List.append_nil, List.length_append,
            encWords_length, strBytes_length, List.length_cons, List.length_nil]; omega)
      (.rename pid old new) (by
        intro h _ hm rest
        simp only [List.flatten_cons, List.flatten_nil, List.append_nil, List.append_assoc] at hm ⊢
        have hd := decWords_enc _ (lt2 hpid (by rw [strBytes_length]; omega :
          (strBytes old).length < 2 ^ 64)) (strBytes old ++ (strBytes new ++ rest))
        simp only [World.run, World.handleRename]
        rw [show decWords 2 _ = _ from hd]
        simp only
        rw [strFrom_mid _ old (strBytes new ++ rest) 16 _ (by simp [encWords_length])
          (by simp [encWords_length])]
        rw [← List.append_assoc (encWords _) (strBytes old), strFrom_mid _ new rest _ _
          (by simp [encWords_length])
          (by rw [hm]; simp only [List.length_append]; omega)])
    exact ⟨srv, h1, by simp only [remoteCall, Ctrl.rpcRename, h2, Op.call]⟩

/-- **C60** A file system call of a program on a client machine gives the program the result and the buffer
contents that the same call gives on a single machine, and leaves the same file system behind; the other
state of the controller and the buffers of other cores do not change.  Missing from the full property: calls
that do not fit (`c60_too_long_panics`). -/
theorem c60_remote_is_local_partial {σ : Type} (c : Ctrl σ) (p : Params σ) (l : Link) (hok : LinkOk l c)
    (hr : Fs.Reachable p.nlogs c.world.node) (pid : Nat) (hpid : pid < 2 ^ 64) (op : Op) (hfit : op.Fits)
    (hoff : op.Offsets) :
    (remoteCall c p l pid op).1 = (localCall c.world.node p.nlogs p.env pid op).1 ∧
    (remoteCall c p l pid op).2.1 = (localCall c.world.node p.nlogs p.env pid op).2.1 ∧
    (remoteCall c p l pid op).2.2.world.node = (localCall c.world.node p.nlogs p.env pid op).2.2 ∧
    (remoteCall c p l pid op).2.2.world.ext = c.world.ext ∧
    (∀ a, a ≠ l.ptr → (remoteCall c p l pid op).2.2.world.shm a = c.world.shm a) ∧
    LinkOk l (remoteCall c p l pid op).2.2 := by
  by_cases hread : ∃ fd buf o, op = .read fd buf o
  · obtain ⟨fd, buf, o, rfl⟩ := hread
    have hb := hfit.2 fd buf o rfl
    have hor := offset_roundtrip o (fun x hx => hoff x (.inl ⟨fd, buf, by rw [hx]⟩))
    have hshm := hok.shm
    have htl : buf.length = ((c.world.shm l.ptr).take buf.length).length := by
      rw [List.length_take]; omega
    obtain ⟨hst, hres⟩ := read_two c.world.node hr.inv p.nlogs pid fd buf
      ((c.world.shm l.ptr).take buf.length) o p.env p.env htl
    generalize hR : c.world.node.call p.nlogs (.read pid fd buf o) p.env = R at hst hres
    generalize hR' : c.world.node.call p.nlogs
      (.read pid fd ((c.world.shm l.ptr).take buf.length) o) p.env = R' at hst hres
    obtain ⟨srv, h1, h2⟩ := rpc_eq c p l .readAt
      [encWords [pid, fd.val, l.ptr, buf.length, offsetBits o]] .read hok.slot1 hok.slot2 hok.srv rfl
      (by simp) (by simp [encWords_length, ENTRY_eq]) (R'.1.map values)
      { c.world with node := R'.2,
                     shm := upd c.world.shm l.ptr (shmAfter (c.world.shm l.ptr) buf.length R'.1) }
      (by rw [← hR']; exact wire_call _ _ _ _) (by
        intro h ht _
        simp only [received, List.flatten_cons, List.flatten_nil, List.append_nil]
        have hd := decWords_enc _ (lt5 hpid (fd_lt fd) hok.ptr (by omega : buf.length < 2 ^ 64) hor.2)
          (c.srv.data.drop (encWords [pid, fd.val, l.ptr, buf.length, offsetBits o]).length)
        simp only [World.run, World.handleRead]
        rw [show decWords 5 _ = _ from hd]
        simp only [fdOf_val]
        rw [if_neg (by omega), if_pos ht, hor.1, hR'])
    simp only [remoteCall, localCall, Ctrl.rpcRead, Op.call, hR]
    rw [if_neg (by show ¬ 8192 < buf.length; omega), h2]
    rcases hres with ⟨x, hx, e1, e2⟩ | ⟨e1, e2⟩
    · have hxl : (UInt64.ofNat x.length).toNat = x.length := by
        rw [UInt64.toNat_ofNat_of_lt' (by simp only [UInt64.size]; omega)]
      rw [e1, e2]
      simp only [Outcome.map, values, upd_same, shmAfter, hxl]
      have hlen : (x ++ ((c.world.shm l.ptr).take buf.length).drop x.length ++
          (c.world.shm l.ptr).drop buf.length).length = 8192 := by
        simp only [List.length_append, List.length_drop, List.length_take]; omega
      rw [if_neg (by omega)]
      refine ⟨rfl, ?_, hst.symm, rfl, fun a ha => upd_other _ _ ha, ⟨hok.slot1, hok.slot2, hok.ptr, h1, ?_⟩⟩
      · simp only [Op.bufAfter, List.append_assoc, List.take_left, overwrite, List.take_zero,
          List.nil_append, Nat.zero_add]
      · simpa only [upd_same] using hlen
    · have hno : ∀ q, R'.1 ≠ .ok q := by rw [← e1]; exact e2
      rw [e1]
      cases hR'1 : R'.1 with
      | ok q => exact absurd hR'1 (hno q)
      | err e =>
        simp only [Outcome.map, Op.bufAfter, shmAfter, upd_self]
        exact ⟨trivial, trivial, hst.symm, trivial, fun a _ => trivial, ⟨hok.slot1, hok.slot2, hok.ptr, h1, hok.shm⟩⟩
      | panic =>
        simp only [Outcome.map, Op.bufAfter, shmAfter, upd_self]
        exact ⟨trivial, trivial, hst.symm, trivial, fun a _ => trivial, ⟨hok.slot1, hok.slot2, hok.ptr, h1, hok.shm⟩⟩
  · have hnr : ∀ fd buf o, op ≠ .read fd buf o := fun fd buf o h => hread ⟨fd, buf, o, h⟩
    obtain ⟨srv, h1, h2⟩ := remote_other c p l hok pid hpid op hfit hoff hnr
    rw [h2]
    refine ⟨rfl, ?_, rfl, rfl, fun a _ => rfl, ⟨hok.slot1, hok.slot2, hok.ptr, h1, hok.shm⟩⟩
    cases op with
    | read fd buf o => exact absurd rfl (hnr fd buf o)
    | _ => rfl

/-! ## Histories of a rack -/

/-- A rack: the controller's server for each client, and what the handlers work on. -/
structure Cluster (σ : Type) where
  srv : Nat → Rpc.Server
  world : World σ

/-- A call: the client, the connection, the process and the call, and what the environment does. -/
structure Event where
  client : Nat
  link : Link
  env : Env
  pid : Nat
  op : Op

/-- The calls of programs on any clients, in the order of execution; what the programs get. -/
def Cluster.run {σ : Type}
    (other : HandlerName → Header → List UInt8 → World σ → Option (Header × List UInt8) × World σ)
    (nlogs : Nat) : Cluster σ → List Event → List (Outcome (UInt64 × UInt64) × List UInt8) × Cluster σ
  | r, [] => ([], r)
  | r, e :: es =>
    let q := remoteCall ⟨r.srv e.client, r.world⟩ ⟨nlogs, e.env, other⟩ e.link e.pid e.op
    let rest := Cluster.run other nlogs ⟨upd r.srv e.client q.2.2.srv, q.2.2.world⟩ es
    ((q.1, q.2.1) :: rest.1, rest.2)

/-- The same calls on a single machine. -/
def localRun (nlogs : Nat) : Node → List Event → List (Outcome (UInt64 × UInt64) × List UInt8) × Node
  | n, [] => ([], n)
  | n, e :: es =>
    let q := localCall n nlogs e.env e.pid e.op
    let rest := localRun nlogs q.2.2 es
    ((q.1, q.2.1) :: rest.1, rest.2)

/-- Memory of the right size, arguments in range. -/
structure Event.Ok (e : Event) : Prop where
  slot1 : e.link.slot1.length = ENTRY
  slot2 : e.link.slot2.length = ENTRY
  ptr : e.link.ptr < 2 ^ 64
  pid : e.pid < 2 ^ 64
  fits : e.op.Fits
  off : e.op.Offsets

theorem reachable_call (nlogs : Nat) (n : Node) (h : Fs.Reachable nlogs n) (c : Fs.Call) (env : Env) :
    Fs.Reachable nlogs (n.call nlogs c env).2 := by
  obtain ⟨cs, rfl⟩ := h
  refine ⟨cs ++ [(c, env)], ?_⟩
  have gen : ∀ (n : Node), ((n.calls nlogs cs).2.call nlogs c env).2 =
      (n.calls nlogs (cs ++ [(c, env)])).2 := by
    induction cs with
    | nil => intro n; rfl
    | cons x xs ih => intro n; exact ih _
  exact gen _

/-- **C60** Any history of file system calls by programs on any number of clients: the programs get what
they would get if they all ran on one machine, and the file system is the same in the end.  In particular a
file written on one client reads the same on every other. -/
theorem c60_history_partial {σ : Type}
    (other : HandlerName → Header → List UInt8 → World σ → Option (Header × List UInt8) × World σ) (nlogs : Nat)
    (r : Cluster σ) (hr : Fs.Reachable nlogs r.world.node) (hs : ∀ k, (r.srv k).data.length = ENTRY)
    (hm : ∀ a, (r.world.shm a).length = 8192) (es : List Event) (hes : ∀ e ∈ es, e.Ok) :
    (r.run other nlogs es).1 = (localRun nlogs r.world.node es).1 ∧
    (r.run other nlogs es).2.world.node = (localRun nlogs r.world.node es).2 := by
  induction es generalizing r with
  | nil => exact ⟨rfl, rfl⟩
  | cons e es ih =>
    have he := hes e List.mem_cons_self
    have hok : LinkOk e.link (⟨r.srv e.client, r.world⟩ : Ctrl σ) :=
      ⟨he.slot1, he.slot2, he.ptr, hs _, hm _⟩
    obtain ⟨h1, h2, h3, -, h5, h6⟩ := c60_remote_is_local_partial
      (⟨r.srv e.client, r.world⟩ : Ctrl σ) ⟨nlogs, e.env, other⟩ e.link hok hr e.pid he.pid e.op he.fits he.off
    simp only [Cluster.run, localRun]
    generalize remoteCall (⟨r.srv e.client, r.world⟩ : Ctrl σ) ⟨nlogs, e.env, other⟩ e.link e.pid e.op = q
      at h1 h2 h3 h5 h6
    have hi := ih ⟨upd r.srv e.client q.2.2.srv, q.2.2.world⟩
      (by
        show Fs.Reachable nlogs q.2.2.world.node
        rw [h3]
        exact reachable_call nlogs _ hr _ _)
      (by
        intro k
        simp only [upd_apply]
        split
        · exact h6.srv
        · exact hs k)
      (by
        intro a
        show (q.2.2.world.shm a).length = 8192
        by_cases ha : a = e.link.ptr
        · rw [ha]; exact h6.shm
        · rw [h5 a ha]; exact hm a)
      (fun e' he' => hes e' (List.mem_cons_of_mem _ he'))
    obtain ⟨g1, g2⟩ := hi
    simp only [h3] at g1 g2
    rw [g1, g2, h1, h2]
    exact ⟨rfl, rfl⟩

/-! ## What does not fit -/

/-- **C60 is false of the code** for calls that do not fit: a request that is longer than a queue entry, or
a read of more than 8192 bytes, crashes the client's kernel, whatever the state; the controller does not
see it. -/
theorem c60_too_long_panics {σ : Type} (c : Ctrl σ) (p : Params σ) (l : Link)
    (h1 : l.slot1.length = ENTRY) (pid : Nat) (op : Op) (h : ¬ op.Fits) :
    (remoteCall c p l pid op).1 = .panic ∧ (remoteCall c p l pid op).2.2 = c := by
  have hE := ENTRY_eq
  have key : ∀ (id : KernelRpc) (dataIn : List (List UInt8)), 8188 < dataIn.flatten.length →
      c.rpc p l id dataIn = (.panic, c) := by
    intro id dataIn hlen
    have : Rpc.clientSend l.slot1 l.hdr id.num dataIn = .panic := by
      unfold Rpc.clientSend
      simp only [Rpc.totalLen_eq]
      split
      · rfl
      · have hp := ((Rpc.c19_send_panics_iff l.slot1 h1 { l.hdr with
            msgType := id.num, msgLen := UInt16.ofNat dataIn.flatten.length } dataIn).1).2
          (.inr (by omega))
        rw [show Rpc.sendMsg l.slot1 { l.hdr with
            msgType := id.num, msgLen := UInt16.ofNat dataIn.flatten.length } dataIn = _ from hp]
    simp only [Ctrl.rpc, this]
  have hbig : op.requestLen > 8188 ∨ ∃ fd buf o, op = .read fd buf o ∧ 8192 < buf.length := by
    by_contra hcon
    rw [not_or] at hcon
    exact h ⟨by omega, fun fd buf o e => by
      by_contra hb
      exact hcon.2 ⟨fd, buf, o, e, by omega⟩⟩
  cases op with
  | read fd buf o =>
    rcases hbig with hb | ⟨fd', buf', o', e, hb⟩
    · simp only [Op.requestLen] at hb; omega
    · cases e
      simp only [remoteCall, Ctrl.rpcRead]
      rw [if_pos (by show 8192 < buf.length; omega)]
      exact ⟨rfl, rfl⟩
  | _ =>
    rcases hbig with hb | ⟨fd', buf', o', e, hb⟩
    · simp only [Op.requestLen] at hb
      simp only [remoteCall, Ctrl.rpcOpen, Ctrl.rpcMkDir, Ctrl.rpcGetInfo, Ctrl.rpcDelete, Ctrl.rpcClose,
        Ctrl.rpcWrite, Ctrl.rpcRename]
      first
      | omega
      | (rw [key _ _ (by
          simp only [List.flatten_cons, List.flatten_nil, List.append_nil, List.length_append,
            encWords_length, strBytes_length, List.length_cons, List.length_nil]; omega)]
         exact ⟨rfl, rfl⟩)
    · exact nomatch e

/-- A link with fresh memory. -/
def freshLink : Link := ⟨⟨0, 0, 0⟩, List.replicate ENTRY 0, List.replicate ENTRY 0, 4096⟩

/-- A cluster whose file system is the one after `Fs.demoRun`: file "a" with contents `[5, 6]`, open in
process 1 as descriptor 0. -/
def demoCluster : Cluster Unit where
  srv := fun _ => Rpc.Server.new
  world := ⟨Fs.demo, fun _ => List.replicate 8192 0, ()⟩

/-- No other handlers. -/
def noOther : HandlerName → Header → List UInt8 → World Unit → Option (Header × List UInt8) × World Unit :=
  fun _ _ _ w => (none, w)

/-- Calls on two clients: client 0 overwrites the second byte and appends one, client 1 reads, asks for the
size and opens a file that does not exist. -/
def demoEvents : List Event :=
  [⟨0, freshLink, Env.good, 1, .write Fs.fd0 [7, 8] (some 1)⟩,
   ⟨1, freshLink, Env.good, 1, .read Fs.fd0 [0, 0, 0, 9] (some 0)⟩,
   ⟨1, freshLink, Env.good, 1, .info "a"⟩,
   ⟨1, freshLink, Env.good, 1, .open "b" ⟨true, false, false, false, false⟩ ⟨true, true, false⟩⟩]

theorem demoEvents_ok : ∀ e ∈ demoEvents, e.Ok := by
  intro e he
  have hs : freshLink.slot1.length = ENTRY ∧ freshLink.slot2.length = ENTRY := by simp [freshLink]
  simp only [demoEvents, List.mem_cons, List.not_mem_nil, or_false] at he
  rcases he with rfl | rfl | rfl | rfl
  all_goals
    refine ⟨hs.1, hs.2, by decide, by decide, ⟨by simp only [Op.requestLen]; decide, ?_⟩, ?_⟩
    · rintro fd buf o h
      first | (cases h; done) | (cases h; decide)
    · rintro o (⟨fd, b, h⟩ | ⟨fd, b, h⟩)
      all_goals first | (cases h; done) | (cases h; decide)

/-- The hypotheses of `c60_history_partial` can be met, and the history does something. -/
theorem c60_sample : (demoCluster.run noOther 4 demoEvents).1 =
    [(.ok (2, 0), []), (.ok (3, 0), [5, 7, 8, 9]), (.ok (2, 3), []), (.err .permissionError, [])] := by
  have h := c60_history_partial noOther 4 demoCluster ⟨Fs.demoRun, rfl⟩
    (fun _ => List.length_replicate ..) (fun _ => List.length_replicate ..) demoEvents demoEvents_ok
  rw [h.1]
  decide +kernel

/-- A write of 8149 bytes works on one machine and crashes the kernel of a client. -/
theorem c60_long_write :
    (localCall Fs.demo 4 Env.good 1 (.write Fs.fd0 (List.replicate 8149 7) (some 0))).1 = .ok (8149, 0) ∧
    ∀ (c : Ctrl Unit) (p : Params Unit), (remoteCall c p freshLink 1
      (.write Fs.fd0 (List.replicate 8149 7) (some 0))).1 = .panic := by
  refine ⟨by decide +kernel, fun c p => (c60_too_long_panics c p freshLink (by simp [freshLink]) 1 _ ?_).1⟩
  intro h
  have := h.1
  simp only [Op.requestLen, List.length_replicate] at this
  omega

/-- **C60** The errors that carry a value arrive with that value. -/
theorem c60_error_values (a : Nat) (ha : a < 2 ^ 64) :
    decRes (encRes (.err (.alreadyMapped a))) = some (.err (.alreadyMapped a), []) ∧
    decRes (encRes (.err (.invalidSyscallArgument1 a))) = some (.err (.invalidSyscallArgument1 a), []) := by
  have key : ∀ k, k < 2 ^ 64 → decWords 3 (encWords [k, a, 0]) = some ([k, a, 0], []) := by
    intro k hk
    have := decWords_enc [k, a, 0] (by
      intro w hw
      simp only [List.mem_cons, List.not_mem_nil, or_false] at hw
      rcases hw with rfl | rfl | rfl
      · exact hk
      · exact ha
      · decide) []
    rw [List.append_nil] at this
    exact this
  refine ⟨?_, ?_⟩
  · simp only [decRes, encRes, errWords]
    rw [key 101 (by decide)]
    rfl
  · simp only [decRes, encRes, errWords]
    rw [key 102 (by decide)]
    rfl

end NRK.Rack.Remote
