import Verif.Rpc.TcpLemmas

/-!
# C73: messages over TCP arrive complete, unchanged and in order

`d.sent` are the messages for which `send_msg` was called, `d.got` the results of the calls of `recv_msg` that
have returned, in order.
-/

namespace NRK.Rpc.Tcp

/-- **C73** The `k`-th call of `recv_msg` gives the `k`-th message, or says that it does not fit into the
buffers; however the bytes were cut into pieces on the way.  Partial: the calls before must not have failed
(`c73_out_of_step`). -/
theorem c73_delivered_partial (d : Dir) (hr : d.Run) (hp : ∀ m ∈ d.sent, m.Proper) (k : Nat)
    (hok : ∀ j, j < k → ∃ g, d.got[j]? = some g ∧ g.isMsg = true) (g : Got) (hg : d.got[k]? = some g) :
    ∃ m, d.sent[k]? = some m ∧ Delivers m g :=
  have hi := hr.inv
  deliver_all k d.sent d.got _ hp hi.got hi.bytes hok g hg

/-- If all messages fit, all calls return messages. -/
theorem c73_fitting (d : Dir) (hr : d.Run) (hp : ∀ m ∈ d.sent, m.Proper)
    (hfit : ∀ (k : Nat) (m : Msg) (h : Hdr) (orig : List (List UInt8)), d.sent[k]? = some m →
      d.got[k]? = some (.tooLong h orig) → m.payload.flatten.length ≤ orig.flatten.length) :
    ∀ (k : Nat) (g : Got), d.got[k]? = some g → g.isMsg = true := by
  intro k
  induction k using Nat.strongRecOn with
  | _ k ih =>
    intro g hg
    have hk : k < d.got.length := (List.getElem?_eq_some_iff.1 hg).1
    obtain ⟨m, hm, hd⟩ := c73_delivered_partial d hr hp k
      (fun j hj => ⟨d.got[j], List.getElem?_eq_getElem (by omega), ih j hj _ (List.getElem?_eq_getElem (by omega))⟩)
      g hg
    cases g with
    | msg h orig bufs => rfl
    | tooLong h orig =>
      have := hfit k m h orig hm hg
      have := hd.2
      omega

/-- A call of `try_send_msg` that returns false has sent nothing, one of `try_recv_msg` that returns false has
taken nothing; that is so exactly if the socket has no room for, or has no, byte. -/
theorem c73_try (d : Dir) (m : Msg) (bufs : List (List UInt8)) :
    (d.snd = [] → (d.step (.trySend m) = if d.tx.length < SOCK then d.step (.send m) else some d)) ∧
    (d.rcv = .idle → (d.step (.tryRecv bufs) = if d.rx = [] then some d else d.step (.recv bufs))) := by
  constructor
  · intro h
    simp [Dir.step, h]
  · intro h
    simp [Dir.step, h]

/-! ## Progress -/

/-- What is left to do for the calls that are running. -/
def Rcv.work : Rcv → Nat
  | .idle => 0
  | .hdr _ bufs => bufs.length + 1
  | .body _ _ _ _ _ _ _ todo _ => todo.length + 1

def Dir.work (d : Dir) : Nat :=
  3 * d.snd.flatten.length + d.snd.length + 2 * d.tx.length + d.rx.length + d.rcv.work

theorem continue_work {d : Dir} {h : Hdr} {orig : List (List UInt8)} {r : Rcv ⊕ List (List UInt8)} {n : Nat}
    (h1 : ∀ x, r = .inl x → x.work < n) (h0 : 0 < n) : (d.continue h orig r).rcv.work < n := by
  cases r with
  | inl x => exact h1 x rfl
  | inr b => exact h0

theorem nextBuf_work (h : Hdr) (orig done : List (List UInt8)) (count : Nat) (todo : List (List UInt8)) (x : Rcv)
    (he : nextBuf h orig done count todo = .inl x) : x.work < todo.length + 1 := by
  cases todo with
  | nil => cases he
  | cons p todo =>
    simp only [nextBuf] at he
    split at he <;> cases he <;> simp [Rcv.work]

theorem continue_rest (d : Dir) (h : Hdr) (orig : List (List UInt8)) (r : Rcv ⊕ List (List UInt8)) :
    (d.continue h orig r).snd = d.snd ∧ (d.continue h orig r).tx = d.tx ∧ (d.continue h orig r).rx = d.rx ∧
      (d.continue h orig r).sent = d.sent := by
  cases r <;> exact ⟨rfl, rfl, rfl, rfl⟩

theorem header_rest (d : Dir) (h : Hdr) (bufs : List (List UInt8)) :
    (d.header h bufs).snd = d.snd ∧ (d.header h bufs).tx = d.tx ∧ (d.header h bufs).rx = d.rx ∧
      (d.header h bufs).sent = d.sent ∧ (d.header h bufs).rcv.work < bufs.length + 1 := by
  unfold Dir.header
  split
  · exact ⟨rfl, rfl, rfl, rfl, by simp [Rcv.work]⟩
  · split
    · exact ⟨rfl, rfl, rfl, rfl, by simp [Rcv.work, Dir.continue]⟩
    · obtain ⟨h1, h2, h3, h4⟩ := continue_rest d h bufs (nextBuf h bufs [] 0 bufs)
      exact ⟨h1, h2, h3, h4, continue_work (fun x hx => nextBuf_work _ _ _ _ _ _ hx) (by omega)⟩

/-- Every step of the network or of a running call leaves less to do. -/
theorem step_work {d d' : Dir} (a : Act) (ha : a.internal = true) (hs : d.step a = some d') :
    d'.work < d.work ∧ d'.sent = d.sent := by
  cases a with
  | push n =>
    simp only [Dir.step] at hs
    split at hs
    · rename_i cur rest hc
      split at hs
      · cases hs
        refine ⟨?_, rfl⟩
        simp only [Dir.work, hc, List.flatten_cons, List.length_append, List.length_drop, List.length_take,
          List.length_cons]
        omega
      · cases hs
    · cases hs
  | next =>
    simp only [Dir.step] at hs
    split at hs
    · rename_i rest hc
      cases hs
      refine ⟨?_, rfl⟩
      simp only [Dir.work, hc, List.flatten_cons, List.length_append, List.length_cons, List.length_nil]
      omega
    · cases hs
  | poll n =>
    simp only [Dir.step] at hs
    split at hs
    · cases hs
      refine ⟨?_, rfl⟩
      simp only [Dir.work, List.length_append, List.length_drop, List.length_take]
      omega
    · cases hs
  | pull n =>
    simp only [Dir.step] at hs
    split at hs
    · rename_i hn
      split at hs
      · cases hs
      · rename_i got bufs hr
        split at hs
        · split at hs
          · cases hs
            obtain ⟨h1, h2, h3, h4, h5⟩ := header_rest
              { d with rx := d.rx.drop n, rcv := .hdr (got ++ d.rx.take n) bufs }
              (Hdr.ofBytes (got ++ d.rx.take n)) bufs
            refine ⟨?_, h4⟩
            simp only [Dir.work, hr] at *
            rw [h1, h2, h3]
            simp only [Rcv.work, List.length_drop] at *
            omega
          · cases hs
            refine ⟨?_, rfl⟩
            simp only [Dir.work, hr, Rcv.work, List.length_drop]
            omega
        · cases hs
      · rename_i hr
        split at hs
        · cases hs
          refine ⟨?_, rfl⟩
          simp only [Dir.work, hr, Rcv.work, List.length_drop]
          omega
        · cases hs
    · cases hs
  | full =>
    simp only [Dir.step] at hs
    split at hs
    · rename_i h orig done cur off want last todo count hr
      split at hs
      · split at hs
        · cases hs
          refine ⟨?_, rfl⟩
          simp only [Dir.work, Dir.continue, hr, Rcv.work]
          omega
        · cases hs
          obtain ⟨h1, h2, h3, h4⟩ := continue_rest d h orig (nextBuf h orig (done ++ [cur]) count todo)
          refine ⟨?_, h4⟩
          have h5 : (d.continue h orig (nextBuf h orig (done ++ [cur]) count todo)).rcv.work < todo.length + 1 :=
            continue_work (fun x hx => nextBuf_work _ _ _ _ _ _ hx) (by omega)
          simp only [Dir.work, hr, Rcv.work] at *
          rw [h1, h2, h3]
          omega
      · cases hs
    · cases hs
  | send m => cases ha
  | trySend m => cases ha
  | recv b => cases ha
  | tryRecv b => cases ha

/-- The results only grow, by one at a time, and a call that is running stays so until it has a result. -/
theorem step_got {d d' : Dir} (a : Act) (ha : a.internal = true) (hs : d.step a = some d') :
    (d'.got = d.got ∧ (d.rcv ≠ .idle → d'.rcv ≠ .idle)) ∨ ∃ g, d'.got = d.got ++ [g] := by
  have cont : ∀ (e : Dir) h orig r, e.got = d.got → (∀ x, r = .inl x → x ≠ .idle) →
      (((e.continue h orig r).got = d.got ∧ (d.rcv ≠ .idle → (e.continue h orig r).rcv ≠ .idle)) ∨
        ∃ g, (e.continue h orig r).got = d.got ++ [g]) := by
    intro e h orig r he hx
    cases r with
    | inl x => exact Or.inl ⟨he, fun _ => hx x rfl⟩
    | inr b => exact Or.inr ⟨.msg h orig b, by simp only [Dir.continue, he]⟩
  have nb : ∀ h orig done count todo x, nextBuf h orig done count todo = .inl x → x ≠ .idle := by
    intro h orig done count todo x he
    cases todo with
    | nil => cases he
    | cons p t =>
      simp only [nextBuf] at he
      split at he <;> cases he <;> simp
  cases a with
  | push n =>
    simp only [Dir.step] at hs
    split at hs
    · split at hs
      · cases hs; exact Or.inl ⟨rfl, id⟩
      · cases hs
    · cases hs
  | next =>
    simp only [Dir.step] at hs
    split at hs
    · cases hs; exact Or.inl ⟨rfl, id⟩
    · cases hs
  | poll n =>
    simp only [Dir.step] at hs
    split at hs
    · cases hs; exact Or.inl ⟨rfl, id⟩
    · cases hs
  | pull n =>
    simp only [Dir.step] at hs
    split at hs
    · split at hs
      · cases hs
      · rename_i got bufs hr
        split at hs
        · split at hs
          · cases hs
            unfold Dir.header
            split
            · exact Or.inr ⟨_, rfl⟩
            · split
              · exact Or.inr ⟨_, rfl⟩
              · exact cont _ _ _ _ rfl (nb _ _ _ _ _)
          · cases hs; exact Or.inl ⟨rfl, fun _ => by simp⟩
        · cases hs
      · split at hs
        · cases hs; exact Or.inl ⟨rfl, fun _ => by simp⟩
        · cases hs
    · cases hs
  | full =>
    simp only [Dir.step] at hs
    split at hs
    · split at hs
      · split at hs
        · cases hs; exact Or.inr ⟨_, rfl⟩
        · cases hs; exact cont _ _ _ _ rfl (nb _ _ _ _ _)
      · cases hs
    · cases hs
  | send m => cases ha
  | trySend m => cases ha
  | recv b => cases ha
  | tryRecv b => cases ha

/-- A call of `recv_msg` that is running can go on as long as a message is on the way. -/
theorem can_step (d : Dir) (hi : Inv d) (hp : ∀ m ∈ d.sent, m.Proper) (hok : ∀ g ∈ d.got, g.isMsg = true)
    (hmore : d.got.length < d.sent.length) (hrun : d.rcv ≠ .idle) :
    ∃ a d', a.internal = true ∧ d.step a = some d' := by
  have hS : SOCK = 8192 := rfl
  suffices h : ∃ a, a.internal = true ∧ (d.step a).isSome by
    obtain ⟨a, ha, hs⟩ := h
    obtain ⟨d', hd⟩ := Option.isSome_iff_exists.1 hs
    exact ⟨a, d', ha, hd⟩
  by_cases hfull : ∃ h orig done cur off last todo count, d.rcv = .body h orig done cur off off last todo count
  · obtain ⟨h, orig, done, cur, off, last, todo, count, hr⟩ := hfull
    refine ⟨.full, rfl, ?_⟩
    simp only [Dir.step, hr]
    rw [if_pos trivial]
    split <;> rfl
  by_cases hrx : d.rx = []
  case neg =>
    have hlen : 0 < d.rx.length := List.length_pos_iff.2 hrx
    refine ⟨.pull 1, rfl, ?_⟩
    cases hr : d.rcv with
    | idle => exact absurd hr hrun
    | hdr got bufs =>
      have h4 : got.length < 4 := by have := hi.rcv; rw [hr] at this; exact this
      simp only [Dir.step, hr]
      rw [if_pos (by omega), if_pos (by unfold HDR; omega)]
      split <;> rfl
    | body h orig done cur off want last todo count =>
      have hb : Body h orig done cur off want last todo count := by
        have := hi.rcv; rw [hr] at this; exact this
      have hne : off ≠ want := by
        intro he; subst he; exact hfull ⟨_, _, _, _, _, _, _, _, hr⟩
      have := hb.offw
      simp only [Dir.step, hr]
      rw [if_pos (by omega), if_pos (by omega)]
      rfl
  by_cases htx : d.tx = []
  case neg =>
    have hlen : 0 < d.tx.length := List.length_pos_iff.2 htx
    refine ⟨.poll 1, rfl, ?_⟩
    simp only [Dir.step]
    rw [if_pos (by rw [hrx, hS]; simp; omega)]
    rfl
  cases hsnd : d.snd with
  | cons cur rest =>
    cases cur with
    | nil => exact ⟨.next, rfl, by simp only [Dir.step, hsnd]; rfl⟩
    | cons b bs =>
      refine ⟨.push 1, rfl, ?_⟩
      simp only [Dir.step, hsnd]
      rw [if_pos (by rw [htx, hS]; simp)]
      rfl
  | nil =>
    exfalso
    have hbytes := hi.bytes
    rw [hrx, htx, hsnd] at hbytes
    simp only [List.flatten_nil, List.append_nil] at hbytes
    obtain ⟨_, h2⟩ := deliver_rest d.got d.sent _ hp hi.got hok hbytes
    cases hd : d.sent.drop d.got.length with
    | nil =>
      have := List.drop_eq_nil_iff.1 hd
      omega
    | cons m ms =>
      rw [hd, List.flatMap_cons] at h2
      have hmp : m.Proper := hp m (List.mem_of_mem_drop (by rw [hd]; simp))
      cases hr : d.rcv with
      | idle => exact hrun hr
      | hdr got bufs =>
        have h4 : got.length < 4 := by have := hi.rcv; rw [hr] at this; exact this
        rw [hr] at h2
        have := congrArg List.length h2
        simp only [Msg.wire, Rcv.wire, List.length_append, Hdr.bytes_length] at this
        omega
      | body h orig done cur off want last todo count =>
        have hb : Body h orig done cur off want last todo count := by
          have := hi.rcv; rw [hr] at this; exact this
        have hne : off ≠ want := by
          intro he; subst he; exact hfull ⟨_, _, _, _, _, _, _, _, hr⟩
        rw [hr] at h2
        simp only [Msg.wire, Rcv.wire, List.append_assoc] at h2
        obtain ⟨h3, h4⟩ := List.append_inj h2 rfl
        have := Hdr.bytes_inj h3
        subst this
        have h5 := congrArg List.length h4
        simp only [List.length_append, List.length_take] at h5
        unfold Msg.Proper at hmp
        have h6 := hb.offw
        have h7 := hb.wcur
        cases hl : last with
        | true => have := hb.hlast hl; omega
        | false => have := hb.hmore hl; omega

/-- **C73** A call of `recv_msg` returns if a message was sent that no earlier call received: however the
network and the calls take turns, and without the sender doing anything but finish its own call.  Partial: the
calls before must not have failed. -/
theorem c73_returns_partial (d : Dir) (hr : d.Run) (hp : ∀ m ∈ d.sent, m.Proper)
    (hok : ∀ g ∈ d.got, g.isMsg = true) (hmore : d.got.length < d.sent.length) (hrun : d.rcv ≠ .idle) :
    Inevitable (fun d' => d'.got.length = d.got.length + 1) d := by
  suffices H : ∀ n (e : Dir), e.Run → e.sent = d.sent → e.got = d.got → e.rcv ≠ .idle → e.work < n →
      Inevitable (fun d' => d'.got.length = d.got.length + 1) e from
    H (d.work + 1) d hr rfl rfl hrun (by omega)
  intro n
  induction n with
  | zero => intro e _ _ _ _ h; omega
  | succ n ih =>
    intro e her hs hg hrc hw
    refine .later (can_step e her.inv (by rw [hs]; exact hp) (by rw [hg]; exact hok)
      (by rw [hs, hg]; exact hmore) hrc) ?_
    intro a e' ha he
    obtain ⟨h1, h2⟩ := step_work a ha he
    rcases step_got a ha he with ⟨h3, h4⟩ | ⟨g, h3⟩
    · exact ih e' (.step a her he) (h2.trans hs) (h3.trans hg) (h4 hrc) (by omega)
    · exact .now (by rw [h3, hg]; simp)

/-- **C73** A call of `send_msg` also returns, if the other side receives: the same, seen from the sender. It
is done when its buffers are handed over, for which room is made as long as the receiver takes bytes. -/
theorem c73_room (d : Dir) (hr : d.Run) (hs : d.snd ≠ []) (hrx : d.rx.length < SOCK) :
    ∃ a d', a.internal = true ∧ d.step a = some d' ∧ d'.rcv = d.rcv := by
  have hi := hr.inv
  have htx := hi.tx
  cases hsnd : d.snd with
  | nil => exact absurd hsnd hs
  | cons cur rest =>
    cases cur with
    | nil => exact ⟨.next, { d with snd := rest }, rfl, by simp only [Dir.step, hsnd], rfl⟩
    | cons b bs =>
      by_cases hroom : d.tx.length < SOCK
      · refine ⟨.push 1, { d with snd := (b :: bs).drop 1 :: rest, tx := d.tx ++ (b :: bs).take 1 }, rfl, ?_, rfl⟩
        simp only [Dir.step, hsnd]
        rw [if_pos (by simp; omega)]
      · refine ⟨.poll 1, { d with tx := d.tx.drop 1, rx := d.rx ++ d.tx.take 1 }, rfl, ?_, rfl⟩
        have : SOCK = 8192 := rfl
        simp only [Dir.step]
        rw [if_pos (by omega)]

/-! ## Samples -/

/-- Run a list of steps. -/
def Dir.exec : Dir → List Act → Option Dir
  | d, [] => some d
  | d, a :: as => match d.step a with
    | some d' => d'.exec as
    | none => none

theorem Dir.Run.exec {d d' : Dir} (h : d.Run) : ∀ as : List Act, d.exec as = some d' → d'.Run := by
  intro as
  induction as generalizing d with
  | nil => intro he; cases he; exact h
  | cons a as ih =>
    intro he
    unfold Dir.exec at he
    split at he
    · rename_i e hs; exact ih (.step a h hs) he
    · cases he

/-- Two messages: three bytes in two slices, and two bytes. -/
def m1 : Msg := ⟨⟨0, 7, 3⟩, [[1, 2], [9]]⟩
def m2 : Msg := ⟨⟨0, 8, 2⟩, [[5, 6]]⟩

/-- Both are sent in pieces and received into buffers of two and four bytes. -/
def sampleRun : List Act :=
  [.send m1, .push 3, .poll 3, .recv [[0, 0], [0, 0, 0, 0]], .pull 2, .push 1, .next, .push 2, .next, .push 1,
   .poll 1, .next, .pull 2, .send m2, .push 4, .next, .poll 3, .pull 2, .full, .push 2, .next, .poll 6, .pull 1,
   .full, .recv [[0, 0]], .pull 4, .pull 1, .pull 1, .full]

theorem c73_sample : ∃ d : Dir, Dir.init.exec sampleRun = some d ∧ d.Run ∧ (∀ m ∈ d.sent, m.Proper) ∧
    d.sent = [m1, m2] ∧ d.got = [.msg ⟨0, 7, 3⟩ [[0, 0], [0, 0, 0, 0]] [[1, 2], [9, 0, 0, 0]],
      .msg ⟨0, 8, 2⟩ [[0, 0]] [[5, 6]]] := by
  have h : (Dir.init.exec sampleRun).isSome := by decide +kernel
  obtain ⟨d, hd⟩ := Option.isSome_iff_exists.1 h
  have hs : (Dir.init.exec sampleRun).map Dir.sent = some [m1, m2] := by decide +kernel
  have hg : (Dir.init.exec sampleRun).map Dir.got = some [.msg ⟨0, 7, 3⟩ [[0, 0], [0, 0, 0, 0]]
    [[1, 2], [9, 0, 0, 0]], .msg ⟨0, 8, 2⟩ [[0, 0]] [[5, 6]]] := by decide +kernel
  rw [hd] at hs hg
  simp only [Option.map_some, Option.some.injEq] at hs hg
  refine ⟨d, hd, Dir.Run.exec .init _ hd, ?_, hs, hg⟩
  intro m hm
  rw [hs] at hm
  simp only [List.mem_cons, List.not_mem_nil, or_false] at hm
  rcases hm with rfl | rfl <;> rfl

/-- A message of six bytes for which the receiver has only two, then an ordinary one. -/
def m3 : Msg := ⟨⟨0, 7, 6⟩, [[0, 9, 2, 0, 77, 78]]⟩

def badRun : List Act :=
  [.send m3, .push 4, .next, .push 6, .next, .poll 10, .recv [[0, 0]], .pull 4,
   .send m2, .push 4, .next, .push 2, .next, .poll 6, .recv [[0, 0]], .pull 4, .pull 2, .full]

/-- **C73** Witness: after a message that does not fit, its payload is left on the connection and is taken for
the next message: the second call returns a header and bytes that nobody sent as such. -/
theorem c73_out_of_step : ∃ d : Dir, d.Run ∧ (∀ m ∈ d.sent, m.Proper) ∧ d.sent = [m3, m2] ∧
    d.got = [.tooLong ⟨0, 7, 6⟩ [[0, 0]], .msg ⟨0, 9, 2⟩ [[0, 0]] [[77, 78]]] := by
  have h : (Dir.init.exec badRun).isSome := by decide +kernel
  obtain ⟨d, hd⟩ := Option.isSome_iff_exists.1 h
  have hs : (Dir.init.exec badRun).map Dir.sent = some [m3, m2] := by decide +kernel
  have hg : (Dir.init.exec badRun).map Dir.got = some [.tooLong ⟨0, 7, 6⟩ [[0, 0]],
    .msg ⟨0, 9, 2⟩ [[0, 0]] [[77, 78]]] := by decide +kernel
  rw [hd] at hs hg
  simp only [Option.map_some, Option.some.injEq] at hs hg
  refine ⟨d, Dir.Run.exec .init _ hd, ?_, hs, hg⟩
  intro m hm
  rw [hs] at hm
  simp only [List.mem_cons, List.not_mem_nil, or_false] at hm
  rcases hm with rfl | rfl <;> rfl

end NRK.Rpc.Tcp
