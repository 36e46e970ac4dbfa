import Verif.Rpc.Model
import Verif.Fs.FileLemmas
import Verif.Sync.MpmcProps

/-!
# Property theorems C19, C45, C46: messages, the RPC server and the client
-/

namespace NRK.Rpc

open Fs.Spec (overwrite)
open Fs (overwrite_overwrite overwrite_nil overwrite_length)

/-! ## Helper lemmas -/

theorem foldl_len (vs : List (List UInt8)) (a : Nat) :
    vs.foldl (fun acc x => acc + x.length) a = a + vs.flatten.length := by
  induction vs generalizing a with
  | nil => simp
  | cons v vs ih => simp only [List.foldl_cons, ih, List.flatten_cons, List.length_append]; omega

theorem totalLen_eq (vs : List (List UInt8)) : totalLen vs = vs.flatten.length := by
  simp [totalLen, foldl_len]

theorem gather_eq (vs : List (List UInt8)) :
    ∀ (slot : List UInt8) (off : Nat), off + vs.flatten.length ≤ slot.length →
      gather slot off vs = some (overwrite slot off vs.flatten) := by
  induction vs with
  | nil => intro slot off _; simp [gather, overwrite_nil]
  | cons d ds ih =>
    intro slot off h
    simp only [List.flatten_cons, List.length_append] at h
    simp only [gather]
    rw [if_pos (by omega), ih]
    · rw [List.flatten_cons, overwrite_overwrite _ _ _ _ (by omega)]
    · rw [overwrite_length _ _ _ (by omega)]; omega

/-- `d` laid out over the buffers `bs`, the rest of the buffers unchanged. -/
def spread (d : List UInt8) : List (List UInt8) → List (List UInt8)
  | [] => []
  | b :: bs => (d.take b.length ++ b.drop d.length) :: spread (d.drop b.length) bs

theorem spread_nil (bs : List (List UInt8)) : spread [] bs = bs := by
  induction bs with
  | nil => rfl
  | cons b bs ih => simp [spread, ih]

theorem spread_lengths (bs : List (List UInt8)) :
    ∀ d : List UInt8, (spread d bs).map List.length = bs.map List.length := by
  induction bs with
  | nil => intro d; rfl
  | cons b bs ih =>
    intro d
    simp only [spread, List.map_cons, ih, List.length_append, List.length_take, List.length_drop]
    congr 1
    omega

theorem spread_flatten (bs : List (List UInt8)) :
    ∀ d : List UInt8, d.length ≤ bs.flatten.length →
      (spread d bs).flatten = d ++ bs.flatten.drop d.length := by
  induction bs with
  | nil =>
    intro d h
    have : d = [] := by simpa using h
    subst this
    rfl
  | cons b bs ih =>
    intro d h
    simp only [List.flatten_cons, List.length_append] at h
    simp only [spread, List.flatten_cons]
    rw [ih _ (by simp only [List.length_drop]; omega)]
    rcases Nat.le_total d.length b.length with hle | hle
    · rw [List.take_of_length_le hle, List.drop_eq_nil_of_le hle]
      simp only [List.nil_append, List.length_nil, List.drop_zero]
      rw [List.drop_append_of_le_length hle]
      simp
    · rw [List.drop_eq_nil_of_le hle, List.length_drop]
      rw [List.append_nil, ← List.append_assoc, List.take_append_drop]
      congr 1
      rw [List.drop_append, List.drop_eq_nil_of_le hle, List.nil_append]

theorem scatter_eq (data : List UInt8) (rest : List (List UInt8)) :
    ∀ (pre : List (List UInt8)) (fuel total : Nat), rest.length ≤ fuel →
      (data.drop total).length ≤ rest.flatten.length →
      scatter data (pre ++ rest) fuel pre.length 0 total =
        some (pre ++ spread (data.drop total) rest) := by
  induction rest with
  | nil =>
    intro pre fuel total hf hl
    unfold scatter
    have : ¬ total < data.length := by simp at hl; omega
    rw [if_neg this]
    simp [spread]
  | cons b bs ih =>
    intro pre fuel total hf hl
    by_cases ht : total < data.length
    · unfold scatter
      rw [if_pos ht]
      cases fuel with
      | zero => simp at hf
      | succ fuel =>
        simp only [List.length_cons, Nat.add_le_add_iff_right] at hf
        simp only [List.flatten_cons, List.length_append, List.length_drop] at hl
        have hget : (pre ++ b :: bs)[pre.length]? = some b := by simp
        simp only [hget, Nat.zero_add]
        rw [if_pos (Nat.min_le_left _ _)]
        have hset : (pre ++ b :: bs).set pre.length
            (overwrite b 0 ((data.drop total).take (min b.length (data.length - total)))) =
            pre ++ ((data.drop total).take b.length ++ b.drop (data.drop total).length) :: bs := by
          rw [List.set_append_right _ _ (Nat.le_refl _)]
          simp only [Nat.sub_self, List.set_cons_zero, overwrite, List.take_zero, List.nil_append,
            Nat.zero_add, List.length_take, List.length_drop]
          have e1 : (data.drop total).take (min b.length (data.length - total)) =
              (data.drop total).take b.length := by
            rcases Nat.le_total b.length (data.length - total) with h | h
            · rw [Nat.min_eq_left h]
            · rw [Nat.min_eq_right h, List.take_of_length_le (by simp),
                List.take_of_length_le (by simpa using h)]
          have e2 : min (min b.length (data.length - total)) (data.length - total) =
              min b.length (data.length - total) := by omega
          rw [e1, e2]
          congr 3
          rcases Nat.le_total b.length (data.length - total) with h | h
          · rw [Nat.min_eq_left h, List.drop_length, List.drop_eq_nil_of_le h]
          · rw [Nat.min_eq_right h]
        rw [hset]
        split
        · rename_i hfull
          have hb : b.length ≤ data.length - total := by omega
          have := ih (pre ++ [(data.drop total).take b.length ++ b.drop (data.drop total).length])
            fuel (total + b.length) hf (by simp only [List.length_drop]; omega)
          rw [hfull]
          simp only [List.append_assoc, List.singleton_append, List.length_append,
            List.length_singleton] at this
          rw [this, spread, List.drop_drop]
        · rename_i hne
          have hb : data.length - total < b.length := by omega
          have hdone : ¬ total + min b.length (data.length - total) < data.length := by omega
          unfold scatter
          rw [if_neg hdone]
          simp only [spread]
          rw [List.drop_eq_nil_of_le (by simp only [List.length_drop]; omega : (data.drop total).length ≤ b.length),
            spread_nil]
    · unfold scatter
      rw [if_neg ht, List.drop_eq_nil_of_le (by omega), spread_nil]

theorem drain_eq (dataLen : Nat) (value : List UInt8) (bufs : List (List UInt8))
    (hv : dataLen ≤ value.length) (hroom : 0 < bufs.flatten.length)
    (hfit : dataLen ≤ bufs.flatten.length) :
    drain dataLen value bufs = .ok ((dataLen, true), spread (value.take dataLen) bufs) := by
  unfold drain
  simp only [totalLen_eq]
  rw [if_neg (by omega), if_neg (by omega)]
  have := scatter_eq (value.take dataLen) bufs [] (bufs.length + 1) 0 (by omega)
    (by simp only [List.drop_zero, List.length_take]; omega)
  simp only [List.nil_append, List.length_nil, List.drop_zero] at this
  rw [this]

theorem hdr_length (h : Header) : h.bytes.length = 4 := rfl

theorem hdr_roundtrip (h : Header) : Header.ofBytes h.bytes = h := by
  obtain ⟨i, t, l⟩ := h
  simp only [Header.ofBytes, Header.bytes]
  have h1 : l.toNat < 65536 := l.toNat_lt
  simp only [List.getD_cons_zero, List.getD_cons_succ, UInt8.toNat_ofNat']
  congr 1
  apply UInt16.toNat_inj.1
  rw [UInt16.toNat_ofNat']
  omega

theorem fill_eq (slot : List UInt8) (vs : List (List UInt8)) (hs : slot.length = ENTRY)
    (hpos : 0 < vs.flatten.length) (hfit : vs.flatten.length ≤ ENTRY) :
    fill slot vs = .ok (some (vs.flatten.length, overwrite slot 0 vs.flatten)) := by
  unfold fill
  simp only [totalLen_eq]
  rw [if_neg (by omega), if_neg (by omega), gather_eq vs slot 0 (by omega)]
  simp only
  rw [Nat.mod_eq_of_lt (by rw [ENTRY_eq] at hfit; omega)]

/-! ## C19 -/

/-- What is in an entry that carries a message. -/
theorem sendMsg_eq (slot : List UInt8) (hdr : Header) (payload : List (List UInt8))
    (hs : slot.length = ENTRY) (hn : payload.length ≤ 6)
    (hfit : 4 + payload.flatten.length ≤ ENTRY) :
    sendMsg slot hdr payload = .ok (some (4 + payload.flatten.length,
      overwrite slot 0 (hdr.bytes ++ payload.flatten))) := by
  unfold sendMsg
  rw [if_neg (by omega), fill_eq slot _ hs]
  · simp [hdr_length]
  · simp only [List.flatten_cons, List.length_append, hdr_length]; omega
  · simp only [List.flatten_cons, List.length_append, hdr_length]; omega

theorem take_overwrite_zero (slot d : List UInt8) : (overwrite slot 0 d).take d.length = d := by
  simp [overwrite]

theorem recvMsg_eq (value : List UInt8) (hdr h0 : Header) (body : List UInt8)
    (bufs : List (List UInt8)) (hv : value.take (4 + body.length) = hdr.bytes ++ body)
    (hvl : 4 + body.length ≤ value.length) (hn : bufs.length ≤ 6)
    (hfit : body.length ≤ bufs.flatten.length) :
    recvMsg (4 + body.length) value h0 bufs = .ok (hdr, spread body bufs) := by
  unfold recvMsg
  rw [if_neg (by omega), drain_eq _ _ _ hvl]
  · rw [hv]
    have e1 : (hdr.bytes ++ body).take 4 = hdr.bytes := by
      rw [← hdr_length hdr, List.take_left]
    have e2 : (hdr.bytes ++ body).drop 4 = body := by
      rw [← hdr_length hdr, List.drop_left]
    have e3 : (h0.bytes).drop (hdr.bytes ++ body).length = [] := by
      apply List.drop_eq_nil_of_le
      simp [hdr_length]
    simp only [spread, hdr_length, e1, e2, e3, List.append_nil, hdr_roundtrip]
  · simp only [List.flatten_cons, List.length_append, hdr_length]; omega
  · simp only [List.flatten_cons, List.length_append, hdr_length]; omega

/-- **C19** A message arrives intact: whatever the slot contained before, whatever the header,
however the payload is cut into (at most 6) slices and however the receiver cuts its room into (at
most 6) buffers, a message that fits a queue entry and the receiver's room is received with the
same header, the payload bytes in order at the start of the receiver's buffers, and the rest of
the buffers unchanged. -/
theorem c19_message_intact (slot : List UInt8) (hs : slot.length = ENTRY) (hdr h0 : Header)
    (payload bufs : List (List UInt8)) (hn : payload.length ≤ 6) (hb : bufs.length ≤ 6)
    (hfit : 4 + payload.flatten.length ≤ ENTRY)
    (hroom : payload.flatten.length ≤ bufs.flatten.length) :
    ∃ len value bufs', sendMsg slot hdr payload = .ok (some (len, value)) ∧
      recvMsg len value h0 bufs = .ok (hdr, bufs') ∧
      bufs'.map List.length = bufs.map List.length ∧
      bufs'.flatten = payload.flatten ++ bufs.flatten.drop payload.flatten.length := by
  refine ⟨_, _, spread payload.flatten bufs, sendMsg_eq slot hdr payload hs hn hfit, ?_,
    spread_lengths _ _, spread_flatten _ _ hroom⟩
  apply recvMsg_eq
  · have := take_overwrite_zero slot (hdr.bytes ++ payload.flatten)
    simpa only [List.length_append, hdr_length] using this
  · rw [overwrite_length _ _ _ (by simp only [List.length_append, hdr_length]; omega)]
    omega
  · exact hb
  · exact hroom

/-- **C19** Sending panics exactly when there are more than 6 slices or the message does not fit
into a queue entry; otherwise exactly one entry is enqueued. -/
theorem c19_send_panics_iff (slot : List UInt8) (hs : slot.length = ENTRY) (hdr : Header)
    (payload : List (List UInt8)) :
    (sendMsg slot hdr payload = .panic ↔
      6 < payload.length ∨ ENTRY < 4 + payload.flatten.length) ∧
    (sendMsg slot hdr payload ≠ .panic → ∃ e, sendMsg slot hdr payload = .ok (some e)) := by
  by_cases h1 : 6 < payload.length
  · simp [sendMsg, h1]
  · by_cases h2 : ENTRY < 4 + payload.flatten.length
    · have : sendMsg slot hdr payload = .panic := by
        unfold sendMsg fill
        rw [if_neg h1]
        simp only [totalLen_eq, List.flatten_cons, List.length_append, hdr_length]
        rw [if_pos h2]
      simp only [this, h2, or_true, ne_eq, not_true_eq_false, false_implies, and_true]
    · rw [sendMsg_eq slot hdr payload hs (by omega) (by omega)]
      simp only [h1, h2, or_self, reduceCtorEq, ne_eq, not_false_eq_true, true_implies, true_and]
      exact ⟨_, rfl⟩

/-- **C19** Receiving panics exactly when the receiver offers more than 6 buffers or less room than
the message needs. -/
theorem c19_recv_panics_iff (len : Nat) (value : List UInt8) (hv : len ≤ value.length)
    (h0 : Header) (bufs : List (List UInt8)) :
    recvMsg len value h0 bufs = .panic ↔ 6 < bufs.length ∨ 4 + bufs.flatten.length < len := by
  by_cases h1 : 6 < bufs.length
  · simp [recvMsg, h1]
  · by_cases h2 : 4 + bufs.flatten.length < len
    · have : recvMsg len value h0 bufs = .panic := by
        unfold recvMsg drain
        rw [if_neg h1]
        simp only [totalLen_eq, List.flatten_cons, List.length_append, hdr_length]
        rw [if_neg (by omega), if_pos h2]
      simp only [this, h2, or_true]
    · have : recvMsg len value h0 bufs ≠ .panic := by
        unfold recvMsg
        rw [if_neg h1, drain_eq _ _ _ hv]
        · simp [spread]
        · simp only [List.flatten_cons, List.length_append, hdr_length]; omega
        · simp only [List.flatten_cons, List.length_append, hdr_length]; omega
      simp only [this, h1, h2, or_self]

/-- **C19** Delivery over the concurrent queue.  In every reachable state of a queue of entries
used by any number of senders and receivers, in which every entry that was enqueued is one made by
`send_msg`: an entry that was dequeued is the entry of a message whose send had returned before,
each send is received at most once, receipt order follows send order in the sense of C17, and the
receiver (with enough room) gets that message's header and bytes. -/
theorem c19_delivery (cap : Nat) (hc : 2 ≤ cap) (s : Sync.Mpmc.St (Nat × List UInt8))
    (h : Sync.Mpmc.Reach cap s)
    (hsent : ∀ v inv pos, Sync.Mpmc.Event.pushed v inv pos ∈ s.hist →
      ∃ slot hdr payload, slot.length = ENTRY ∧ sendMsg slot hdr payload = .ok (some v)) :
    (∀ (j : Nat) (x : Option (Nat × List UInt8)) (inv pos : Nat),
      s.hist[j]? = some (.popped x inv pos) →
      ∃ (i : Nat) (v : Nat × List UInt8) (inv' : Nat) (slot : List UInt8) (hdr : Header)
        (payload : List (List UInt8)),
        i < j ∧ s.hist[i]? = some (.pushed v inv' pos) ∧ x = some v ∧
        sendMsg slot hdr payload = .ok (some v) ∧
        ∀ h0 bufs, bufs.length ≤ 6 → payload.flatten.length ≤ bufs.flatten.length →
          ∃ bufs', recvMsg v.1 v.2 h0 bufs = .ok (hdr, bufs') ∧
            bufs'.map List.length = bufs.map List.length ∧
            bufs'.flatten = payload.flatten ++ bufs.flatten.drop payload.flatten.length) ∧
    (∀ (i j : Nat) (x x' : Option (Nat × List UInt8)) (inv inv' pos : Nat),
      s.hist[i]? = some (.popped x inv pos) → s.hist[j]? = some (.popped x' inv' pos) → i = j) ∧
    (∀ (i j : Nat) (v v' : Nat × List UInt8) (inv inv' pos pos' : Nat),
      s.hist[i]? = some (.pushed v inv pos) → s.hist[j]? = some (.pushed v' inv' pos') →
      i < inv' → pos < pos') ∧
    (∀ (i j : Nat) (x x' : Option (Nat × List UInt8)) (inv inv' pos pos' : Nat),
      s.hist[i]? = some (.popped x inv pos) → s.hist[j]? = some (.popped x' inv' pos') →
      i < inv' → pos < pos') := by
  obtain ⟨h1, h2, _, h4, h5, _⟩ := Sync.Mpmc.c17_exactly_once_fifo cap hc s h
  refine ⟨?_, h2, h4, h5⟩
  intro j x inv pos hj
  obtain ⟨i, v, inv', hij, hi, hx⟩ := h1 j x inv pos hj
  obtain ⟨slot, hdr, payload, hs, hsend⟩ := hsent v inv' pos (List.mem_of_getElem? hi)
  refine ⟨i, v, inv', slot, hdr, payload, hij, hi, hx, hsend, ?_⟩
  intro h0 bufs hb hroom
  have hlim := (c19_send_panics_iff slot hs hdr payload).1
  have hnp : ¬ (6 < payload.length ∨ ENTRY < 4 + payload.flatten.length) := by
    rw [← hlim, hsend]; simp
  obtain ⟨len, value, bufs', g1, g2, g3, g4⟩ := c19_message_intact slot hs hdr h0 payload bufs
    (by omega) hb (by omega) hroom
  rw [hsend] at g1
  cases g1
  exact ⟨bufs', g2, g3, g4⟩

/-- Non-vacuity of `c19_message_intact`: a two-slice payload received into two buffers cut
differently. -/
example : ∃ len value, sendMsg (List.replicate ENTRY 0) ⟨1, 2, 3⟩ [[1], [2, 3]] =
      .ok (some (len, value)) ∧
    recvMsg len value ⟨0, 0, 0⟩ [[9, 9], [8, 8]] = .ok (⟨1, 2, 3⟩, [[1, 2], [3, 8]]) := by
  refine ⟨_, _, sendMsg_eq _ _ _ (by simp) (by simp) (by rw [ENTRY_eq]; simp), ?_⟩
  have e : ([[1], [2, 3]] : List (List UInt8)).flatten = [1, 2, 3] := rfl
  rw [e]
  exact recvMsg_eq _ ⟨1, 2, 3⟩ ⟨0, 0, 0⟩ [1, 2, 3] [[9, 9], [8, 8]]
    (by
      have := take_overwrite_zero (List.replicate ENTRY 0) (Header.bytes ⟨1, 2, 3⟩ ++ [1, 2, 3])
      rw [List.length_append] at this; exact this)
    (by rw [overwrite_length _ _ _ (by rw [List.length_replicate, ENTRY_eq]; decide)]
        rw [List.length_replicate, ENTRY_eq]; decide)
    (by decide) (by decide)

/-- **C19** Finding: a message without any byte is reported as sent but not enqueued (`Sender::send`
with empty slices returns true; `send_msg` always has the header and is not affected). -/
theorem c19_empty_send_is_dropped (slot : List UInt8) (vs : List (List UInt8))
    (h : vs.flatten = []) : fill slot vs = .ok none := by
  unfold fill
  simp [totalLen_eq, h]

/-! ## C45 -/

/-- The server's buffer keeps its size; handlers get a slice, so they cannot change it. -/
def HandlerOk (f : Handler) : Prop := ∀ h d, (f h d).2.2.length = d.length

/-- A queue entry that carries header `h` and body `b`. -/
def Carries (entry : Nat × List UInt8) (h : Header) (b : List UInt8) : Prop :=
  entry.1 = 4 + b.length ∧ entry.1 ≤ entry.2.length ∧ entry.2.take entry.1 = h.bytes ++ b

theorem carries_of_send (slot : List UInt8) (hs : slot.length = ENTRY) (hdr : Header)
    (payload : List (List UInt8)) (e : Nat × List UInt8)
    (h : sendMsg slot hdr payload = .ok (some e)) : Carries e hdr payload.flatten := by
  have hlim := (c19_send_panics_iff slot hs hdr payload).1
  have hnp : ¬ (6 < payload.length ∨ ENTRY < 4 + payload.flatten.length) := by
    rw [← hlim, h]; simp
  rw [sendMsg_eq slot hdr payload hs (by omega) (by omega)] at h
  cases h
  refine ⟨rfl, ?_, ?_⟩
  · rw [overwrite_length _ _ _ (by simp only [List.length_append, hdr_length]; omega)]
    simp only; omega
  · have := take_overwrite_zero slot (hdr.bytes ++ payload.flatten)
    simpa only [List.length_append, hdr_length] using this

/-- The buffer a handler sees when a request with body `b` arrives: the body, followed by
whatever the buffer contained before. -/
def received (old b : List UInt8) : List UInt8 := b ++ old.drop b.length

theorem receive_eq (s : Server) (entry : Nat × List UInt8) (h : Header) (b : List UInt8)
    (hc : Carries entry h b) (hd : b.length ≤ s.data.length) :
    s.receive entry = (.ok h.msgType, { s with hdr := h, data := received s.data b }) := by
  obtain ⟨n, value⟩ := entry
  obtain ⟨h1, h2, h3⟩ := hc
  simp only at h1 h2 h3
  subst h1
  unfold Server.receive
  rw [recvMsg_eq value h s.hdr b [s.data] h3 h2 (by simp) (by simpa using hd)]
  simp only [spread, received]
  rw [List.take_of_length_le hd]

theorem reply_eq (s : Server) (slot : List UInt8) (hs : slot.length = ENTRY)
    (hd : s.data.length = ENTRY) (hl : s.hdr.msgLen.toNat + 4 ≤ ENTRY) :
    ∃ e, s.reply slot = .ok (some e) ∧ Carries e s.hdr (s.data.take s.hdr.msgLen.toNat) := by
  unfold Server.reply
  rw [if_neg (by omega)]
  obtain ⟨e, he⟩ := (c19_send_panics_iff slot hs s.hdr [s.data.take s.hdr.msgLen.toNat]).2 (by
    rw [ne_eq, (c19_send_panics_iff slot hs s.hdr _).1]
    simp only [List.length_singleton, List.flatten_cons, List.flatten_nil, List.append_nil,
      List.length_take]
    omega)
  refine ⟨e, he, ?_⟩
  have := carries_of_send slot hs _ _ e he
  simpa using this

/-- **C45** A request is processed by exactly the handler registered for its type: the handler
gets the request's header and its bytes (followed by old buffer contents), and, if it succeeds
with a reply length that fits, exactly one reply is sent, carrying the header and the bytes the
handler left behind. -/
theorem c45_dispatch (s : Server) (entry : Nat × List UInt8) (slot : List UInt8)
    (h : Header) (b : List UInt8) (f : Handler) (hs : slot.length = ENTRY)
    (hd : s.data.length = ENTRY) (hc : Carries entry h b) (hb : b.length ≤ ENTRY)
    (hf : s.handlers h.msgType = some f) (hok : HandlerOk f)
    (hsucc : (f h (received s.data b)).1 = none)
    (hlen : (f h (received s.data b)).2.1.msgLen.toNat + 4 ≤ ENTRY) :
    ∃ s' reply, s.handle entry slot = (.ok (), s', [reply]) ∧
      Carries reply (f h (received s.data b)).2.1
        ((f h (received s.data b)).2.2.take (f h (received s.data b)).2.1.msgLen.toNat) ∧
      s'.handlers = s.handlers := by
  unfold Server.handle
  rw [receive_eq s entry h b hc (by omega)]
  simp only [hf, Server.runHandler, hsucc]
  have hrl : (received s.data b).length = s.data.length := by
    simp only [received, List.length_append, List.length_drop]; omega
  obtain ⟨e, he, hce⟩ := reply_eq
    { s with hdr := (f h (received s.data b)).2.1, data := (f h (received s.data b)).2.2 } slot hs
    (by simp only; rw [hok, hrl, hd]) hlen
  rw [he]
  exact ⟨_, e, rfl, hce, rfl⟩

/-- **C45** The polling variant: without a request it does nothing and says so; with a request it
sends the same replies and has the same effect as `handle`, and reports `true` exactly if `handle`
would report success. -/
theorem c45_try_handle (s : Server) (slot : List UInt8) :
    s.tryHandle none slot = (.ok false, s, []) ∧
    ∀ entry, (s.tryHandle (some entry) slot).2 = (s.handle entry slot).2 ∧
      ((s.tryHandle (some entry) slot).1 = .ok true ↔ (s.handle entry slot).1 = .ok ()) := by
  refine ⟨rfl, ?_⟩
  intro entry
  unfold Server.tryHandle Server.handle
  cases hr : s.receive entry with
  | mk o s' =>
    cases o with
    | panic => simp [hr]
    | err e => simp [hr]
    | ok id =>
      cases hf : s'.handlers id with
      | none => simp [hr, hf]
      | some f =>
        cases hq : s'.runHandler f slot with
        | mk o2 r => cases o2 <;> simp [hr, hf, hq]

/-- **C45** Registering: a type gets exactly the handler it was first registered with, no other
type is affected, and a second registration is refused without effect. -/
theorem c45_register (s : Server) (id : UInt8) (f : Handler) :
    (s.handlers id = none →
      (s.register id f).1 = .ok () ∧ (s.register id f).2.handlers id = some f ∧
      ∀ id', id' ≠ id → (s.register id f).2.handlers id' = s.handlers id') ∧
    (∀ g, s.handlers id = some g → s.register id f = (.err .duplicateRpcType, s)) := by
  constructor
  · intro h
    simp only [Server.register, h, upd_same, true_and]
    intro id' hne
    exact upd_other _ _ hne
  · intro g h
    simp only [Server.register, h]

/-- **C45** Over any history of registrations, the handler of a type is the first one registered
for it. -/
theorem c45_first_registration_wins (regs : List (UInt8 × Handler)) (id : UInt8) :
    (regs.foldl (fun s r => (s.register r.1 r.2).2) Server.new).handlers id =
      (regs.find? (fun r => r.1 == id)).map (·.2) := by
  have gen : ∀ (s : Server), (regs.foldl (fun s r => (s.register r.1 r.2).2) s).handlers id =
      match s.handlers id with
      | some g => some g
      | none => (regs.find? (fun r => r.1 == id)).map (·.2) := by
    induction regs with
    | nil => intro s; simp only [List.foldl_nil, List.find?_nil, Option.map_none]; split <;> simp_all
    | cons r rs ih =>
      intro s
      simp only [List.foldl_cons]
      rw [ih]
      by_cases hr : r.1 = id
      · cases hs : s.handlers id with
        | some g =>
          have : s.handlers r.1 = some g := by rw [hr]; exact hs
          simp only [Server.register, this, hs]
        | none =>
          have : s.handlers r.1 = none := by rw [hr]; exact hs
          simp only [Server.register, this]
          rw [hr, upd_same]
          simp [hr]
      · have e : (s.register r.1 r.2).2.handlers id = s.handlers id := by
          unfold Server.register
          split
          · rfl
          · simp only; exact upd_other _ _ (Ne.symm hr)
        rw [e]
        have : (r.1 == id) = false := by simpa using hr
        simp only [List.find?_cons, this]
  rw [gen]
  rfl

/-- **C45** End to end: a client's call of a registered function returns the header and the bytes
the handler produced, spread over the client's output buffers. -/
theorem c45_call_roundtrip (s : Server) (slot1 slot2 : List UInt8) (h1 : slot1.length = ENTRY)
    (h2 : slot2.length = ENTRY) (hd : s.data.length = ENTRY) (chdr : Header) (id : UInt8)
    (dataIn dataOut : List (List UInt8)) (f : Handler) (hf : s.handlers id = some f)
    (hok : HandlerOk f) (hn : dataIn.length ≤ 6) (hfit : 4 + dataIn.flatten.length ≤ ENTRY)
    (hb : dataOut.length ≤ 6) :
    let req : Header := { chdr with msgType := id, msgLen := UInt16.ofNat dataIn.flatten.length }
    let r := f req (received s.data dataIn.flatten)
    r.1 = none → r.2.1.msgLen.toNat + 4 ≤ ENTRY →
    r.2.1.msgLen.toNat ≤ dataOut.flatten.length →
    ∃ e reply s' out, clientSend slot1 chdr id dataIn = .ok (req, some e) ∧
      s.handle e slot2 = (.ok (), s', [reply]) ∧
      recvMsg reply.1 reply.2 req dataOut = .ok (r.2.1, out) ∧
      out.map List.length = dataOut.map List.length ∧
      out.flatten = r.2.2.take r.2.1.msgLen.toNat ++ dataOut.flatten.drop r.2.1.msgLen.toNat := by
  intro req r hr hlen hout
  have hE := ENTRY_eq
  have hsend : sendMsg slot1 req dataIn = .ok (some (4 + dataIn.flatten.length,
      overwrite slot1 0 (req.bytes ++ dataIn.flatten))) := sendMsg_eq slot1 req dataIn h1 hn hfit
  have hcs : clientSend slot1 chdr id dataIn = .ok (req, some (4 + dataIn.flatten.length,
      overwrite slot1 0 (req.bytes ++ dataIn.flatten))) := by
    unfold clientSend
    simp only [totalLen_eq]
    rw [if_neg (by omega)]
    rw [show sendMsg slot1 { chdr with msgType := id, msgLen := UInt16.ofNat dataIn.flatten.length }
      dataIn = _ from hsend]
  have hcar := carries_of_send slot1 h1 _ _ _ hsend
  obtain ⟨s', reply, hh, hcr, _⟩ := c45_dispatch s _ slot2 req dataIn.flatten f h2 hd hcar
    (by omega) hf hok hr hlen
  have hrl : (received s.data dataIn.flatten).length = ENTRY := by
    simp only [received, List.length_append, List.length_drop]; omega
  have hr2 : r.2.2.length = ENTRY := by
    show (f req (received s.data dataIn.flatten)).2.2.length = ENTRY
    rw [hok, hrl]
  have htl : (r.2.2.take r.2.1.msgLen.toNat).length = r.2.1.msgLen.toNat := by
    rw [List.length_take]; omega
  refine ⟨_, reply, s', spread (r.2.2.take r.2.1.msgLen.toNat) dataOut, hcs, hh, ?_,
    spread_lengths _ _, ?_⟩
  · obtain ⟨n, value⟩ := reply
    obtain ⟨c1, c2, c3⟩ := hcr
    simp only at c1 c2 c3
    subst c1
    exact recvMsg_eq value _ req _ dataOut c3 c2 hb (by rw [htl]; exact hout)
  · rw [spread_flatten _ _ (by rw [htl]; exact hout), htl]

/-- Non-vacuity of the C45 theorems: a server with an increment handler answers a call. -/
def incHandler : Handler := fun h d => (none, { h with msgLen := 1 }, (d.set 0 (d.getD 0 0 + 1)))

example : HandlerOk incHandler ∧
    ((Server.new.register 7 incHandler).2.handlers 7) = some incHandler ∧
    (incHandler ⟨0, 7, 1⟩ (received Server.new.data [41])).2.2.take 1 = [42] := by
  refine ⟨?_, rfl, ?_⟩
  · intro h d; simp [incHandler]
  · simp [incHandler, received, Server.new]

/-! ## C46 -/

/-- **C46** Exactly when a request is answered.  `handle` on a request sends exactly one reply if a
handler is registered for the type, the handler succeeds and its reply fits an entry; in every
other case it sends none, although the client waits for one.  This is the part of C46 the code
guarantees; missing are unknown types, failing handlers and oversized replies. -/
theorem c46_answered_iff_partial (s : Server) (entry : Nat × List UInt8) (slot : List UInt8)
    (h : Header) (b : List UInt8) (hs : slot.length = ENTRY) (hd : s.data.length = ENTRY)
    (hc : Carries entry h b) (hb : b.length ≤ ENTRY)
    (hok : ∀ f, s.handlers h.msgType = some f → HandlerOk f) :
    (s.handle entry slot).2.2.length ≤ 1 ∧
    ((s.handle entry slot).2.2.length = 1 ↔
      ∃ f, s.handlers h.msgType = some f ∧ (f h (received s.data b)).1 = none ∧
        (f h (received s.data b)).2.1.msgLen.toNat + 4 ≤ ENTRY) ∧
    ((s.handle entry slot).2.2.length = 1 ↔ (s.handle entry slot).1 = .ok ()) := by
  cases hf : s.handlers h.msgType with
  | none =>
    have : s.handle entry slot = (.err .noHandlerForRpcType,
        { s with hdr := h, data := received s.data b }, []) := by
      unfold Server.handle
      rw [receive_eq s entry h b hc (by omega)]
      simp only [hf]
    rw [this]
    simp
  | some f =>
    have hF := hok f hf
    have hrl : (received s.data b).length = ENTRY := by
      simp only [received, List.length_append, List.length_drop]; omega
    by_cases hsucc : (f h (received s.data b)).1 = none
    · by_cases hlen : (f h (received s.data b)).2.1.msgLen.toNat + 4 ≤ ENTRY
      · obtain ⟨s', r, he, _⟩ := c45_dispatch s entry slot h b f hs hd hc hb hf hF hsucc hlen
        rw [he]
        simp [hsucc, hlen]
      · have : (s.handle entry slot).2.2 = [] ∧ (s.handle entry slot).1 = .panic := by
          unfold Server.handle
          rw [receive_eq s entry h b hc (by omega)]
          simp only [hf, Server.runHandler, hsucc, Server.reply]
          have hl : (f h (received s.data b)).2.2.length = ENTRY := by rw [hF, hrl]
          by_cases hbig : (f h (received s.data b)).2.1.msgLen.toNat >
              (f h (received s.data b)).2.2.length
          · simp [hbig]
          · rw [if_neg hbig]
            have hp : sendMsg slot (f h (received s.data b)).2.1
                [(f h (received s.data b)).2.2.take (f h (received s.data b)).2.1.msgLen.toNat] =
                .panic := by
              rw [(c19_send_panics_iff slot hs _ _).1]
              simp only [List.flatten_cons, List.flatten_nil, List.append_nil, List.length_take]
              omega
            rw [hp]
            simp
        rw [this.1, this.2]
        simp [hsucc, hlen]
    · obtain ⟨er, her⟩ := Option.ne_none_iff_exists'.1 hsucc
      have : (s.handle entry slot).2.2 = [] ∧ (s.handle entry slot).1 = .err er := by
        unfold Server.handle
        rw [receive_eq s entry h b hc (by omega)]
        simp only [hf, Server.runHandler, her]
        simp
      rw [this.1, this.2]
      simp [her]

/-- **C46 is false of the code**: a request of a type without handler is consumed without a reply,
by `handle` (which also stops the server loop) and by `try_handle` (which reports "nothing
handled"). The client blocks in `recv_msg` for ever. -/
theorem c46_unknown_type_not_answered (s : Server) (entry : Nat × List UInt8) (slot : List UInt8)
    (h : Header) (b : List UInt8) (hd : s.data.length = ENTRY)
    (hc : Carries entry h b) (hb : b.length ≤ ENTRY) (hf : s.handlers h.msgType = none) :
    (s.handle entry slot).1 = .err .noHandlerForRpcType ∧ (s.handle entry slot).2.2 = [] ∧
    (s.tryHandle (some entry) slot).1 = .ok false ∧
    (s.tryHandle (some entry) slot).2.2 = [] := by
  unfold Server.handle Server.tryHandle
  simp only [receive_eq s entry h b hc (by omega), hf]
  exact ⟨trivial, trivial, trivial, trivial⟩

/-- Non-vacuity: such a request exists (empty server, request of type 5). -/
example : ∃ e, sendMsg (List.replicate ENTRY 0) ⟨0, 5, 0⟩ [] = .ok (some e) ∧
    Carries e ⟨0, 5, 0⟩ [] ∧ Server.new.handlers 5 = none := by
  have h := sendMsg_eq (List.replicate ENTRY 0) ⟨0, 5, 0⟩ [] (by simp) (by simp)
    (by rw [ENTRY_eq]; simp)
  exact ⟨_, h, carries_of_send _ (by simp) _ _ _ h, rfl⟩

end NRK.Rpc
