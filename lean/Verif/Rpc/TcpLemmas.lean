import Verif.Rpc.TcpSpec
import Verif.Rpc.Props
import Verif.Fs.FileLemmas

/-! # C73: lemmas -/

namespace NRK.Rpc.Tcp

open Fs.Spec (overwrite)

theorem Hdr.bytes_length (h : Hdr) : h.bytes.length = 4 := rfl

theorem Hdr.ofBytes_bytes (h : Hdr) : Hdr.ofBytes h.bytes = h := by
  cases h with
  | mk id ty len =>
    simp only [Hdr.ofBytes, Hdr.bytes, List.getD_cons_zero, List.getD_cons_succ, Hdr.mk.injEq, true_and]
    have hl : len.toNat < 65536 := len.toNat_lt
    rw [← UInt16.toNat_inj]
    simp only [UInt16.toNat_ofNat', UInt8.toNat_ofNat']
    omega

theorem Hdr.bytes_ofBytes (b : List UInt8) (hb : b.length = 4) : (Hdr.ofBytes b).bytes = b := by
  match b, hb with
  | [a, b, c, d], _ =>
    have hc := c.toNat_lt
    have hd := d.toNat_lt
    have e : (UInt16.ofNat (c.toNat + 256 * d.toNat)).toNat = c.toNat + 256 * d.toNat := by
      rw [UInt16.toNat_ofNat']; omega
    simp only [Hdr.ofBytes, Hdr.bytes, List.getD_cons_zero, List.getD_cons_succ, e]
    rw [show (c.toNat + 256 * d.toNat) % 256 = c.toNat by omega,
      show (c.toNat + 256 * d.toNat) / 256 = d.toNat by omega]
    simp

theorem Hdr.bytes_inj {h h' : Hdr} (e : h.bytes = h'.bytes) : h = h' := by
  rw [← Hdr.ofBytes_bytes h, e, Hdr.ofBytes_bytes]

/-- The bytes of a message on the wire. -/
def Msg.wire (m : Msg) : List UInt8 := m.hdr.bytes ++ m.payload.flatten

/-- The bytes that a finished call of `recv_msg` has taken. -/
def Got.wire : Got → List UInt8
  | .msg h _ bufs => h.bytes ++ bufs.flatten.take h.len.toNat
  | .tooLong h _ => h.bytes

/-- The bytes that a running call of `recv_msg` has taken. -/
def Rcv.wire : Rcv → List UInt8
  | .idle => []
  | .hdr got _ => got
  | .body h _ done cur off _ _ _ _ => h.bytes ++ (done.flatten ++ cur.take off)

def Got.Good : Got → Prop
  | .msg h orig bufs => bufs.map List.length = orig.map List.length ∧
      h.len.toNat ≤ orig.flatten.length ∧
      bufs.flatten.drop h.len.toNat = orig.flatten.drop h.len.toNat
  | .tooLong h orig => orig.flatten.length < h.len.toNat

/-- The buffers during the call: `done` and the first `off` bytes of `cur` are received. -/
structure Body (h : Hdr) (orig done : List (List UInt8)) (cur : List UInt8) (off want : Nat) (last : Bool)
    (todo : List (List UInt8)) (count : Nat) : Prop where
  lens : (done ++ [cur] ++ todo).map List.length = orig.map List.length
  rest : (done ++ [cur] ++ todo).flatten.drop (done.flatten.length + off) =
    orig.flatten.drop (done.flatten.length + off)
  offw : off ≤ want
  wcur : want ≤ cur.length
  fits : h.len.toNat ≤ orig.flatten.length
  hlast : last = true → count = done.flatten.length ∧ h.len.toNat = count + want ∧ want < cur.length
  hmore : last = false → count = done.flatten.length + cur.length ∧ want = cur.length ∧ count ≤ h.len.toNat

def Rcv.Good : Rcv → Prop
  | .idle => True
  | .hdr got _ => got.length < 4
  | .body h orig done cur off want last todo count => Body h orig done cur off want last todo count

structure Inv (d : Dir) : Prop where
  bytes : d.sent.flatMap Msg.wire = d.got.flatMap Got.wire ++ (d.rcv.wire ++ (d.rx ++ (d.tx ++ d.snd.flatten)))
  got : ∀ g ∈ d.got, g.Good
  rcv : d.rcv.Good
  tx : d.tx.length ≤ SOCK
  rx : d.rx.length ≤ SOCK

theorem len_flatten : ∀ (a b : List (List UInt8)), a.map List.length = b.map List.length →
    a.flatten.length = b.flatten.length := by
  intro a b h
  simp only [List.length_flatten, h]

theorem drop_of_drop {a b : List UInt8} {m n : Nat} (h : a.drop m = b.drop m) (hn : m ≤ n) :
    a.drop n = b.drop n := by
  have : n = m + (n - m) := by omega
  rw [this, ← List.drop_drop, ← List.drop_drop, h]

/-- The loop over the buffers goes on with what it had, or it is at the end. -/
theorem nextBuf_good {h : Hdr} {orig done : List (List UInt8)} {count : Nat} {todo : List (List UInt8)}
    (hl : (done ++ todo).map List.length = orig.map List.length)
    (hr : (done ++ todo).flatten.drop done.flatten.length = orig.flatten.drop done.flatten.length)
    (hf : h.len.toNat ≤ orig.flatten.length) (hc : count = done.flatten.length) (hle : count ≤ h.len.toNat) :
    (∃ cur off want last t c, nextBuf h orig done count todo = .inl (.body h orig done cur off want last t c) ∧
      off = 0 ∧ Body h orig done cur off want last t c ∧ t.length < todo.length) ∨
    (todo = [] ∧ nextBuf h orig done count todo = .inr done ∧ h.len.toNat = done.flatten.length ∧
      (Got.msg h orig done).Good) := by
  cases todo with
  | nil =>
    right
    rw [List.append_nil] at hl hr
    have := len_flatten _ _ hl
    have he : h.len.toNat = done.flatten.length := by omega
    exact ⟨rfl, rfl, he, hl, hf, by rw [he]; exact hr⟩
  | cons p todo =>
    left
    have hl' : (done ++ [p] ++ todo).map List.length = orig.map List.length := by
      rw [List.append_assoc]; exact hl
    have hr' : (done ++ [p] ++ todo).flatten.drop (done.flatten.length + 0) =
        orig.flatten.drop (done.flatten.length + 0) := by
      rw [List.append_assoc]; exact hr
    by_cases hgt : count + p.length > h.len.toNat
    · exact ⟨p, 0, h.len.toNat - count, true, todo, count, if_pos hgt, rfl,
        ⟨hl', hr', by omega, by omega, hf, fun _ => ⟨hc, by omega, by omega⟩, fun h => by cases h⟩, by simp⟩
    · exact ⟨p, 0, p.length, false, todo, count + p.length, if_neg hgt, rfl,
        ⟨hl', hr', by omega, by omega, hf, fun h => (by cases h), fun _ => ⟨by omega, rfl, by omega⟩⟩, by simp⟩

/-- A buffer is full: the call returns or goes on with the next one. -/
theorem Body.full {h : Hdr} {orig done : List (List UInt8)} {cur : List UInt8} {want : Nat} {last : Bool}
    {todo : List (List UInt8)} {count : Nat} (b : Body h orig done cur want want last todo count) :
    (last = true → (Got.msg h orig (done ++ [cur] ++ todo)).Good ∧
      (done ++ [cur] ++ todo).flatten.take h.len.toNat = done.flatten ++ cur.take want) ∧
    (last = false → cur.take want = cur ∧
      ((∃ c o w l t n, nextBuf h orig (done ++ [cur]) count todo =
          .inl (.body h orig (done ++ [cur]) c o w l t n) ∧ o = 0 ∧
          Body h orig (done ++ [cur]) c o w l t n ∧ t.length < todo.length) ∨
        (todo = [] ∧ nextBuf h orig (done ++ [cur]) count todo = .inr (done ++ [cur]) ∧
          h.len.toNat = (done ++ [cur]).flatten.length ∧ (Got.msg h orig (done ++ [cur])).Good))) := by
  constructor
  · intro hl
    obtain ⟨h1, h2, h3⟩ := b.hlast hl
    refine ⟨⟨b.lens, b.fits, ?_⟩, ?_⟩
    · have := b.rest
      rw [show h.len.toNat = done.flatten.length + want by omega]
      exact this
    · rw [h2, h1]
      simp only [List.flatten_append, List.flatten_cons, List.flatten_nil, List.append_nil]
      rw [List.append_assoc, List.take_length_add_append, List.take_append_of_le_length (by omega)]
  · intro hl
    obtain ⟨h1, h2, h3⟩ := b.hmore hl
    refine ⟨by rw [h2, List.take_length], ?_⟩
    have hlen : (done ++ [cur]).flatten.length = done.flatten.length + cur.length := by simp
    refine nextBuf_good b.lens ?_ b.fits (by omega) h3
    rw [hlen, ← h2]
    exact b.rest

theorem Body.overwrite {h : Hdr} {orig done : List (List UInt8)} {cur : List UInt8} {off want : Nat} {last : Bool}
    {todo : List (List UInt8)} {count : Nat} (b : Body h orig done cur off want last todo count)
    (x : List UInt8) (hx : off + x.length ≤ want) :
    Body h orig done (overwrite cur off x) (off + x.length) want last todo count ∧
      (Fs.Spec.overwrite cur off x).take (off + x.length) = cur.take off ++ x := by
  have hw := b.wcur
  have hlen : (Fs.Spec.overwrite cur off x).length = cur.length :=
    Fs.overwrite_length cur off x (by omega)
  refine ⟨⟨?_, ?_, hx, by omega, b.fits, ?_, ?_⟩, ?_⟩
  · rw [← b.lens]; simp [hlen]
  · have := drop_of_drop b.rest (n := done.flatten.length + (off + x.length)) (by omega)
    rw [← this]
    simp only [List.flatten_append, List.flatten_cons, List.flatten_nil, List.append_nil, List.append_assoc,
      List.drop_length_add_append]
    rw [List.drop_append_of_le_length (by omega), List.drop_append_of_le_length (by omega)]
    congr 1
    unfold Fs.Spec.overwrite
    rw [List.drop_append]
    simp [List.length_take, show off ≤ cur.length by omega]
  · intro hl; have := b.hlast hl; omega
  · intro hl; have := b.hmore hl; omega
  · unfold Fs.Spec.overwrite
    rw [List.take_append_of_le_length (by simp; omega), List.take_of_length_le (by simp; omega)]

theorem Inv.init : Inv Dir.init :=
  ⟨rfl, fun _ h => absurd h (by simp [Dir.init]), trivial, by simp [Dir.init], by simp [Dir.init]⟩

/-- A call of `recv_msg` ends or goes on; no bytes are lost. -/
theorem Inv.rcvd {d d' : Dir} (hi : Inv d) (x : List UInt8) (hs : d'.sent = d.sent) (hsnd : d'.snd = d.snd)
    (htx : d'.tx = d.tx) (hx : d.rx = x ++ d'.rx)
    (hg : (d'.got = d.got ∧ d'.rcv.Good ∧ d'.rcv.wire = d.rcv.wire ++ x) ∨
      (∃ g, d'.got = d.got ++ [g] ∧ g.Good ∧ d'.rcv = .idle ∧ g.wire = d.rcv.wire ++ x)) : Inv d' := by
  have hrx := hi.rx
  rw [hx, List.length_append] at hrx
  rcases hg with ⟨h1, h2, h3⟩ | ⟨g, h1, h2, h3, h4⟩
  · refine ⟨?_, by rw [h1]; exact hi.got, h2, by rw [htx]; exact hi.tx, by omega⟩
    rw [hs, hi.bytes, h1, h3, hsnd, htx, hx]
    simp only [List.append_assoc]
  · refine ⟨?_, ?_, by rw [h3]; exact trivial, by rw [htx]; exact hi.tx, by omega⟩
    · rw [hs, hi.bytes, h1, h3, hsnd, htx, hx, List.flatMap_append]
      simp only [List.flatMap_cons, List.flatMap_nil, List.append_nil, h4, Rcv.wire, List.append_assoc,
        List.nil_append]
    · intro g' hg'
      rw [h1, List.mem_append, List.mem_singleton] at hg'
      rcases hg' with hg' | rfl
      · exact hi.got g' hg'
      · exact h2

theorem Inv.header {d0 d : Dir} (hi : Inv d0) (x : List UInt8) (hs : d.sent = d0.sent) (hsnd : d.snd = d0.snd)
    (htx : d.tx = d0.tx) (hx : d0.rx = x ++ d.rx) (hgot : d.got = d0.got) (b : List UInt8) (hb : b.length = 4)
    (hw : b = d0.rcv.wire ++ x) (bufs : List (List UInt8)) : Inv (d.header (Hdr.ofBytes b) bufs) := by
  have hbb := Hdr.bytes_ofBytes b hb
  generalize Hdr.ofBytes b = h at hbb
  unfold Dir.header
  rw [totalLen_eq]
  split
  · rename_i hlt
    exact hi.rcvd x hs hsnd htx hx (Or.inr ⟨.tooLong h bufs, by simp only [hgot], hlt, rfl, by
      show h.bytes = _; rw [hbb, hw]⟩)
  · rename_i hge
    split
    · rename_i h0
      exact hi.rcvd x hs hsnd htx hx (Or.inr ⟨.msg h bufs bufs, by simp only [Dir.continue, hgot],
        ⟨rfl, by omega, rfl⟩, rfl, by
        show h.bytes ++ bufs.flatten.take h.len.toNat = _
        rw [h0, List.take_zero, List.append_nil, hbb, hw]⟩)
    · rcases nextBuf_good (h := h) (orig := bufs) (done := []) (count := 0) (todo := bufs) rfl rfl
        (by omega) rfl (by omega) with ⟨cur, off, want, last, t, c, he, h0, hb', _⟩ | ⟨rfl, he, h0, hg⟩
      · rw [he]
        exact hi.rcvd x hs hsnd htx hx (Or.inl ⟨hgot, hb', by
          show h.bytes ++ _ = _
          rw [h0]; simp [hbb, hw]⟩)
      · rw [he]
        exact hi.rcvd x hs hsnd htx hx (Or.inr ⟨.msg h [] [], by simp only [Dir.continue, hgot], hg, rfl, by
          show h.bytes ++ _ = _
          rw [h0]; simp [hbb, hw]⟩)

theorem Inv.step {d d' : Dir} (hi : Inv d) (a : Act) (hs : d.step a = some d') : Inv d' := by
  have start : ∀ m : Msg, d.snd = [] →
      Inv { d with snd := m.hdr.bytes :: m.payload, sent := d.sent ++ [m] } := by
    intro m h0
    refine ⟨?_, hi.got, hi.rcv, hi.tx, hi.rx⟩
    show (d.sent ++ [m]).flatMap Msg.wire = _
    rw [List.flatMap_append, hi.bytes, h0]
    simp [Msg.wire]
  cases a with
  | send m =>
    simp only [Dir.step] at hs
    split at hs
    · rename_i h0; cases hs; exact start m h0
    · cases hs
  | trySend m =>
    simp only [Dir.step] at hs
    split at hs
    · rename_i h0
      split at hs
      · cases hs; exact start m h0
      · cases hs; exact hi
    · cases hs
  | push n =>
    simp only [Dir.step] at hs
    split at hs
    · rename_i cur rest hc
      split at hs
      · rename_i hn
        cases hs
        refine ⟨?_, hi.got, hi.rcv, by simp; omega, hi.rx⟩
        show d.sent.flatMap Msg.wire = _
        rw [hi.bytes, hc]
        simp only [List.flatten_cons, List.append_assoc]
        rw [← List.append_assoc (cur.take n), List.take_append_drop]
      · cases hs
    · cases hs
  | next =>
    simp only [Dir.step] at hs
    split at hs
    · rename_i rest hc
      cases hs
      refine ⟨?_, hi.got, hi.rcv, hi.tx, hi.rx⟩
      show d.sent.flatMap Msg.wire = _
      rw [hi.bytes, hc]
      simp
    · cases hs
  | poll n =>
    simp only [Dir.step] at hs
    split at hs
    · rename_i hn
      cases hs
      have := hi.tx
      refine ⟨?_, hi.got, hi.rcv, by simp; omega, by simp; omega⟩
      show d.sent.flatMap Msg.wire = _
      rw [hi.bytes]
      simp only [List.append_assoc]
      rw [← List.append_assoc (d.tx.take n), List.take_append_drop]
    · cases hs
  | recv bufs =>
    simp only [Dir.step] at hs
    split at hs
    · rename_i h0
      cases hs
      exact hi.rcvd [] rfl rfl rfl rfl (Or.inl ⟨rfl, by show 0 < 4; omega, by rw [h0]; rfl⟩)
    · cases hs
  | tryRecv bufs =>
    simp only [Dir.step] at hs
    split at hs
    · rename_i h0
      split at hs
      · cases hs; exact hi
      · cases hs
        exact hi.rcvd [] rfl rfl rfl rfl (Or.inl ⟨rfl, by show 0 < 4; omega, by rw [h0]; rfl⟩)
    · cases hs
  | pull n =>
    simp only [Dir.step] at hs
    split at hs
    · rename_i hn
      have htl : (d.rx.take n).length = n := by rw [List.length_take]; omega
      have hsplit : d.rx = d.rx.take n ++ d.rx.drop n := (List.take_append_drop _ _).symm
      split at hs
      · cases hs
      · rename_i got bufs hr
        split at hs
        · rename_i h4
          split at hs
          · rename_i he
            cases hs
            exact hi.header
              (d := { d with rx := d.rx.drop n, rcv := .hdr (got ++ d.rx.take n) bufs })
              (d.rx.take n) rfl rfl rfl hsplit rfl (got ++ d.rx.take n) (by rw [List.length_append, htl]; exact he) (by rw [hr]; rfl) bufs
          · rename_i hne
            cases hs
            exact hi.rcvd (d.rx.take n) rfl rfl rfl hsplit (Or.inl ⟨rfl, by
              show (got ++ d.rx.take n).length < 4
              rw [List.length_append, htl]; unfold HDR at *; omega, by rw [hr]; rfl⟩)
        · cases hs
      · rename_i h orig done cur off want last todo count hr
        split at hs
        · rename_i hle
          cases hs
          have hb : Body h orig done cur off want last todo count := by
            have := hi.rcv; rw [hr] at this; exact this
          obtain ⟨h1, h2⟩ := hb.overwrite (d.rx.take n) (by omega)
          rw [htl] at h1 h2
          exact hi.rcvd (d.rx.take n) rfl rfl rfl hsplit (Or.inl ⟨rfl, h1, by
            rw [hr]
            simp only [Rcv.wire, h2, List.append_assoc]⟩)
        · cases hs
    · cases hs
  | full =>
    simp only [Dir.step] at hs
    split at hs
    · rename_i h orig done cur off want last todo count hr
      split at hs
      · rename_i he
        subst he
        have hb : Body h orig done cur off off last todo count := by
          have := hi.rcv; rw [hr] at this; exact this
        split at hs
        · rename_i hl
          cases hs
          obtain ⟨h1, h2⟩ := hb.full.1 hl
          exact hi.rcvd [] rfl rfl rfl rfl (Or.inr ⟨.msg h orig (done ++ [cur] ++ todo), rfl, h1, rfl, by
            rw [hr]; simp only [Got.wire, Rcv.wire, h2, List.append_nil]⟩)
        · rename_i hl
          cases hs
          obtain ⟨h1, h2⟩ := hb.full.2 (by simpa using hl)
          rcases h2 with ⟨c, o, w, l, t, n, he, h0, hb', _⟩ | ⟨_, he, h0, hg⟩
          · rw [he]
            exact hi.rcvd [] rfl rfl rfl rfl (Or.inl ⟨rfl, hb', by
              rw [hr, h0]; simp [Rcv.wire, Dir.continue, h1]⟩)
          · rw [he]
            exact hi.rcvd [] rfl rfl rfl rfl (Or.inr ⟨.msg h orig (done ++ [cur]), rfl, hg, rfl, by
              rw [hr]; simp only [Got.wire, Rcv.wire, h0, List.take_length]
              simp [h1]⟩)
      · cases hs
    · cases hs

theorem Dir.Run.inv {d : Dir} (h : d.Run) : Inv d := by
  induction h with
  | init => exact Inv.init
  | step a _ hs ih => exact ih.step a hs

/-- One message: the bytes that were received for it are the bytes that were sent for it. -/
theorem deliver_one {m : Msg} (hm : m.Proper) {g : Got} (hg : g.Good) (a b : List UInt8)
    (h : m.wire ++ a = g.wire ++ b) : Delivers m g ∧ (g.isMsg = true → a = b) := by
  cases g with
  | tooLong h' orig =>
    unfold Msg.wire Got.wire at h
    rw [List.append_assoc] at h
    obtain ⟨h1, h2⟩ := List.append_inj h rfl
    have := Hdr.bytes_inj h1
    subst this
    unfold Msg.Proper at hm
    exact ⟨⟨rfl, by rw [← hm]; exact hg⟩, fun h => (by cases h)⟩
  | msg h' orig bufs =>
    unfold Msg.wire Got.wire at h
    rw [List.append_assoc, List.append_assoc] at h
    obtain ⟨h1, h2⟩ := List.append_inj h rfl
    have := Hdr.bytes_inj h1
    subst this
    unfold Msg.Proper at hm
    obtain ⟨hg1, hg2, hg3⟩ := hg
    have hlen := len_flatten _ _ hg1
    obtain ⟨h3, h4⟩ := List.append_inj h2 (by rw [List.length_take]; omega)
    refine ⟨⟨rfl, hg1, ?_⟩, fun _ => h4⟩
    rw [← hm, ← hg3, h3, List.take_append_drop]

/-- Many messages. -/
theorem deliver_all : ∀ (k : Nat) (sent : List Msg) (got : List Got) (rest : List UInt8),
    (∀ m ∈ sent, m.Proper) → (∀ g ∈ got, g.Good) → sent.flatMap Msg.wire = got.flatMap Got.wire ++ rest →
    (∀ j, j < k → ∃ g, got[j]? = some g ∧ g.isMsg = true) → ∀ g, got[k]? = some g →
    ∃ m, sent[k]? = some m ∧ Delivers m g := by
  intro k
  induction k with
  | zero =>
    intro sent got rest hm hg he _ g hk
    cases got with
    | nil => cases hk
    | cons g0 gs =>
      simp only [List.getElem?_cons_zero, Option.some.injEq] at hk
      subst hk
      cases sent with
      | nil => cases g0 <;> simp [Got.wire, Hdr.bytes] at he
      | cons m ms =>
        simp only [List.flatMap_cons, List.append_assoc] at he
        exact ⟨m, rfl, (deliver_one (hm m (by simp)) (hg g0 (by simp)) _ _ he).1⟩
  | succ k ih =>
    intro sent got rest hm hg he hall g hk
    cases got with
    | nil => cases hk
    | cons g0 gs =>
      cases sent with
      | nil => cases g0 <;> simp [Got.wire, Hdr.bytes] at he
      | cons m ms =>
        simp only [List.flatMap_cons, List.append_assoc] at he
        obtain ⟨g', hg', hmsg⟩ := hall 0 (by omega)
        simp only [List.getElem?_cons_zero, Option.some.injEq] at hg'
        subst hg'
        have := (deliver_one (hm m (by simp)) (hg g0 (by simp)) _ _ he).2 hmsg
        exact ih ms gs rest (fun m' h' => hm m' (by simp [h'])) (fun g' h' => hg g' (by simp [h'])) this
          (fun j hj => hall (j + 1) (by omega)) g hk

/-- What is left when all calls so far returned messages. -/
theorem deliver_rest : ∀ (got : List Got) (sent : List Msg) (rest : List UInt8),
    (∀ m ∈ sent, m.Proper) → (∀ g ∈ got, g.Good) → (∀ g ∈ got, g.isMsg = true) →
    sent.flatMap Msg.wire = got.flatMap Got.wire ++ rest →
    got.length ≤ sent.length ∧ (sent.drop got.length).flatMap Msg.wire = rest := by
  intro got
  induction got with
  | nil => intro sent rest _ _ _ he; exact ⟨by simp, by simpa using he⟩
  | cons g0 gs ih =>
    intro sent rest hm hg hall he
    cases sent with
    | nil => cases g0 <;> simp [Got.wire, Hdr.bytes] at he
    | cons m ms =>
      simp only [List.flatMap_cons, List.append_assoc] at he
      have := (deliver_one (hm m (by simp)) (hg g0 (by simp)) _ _ he).2 (hall g0 (by simp))
      obtain ⟨h1, h2⟩ := ih ms rest (fun m' h' => hm m' (by simp [h'])) (fun g' h' => hg g' (by simp [h']))
        (fun g' h' => hall g' (by simp [h'])) this
      exact ⟨by simp; omega, by simpa using h2⟩

end NRK.Rpc.Tcp
