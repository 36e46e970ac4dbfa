import Verif.Rack.ShmLemmas

/-!
# One queue in raw memory is a bounded first-in first-out channel
-/

namespace NRK.Rack.Shm

open NRK.Rpc (ENTRY ENTRY_eq totalLen drain totalLen_eq spread drain_eq)

theorem bind_ok {α β : Type} (a : α) (f : α → Res β) : (Res.ok a >>= f) = f a := rfl

theorem acc_some {α : Type} (a : α) : acc (some a) = Res.ok a := rfl

theorem pure_ok {α : Type} (a : α) : (pure a : Res α) = Res.ok a := rfl

theorem at_node (b k : Nat) : (Queue.at 32 b).node k = b + 16 + k * NODE := rfl

/-- Where a queue lies: on machine `m`, in device `i`, at offset `o`. -/
structure Place (D : Devs) (m i o : Nat) : Prop where
  ok : D.Ok
  hm : m < D.n
  hi : i < D.n
  fits : o + QSZ ≤ (D.view m i).size

theorem Place.ld {D : Devs} {m i o : Nat} (p : Place D m i o) (s : Store) (x k : Nat)
    (hx : x < QSZ) (hk : x + k ≤ QSZ) :
    D.ld s m (D.va m i + o + x) k = some (rd (s i) (o + x) k) := by
  have := p.fits
  rw [Nat.add_assoc]
  exact ld_ok p.ok s p.hm p.hi (by omega) (by omega)

theorem Place.st {D : Devs} {m i o : Nat} (p : Place D m i o) (s : Store) (x : Nat)
    (bs : List UInt8) (hx : x < QSZ) (hk : x + bs.length ≤ QSZ) :
    D.st s m (D.va m i + o + x) bs = some (upd s i (wr (s i) (o + x) bs)) := by
  have := p.fits
  rw [Nat.add_assoc]
  exact st_ok p.ok s bs p.hm p.hi (by omega) (by omega)

/-- Slot offset relative to the queue. -/
def slot (k : Nat) : Nat := 16 + k * NODE

theorem nodeOff_slot (o k : Nat) : nodeOff o k = o + slot k := by
  unfold nodeOff slot; omega

theorem at_node' (b k : Nat) : (Queue.at 32 b).node k = b + slot k := by
  rw [at_node]; unfold slot; omega

theorem slot_in (k : Nat) (h : k < 32) : 16 ≤ slot k ∧ slot k + 8208 ≤ QSZ := by
  unfold slot NODE QSZ; omega

theorem upd_upd_same {α : Type} (s : Nat → α) (i : Nat) (a b : α) :
    upd (upd s i a) i b = upd s i b := by
  funext j; unfold upd; split <;> rfl

theorem upd_self {α : Type} (s : Nat → α) (i : Nat) : upd s i (s i) = s := by
  funext j; unfold upd; split
  · rename_i h; rw [h]
  · rfl

theorem wr_nil (f : Nat → UInt8) (o : Nat) : wr f o [] = f := by
  funext a
  exact wr_other _ _ _ _ (by simp only [List.length_nil]; omega)

theorem copyIn_ok {D : Devs} {m i o : Nat} (p : Place D m i o) (k : Nat) (hk : k < 32)
    (vs : List (List UInt8)) : ∀ (offset : Nat) (s : Store),
      offset + vs.flatten.length ≤ ENTRY →
      copyIn D m (D.va m i + o + slot k) offset vs s =
        .ok (upd s i (wr (s i) (o + (slot k + 10 + offset)) vs.flatten)) := by
  have hs := slot_in k hk
  have hE := ENTRY_eq
  induction vs with
  | nil =>
    intro offset s _
    simp only [copyIn, List.flatten_nil, wr_nil, upd_self]
  | cons v vs ih =>
    intro offset s h
    simp only [List.flatten_cons, List.length_append] at h
    simp only [copyIn]
    rw [if_pos (by omega)]
    have e : D.va m i + o + slot k + 10 + offset = D.va m i + o + (slot k + 10 + offset) := by omega
    rw [e, p.st s _ v (by omega) (by omega), acc_some, bind_ok, ih _ _ (by omega),
      upd_same, upd_upd_same, List.flatten_cons]
    congr 2
    rw [← wr_append]
    congr 1
    omega

/-- The memory after a message was put into slot `k`. -/
def pushed (f : Nat → UInt8) (o k pos : Nat) (d : List UInt8) : Nat → UInt8 :=
  wr (wr (wr (wr f o (enc 8 (pos + 1))) (o + (slot k + 8)) (enc 2 d.length))
    (o + (slot k + 10)) d) (o + slot k) (enc 8 (pos + 1))

theorem pushed_other (f : Nat → UInt8) (o k pos : Nat) (d : List UInt8) (hk : k < 32)
    (hd : d.length ≤ ENTRY) (a : Nat) (h1 : a < o ∨ o + 8 ≤ a)
    (h2 : a < o + slot k ∨ o + slot k + 8208 ≤ a) : pushed f o k pos d a = f a := by
  have hE := ENTRY_eq
  have hs := slot_in k hk
  unfold pushed
  rw [wr_other _ _ _ _ (by rw [enc_length]; omega), wr_other _ _ _ _ (by omega),
    wr_other _ _ _ _ (by rw [enc_length]; omega), wr_other _ _ _ _ (by rw [enc_length]; omega)]

theorem pushed_rd (f : Nat → UInt8) (o k pos : Nat) (d : List UInt8) (hk : k < 32)
    (hd : d.length ≤ ENTRY) (o' n : Nat) (h1 : o' + n ≤ o ∨ o + 8 ≤ o')
    (h2 : o' + n ≤ o + slot k ∨ o + slot k + 8208 ≤ o') :
    rd (pushed f o k pos d) o' n = rd f o' n :=
  rd_congr _ _ _ _ fun a _ _ => pushed_other f o k pos d hk hd a (by omega) (by omega)

theorem pushed_enq (f : Nat → UInt8) (o k pos : Nat) (d : List UInt8) (hk : k < 32) :
    dec (rd (pushed f o k pos d) o 8) = (pos + 1) % W := by
  have hs := slot_in k hk
  unfold pushed
  rw [rd_wr_other _ _ _ _ _ (by omega), rd_wr_other _ _ _ _ _ (by omega),
    rd_wr_other _ _ _ _ _ (by omega), rd_wr_same _ _ _ _ (by rw [enc_length]), dec_enc8]

theorem pushed_seq (f : Nat → UInt8) (o k pos : Nat) (d : List UInt8) :
    dec (rd (pushed f o k pos d) (o + slot k) 8) = (pos + 1) % W := by
  unfold pushed
  rw [rd_wr_same _ _ _ _ (by rw [enc_length]), dec_enc8]

theorem pushed_len (f : Nat → UInt8) (o k pos : Nat) (d : List UInt8) (hd : d.length ≤ ENTRY) :
    dec (rd (pushed f o k pos d) (o + (slot k + 8)) 2) = d.length := by
  unfold pushed
  rw [rd_wr_other _ _ _ _ _ (by rw [enc_length]; omega), rd_wr_other _ _ _ _ _ (by omega),
    rd_wr_same _ _ _ _ (by rw [enc_length]), dec_enc2 _ hd]

theorem pushed_data (f : Nat → UInt8) (o k pos : Nat) (d : List UInt8) :
    rd (pushed f o k pos d) (o + (slot k + 10)) d.length = d := by
  unfold pushed
  rw [rd_wr_other _ _ _ _ _ (by rw [enc_length]; omega), rd_wr_same _ _ _ _ rfl]

theorem and_at (b pos : Nat) : (pos % W) &&& (Queue.at 32 b).mask = pos % 32 := slot_of pos

theorem Chan.e_slot {f : Nat → UInt8} {o e d : Nat} {ms : List (List UInt8)}
    (c : Chan f o e d ms) (h : ms.length < 32) : dec (rd f (o + slot (e % 32)) 8) = e % W := by
  have := c.seq ms.length h
  rw [if_neg (by omega), nodeOff_slot, ← c.len] at this
  exact this

theorem Chan.e_slot_full {f : Nat → UInt8} {o e d : Nat} {ms : List (List UInt8)}
    (c : Chan f o e d ms) (h : ms.length = 32) :
    dec (rd f (o + slot (e % 32)) 8) = (d + 1) % W := by
  have := c.seq 0 (by omega)
  rw [if_pos (by omega), nodeOff_slot] at this
  have e1 : e % 32 = (d + 0) % 32 := by have := c.len; omega
  rw [e1]; exact this

theorem mod_add_one (e : Nat) : (e % W + 1) % W = (e + 1) % W := Nat.mod_add_mod e W 1

/-- `push` on a channel that has room. -/
theorem push_room {D : Devs} {m i o : Nat} (p : Place D m i o) (s : Store) {e d : Nat}
    {ms : List (List UInt8)} (c : Chan (s i) o e d ms) (vs : List (List UInt8))
    (hl : vs.flatten.length ≤ ENTRY) (h0 : vs.flatten ≠ []) (hr : ms.length < 32) :
    push D m (Queue.at 32 (D.va m i + o)) vs s =
      .ok (true, upd s i (pushed (s i) o (e % 32) (e % W) vs.flatten)) := by
  have hk : e % 32 < 32 := Nat.mod_lt _ (by omega)
  have hs := slot_in _ hk
  have hE := ENTRY_eq
  have h0' : vs.flatten.length ≠ 0 := fun h => h0 (List.length_eq_zero_iff.1 h)
  unfold push
  simp only [totalLen_eq]
  rw [if_neg (by omega), if_neg h0']
  have e1 : D.ld s m (Queue.at 32 (D.va m i + o)).enq 8 = some (rd (s i) o 8) :=
    p.ld s 0 8 (by omega) (by omega)
  rw [e1, acc_some, bind_ok, c.enq, and_at]
  show (if e % 32 < 32 then _ else _) = _
  rw [if_pos hk, at_node', p.ld s (slot (e % 32)) 8 (by omega) (by omega), acc_some, bind_ok,
    c.e_slot hr, diff_same, if_pos rfl]
  have e2 : ∀ bs : List UInt8, bs.length = 8 → D.st s m (Queue.at 32 (D.va m i + o)).enq bs =
      some (upd s i (wr (s i) o bs)) := fun bs hb => p.st s 0 bs (by omega) (by omega)
  rw [e2 _ (enc_length _ _), acc_some, bind_ok]
  have e3 : D.va m i + o + slot (e % 32) + 8 = D.va m i + o + (slot (e % 32) + 8) := by omega
  rw [e3, p.st _ _ _ (by omega) (by rw [enc_length]; omega), acc_some, bind_ok,
    copyIn_ok p _ hk vs 0 _ (by omega), bind_ok,
    p.st _ _ _ (by omega) (by rw [enc_length]; omega), acc_some, bind_ok, pure_ok]
  simp only [upd_same, upd_upd_same, Nat.add_zero]
  rfl

/-- `push` on a full channel. -/
theorem push_full {D : Devs} {m i o : Nat} (p : Place D m i o) (s : Store) {e d : Nat}
    {ms : List (List UInt8)} (c : Chan (s i) o e d ms) (vs : List (List UInt8))
    (hl : vs.flatten.length ≤ ENTRY) (h0 : vs.flatten ≠ []) (hr : ms.length = 32) :
    push D m (Queue.at 32 (D.va m i + o)) vs s = .ok (false, s) := by
  have hk : e % 32 < 32 := Nat.mod_lt _ (by omega)
  have hs := slot_in _ hk
  have hE := ENTRY_eq
  have h0' : vs.flatten.length ≠ 0 := fun h => h0 (List.length_eq_zero_iff.1 h)
  unfold push
  simp only [totalLen_eq]
  rw [if_neg (by omega), if_neg h0']
  have e1 : D.ld s m (Queue.at 32 (D.va m i + o)).enq 8 = some (rd (s i) o 8) :=
    p.ld s 0 8 (by omega) (by omega)
  rw [e1, acc_some, bind_ok, c.enq, and_at]
  show (if e % 32 < 32 then _ else _) = _
  have ee : e = d + 1 + 31 := by have := c.len; omega
  have hd : diff ((d + 1) % W) (e % W) = W - 31 := by
    rw [ee]; exact diff_sub (d + 1) 31 (by omega) (by unfold W; omega)
  have hn := isNeg_of 31 (by omega) (by omega)
  rw [if_pos hk, at_node', p.ld s (slot (e % 32)) 8 (by omega) (by omega), acc_some, bind_ok,
    c.e_slot_full hr, hd, if_neg hn.2, if_pos hn.1]
  rfl

theorem Chan.pushed {f : Nat → UInt8} {o e d : Nat} {ms : List (List UInt8)}
    (c : Chan f o e d ms) (v : List UInt8) (hl : v.length ≤ ENTRY) (h0 : v ≠ [])
    (hr : ms.length < 32) :
    Chan (pushed f o (e % 32) (e % W) v) o (e + 1) d (ms ++ [v]) := by
  have hk : e % 32 < 32 := Nat.mod_lt _ (by omega)
  have hs := slot_in _ hk
  have hE := ENTRY_eq
  have ee := c.len
  refine ⟨by simp only [List.length_append, List.length_singleton]; omega,
    by simp only [List.length_append, List.length_singleton]; omega, ?_, ?_, ?_, ?_⟩
  · rw [pushed_enq _ _ _ _ _ hk, mod_add_one]
  · rw [pushed_rd _ _ _ _ _ hk hl _ _ (by omega) (by omega)]; exact c.deq
  · intro j hj
    rw [nodeOff_slot]
    simp only [List.length_append, List.length_singleton]
    by_cases hjm : j = ms.length
    · rw [if_pos (by omega)]
      have e1 : (d + j) % 32 = e % 32 := by rw [hjm, ← ee]
      rw [e1, pushed_seq, mod_add_one, hjm, ← ee]
    · have hne : (d + j) % 32 ≠ e % 32 := by omega
      have ha := nodeOff_apart o _ _ hne
      have hj' := slot_in _ (slot_lt d j)
      rw [nodeOff_slot, nodeOff_slot] at ha
      rw [pushed_rd _ _ _ _ _ hk hl _ _ (by omega) (by omega), ← nodeOff_slot, c.seq j hj]
      by_cases h : j < ms.length
      · rw [if_pos h, if_pos (by omega)]
      · rw [if_neg h, if_neg (by omega)]
  · intro j hj
    simp only [List.length_append, List.length_singleton] at hj
    by_cases hjm : j = ms.length
    · subst hjm
      have e1 : (d + ms.length) % 32 = e % 32 := by rw [← ee]
      have hg : (ms ++ [v])[ms.length]'(by simp) = v := by simp
      rw [hg, e1, nodeOff_slot, Nat.add_assoc, Nat.add_assoc, pushed_len _ _ _ _ _ hl, pushed_data]
      refine ⟨?_, hl, rfl, rfl⟩
      exact List.length_pos_iff.2 h0
    · have hj2 : j < ms.length := by omega
      have hg : (ms ++ [v])[j]'(by simp; omega) = ms[j] := List.getElem_append_left hj2
      have hne : (d + j) % 32 ≠ e % 32 := by have := c.cap; omega
      have ha := nodeOff_apart o _ _ hne
      have hj' := slot_in _ (slot_lt d j)
      have hc := c.msg j hj2
      rw [hg, nodeOff_slot]
      rw [nodeOff_slot, nodeOff_slot] at ha
      rw [nodeOff_slot] at hc
      rw [pushed_rd _ _ _ _ _ hk hl _ _ (by omega) (by omega),
        pushed_rd _ _ _ _ _ hk hl _ _ (by omega) (by omega)]
      exact hc

/-- The memory after the message in slot `k` was taken. -/
def popped (f : Nat → UInt8) (o k pos : Nat) : Nat → UInt8 :=
  wr (wr f (o + 8) (enc 8 (pos + 1))) (o + slot k) (enc 8 (pos + 31 + 1))

theorem popped_other (f : Nat → UInt8) (o k pos : Nat) (hk : k < 32) (a : Nat)
    (h1 : a < o + 8 ∨ o + 16 ≤ a) (h2 : a < o + slot k ∨ o + slot k + 8 ≤ a) :
    popped f o k pos a = f a := by
  have hs := slot_in k hk
  unfold popped
  rw [wr_other _ _ _ _ (by rw [enc_length]; omega), wr_other _ _ _ _ (by rw [enc_length]; omega)]

theorem popped_rd (f : Nat → UInt8) (o k pos : Nat) (hk : k < 32) (o' n : Nat)
    (h1 : o' + n ≤ o + 8 ∨ o + 16 ≤ o') (h2 : o' + n ≤ o + slot k ∨ o + slot k + 8 ≤ o') :
    rd (popped f o k pos) o' n = rd f o' n :=
  rd_congr _ _ _ _ fun a _ _ => popped_other f o k pos hk a (by omega) (by omega)

theorem popped_deq (f : Nat → UInt8) (o k pos : Nat) (hk : k < 32) :
    dec (rd (popped f o k pos) (o + 8) 8) = (pos + 1) % W := by
  have hs := slot_in k hk
  unfold popped
  rw [rd_wr_other _ _ _ _ _ (by omega), rd_wr_same _ _ _ _ (by rw [enc_length]), dec_enc8]

theorem popped_seq (f : Nat → UInt8) (o k pos : Nat) :
    dec (rd (popped f o k pos) (o + slot k) 8) = (pos + 32) % W := by
  unfold popped
  rw [rd_wr_same _ _ _ _ (by rw [enc_length]), dec_enc8]

theorem and_at_deq (b pos : Nat) : (pos % W) &&& (Queue.at 32 b).mask = pos % 32 := slot_of pos

theorem diff_one (d : Nat) (x : Nat) : diff x (d % W + 1) = diff x ((d + 1) % W) := by
  rw [diff_mod, mod_add_one]

/-- `pop` with no room to receive into. -/
theorem pop_no_room (D : Devs) (m : Nat) (q : Queue) (s : Store) (bufs : List (List UInt8))
    (hb : bufs.flatten = []) : pop D m q bufs s = .ok (some (0, bufs), s) := by
  unfold pop
  rw [totalLen_eq, hb, List.length_nil, if_pos rfl]

/-- `pop` from an empty channel. -/
theorem pop_empty {D : Devs} {m i o : Nat} (p : Place D m i o) (s : Store) {e d : Nat}
    (c : Chan (s i) o e d []) (bufs : List (List UInt8)) (hb : bufs.flatten ≠ []) :
    pop D m (Queue.at 32 (D.va m i + o)) bufs s = .ok (none, s) := by
  have hk : d % 32 < 32 := Nat.mod_lt _ (by omega)
  have hs := slot_in _ hk
  have hb' : bufs.flatten.length ≠ 0 := fun h => hb (List.length_eq_zero_iff.1 h)
  unfold pop
  simp only [totalLen_eq]
  rw [if_neg hb']
  have e1 : D.ld s m (Queue.at 32 (D.va m i + o)).deq 8 = some (rd (s i) (o + 8) 8) :=
    p.ld s 8 8 (by unfold QSZ; omega) (by unfold QSZ; omega)
  rw [e1, acc_some, bind_ok, c.deq, and_at]
  show (if d % 32 < 32 then _ else _) = _
  have hseq := c.seq 0 (by omega)
  rw [nodeOff_slot] at hseq
  simp only [List.length_nil, Nat.lt_irrefl, if_false, Nat.add_zero] at hseq
  have hn := isNeg_of 1 (by omega) (by omega)
  rw [if_pos hk, at_node', p.ld s (slot (d % 32)) 8 (by omega) (by omega), acc_some, bind_ok,
    hseq, diff_one, diff_sub d 1 (by omega) (by unfold W; omega), if_neg hn.2, if_pos hn.1]
  rfl

/-- `pop` of the oldest message. -/
theorem pop_some {D : Devs} {m i o : Nat} (p : Place D m i o) (s : Store) {e d : Nat}
    {v : List UInt8} {ms : List (List UInt8)} (c : Chan (s i) o e d (v :: ms))
    (bufs : List (List UInt8)) (hb : bufs.flatten ≠ []) :
    pop D m (Queue.at 32 (D.va m i + o)) bufs s =
      if v.length > bufs.flatten.length then .panic
      else .ok (some (v.length, spread v bufs), upd s i (popped (s i) o (d % 32) (d % W))) := by
  have hk : d % 32 < 32 := Nat.mod_lt _ (by omega)
  have hs := slot_in _ hk
  have hE := ENTRY_eq
  have hb' : bufs.flatten.length ≠ 0 := fun h => hb (List.length_eq_zero_iff.1 h)
  have hmsg := c.msg 0 (by simp)
  rw [nodeOff_slot] at hmsg
  simp only [Nat.add_zero, List.getElem_cons_zero] at hmsg
  obtain ⟨_, hvl, hlen, hdata⟩ := hmsg
  have hseq := c.seq 0 (by omega)
  rw [nodeOff_slot] at hseq
  simp only [List.length_cons, Nat.zero_lt_succ, if_true, Nat.add_zero] at hseq
  unfold pop
  simp only [totalLen_eq]
  rw [if_neg hb']
  have e1 : D.ld s m (Queue.at 32 (D.va m i + o)).deq 8 = some (rd (s i) (o + 8) 8) :=
    p.ld s 8 8 (by unfold QSZ; omega) (by unfold QSZ; omega)
  rw [e1, acc_some, bind_ok, c.deq, and_at]
  show (if d % 32 < 32 then _ else _) = _
  rw [if_pos hk, at_node', p.ld s (slot (d % 32)) 8 (by omega) (by omega), acc_some, bind_ok,
    hseq, diff_one, diff_same, if_pos rfl]
  have e2 : ∀ bs : List UInt8, bs.length = 8 → D.st s m (Queue.at 32 (D.va m i + o)).deq bs =
      some (upd s i (wr (s i) (o + 8) bs)) := fun bs hb => p.st s 8 bs (by omega) (by omega)
  rw [e2 _ (enc_length _ _), acc_some, bind_ok]
  have e3 : D.va m i + o + slot (d % 32) + 8 = D.va m i + o + (slot (d % 32) + 8) := by omega
  have e4 : D.va m i + o + slot (d % 32) + 10 = D.va m i + o + (slot (d % 32) + 10) := by omega
  rw [e3, e4, p.ld _ _ _ (by omega) (by omega), acc_some, bind_ok,
    p.ld _ _ _ (by omega) (by omega), acc_some, bind_ok, upd_same]
  rw [rd_wr_other _ _ _ _ _ (by rw [enc_length]; omega),
    rd_wr_other _ _ _ _ _ (by rw [enc_length]; omega)]
  rw [Nat.add_assoc] at hlen hdata
  rw [hlen]
  by_cases hv : v.length > bufs.flatten.length
  · rw [if_pos hv]
    have : drain v.length (rd (s i) (o + (slot (d % 32) + 10)) ENTRY) bufs = .panic := by
      unfold drain
      simp only [totalLen_eq]
      rw [if_neg (by omega), if_pos hv]
    rw [this]
  · rw [if_neg hv, drain_eq _ _ _ (by rw [rd_length]; exact hvl) (by omega) (by omega)]
    have et : (rd (s i) (o + (slot (d % 32) + 10)) ENTRY).take v.length = v := by
      have : ENTRY = v.length + (ENTRY - v.length) := by omega
      rw [this, rd_append, List.take_left' (by rw [rd_length])]
      exact hdata
    simp only [et]
    rw [p.st _ _ _ (by omega) (by rw [enc_length]; omega), acc_some, bind_ok, pure_ok]
    simp only [upd_same, upd_upd_same]
    rfl

theorem Chan.popped {f : Nat → UInt8} {o e d : Nat} {v : List UInt8} {ms : List (List UInt8)}
    (c : Chan f o e d (v :: ms)) : Chan (popped f o (d % 32) (d % W)) o e (d + 1) ms := by
  have hk : d % 32 < 32 := Nat.mod_lt _ (by omega)
  have hs := slot_in _ hk
  have hE := ENTRY_eq
  have ee := c.len
  have hcap := c.cap
  simp only [List.length_cons] at ee hcap
  refine ⟨by omega, by omega, ?_, ?_, ?_, ?_⟩
  · rw [popped_rd _ _ _ _ hk _ _ (by omega) (by omega)]; exact c.enq
  · rw [popped_deq _ _ _ _ hk, mod_add_one]
  · intro j hj
    rw [nodeOff_slot]
    by_cases hj31 : j = 31
    · have e1 : (d + 1 + j) % 32 = d % 32 := by omega
      rw [e1, popped_seq, if_neg (by omega), Nat.mod_add_mod]
      congr 1
      omega
    · have hne : (d + 1 + j) % 32 ≠ d % 32 := by omega
      have ha := nodeOff_apart o _ _ hne
      have hj' := slot_in _ (slot_lt (d + 1) j)
      rw [nodeOff_slot, nodeOff_slot] at ha
      rw [popped_rd _ _ _ _ hk _ _ (by omega) (by omega), ← nodeOff_slot]
      have := c.seq (j + 1) (by omega)
      have e1 : d + (j + 1) = d + 1 + j := by omega
      rw [e1] at this
      rw [this]
      simp only [List.length_cons]
      by_cases h : j < ms.length
      · rw [if_pos h, if_pos (by omega)]
      · rw [if_neg h, if_neg (by omega)]
  · intro j hj
    have hne : (d + 1 + j) % 32 ≠ d % 32 := by omega
    have ha := nodeOff_apart o _ _ hne
    have hj' := slot_in _ (slot_lt (d + 1) j)
    have hc := c.msg (j + 1) (by simp only [List.length_cons]; omega)
    have e1 : d + (j + 1) = d + 1 + j := by omega
    rw [e1] at hc
    simp only [List.getElem_cons_succ] at hc
    rw [nodeOff_slot] at hc ⊢
    rw [nodeOff_slot, nodeOff_slot] at ha
    rw [popped_rd _ _ _ _ hk _ _ (by omega) (by omega),
      popped_rd _ _ _ _ hk _ _ (by omega) (by omega)]
    exact hc

/-! ## Setting up -/

theorem initNodes_ok {D : Devs} {m i o : Nat} (p : Place D m i o) (k : Nat) :
    ∀ (j : Nat) (s : Store), j + k ≤ 32 →
      ∃ f', initNodes D m (Queue.at 32 (D.va m i + o)) j k s = .ok (upd s i f') ∧
        (∀ x, j ≤ x → x < j + k → dec (rd f' (o + slot x) 8) = x % W) ∧
        (∀ a, a < o + slot j ∨ o + slot (j + k) ≤ a → f' a = s i a) := by
  have hE := ENTRY_eq
  induction k with
  | zero =>
    intro j s _
    refine ⟨s i, ?_, fun x h1 h2 => by omega, fun a _ => rfl⟩
    simp only [initNodes, upd_self]
  | succ k ih =>
    intro j s hj
    have hs := slot_in j (by omega)
    have hl : (enc 8 j ++ enc 2 0 ++ List.replicate ENTRY (0 : UInt8)).length = 8202 := by
      simp only [List.length_append, enc_length, List.length_replicate]; omega
    have hstep : slot (j + 1) = slot j + 8208 := by unfold slot NODE; omega
    have hlast : slot (j + (k + 1)) = slot (j + 1) + k * 8208 := by unfold slot NODE; omega
    obtain ⟨f', h1, h2, h3⟩ := ih (j + 1)
      (upd s i (wr (s i) (o + slot j) (enc 8 j ++ enc 2 0 ++ List.replicate ENTRY 0))) (by omega)
    refine ⟨f', ?_, ?_, ?_⟩
    · simp only [initNodes]
      rw [at_node', p.st _ _ _ (by omega) (by omega), acc_some, bind_ok, h1, upd_upd_same]
    · intro x hx1 hx2
      by_cases hx : x = j
      · subst hx
        rw [upd_same] at h3
        have : rd f' (o + slot x) 8 = enc 8 x := by
          have e1 : rd f' (o + slot x) 8 = rd (wr (s i) (o + slot x)
              (enc 8 x ++ enc 2 0 ++ List.replicate ENTRY 0)) (o + slot x) 8 :=
            rd_congr _ _ _ _ fun a _ _ => h3 a (by omega)
          rw [e1, List.append_assoc, ← wr_append, enc_length,
            rd_wr_other _ _ _ _ _ (by omega), rd_wr_same _ _ _ _ (by rw [enc_length])]
        rw [this, dec_enc8]
      · exact h2 x (by omega) (by omega)
    · intro a ha
      have e : j + 1 + k = j + (k + 1) := by omega
      rw [e] at h3
      rw [h3 a (by omega), upd_same, wr_other _ _ _ _ (by rw [hl]; omega)]

/-- Setting up a queue makes it empty, whatever the memory contained, and changes nothing else. -/
theorem init_ok {D : Devs} {m i o : Nat} (p : Place D m i o) (s : Store) :
    ∃ f', Queue.init D m true 32 (D.va m i + o) s =
        .ok (Queue.at 32 (D.va m i + o), upd s i f') ∧
      Chan f' o 0 0 [] ∧ ∀ a, a < o ∨ o + QSZ ≤ a → f' a = s i a := by
  obtain ⟨f', h1, h2, h3⟩ := initNodes_ok p 32 0 s (by omega)
  have s0 : slot 0 = 16 := by decide
  have s32 : slot (0 + 32) = QSZ := by rw [QSZ_eq]; decide
  have hQ := QSZ_eq
  refine ⟨wr (wr f' (o + 8) (enc 8 0)) o (enc 8 0), ?_, ?_, ?_⟩
  · unfold Queue.init
    simp only [if_true]
    rw [h1, bind_ok]
    have e1 : ∀ (t : Store) (bs : List UInt8), bs.length = 8 →
        D.st t m (Queue.at 32 (D.va m i + o)).deq bs = some (upd t i (wr (t i) (o + 8) bs)) :=
      fun t bs hb => p.st t 8 bs (by omega) (by omega)
    have e2 : ∀ (t : Store) (bs : List UInt8), bs.length = 8 →
        D.st t m (Queue.at 32 (D.va m i + o)).enq bs = some (upd t i (wr (t i) o bs)) :=
      fun t bs hb => p.st t 0 bs (by omega) (by omega)
    rw [e1 _ _ (enc_length _ _), acc_some, bind_ok, e2 _ _ (enc_length _ _), acc_some, bind_ok,
      pure_ok]
    simp only [upd_same, upd_upd_same]
  · refine ⟨rfl, by simp, ?_, ?_, ?_, fun j hj => absurd hj (by simp)⟩
    · rw [rd_wr_same _ _ _ _ (by rw [enc_length]), dec_enc8]
    · rw [rd_wr_other _ _ _ _ _ (by rw [enc_length]; omega),
        rd_wr_same _ _ _ _ (by rw [enc_length]), dec_enc8]
    · intro j hj
      have := slot_in j hj
      have e : (0 + j) % 32 = j := by omega
      rw [e, nodeOff_slot, rd_wr_other _ _ _ _ _ (by rw [enc_length]; omega),
        rd_wr_other _ _ _ _ _ (by rw [enc_length]; omega), h2 j (by omega) (by omega)]
      simp
  · intro a ha
    rw [wr_other _ _ _ _ (by rw [enc_length]; omega), wr_other _ _ _ _ (by rw [enc_length]; omega),
      h3 a (by omega)]

end NRK.Rack.Shm
