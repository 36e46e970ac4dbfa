import Verif.Rack.ShmModel
import Verif.Rpc.Props
import Verif.Sync.MpmcProps

/-!
# Lemmas about memory, addresses and one queue in raw memory
-/

namespace NRK.Rack.Shm

open NRK.Rpc (ENTRY ENTRY_eq totalLen drain totalLen_eq spread drain_eq)

/-! ## Bytes -/

theorem rd_length (f : Nat → UInt8) (o n : Nat) : (rd f o n).length = n := by simp [rd]

theorem rd_congr (f g : Nat → UInt8) (o n : Nat) (h : ∀ a, o ≤ a → a < o + n → f a = g a) :
    rd f o n = rd g o n := by
  unfold rd
  apply List.map_congr_left
  intro i hi
  rw [List.mem_range] at hi
  exact h _ (by omega) (by omega)

theorem wr_other (f : Nat → UInt8) (o : Nat) (bs : List UInt8) (a : Nat)
    (h : a < o ∨ o + bs.length ≤ a) : wr f o bs a = f a := by
  unfold wr
  rw [if_neg (by omega)]

theorem rd_wr_same (f : Nat → UInt8) (o : Nat) (bs : List UInt8) (n : Nat) (h : n = bs.length) :
    rd (wr f o bs) o n = bs := by
  apply List.ext_getElem
  · rw [rd_length, h]
  · intro i h1 h2
    simp only [rd, List.getElem_map, List.getElem_range, wr]
    rw [if_pos (by omega)]
    simp only [Nat.add_sub_cancel_left]
    rw [List.getD_eq_getElem?_getD, List.getElem?_eq_getElem h2]
    rfl

theorem rd_wr_other (f : Nat → UInt8) (o : Nat) (bs : List UInt8) (o' n : Nat)
    (h : o' + n ≤ o ∨ o + bs.length ≤ o') : rd (wr f o bs) o' n = rd f o' n :=
  rd_congr _ _ _ _ fun a h1 h2 => wr_other _ _ _ _ (by omega)

theorem wr_append (f : Nat → UInt8) (o : Nat) (a b : List UInt8) :
    wr (wr f o a) (o + a.length) b = wr f o (a ++ b) := by
  funext x
  unfold wr
  simp only [List.length_append, List.getD_eq_getElem?_getD]
  by_cases h1 : o + a.length ≤ x ∧ x < o + a.length + b.length
  · rw [if_pos h1, if_pos (by omega), List.getElem?_append_right (by omega)]
    congr 2
    omega
  · rw [if_neg h1]
    by_cases h2 : o ≤ x ∧ x < o + a.length
    · rw [if_pos h2, if_pos (by omega), List.getElem?_append_left (by omega)]
    · rw [if_neg h2, if_neg (by omega)]

theorem rd_append (f : Nat → UInt8) (o a b : Nat) : rd f o (a + b) = rd f o a ++ rd f (o + a) b := by
  unfold rd
  rw [List.range_add, List.map_append, List.map_map]
  congr 1
  apply List.map_congr_left
  intro i _
  simp [Nat.add_assoc]

theorem enc_length (k : Nat) : ∀ n, (enc k n).length = k := by
  induction k with
  | zero => intro n; rfl
  | succ k ih => intro n; simp [enc, ih]

theorem dec_enc (k : Nat) : ∀ n, dec (enc k n) = n % 256 ^ k := by
  induction k with
  | zero => intro n; simp [enc, dec, Nat.mod_one]
  | succ k ih =>
    intro n
    simp only [enc, dec, ih]
    have e : 256 ^ (k + 1) = 256 * 256 ^ k := by rw [Nat.pow_succ, Nat.mul_comm]
    rw [e, Nat.mod_mul, UInt8.toNat_ofNat']
    congr 1
    exact Nat.mod_mod n 256

theorem W_eq : W = 256 ^ 8 := by unfold W; rfl

theorem dec_enc8 (n : Nat) : dec (enc 8 n) = n % W := by rw [dec_enc, W_eq]

theorem dec_enc2 (n : Nat) (h : n ≤ ENTRY) : dec (enc 2 n) = n := by
  rw [dec_enc, Nat.mod_eq_of_lt]
  rw [ENTRY_eq] at h
  omega

/-! ## Positions -/

theorem W_mul : W = 32 * 0x800000000000000 := by unfold W; rfl

theorem W_half : W / 2 = 0x8000000000000000 := by unfold W; rfl

/-- Position and mask give the slot, also after the position wrapped. -/
theorem slot_of (e : Nat) : (e % W) &&& 31 = e % 32 := by
  have : (e % W) &&& 31 = (e % W) % 32 := by
    have := Nat.and_two_pow_sub_one_eq_mod (e % W) 5
    exact this
  rw [this, W_mul, Nat.mod_mul_right_mod]

theorem diff_add (a c : Nat) (hc : c < W) : diff ((a + c) % W) (a % W) = c := by
  unfold diff
  have hW : 0 < W := by omega
  rw [Nat.mod_mod]
  have h1 : a % W < W := Nat.mod_lt _ hW
  have e : a + c = a % W + c + W * (a / W) := by
    have := Nat.mod_add_div a W; omega
  rw [e, Nat.add_mul_mod_self_left]
  by_cases h : a % W + c < W
  · rw [Nat.mod_eq_of_lt h]
    have : a % W + c + W - a % W = c + W := by omega
    rw [this, Nat.add_mod_right, Nat.mod_eq_of_lt hc]
  · have h2 : (a % W + c) % W = a % W + c - W := by
      rw [Nat.mod_eq_sub_mod (by omega), Nat.mod_eq_of_lt (by omega)]
    rw [h2]
    have : a % W + c - W + W - a % W = c := by omega
    rw [this, Nat.mod_eq_of_lt hc]

theorem diff_mod (a b : Nat) : diff a b = diff a (b % W) := by
  unfold diff; rw [Nat.mod_mod]

theorem diff_same (a : Nat) : diff (a % W) (a % W) = 0 := by
  have := diff_add a 0 (by unfold W; decide)
  simpa using this

theorem diff_sub (a c : Nat) (h0 : 0 < c) (hc : c ≤ W) : diff (a % W) ((a + c) % W) = W - c := by
  have hW : 0 < W := by omega
  have := diff_add (a + c) (W - c) (by omega)
  have e : a + c + (W - c) = a + W := by omega
  rw [e, Nat.add_mod_right] at this
  exact this

theorem isNeg_of (c : Nat) (h0 : 0 < c) (hc : c ≤ 32) : isNeg (W - c) ∧ W - c ≠ 0 := by
  unfold isNeg
  rw [W_half]
  have : W = 0x10000000000000000 := by unfold W; rfl
  omega

/-! ## Addresses -/

/-- What the devices of a rack must be like: the views of one device have the same size, the
devices do not overlap on any machine, and every client's has room for its channels. -/
structure Devs.Ok (D : Devs) : Prop where
  same : ∀ m i, m < D.n → i < D.n → (D.view m i).size = (D.view 0 i).size
  apart : ∀ m i j, m < D.n → i < D.n → j < D.n → i ≠ j →
    (D.view m i).base + (D.view m i).size ≤ (D.view m j).base ∨
      (D.view m j).base + (D.view m j).size ≤ (D.view m i).base
  room : ∀ i, 0 < i → i < D.n → TRANSPORT ≤ (D.view 0 i).size

/-- Kernel virtual address of offset 0 of device `i` on machine `m`. -/
def Devs.va (D : Devs) (m i : Nat) : Nat := (D.view m i).base + KBASE

theorem translate_ok {D : Devs} (h : D.Ok) {m i o : Nat} (hm : m < D.n) (hi : i < D.n)
    (ho : o < (D.view m i).size) : D.translate m (D.va m i + o) = some (i, o) := by
  have hf : D.hit m (D.va m i + o) i = some (i, o) := by
    unfold Devs.hit Devs.va
    rw [if_pos (by omega), Nat.add_sub_cancel_left]
  unfold Devs.translate
  cases hc : (List.range D.n).findSome? (D.hit m (D.va m i + o)) with
  | none =>
    rw [List.findSome?_eq_none_iff] at hc
    have := hc i (List.mem_range.2 hi)
    rw [hf] at this
    cases this
  | some x =>
    obtain ⟨j, hj, hx⟩ := List.exists_of_findSome?_eq_some hc
    rw [List.mem_range] at hj
    by_cases hij : j = i
    · subst hij
      rw [hf] at hx
      rw [← hx]
    · exfalso
      unfold Devs.hit at hx
      split at hx
      · rename_i hb
        have := h.apart m i j hm hi hj (fun e => hij e.symm)
        unfold Devs.va at hb
        omega
      · cases hx

theorem ld_ok {D : Devs} (h : D.Ok) (s : Store) {m i o k : Nat} (hm : m < D.n) (hi : i < D.n)
    (ho : o < (D.view m i).size) (hk : o + k ≤ (D.view m i).size) :
    D.ld s m (D.va m i + o) k = some (rd (s i) o k) := by
  unfold Devs.ld
  rw [translate_ok h hm hi ho]
  simp only
  rw [if_pos hk]

theorem st_ok {D : Devs} (h : D.Ok) (s : Store) {m i o : Nat} (bs : List UInt8) (hm : m < D.n)
    (hi : i < D.n) (ho : o < (D.view m i).size) (hk : o + bs.length ≤ (D.view m i).size) :
    D.st s m (D.va m i + o) bs = some (upd s i (wr (s i) o bs)) := by
  unfold Devs.st
  rw [translate_ok h hm hi ho]
  simp only
  rw [if_pos hk]

/-! ## A queue in memory -/

/-- Bytes of a queue of 32 slots. -/
@[irreducible] def QSZ : Nat := 262672

theorem QSZ_eq : QSZ = 262672 := by unfold QSZ; rfl

/-- Offset of slot `i` of the queue at `o`. -/
def nodeOff (o i : Nat) : Nat := o + 16 + i * NODE

/-- The memory `f` contains, at offset `o`, a queue whose positions are `e` and `d` (ghost,
unbounded) with the messages `ms`. -/
structure Chan (f : Nat → UInt8) (o e d : Nat) (ms : List (List UInt8)) : Prop where
  len : e = d + ms.length
  cap : ms.length ≤ 32
  enq : dec (rd f o 8) = e % W
  deq : dec (rd f (o + 8) 8) = d % W
  seq : ∀ j, j < 32 → dec (rd f (nodeOff o ((d + j) % 32)) 8) =
    (if j < ms.length then d + j + 1 else d + j) % W
  msg : ∀ (j : Nat) (hj : j < ms.length), 0 < ms[j].length ∧ ms[j].length ≤ ENTRY ∧
    dec (rd f (nodeOff o ((d + j) % 32) + 8) 2) = ms[j].length ∧
    rd f (nodeOff o ((d + j) % 32) + 10) ms[j].length = ms[j]

theorem nodeOff_in (o i : Nat) (h : i < 32) :
    o + 16 ≤ nodeOff o i ∧ nodeOff o i + 8208 ≤ o + QSZ := by
  unfold nodeOff NODE QSZ
  omega

theorem nodeOff_apart (o i j : Nat) (h : i ≠ j) :
    nodeOff o i + 8208 ≤ nodeOff o j ∨ nodeOff o j + 8208 ≤ nodeOff o i := by
  unfold nodeOff NODE
  omega

theorem slot_lt (d j : Nat) : (d + j) % 32 < 32 := Nat.mod_lt _ (by omega)

theorem slot_ne (d i j : Nat) (hi : i < 32) (hj : j < 32) (h : i ≠ j) :
    (d + i) % 32 ≠ (d + j) % 32 := by omega

/-- A queue depends only on its own bytes. -/
theorem Chan.congr {f g : Nat → UInt8} {o e d : Nat} {ms : List (List UInt8)}
    (h : Chan f o e d ms) (hfg : ∀ a, o ≤ a → a < o + QSZ → g a = f a) : Chan g o e d ms := by
  have key : ∀ o' n, o ≤ o' → o' + n ≤ o + QSZ → rd g o' n = rd f o' n := fun o' n h1 h2 =>
    rd_congr _ _ _ _ fun a ha hb => hfg a (by omega) (by omega)
  have hQ := QSZ_eq
  have hE := ENTRY_eq
  refine ⟨h.len, h.cap, ?_, ?_, ?_, ?_⟩
  · rw [key _ _ (by omega) (by omega)]; exact h.enq
  · rw [key _ _ (by omega) (by omega)]; exact h.deq
  · intro j hj
    have : (d + j) % 32 < 32 := Nat.mod_lt _ (by omega)
    rw [key _ _ (by unfold nodeOff NODE; omega) (by unfold nodeOff NODE; omega)]; exact h.seq j hj
  · intro j hj
    have : (d + j) % 32 < 32 := Nat.mod_lt _ (by omega)
    have hm := h.msg j hj
    rw [key _ _ (by unfold nodeOff NODE; omega) (by unfold nodeOff NODE; omega),
      key _ _ (by unfold nodeOff NODE; omega) (by unfold nodeOff NODE; omega)]
    exact hm

end NRK.Rack.Shm
