import Verif.Nic.Spec
import Verif.Nic.BitModel
/-!
# Lemmas about the fields of the descriptors
-/

namespace NRK.Nic

theorem num_testBit (bs : List Nat) (h : IsBytes bs) (i : Nat) :
    (num bs).testBit i = ((bs[i / 8]?).getD 0).testBit (i % 8) := by
  induction bs generalizing i with
  | nil => simp [num]
  | cons b bs ih =>
    have hb : b < 2 ^ 8 := h b (by simp)
    have ih := fun i => ih (fun x hx => h x (by simp [hx])) i
    have e : num (b :: bs) = 2 ^ 8 * num bs + b := by simp only [num]; omega
    rw [e, Nat.testBit_two_pow_mul_add _ hb]
    by_cases hi : i < 8
    · have h1 : i / 8 = 0 := by omega
      have h2 : i % 8 = i := by omega
      simp [hi, h1, h2]
    · have h1 : i / 8 = (i - 8) / 8 + 1 := by omega
      have h2 : i % 8 = (i - 8) % 8 := by omega
      simp only [hi, if_false]
      rw [ih, h1, h2]
      simp

theorem and_mask (b k : Nat) : (b &&& 1 <<< k == 1 <<< k) = b.testBit k := by
  rw [Nat.one_shiftLeft, Bool.eq_iff_iff, beq_iff_eq]
  constructor
  · intro h
    have := congrArg (fun n => Nat.testBit n k) h
    simpa [Nat.testBit_and, Nat.testBit_two_pow] using this
  · intro h
    apply Nat.eq_of_testBit_eq
    intro j
    rw [Nat.testBit_and, Nat.testBit_two_pow]
    by_cases e : k = j
    · subst e; simp [h]
    · simp [e]

theorem getBit_eq (bs : List Nat) (h : IsBytes bs) (i : Nat) (hi : i < 8 * bs.length) :
    getBit bs i = some ((num bs).testBit i) := by
  have hl : i / 8 < bs.length := by omega
  simp only [getBit, List.getElem?_eq_getElem hl]
  rw [and_mask, num_testBit bs h, List.getElem?_eq_getElem hl]
  rfl

theorem setBit_eq (bs : List Nat) (h : IsBytes bs) (i : Nat) (hi : i < 8 * bs.length) (v : Bool) :
    ∃ bs', setBit bs i v = some bs' ∧ bs'.length = bs.length ∧ IsBytes bs' ∧
      ∀ j, (num bs').testBit j = if j = i then v else (num bs).testBit j := by
  have hl : i / 8 < bs.length := by omega
  simp only [setBit, List.getElem?_eq_getElem hl, Option.some.injEq]
  have hb : bs[i / 8] < 2 ^ 8 := h _ (List.getElem_mem hl)
  have hk : i % 8 < 8 := by omega
  have hm : 1 <<< (i % 8) < 2 ^ 8 := by
    rw [Nat.one_shiftLeft]; exact Nat.pow_lt_pow_right (by omega) hk
  have h255 : (255 : Nat) = 2 ^ 8 - 1 := rfl
  have hn : (if v then bs[i / 8] ||| 1 <<< (i % 8) else bs[i / 8] &&& (255 ^^^ 1 <<< (i % 8))) < 256 := by
    cases v
    · exact Nat.lt_of_le_of_lt Nat.and_le_left hb
    · exact Nat.or_lt_two_pow hb hm
  have hbytes : IsBytes (bs.set (i / 8) (if v then bs[i / 8] ||| 1 <<< (i % 8) else bs[i / 8] &&& (255 ^^^ 1 <<< (i % 8)))) := by
    intro x hx
    rcases List.mem_or_eq_of_mem_set hx with hx | hx
    · exact h x hx
    · rw [hx]; exact hn
  refine ⟨_, rfl, by simp, hbytes, ?_⟩
  intro j
  rw [num_testBit _ hbytes, num_testBit _ h]
  by_cases hq : j / 8 = i / 8
  · rw [hq, List.getElem?_set_self hl, List.getElem?_eq_getElem hl]
    simp only [Option.getD_some]
    have h8 : j % 8 < 8 := by omega
    by_cases e : j = i
    · subst e
      cases v
      · simp only [Bool.false_eq_true, if_false, if_true]
        rw [Nat.testBit_and, Nat.testBit_xor, h255, Nat.testBit_two_pow_sub_one, Nat.one_shiftLeft, Nat.testBit_two_pow_self]
        simp [h8]
      · simp only [if_true]
        rw [Nat.testBit_or, Nat.one_shiftLeft, Nat.testBit_two_pow_self, Bool.or_true]
    · have hne : i % 8 ≠ j % 8 := by omega
      simp only [e, if_false]
      cases v
      · simp only [Bool.false_eq_true, if_false]
        rw [Nat.testBit_and, Nat.testBit_xor, h255, Nat.testBit_two_pow_sub_one, Nat.one_shiftLeft, Nat.testBit_two_pow]
        simp [h8, hne]
      · simp only [if_true]
        rw [Nat.testBit_or, Nat.one_shiftLeft, Nat.testBit_two_pow]
        simp [hne]
  · have e : j ≠ i := fun e => hq (by rw [e])
    simp only [e, if_false]
    rw [List.getElem?_set_ne (fun h => hq h.symm)]

theorem getLoop_eq (bs : List Nat) (h : IsBytes bs) (o : Nat) : ∀ n, o + n ≤ 8 * bs.length →
    getLoop bs o n = some (num bs / 2 ^ o % 2 ^ n)
  | 0, _ => by simp [getLoop, Nat.mod_one]
  | n + 1, hn => by
    rw [getLoop, getLoop_eq bs h o n (by omega), getBit_eq bs h _ (by omega)]
    simp only [Option.bind_some, Option.map_some, Option.some.injEq]
    apply Nat.eq_of_testBit_eq
    intro j
    rw [apply_ite (fun x => Nat.testBit x j), Nat.testBit_or, Nat.one_shiftLeft, Nat.testBit_two_pow, Nat.testBit_mod_two_pow,
      Nat.testBit_mod_two_pow, Nat.testBit_div_two_pow]
    by_cases e : n = j
    · subst e
      have : n + o = o + n := Nat.add_comm _ _
      by_cases hb : (num bs).testBit (n + o)
      · simp [hb]
      · simp [hb]
    · by_cases hj : j < n
      · have : j < n + 1 := by omega
        simp [hj, this, e]
      · have : ¬ j < n + 1 := by omega
        simp [hj, this, e]

theorem setLoop_eq (bs : List Nat) (h : IsBytes bs) (o v : Nat) : ∀ n, o + n ≤ 8 * bs.length →
    ∃ bs', setLoop bs o v n = some bs' ∧ bs'.length = bs.length ∧ IsBytes bs' ∧
      ∀ j, (num bs').testBit j = if o ≤ j ∧ j < o + n then v.testBit (j - o) else (num bs).testBit j
  | 0, _ => ⟨bs, rfl, rfl, h, fun j => by
      have : ¬ (o ≤ j ∧ j < o + 0) := by omega
      simp only [this, if_false]⟩
  | n + 1, hn => by
    obtain ⟨b1, e1, l1, i1, t1⟩ := setLoop_eq bs h o v n (by omega)
    obtain ⟨b2, e2, l2, i2, t2⟩ := setBit_eq b1 i1 (n + o) (by omega) (v &&& (1 <<< n) == 1 <<< n)
    refine ⟨b2, ?_, by omega, i2, ?_⟩
    · rw [setLoop, e1]; exact e2
    · intro j
      rw [t2, t1, and_mask]
      by_cases e : j = n + o
      · subst e
        have h1 : o ≤ n + o ∧ n + o < o + (n + 1) := by omega
        have h2 : n + o - o = n := by omega
        simp only [h1, and_self, if_true, h2]
      · by_cases hj : o ≤ j ∧ j < o + n
        · have h1 : o ≤ j ∧ j < o + (n + 1) := by omega
          rw [if_neg e, if_pos hj, if_pos h1]
        · have h1 : ¬ (o ≤ j ∧ j < o + (n + 1)) := by omega
          rw [if_neg e, if_neg hj, if_neg h1]

theorem get_eq (bs : List Nat) (h : IsBytes bs) (o w : Nat) (hw : 1 ≤ w) (hw' : w ≤ 64) (hn : o + w ≤ 8 * bs.length) :
    get bs o w = some (field bs o w) := by
  have h1 : o / 8 < bs.length := by omega
  have h2 : (o + w) / 8 ≤ bs.length := by omega
  simp only [get, hw', h1, h2, and_self, if_true]
  exact getLoop_eq bs h o w hn

theorem set_eq (bs : List Nat) (h : IsBytes bs) (o w v : Nat) (hw : 1 ≤ w) (hw' : w ≤ 64) (hn : o + w ≤ 8 * bs.length) :
    ∃ bs', set bs o w v = some bs' ∧ bs'.length = bs.length ∧ IsBytes bs' ∧ field bs' o w = v % 2 ^ w ∧
      ∀ o' w', Apart o w o' w' → field bs' o' w' = field bs o' w' := by
  have h1 : o / 8 < bs.length := by omega
  have h2 : (o + w) / 8 ≤ bs.length := by omega
  simp only [set, hw', h1, h2, and_self, if_true]
  obtain ⟨b1, e1, l1, i1, t1⟩ := setLoop_eq bs h o v w hn
  refine ⟨b1, e1, l1, i1, ?_, ?_⟩
  · apply Nat.eq_of_testBit_eq
    intro j
    simp only [field]
    rw [Nat.testBit_mod_two_pow, Nat.testBit_div_two_pow, Nat.testBit_mod_two_pow, t1]
    by_cases hj : j < w
    · have h3 : o ≤ j + o ∧ j + o < o + w := by omega
      have h4 : j + o - o = j := by omega
      rw [if_pos h3, h4]
    · simp [hj]
  · intro o' w' ha
    apply Nat.eq_of_testBit_eq
    intro j
    simp only [field]
    rw [Nat.testBit_mod_two_pow, Nat.testBit_div_two_pow, Nat.testBit_mod_two_pow, Nat.testBit_div_two_pow, t1]
    by_cases hj : j < w'
    · have h3 : ¬ (o ≤ j + o' ∧ j + o' < o + w) := by rcases ha with ha | ha <;> omega
      rw [if_neg h3]
    · simp [hj]

theorem num_zeros (n : Nat) : num (List.replicate n 0) = 0 := by
  induction n with
  | zero => rfl
  | succ n ih => simp [List.replicate_succ, num, ih]

theorem fields_ok (d : Desc) : ∀ f ∈ d.fields, 1 ≤ f.2 ∧ f.2 ≤ 32 ∧ f.1 + f.2 ≤ 8 * d.size := by
  cases d <;> decide

/-- Every field ends before the next begins. -/
theorem fields_sorted (d : Desc) : d.fields.Pairwise (fun f g => f.1 + f.2 ≤ g.1) := by
  cases d <;> decide

theorem fields_apart (d : Desc) (i j : Nat) (hne : i ≠ j) (f g : Nat × Nat) (hf : d.fields[i]? = some f)
    (hg : d.fields[j]? = some g) : Apart f.1 f.2 g.1 g.2 := by
  have hp := List.pairwise_iff_getElem.mp (fields_sorted d)
  obtain ⟨hi, ei⟩ := List.getElem?_eq_some_iff.mp hf
  obtain ⟨hj, ej⟩ := List.getElem?_eq_some_iff.mp hg
  rcases Nat.lt_or_ge i j with h | h
  · have := hp i j hi hj h
    rw [ei, ej] at this
    exact Or.inl this
  · have := hp j i hj hi (by omega)
    rw [ei, ej] at this
    exact Or.inr this

/-- Settings of fields that end before the next begins. -/
theorem newLoop_eq : ∀ (fs : List (Nat × Nat)) (vs bs : List Nat), IsBytes bs → fs.length = vs.length →
    (∀ f ∈ fs, 1 ≤ f.2 ∧ f.2 ≤ 32 ∧ f.1 + f.2 ≤ 8 * bs.length) → fs.Pairwise (fun f g => f.1 + f.2 ≤ g.1) →
    ∃ bs', newLoop fs vs bs = some bs' ∧ bs'.length = bs.length ∧ IsBytes bs' ∧
      (∀ (i : Nat) f v, fs[i]? = some f → vs[i]? = some v → field bs' f.1 f.2 = v % 2 ^ f.2) ∧
      ∀ o w, (∀ f ∈ fs, Apart f.1 f.2 o w) → field bs' o w = field bs o w
  | [], [], bs, h, _, _, _ => ⟨bs, rfl, rfl, h, (fun i f v hf => by simp at hf), fun _ _ _ => rfl⟩
  | [], _ :: _, _, _, hl, _, _ => by simp at hl
  | _ :: _, [], _, _, hl, _, _ => by simp at hl
  | f :: fs, v :: vs, bs, h, hl, hok, hs => by
    obtain ⟨h1, h2, h3⟩ := hok f (by simp)
    obtain ⟨b1, e1, l1, i1, t1, r1⟩ := set_eq bs h f.1 f.2 v h1 (by omega) h3
    have hs' := List.pairwise_cons.mp hs
    obtain ⟨b2, e2, l2, i2, t2, r2⟩ := newLoop_eq fs vs b1 i1 (by simpa using hl)
      (fun g hg => by have := hok g (by simp [hg]); rw [l1]; exact this) hs'.2
    refine ⟨b2, ?_, by omega, i2, ?_, ?_⟩
    · rw [newLoop, e1]; exact e2
    · intro i g w hg hw
      cases i with
      | zero =>
        simp only [List.getElem?_cons_zero, Option.some.injEq] at hg hw
        subst hg; subst hw
        rw [r2 _ _ (fun g hg => Or.inr (hs'.1 g hg)), t1]
      | succ i =>
        simp only [List.getElem?_cons_succ] at hg hw
        exact t2 i g w hg hw
    · intro o w ha
      rw [r2 o w (fun g hg => ha g (by simp [hg])), r1 o w (ha f (by simp))]

end NRK.Nic
