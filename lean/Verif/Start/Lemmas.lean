import Verif.Start.Model

/-! # Lemmas for C91 -/

namespace NRK.Start

/-! ## Numbers -/

theorem be_length (k n : Nat) : (be k n).length = k := by
  induction k generalizing n with
  | zero => rfl
  | succ k ih => simp [be, ih]

theorem ofBe_append (l : List UInt8) (b : UInt8) : ofBe (l ++ [b]) = ofBe l * 256 + b.toNat := by
  simp [ofBe]

theorem ofBe_be (k n : Nat) (h : n < 256 ^ k) : ofBe (be k n) = n := by
  induction k generalizing n with
  | zero => simp at h; subst h; rfl
  | succ k ih =>
    have h1 : n / 256 < 256 ^ k := by
      rw [Nat.pow_succ] at h
      exact (Nat.div_lt_iff_lt_mul (by decide)).mpr h
    rw [be, ofBe_append, ih _ h1]
    have : (UInt8.ofNat (n % 256)).toNat = n % 256 := by
      rw [UInt8.toNat_ofNat']; omega
    rw [this]; omega

/-! ## CBOR -/

/-- The size of the head of an item with number `n`. -/
def headLen (n : Nat) : Nat :=
  if n < 24 then 1 else if n < 2 ^ 8 then 2 else if n < 2 ^ 16 then 3 else if n < 2 ^ 32 then 5 else 9

theorem encHead_length (m n : Nat) : (encHead m n).length = headLen n := by
  unfold encHead headLen
  split
  · rfl
  · split
    · simp [be_length]
    · split
      · simp [be_length]
      · split
        · simp [be_length]
        · simp [be_length]

theorem takeBe_be (m k n : Nat) (r : List UInt8) (h : n < 256 ^ k) :
    takeBe m k (be k n ++ r) = some (m, n, r) := by
  unfold takeBe
  have hl := be_length k n
  rw [if_neg (by rw [List.length_append, hl]; omega)]
  have h1 : (be k n ++ r).take k = be k n := by
    rw [List.take_append_of_le_length (by omega), List.take_of_length_le (by omega)]
  have h2 : (be k n ++ r).drop k = r := by
    rw [List.drop_append_of_le_length (by omega), List.drop_of_length_le (by omega), List.nil_append]
  rw [h1, h2, ofBe_be k n h]

theorem byte (m x : Nat) (hm : m < 8) (hx : x < 32) :
    (UInt8.ofNat (m * 32 + x)).toNat / 32 = m ∧ (UInt8.ofNat (m * 32 + x)).toNat % 32 = x := by
  have : (UInt8.ofNat (m * 32 + x)).toNat = m * 32 + x := by
    rw [UInt8.toNat_ofNat']; omega
  rw [this]; omega

theorem decHead_encHead (m n : Nat) (r : List UInt8) (hm : m < 8) (hn : n < 2 ^ 64) :
    decHead (encHead m n ++ r) = some (m, n, r) := by
  unfold encHead
  by_cases h1 : n < 24
  · obtain ⟨a, b⟩ := byte m n hm (by omega)
    simp only [h1, if_true, List.cons_append, List.nil_append, decHead, a, b]
  · by_cases h2 : n < 2 ^ 8
    · obtain ⟨a, b⟩ := byte m 24 hm (by omega)
      simp only [h1, h2, if_true, if_false, List.cons_append, decHead, a, b]
      exact takeBe_be m 1 n r h2
    · by_cases h3 : n < 2 ^ 16
      · obtain ⟨a, b⟩ := byte m 25 hm (by omega)
        simp only [h1, h2, h3, if_true, if_false, List.cons_append, decHead, a, b]
        exact takeBe_be m 2 n r (by simpa using h3)
      · by_cases h4 : n < 2 ^ 32
        · obtain ⟨a, b⟩ := byte m 26 hm (by omega)
          simp only [h1, h2, h3, h4, if_true, if_false, List.cons_append, decHead, a, b]
          exact takeBe_be m 4 n r (by simpa using h4)
        · obtain ⟨a, b⟩ := byte m 27 hm (by omega)
          simp only [h1, h2, h3, h4, if_false, if_true, List.cons_append, decHead, a, b]
          exact takeBe_be m 8 n r (by simpa using hn)

theorem decNum_enc (n : Nat) (r : List UInt8) (hn : n < 2 ^ 64) : decNum (encNum n ++ r) = some (n, r) := by
  simp [decNum, encNum, decHead_encHead 0 n r (by omega) hn]

theorem decText_enc (s r : List UInt8) (hn : s.length < 2 ^ 64) : decText (encText s ++ r) = some (s, r) := by
  unfold decText encText
  rw [List.append_assoc, decHead_encHead 3 s.length (s ++ r) (by omega) hn]
  simp only [List.length_append]
  rw [if_neg (by omega)]
  simp

theorem decBool_enc (b : Bool) (r : List UInt8) : decBool (encBool b ++ r) = some (b, r) := by
  cases b <;> simp [decBool, encBool]

/-- `j` with the field taken from `i`. -/
def Field.copy (i : Info) (j : Info) : Field → Info
  | .pid => { j with pid := i.pid }
  | .hasTls => { j with hasTls := i.hasTls }
  | .tlsData => { j with tlsData := i.tlsData }
  | .tlsDataLen => { j with tlsDataLen := i.tlsDataLen }
  | .tlsLenTotal => { j with tlsLenTotal := i.tlsLenTotal }
  | .alignment => { j with alignment := i.alignment }
  | .cmdline => { j with cmdline := i.cmdline }
  | .appCmdline => { j with appCmdline := i.appCmdline }

theorem field_dec (i j : Info) (hi : i.Ok) (f : Field) (r : List UInt8) :
    f.dec j (f.enc i ++ r) = some (f.copy i j, r) := by
  cases f <;> simp only [Field.dec, Field.enc, Field.copy]
  · rw [decNum_enc _ _ hi.pid]; rfl
  · rw [decBool_enc]; rfl
  · rw [decNum_enc _ _ hi.data]; rfl
  · rw [decNum_enc _ _ hi.len]; rfl
  · rw [decNum_enc _ _ hi.total]; rfl
  · rw [decNum_enc _ _ hi.align]; rfl
  · rw [decText_enc _ _ hi.cmd]; rfl
  · rw [decText_enc _ _ hi.app]; rfl

theorem find_name (f : Field) : Field.all.find? (fun g => g.name = f.name) = some f := by
  cases f <;> decide

theorem name_length (f : Field) : f.name.length < 2 ^ 64 := by
  cases f <;> decide

theorem decFields_ok (i : Info) (hi : i.Ok) : ∀ (fs seen : List Field) (j : Info) (r : List UInt8),
    (seen ++ fs).Nodup →
    decFields fs.length seen j (fs.flatMap (fun f => encText f.name ++ f.enc i) ++ r)
      = some (seen ++ fs, fs.foldl (fun j f => f.copy i j) j, r)
  | [], seen, j, r, _ => by simp [decFields]
  | f :: fs, seen, j, r, hn => by
    have hmem : f ∉ seen := by
      intro hm
      rw [List.nodup_append] at hn
      exact hn.2.2 f hm f (List.mem_cons_self ..) rfl
    have ih := decFields_ok i hi fs (seen ++ [f]) (f.copy i j) r (by simpa using hn)
    simp only [List.length_cons, List.flatMap_cons, List.append_assoc, decFields]
    rw [decText_enc _ _ (name_length f)]
    simp only [find_name, hmem, if_false]
    rw [field_dec i j hi]
    simp only [List.foldl_cons]
    rw [ih]
    simp

theorem fromSlice_toVec (i : Info) (hi : i.Ok) : fromSlice (toVec i) = some i := by
  unfold fromSlice toVec
  rw [decHead_encHead 5 _ _ (by omega) (by decide)]
  have h := decFields_ok i hi Field.all [] Info.default [] (by decide)
  rw [List.append_nil] at h
  simp only [h, List.nil_append]
  have hall : (Field.all.all (· ∈ Field.all)) = true := by decide
  rw [if_pos ⟨hall, trivial⟩]
  rfl

theorem fromSlice_zeros (n : Nat) : fromSlice (List.replicate n 0) = none := by
  cases n with
  | zero => rfl
  | succ n => rfl

/-! ## What the program finds in its buffer -/

theorem received_fits {size : Nat} {w : List UInt8} (h : w.length ≤ size) : received size w = w := by
  unfold received
  simp only [h, if_true, List.length_append, List.length_replicate]
  rw [List.take_append_of_le_length (Nat.le_refl _), List.take_length,
    show w.length - (w.length + (size - w.length)) = 0 by omega]
  simp

theorem received_long {size : Nat} {w : List UInt8} (h : ¬ w.length ≤ size) :
    received size w = List.replicate w.length 0 := by
  unfold received
  simp only [h, if_false, List.length_replicate]
  rw [List.take_of_length_le (by rw [List.length_replicate]; omega), List.replicate_append_replicate]
  congr 1; omega

theorem toVec_length (i : Info) : (toVec i).length =
    80 + headLen i.pid + headLen i.tlsData + headLen i.tlsDataLen + headLen i.tlsLenTotal + headLen i.alignment
      + (headLen i.cmdline.length + i.cmdline.length) + (headLen i.appCmdline.length + i.appCmdline.length) := by
  unfold toVec Field.all
  simp only [List.length_append, List.flatMap_cons, List.flatMap_nil, List.length_nil, encText, encHead_length,
    Field.name, Field.enc, encNum, encBool, List.length_cons]
  simp only [show headLen 3 = 1 from rfl, show headLen 7 = 1 from rfl, show headLen 8 = 1 from rfl,
    show headLen 12 = 1 from rfl, show headLen 13 = 1 from rfl, show headLen 9 = 1 from rfl,
    show headLen 11 = 1 from rfl, Nat.zero_add, Nat.reduceAdd]
  omega

theorem headLen_pos (n : Nat) : 1 ≤ headLen n := by
  unfold headLen; split <;> (try split) <;> (try split) <;> (try split) <;> omega

theorem headLen_le (n : Nat) : headLen n ≤ 9 := by
  unfold headLen; split <;> (try split) <;> (try split) <;> (try split) <;> omega

theorem headLen_small {n : Nat} (h : n < 256) : headLen n ≤ 2 := by
  unfold headLen; split
  · omega
  · omega

theorem headLen_two {n : Nat} (h : 24 ≤ n) : 2 ≤ headLen n := by
  unfold headLen; rw [if_neg (by omega)]
  split <;> (try split) <;> (try split) <;> omega

/-! ## Threads -/

theorem le64_length (n : Nat) : (le64 n).length = 8 := by simp [le64, be_length]

theorem ofLe_le64 (n : Nat) (h : n < 2 ^ 64) : ofLe (le64 n) = n := by
  simp only [ofLe, le64, List.reverse_reverse]
  exact ofBe_be 8 n (by simpa using h)

theorem mem_length (t : Thread) : t.mem.length = 40 := by simp [Thread.mem, le64_length]

theorem take8 (n : Nat) (r : List UInt8) : (le64 n ++ r).take 8 = le64 n := by
  have := le64_length n
  rw [List.take_append_of_le_length (by omega), List.take_of_length_le (by omega)]

theorem drop8 (n : Nat) (r : List UInt8) : (le64 n ++ r).drop 8 = r := by
  have := le64_length n
  rw [List.drop_append_of_le_length (by omega), List.drop_of_length_le (by omega), List.nil_append]

theorem drop_drop8 (k : Nat) (l : List UInt8) : l.drop (k + 8) = (l.drop 8).drop k := by
  rw [List.drop_drop]; congr 1; omega

theorem ofMem_mem (t : Thread) (h : t.Ok) : Thread.ofMem t.mem = t := by
  have e : t.mem = le64 t.id ++ (le64 t.node ++ (le64 t.package ++ (le64 t.core ++ (le64 t.thread ++ [])))) := by
    simp [Thread.mem]
  rw [e]
  have d16 : ∀ l : List UInt8, l.drop 16 = (l.drop 8).drop 8 := fun l => drop_drop8 8 l
  have d24 : ∀ l : List UInt8, l.drop 24 = (l.drop 8).drop 16 := fun l => drop_drop8 16 l
  have d32 : ∀ l : List UInt8, l.drop 32 = (l.drop 8).drop 24 := fun l => drop_drop8 24 l
  unfold Thread.ofMem
  simp only [d32, d24, d16, drop8, take8]
  rw [ofLe_le64 _ h.id, ofLe_le64 _ h.node, ofLe_le64 _ h.package, ofLe_le64 _ h.core, ofLe_le64 _ h.thread]

theorem mems_length (ts : List Thread) : (ts.flatMap Thread.mem).length = 40 * ts.length := by
  induction ts with
  | nil => rfl
  | cons t ts ih => simp only [List.flatMap_cons, List.length_append, mem_length, ih, List.length_cons]; omega

theorem ofMems_mems (ts : List Thread) (h : ∀ t ∈ ts, t.Ok) : ofMems ts.length (ts.flatMap Thread.mem) = ts := by
  induction ts with
  | nil => rfl
  | cons t ts ih =>
    have hl := mem_length t
    simp only [List.length_cons, ofMems, List.flatMap_cons]
    rw [List.take_append_of_le_length (by omega), List.take_of_length_le (by omega),
      List.drop_append_of_le_length (by omega), List.drop_of_length_le (by omega), List.nil_append,
      ofMem_mem t (h t (List.mem_cons_self ..)), ih (fun t ht => h t (List.mem_cons_of_mem _ ht))]

theorem encThreads_length (p c : Nat) (ts : List Thread) : (encThreads p c ts).length = 24 + 40 * ts.length := by
  simp only [encThreads, List.length_append, le64_length, mems_length]

theorem decThreads_enc (p c : Nat) (ts : List Thread) (h : ∀ t ∈ ts, t.Ok) (hn : ts.length < 2 ^ 64) :
    decThreads (encThreads p c ts) = some (ts, []) := by
  unfold decThreads
  rw [if_neg (by rw [encThreads_length]; omega)]
  have e : encThreads p c ts = le64 p ++ (le64 c ++ (le64 ts.length ++ ts.flatMap Thread.mem)) := by
    simp [encThreads]
  have d16 : ∀ l : List UInt8, l.drop 16 = (l.drop 8).drop 8 := fun l => drop_drop8 8 l
  have d24 : ∀ l : List UInt8, l.drop 24 = (l.drop 8).drop 16 := fun l => drop_drop8 16 l
  simp only [e, d24, d16, drop8, take8, ofLe_le64 _ hn, mems_length, Nat.lt_irrefl, if_false]
  rw [ofMems_mems ts h, List.drop_of_length_le (by rw [mems_length]; omega)]

theorem decThreads_zeros (n : Nat) (h : 24 ≤ n) : decThreads (List.replicate n 0) = some ([], List.replicate (n - 24) 0) := by
  unfold decThreads
  rw [if_neg (by rw [List.length_replicate]; omega)]
  have h1 : ((List.replicate n (0 : UInt8)).drop 16).take 8 = List.replicate 8 0 := by
    rw [List.drop_replicate, List.take_replicate]; congr 1; omega
  have h2 : ofLe (List.replicate 8 0) = 0 := by decide
  simp only [h1, h2, Nat.mul_zero, Nat.not_lt_zero, if_false, List.drop_zero, ofMems]
  rw [List.drop_replicate]

/-! ## Arguments -/

theorem rsplit_go : ∀ (s piece : List UInt8) (done : List (List UInt8)),
    (let r := s.foldl (fun (p : List UInt8 × List (List UInt8)) b =>
      if b = 32 then ([], p.1 :: p.2) else (p.1 ++ [b], p.2)) (piece, done)
     r.1 :: r.2) =
    (match words s with
      | [] => []
      | w :: ws => ws.reverse ++ (piece ++ w) :: done)
  | [], piece, done => by simp [words]
  | b :: s, piece, done => by
    simp only [List.foldl_cons]
    by_cases hb : b = 32
    · simp only [hb, if_true, words]
      rw [rsplit_go s [] (piece :: done)]
      cases hw : words s with
      | nil => exact absurd hw (by cases s <;> simp only [words] <;> (try split) <;> (try split) <;> nofun)
      | cons w ws => simp
    · simp only [hb, if_false, words]
      rw [rsplit_go s (piece ++ [b]) done]
      cases hw : words s with
      | nil => exact absurd hw (by cases s <;> simp only [words] <;> (try split) <;> (try split) <;> nofun)
      | cons w ws => simp

theorem words_ne_nil (s : List UInt8) : words s ≠ [] := by
  cases s <;> simp only [words] <;> (try split) <;> (try split) <;> nofun

theorem rsplit_words (s : List UInt8) : rsplit s = (words s).reverse := by
  have := rsplit_go s [] []
  have e : rsplit s = (s.foldl (fun (p : List UInt8 × List (List UInt8)) b =>
      if b = 32 then ([], p.1 :: p.2) else (p.1 ++ [b], p.2)) ([], [])).1 ::
      (s.foldl (fun (p : List UInt8 × List (List UInt8)) b =>
      if b = 32 then ([], p.1 :: p.2) else (p.1 ++ [b], p.2)) ([], [])).2 := rfl
  rw [e]
  refine Eq.trans this ?_
  cases hw : words s with
  | nil => exact absurd hw (words_ne_nil s)
  | cons w ws => simp

/-! ## Cores -/

theorem requestLoop_ok (req : Nat → Option Nat) (g : Nat → Nat) (cur want : Nat) :
    ∀ (hw cores : List Nat), (∀ t ∈ hw, t ≠ cur → req t = some (g t)) → cores.length < want →
      requestLoop req cur want hw cores
        = cores ++ ((hw.filter (· ≠ cur)).take (want - cores.length)).map g
  | [], cores, _, _ => by simp [requestLoop]
  | t :: ts, cores, h, hlt => by
    unfold requestLoop
    by_cases ht : t = cur
    · subst ht
      rw [if_neg (by simp)]
      rw [requestLoop_ok req g t want ts cores (fun u hu => h u (List.mem_cons_of_mem _ hu)) hlt]
      simp
    · rw [if_pos ht, h t (List.mem_cons_self ..) ht]
      simp only []
      have hf : (t :: ts).filter (· ≠ cur) = t :: ts.filter (· ≠ cur) := by simp [ht]
      rw [hf]
      by_cases he : (cores ++ [g t]).length = want
      · rw [if_pos he]
        simp only [List.length_append, List.length_cons, List.length_nil] at he
        rw [show want - cores.length = 1 by omega]
        simp
      · rw [if_neg he]
        have hl : (cores ++ [g t]).length = cores.length + 1 := by simp
        rw [requestLoop_ok req g cur want ts (cores ++ [g t]) (fun u hu => h u (List.mem_cons_of_mem _ hu)) (by omega), hl,
          show want - cores.length = (want - (cores.length + 1)) + 1 by omega]
        simp

theorem requestLoop_length (req : Nat → Option Nat) (cur want : Nat) :
    ∀ (hw cores : List Nat), (requestLoop req cur want hw cores).length
      ≤ cores.length + (hw.filter (· ≠ cur)).length
  | [], cores => by simp [requestLoop]
  | t :: ts, cores => by
    unfold requestLoop
    by_cases ht : t = cur
    · subst ht
      rw [if_neg (by simp)]
      have := requestLoop_length req t want ts cores
      simpa using this
    · rw [if_pos ht]
      have hf : (t :: ts).filter (· ≠ cur) = t :: ts.filter (· ≠ cur) := by simp [ht]
      rw [hf]
      cases req t with
      | none => simp
      | some g =>
        simp only []
        split
        · simp only [List.length_append, List.length_cons, List.length_nil]; omega
        · have := requestLoop_length req cur want ts (cores ++ [g])
          simp only [List.length_append, List.length_cons, List.length_nil] at this ⊢
          omega

theorem digits_ok : ∀ (s : List UInt8) (n : Nat), (∀ b ∈ s, 48 ≤ b ∧ b ≤ 57) →
    s.foldl (fun a b => a * 10 + (b.toNat - 48)) n < 2 ^ 64 →
    digits n s = some (s.foldl (fun a b => a * 10 + (b.toNat - 48)) n)
  | [], n, _, _ => rfl
  | b :: t, n, h, hlt => by
    have mono : ∀ (t : List UInt8) (a : Nat), a ≤ t.foldl (fun a b => a * 10 + (b.toNat - 48)) a := by
      intro t
      induction t with
      | nil => intro a; exact Nat.le_refl a
      | cons b t ih => intro a; exact Nat.le_trans (by omega) (ih (a * 10 + (b.toNat - 48)))
    simp only [List.foldl_cons] at hlt ⊢
    unfold digits
    rw [if_pos (h b (List.mem_cons_self ..)), if_pos (Nat.lt_of_le_of_lt (mono t _) hlt)]
    exact digits_ok t _ (fun b hb => h b (List.mem_cons_of_mem _ hb)) hlt

end NRK.Start
