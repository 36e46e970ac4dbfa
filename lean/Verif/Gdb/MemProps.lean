import Verif.Gdb.MemSpec

/-!
# C86: the debugger reads and writes the memory it is asked for
-/

namespace NRK.Gdb

open NRK.VSpace

/-- All addresses of a page are translated alike. -/
theorem leafAt_page (t : PML4) {x y : Nat} (h : x / 4096 = y / 4096) : leafAt t x = leafAt t y := by
  have e1 : i1 x = i1 y := by unfold i1; rw [h]
  have e2 : i2 x = i2 y := by
    unfold i2
    rw [show (2097152 : Nat) = 4096 * 512 from rfl, ← Nat.div_div_eq_div_mul, ← Nat.div_div_eq_div_mul, h]
  have e3 : i3 x = i3 y := by
    unfold i3
    rw [show (1073741824 : Nat) = 4096 * 262144 from rfl, ← Nat.div_div_eq_div_mul, ← Nat.div_div_eq_div_mul, h]
  have e4 : i4 x = i4 y := by
    unfold i4
    rw [show (549755813888 : Nat) = 4096 * 134217728 from rfl, ← Nat.div_div_eq_div_mul, ← Nat.div_div_eq_div_mul, h]
  unfold leafAt
  rw [e4]
  cases t (i4 y) with
  | none => rfl
  | some d =>
    show leaf3 d x = leaf3 d y
    unfold leaf3
    rw [e3]
    cases d (i3 y) with
    | none => rfl
    | page l => rfl
    | table d =>
      show leaf2 d x = leaf2 d y
      unfold leaf2
      rw [e2]
      cases d (i2 y) with
      | none => rfl
      | page l => rfl
      | table p =>
        show leaf1 p x = leaf1 p y
        unfold leaf1
        rw [e1]

theorem mayRead_iff (t : PML4) (x : Nat) : mayRead t x = true ↔ Mapped t x := by
  unfold mayRead Mapped resolve
  cases hl : leafAt t x with
  | none => simp
  | some p =>
    obtain ⟨lv, l⟩ := p
    simp only [ne_eq, reduceCtorEq, not_false_eq_true, iff_true]
    simp only [ofFlags]
    cases (clean lv l.fl).us <;> cases (clean lv l.fl).p <;> cases (clean lv l.fl).rw <;> cases (clean lv l.fl).xd <;>
      cases (clean lv l.fl).pcd <;> cases (clean lv l.fl).user11 <;> rfl

theorem mayWrite_iff (t : PML4) (x : Nat) : mayWrite t x = true ↔ Changeable t x := by
  unfold mayWrite Changeable resolve
  cases hl : leafAt t x with
  | none => simp
  | some p =>
    obtain ⟨lv, l⟩ := p
    have hr : (clean lv l.fl).rw = l.fl.rw := by cases lv <;> rfl
    have hx : (clean lv l.fl).xd = l.fl.xd := by cases lv <;> rfl
    have : (!(ofFlags lv l.fl).exec && (ofFlags lv l.fl).write) = (l.fl.rw && l.fl.xd) := by
      rw [← hr, ← hx]
      simp only [ofFlags]
      cases (clean lv l.fl).us <;> cases (clean lv l.fl).p <;> cases (clean lv l.fl).rw <;> cases (clean lv l.fl).xd <;>
        cases (clean lv l.fl).pcd <;> cases (clean lv l.fl).user11 <;> rfl
    show (!(ofFlags lv l.fl).exec && (ofFlags lv l.fl).write) = true ↔ _
    rw [this, Bool.and_eq_true]
    constructor
    · intro h; exact ⟨lv, l, rfl, h⟩
    · rintro ⟨lv', l', e, h⟩; cases e; exact h

/-- The address before a byte that does not begin a page is on the same page. -/
theorem same_page {a : Nat} (h : (a + 1) % 4096 ≠ 0) : (a + 1) / 4096 = a / 4096 := by omega

theorem hwAddr_ok {t : PML4} {x : Nat} (hx : x < 2 ^ 47) (w : Bool) {lv l} (hl : leafAt t x = some (lv, l))
    (hu : l.fl.us = false) (hw : w = true → l.fl.rw = true) : hwAddr t w x = some (place t x) := by
  unfold hwAddr place
  rw [if_pos (.inl hx), hl]
  have : (l.fl.us || (w && !l.fl.rw)) = false := by
    rw [hu]
    cases w with
    | false => rfl
    | true => simp [hw rfl]
  simp [this]

/-- A mapped range lies in the lower half. -/
theorem lower {t : PML4} (hlow : LowerHalf t) {start : Nat} (hs : start < 2 ^ 48) : ∀ k,
    (∀ j ≤ k, Mapped t (start + j)) → start + k < 2 ^ 47 := by
  intro k hm
  apply Classical.byContradiction
  intro hk
  by_cases h : 2 ^ 47 ≤ start
  · exact hm 0 (Nat.zero_le k) (hlow start h hs)
  · exact hm (2 ^ 47 - start) (by omega) (by
      have : start + (2 ^ 47 - start) = 2 ^ 47 := by omega
      rw [this]
      exact hlow _ (Nat.le_refl _) (by decide))

theorem readLoop_spec {t : PML4} (hlow : LowerHalf t) (mem : Nat → UInt8) {start : Nat} (hs : start < 2 ^ 48) :
    ∀ (n i : Nat), NoUser t start (i + n) → (∀ j < i, Mapped t (start + j)) →
    ((∀ j < i + n, Mapped t (start + j)) →
      readLoop t mem start i n = .ok ((List.range n).map fun k => mem (place t (start + i + k)))) ∧
    ((∃ j < i + n, ¬ Mapped t (start + j)) → readLoop t mem start i n = .nonFatal) := by
  intro n
  induction n with
  | zero =>
    intro i _ hi
    refine ⟨fun _ => rfl, ?_⟩
    rintro ⟨j, hj, hn⟩
    exact absurd (hi j hj) hn
  | succ n ih =>
    intro i hu hi
    by_cases hm : Mapped t (start + i)
    · have hi' : ∀ j < i + 1, Mapped t (start + j) := by
        intro j hj
        by_cases e : j = i
        · subst e; exact hm
        · exact hi j (by omega)
      have hlt := lower hlow hs i (fun j hj => hi' j (by omega))
      obtain ⟨⟨lv, l⟩, hl⟩ := Option.ne_none_iff_exists'.1 hm
      have hus := hu i (by omega) lv l hl
      have hstep : readLoop t mem start i (n + 1) = (match readLoop t mem start (i + 1) n with
          | .ok r => .ok (mem (place t (start + i)) :: r)
          | r => r) := by
        show (if _ then _ else _) = _
        rw [if_neg (by rw [(mayRead_iff t _).2 hm]; simp), hwAddr_ok hlt false hl hus (fun h => by cases h)]
        cases readLoop t mem start (i + 1) n <;> rfl
      obtain ⟨a, b⟩ := ih (i + 1) (fun k hk => hu k (by omega)) hi'
      constructor
      · intro hall
        rw [hstep, a (fun j hj => hall j (by omega))]
        simp only [List.range_succ_eq_map, List.map_cons, List.map_map, Nat.add_zero]
        congr 2
        apply List.map_congr_left
        intro k _
        show mem (place t (start + (i + 1) + k)) = mem (place t (start + i + (k + 1)))
        rw [show start + (i + 1) + k = start + i + (k + 1) by omega]
      · rintro ⟨j, hj, hn⟩
        rw [hstep, b ⟨j, by omega, hn⟩]
    · refine ⟨fun hall => absurd (hall i (by omega)) hm, fun _ => ?_⟩
      have hpage : i = 0 ∨ (start + i) % 4096 = 0 := by
        cases i with
        | zero => exact .inl rfl
        | succ i =>
          right
          apply Classical.byContradiction
          intro hne
          have hp := leafAt_page t (same_page (a := start + i) (by rwa [Nat.add_assoc]))
          apply hm
          have := hi i (by omega)
          unfold Mapped at this ⊢
          rwa [← Nat.add_assoc, hp]
      have hr : mayRead t (start + i) = false := by
        cases h : mayRead t (start + i) with
        | false => rfl
        | true => exact absurd ((mayRead_iff t _).1 h) hm
      show (if _ then _ else _) = _
      rw [if_pos ⟨hpage, hr⟩]

/-- **C86** A read of any length gives the bytes of the range if all of it is mapped, and otherwise reports an error; it
never faults.  For address spaces with nothing at non-canonical addresses, and ranges without user pages. -/
theorem c86_read_partial (t : PML4) (hlow : LowerHalf t) (mem : Nat → UInt8) (start len : Nat) (hlen : 0 < len)
    (hu : NoUser t start len) :
    (start < 2 ^ 48 ∧ (∀ i < len, Mapped t (start + i)) →
      readAddrs t mem start len = .ok ((List.range len).map fun i => mem (place t (start + i)))) ∧
    (¬ (start < 2 ^ 48 ∧ ∀ i < len, Mapped t (start + i)) → readAddrs t mem start len = .nonFatal) := by
  unfold readAddrs
  by_cases hs : start < 2 ^ 48
  · rw [if_neg (by omega)]
    obtain ⟨a, b⟩ := readLoop_spec hlow mem hs len 0 (by rwa [Nat.zero_add]) (fun j hj => absurd hj (Nat.not_lt_zero j))
    rw [Nat.zero_add] at a b
    refine ⟨fun h => a h.2, fun h => b ?_⟩
    apply Classical.byContradiction
    intro hn
    apply h
    refine ⟨hs, fun i hi => ?_⟩
    apply Classical.byContradiction
    intro hm
    exact hn ⟨i, hi, hm⟩
  · rw [if_pos (by omega)]
    exact ⟨fun h => absurd h.1 hs, fun _ => rfl⟩

theorem Changeable.mapped {t : PML4} {x : Nat} (h : Changeable t x) : Mapped t x := by
  obtain ⟨lv, l, e, _⟩ := h
  unfold Mapped
  rw [e]
  simp

theorem writeLoop_spec {t : PML4} (hlow : LowerHalf t) {start : Nat} :
    ∀ (data : List UInt8) (i : Nat) (mem : Nat → UInt8), (0 < i → start < 2 ^ 48) → NoUser t start (i + data.length) →
    (∀ j < i, Changeable t (start + j)) →
    ((data = [] ∨ start < 2 ^ 48) ∧ (∀ j < i + data.length, Changeable t (start + j)) →
      writeLoop t start i data mem = (.ok (), written t mem (start + i) data)) ∧
    (¬ ((data = [] ∨ start < 2 ^ 48) ∧ ∀ j < i + data.length, Changeable t (start + j)) →
      ∃ k < data.length, (∀ j < k, Changeable t (start + i + j)) ∧ ¬ (start < 2 ^ 48 ∧ Changeable t (start + i + k)) ∧
        (i + k = 0 ∨ (start + i + k) % 4096 = 0) ∧
        writeLoop t start i data mem = (.nonFatal, written t mem (start + i) (data.take k))) := by
  intro data
  induction data with
  | nil =>
    intro i mem _ _ hi
    refine ⟨fun _ => rfl, fun h => absurd ⟨.inl rfl, ?_⟩ h⟩
    intro j hj
    exact hi j hj
  | cons b data ih =>
    intro i mem h0 hu hi
    by_cases hc : start < 2 ^ 48 ∧ Changeable t (start + i)
    · have hi' : ∀ j < i + 1, Changeable t (start + j) := by
        intro j hj
        by_cases e : j = i
        · subst e; exact hc.2
        · exact hi j (by omega)
      have hlt := lower hlow hc.1 i (fun j hj => (hi' j (by omega)).mapped)
      obtain ⟨lv, l, hl, hrw, _⟩ := hc.2
      have hus := hu i (by simp) lv l hl
      have hstep : writeLoop t start i (b :: data) mem = writeLoop t start (i + 1) data (upd mem (place t (start + i)) b) := by
        show (if _ then _ else _) = _
        rw [if_neg (by
          rw [(mayWrite_iff t _).2 hc.2]
          rintro ⟨_, h | h⟩
          · omega
          · cases h), hwAddr_ok hlt true hl hus (fun _ => hrw)]
      obtain ⟨a, e⟩ := ih (i + 1) (upd mem (place t (start + i)) b) (fun _ => hc.1)
        (fun k hk => hu k (by simp only [List.length_cons]; omega)) hi'
      constructor
      · rintro ⟨_, hall⟩
        rw [hstep, a ⟨.inr hc.1, fun j hj => hall j (by simp only [List.length_cons]; omega)⟩]
        rfl
      · intro hn
        obtain ⟨k, hk, hk1, hk2, hk3, hk4⟩ := e (by
          rintro ⟨_, hall⟩
          exact hn ⟨.inr hc.1, fun j hj => hall j (by simp only [List.length_cons] at hj; omega)⟩)
        refine ⟨k + 1, by simp only [List.length_cons]; omega, ?_, ?_, ?_, ?_⟩
        · intro j hj
          cases j with
          | zero => exact hc.2
          | succ j =>
            have := hk1 j (by omega)
            rwa [show start + (i + 1) + j = start + i + (j + 1) by omega] at this
        · rwa [show start + i + (k + 1) = start + (i + 1) + k by omega]
        · right
          rcases hk3 with h | h
          · omega
          · rwa [show start + i + (k + 1) = start + (i + 1) + k by omega]
        · rw [hstep, hk4]
          rfl
    · constructor
      · rintro ⟨h | h, hall⟩
        · cases h
        · exact absurd ⟨h, hall i (by simp)⟩ hc
      · intro _
        have hpage : i = 0 ∨ (start + i) % 4096 = 0 := by
          cases i with
          | zero => exact .inl rfl
          | succ i =>
            right
            apply Classical.byContradiction
            intro hne
            have hp := leafAt_page t (same_page (a := start + i) (by rwa [Nat.add_assoc]))
            apply hc
            refine ⟨h0 (by omega), ?_⟩
            obtain ⟨lv, l, e1, e2⟩ := hi i (by omega)
            exact ⟨lv, l, by rw [← Nat.add_assoc, hp, e1], e2⟩
        have hcond : 2 ^ 48 ≤ start ∨ mayWrite t (start + i) = false := by
          by_cases hs : start < 2 ^ 48
          · right
            cases h : mayWrite t (start + i) with
            | false => rfl
            | true => exact absurd ⟨hs, (mayWrite_iff t _).1 h⟩ hc
          · left; omega
        refine ⟨0, by simp, fun j hj => absurd hj (Nat.not_lt_zero j), by simpa using hc, by simpa using hpage, ?_⟩
        show (if _ then _ else _) = _
        rw [if_pos ⟨hpage, hcond⟩]
        rfl

/-- **C86** A write of any length changes exactly the bytes of the range if all of it can be changed.  Otherwise it reports
an error, and it has then written the bytes before the first page that cannot be changed, and nothing else.  It never
faults and never changes code or read-only memory.  For address spaces with nothing at non-canonical addresses, and
ranges without user pages. -/
theorem c86_write_partial (t : PML4) (hlow : LowerHalf t) (mem : Nat → UInt8) (start : Nat) (data : List UInt8) (hne : data ≠ [])
    (hu : NoUser t start data.length) :
    (start < 2 ^ 48 ∧ (∀ i < data.length, Changeable t (start + i)) →
      writeAddrs t mem start data = (.ok (), written t mem start data)) ∧
    (¬ (start < 2 ^ 48 ∧ ∀ i < data.length, Changeable t (start + i)) →
      ∃ k < data.length, (∀ i < k, Changeable t (start + i)) ∧ ¬ (start < 2 ^ 48 ∧ Changeable t (start + k)) ∧
        (k = 0 ∨ (start + k) % 4096 = 0) ∧ writeAddrs t mem start data = (.nonFatal, written t mem start (data.take k))) := by
  obtain ⟨a, b⟩ := writeLoop_spec hlow (start := start) data 0 mem (fun h => absurd h (by decide)) (by rwa [Nat.zero_add])
    (fun j hj => absurd hj (Nat.not_lt_zero j))
  simp only [Nat.zero_add, Nat.add_zero, hne, false_or] at a b
  exact ⟨a, b⟩

/-! ## What `written` means -/

/-- Bytes at other places are as they were. -/
theorem written_other (t : PML4) : ∀ (data : List UInt8) (mem : Nat → UInt8) (start a : Nat),
    (∀ i < data.length, place t (start + i) ≠ a) → written t mem start data a = mem a := by
  intro data
  induction data with
  | nil => intro mem start a _; rfl
  | cons b data ih =>
    intro mem start a h
    rw [written, ih]
    · have := h 0 (by simp)
      rw [Nat.add_zero] at this
      simp [upd, Ne.symm this]
    · intro i hi
      have := h (i + 1) (by simp only [List.length_cons]; omega)
      rwa [show start + 1 + i = start + (i + 1) by omega]

/-- **C86** If no two bytes of the range are the same byte of memory, a read after a successful write gives what was
written, and all other memory is as it was. -/
theorem c86_write_then_read (t : PML4) (hlow : LowerHalf t) (mem : Nat → UInt8) (start : Nat) (data : List UInt8) (hne : data ≠ [])
    (hu : NoUser t start data.length) (mem' : Nat → UInt8) (hw : writeAddrs t mem start data = (.ok (), mem'))
    (hinj : ∀ i < data.length, ∀ j < data.length, place t (start + i) = place t (start + j) → i = j) :
    readAddrs t mem' start data.length = .ok data ∧
    ∀ a, (∀ i < data.length, place t (start + i) ≠ a) → mem' a = mem a := by
  have hlen : 0 < data.length := List.length_pos_iff.2 hne
  obtain ⟨a, b⟩ := c86_write_partial t hlow mem start data hne hu
  by_cases hc : start < 2 ^ 48 ∧ ∀ i < data.length, Changeable t (start + i)
  · rw [a hc] at hw
    cases hw
    refine ⟨?_, fun a ha => written_other t data mem start a ha⟩
    rw [(c86_read_partial t hlow _ start data.length hlen hu).1 ⟨hc.1, fun i hi => (hc.2 i hi).mapped⟩]
    congr 1
    clear a b hne hu hc hlen
    have key : ∀ (data : List UInt8) (mem : Nat → UInt8) (start : Nat),
        (∀ i < data.length, ∀ j < data.length, place t (start + i) = place t (start + j) → i = j) →
        ∀ i (hi : i < data.length), written t mem start data (place t (start + i)) = data[i] := by
      intro data
      induction data with
      | nil => intro mem start _ i hi; exact absurd hi (Nat.not_lt_zero i)
      | cons b data ih =>
        intro mem start hinj i hi
        cases i with
        | zero =>
          rw [written, written_other]
          · simp
          · intro i hi' he
            have := hinj (i + 1) (by simp only [List.length_cons]; omega) 0 (by simp) (by
              rwa [show start + (i + 1) = start + 1 + i by omega])
            omega
        | succ i =>
          rw [written]
          have := ih (upd mem (place t start) b) (start + 1) (by
            intro p hp q hq he
            have := hinj (p + 1) (by simp only [List.length_cons]; omega) (q + 1) (by simp only [List.length_cons]; omega) (by
              rwa [show start + (p + 1) = start + 1 + p by omega, show start + (q + 1) = start + 1 + q by omega])
            omega) i (by simp only [List.length_cons] at hi; omega)
          rw [show start + (i + 1) = start + 1 + i by omega, this]
          rfl
    apply List.ext_getElem
    · simp
    · intro i h1 h2
      simp only [List.getElem_map, List.getElem_range]
      exact key data mem start hinj i h2
  · obtain ⟨k, _, _, _, _, e⟩ := b hc
    rw [e] at hw
    cases hw

/-! ## Witnesses -/

/-- A leaf for kernel data, kernel code, and a page of user space. -/
def kData (pa : Nat) : Leaf := ⟨pa, leafFlags .pt ⟨true, true, false, true, false, false⟩⟩
def kCode (pa : Nat) : Leaf := ⟨pa, leafFlags .pt ⟨true, true, true, true, false, false⟩⟩
def uData (pa : Nat) : Leaf := ⟨pa, leafFlags .pt ⟨true, true, false, false, false, false⟩⟩

/-- Page 1 is kernel data, page 2 kernel code, page 3 user data, page 4 kernel data. -/
def sampleTable : PML4 := fun i => if i = 0 then some (fun j => if j = 0 then .table (fun k => if k = 0 then .table (fun p =>
  if p = 1 then some (kData 0x5000) else if p = 2 then some (kCode 0x6000) else if p = 3 then some (uData 0x7000)
  else if p = 4 then some (kData 0x9000) else none) else .none) else .none) else none

theorem sampleTable_lower : LowerHalf sampleTable := by
  intro x h1 h2
  have : i4 x ≠ 0 := by
    unfold i4
    have : 256 ≤ x / 549755813888 := by
      rw [Nat.le_div_iff_mul_le (by decide)]
      omega
    have : x / 549755813888 < 512 := by
      rw [Nat.div_lt_iff_lt_mul (by decide)]
      omega
    omega
  unfold leafAt sampleTable
  rw [if_neg this]

/-- The hypotheses of the theorems are met: 4 bytes at the end of page 4. -/
theorem sample86 : NoUser sampleTable 0x4ffc 4 ∧ (∀ i < 4, Changeable sampleTable (0x4ffc + i)) ∧
    readAddrs sampleTable (writeAddrs sampleTable (fun _ => 0) 0x4ffc [1, 2, 3, 4]).2 0x4ffc 4 = .ok [1, 2, 3, 4] := by
  refine ⟨?_, ?_, by decide +kernel⟩
  · intro i hi lv l hl
    match i, hi with
    | 0, _ => cases hl; rfl
    | 1, _ => cases hl; rfl
    | 2, _ => cases hl; rfl
    | 3, _ => cases hl; rfl
  · intro i hi
    match i, hi with
    | 0, _ => exact ⟨.pt, kData 0x9000, rfl, rfl, rfl⟩
    | 1, _ => exact ⟨.pt, kData 0x9000, rfl, rfl, rfl⟩
    | 2, _ => exact ⟨.pt, kData 0x9000, rfl, rfl, rfl⟩
    | 3, _ => exact ⟨.pt, kData 0x9000, rfl, rfl, rfl⟩

/-- **C86** Witness: a write that is refused has changed memory. -/
theorem c86_half_written :
    (writeAddrs sampleTable (fun _ => 0) 0x1ffe [7, 7, 7]).1 = .nonFatal ∧
    (writeAddrs sampleTable (fun _ => 0) 0x1ffe [7, 7, 7]).2 0x5ffe = 7 := by
  decide

/-- **C86** Any access to user memory faults in the kernel: the page is there and readable, and the processor does not let
the kernel look at it. -/
theorem c86_user_faults (t : PML4) (mem : Nat → UInt8) (start len : Nat) (hlen : 0 < len) (hs : start < 2 ^ 47) (lv : Level)
    (l : Leaf) (hl : leafAt t start = some (lv, l)) (hu : l.fl.us = true) : readAddrs t mem start len = .fault := by
  obtain ⟨n, rfl⟩ : ∃ n, len = n + 1 := ⟨len - 1, by omega⟩
  unfold readAddrs
  rw [if_neg (by omega)]
  show (if _ then _ else _) = _
  have hm : mayRead t (start + 0) = true := (mayRead_iff t _).2 (by unfold Mapped; rw [Nat.add_zero, hl]; simp)
  have hh : hwAddr t false (start + 0) = none := by
    unfold hwAddr
    rw [Nat.add_zero, if_pos (.inl hs), hl]
    simp [hu]
  rw [if_neg (by rw [hm]; simp), hh]

theorem c86_user_witness : leafAt sampleTable 0x3000 = some (.pt, uData 0x7000) ∧ (uData 0x7000).fl.us = true ∧
    readAddrs sampleTable (fun _ => 0) 0x3000 1 = .fault := by
  refine ⟨rfl, rfl, ?_⟩
  decide

end NRK.Gdb
