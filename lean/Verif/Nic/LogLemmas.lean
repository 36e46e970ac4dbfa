import Verif.Nic.Lemmas
/-!
# Lemmas about the accesses to the card
-/

namespace NRK.Nic

theorem attachPre_ok {al : Alloc} {c : Card} {s s' : Drv} (h : attachPre al c s = .ok s')
    (hs : al.Separate s.ntx s.nrx) (hw : ∀ r, al.addr r < 2 ^ 64) (hl : s.log = []) (h0 : s.txq = 0 ∧ s.rxq = 0) :
    ∃ v0 v1 v2, (v0 = 0 ∨ v0 = 3) ∧ v1 % 2 = 1 ∧ v2 % 2 = 1 ∧
      s'.log = [.wr 1 CMD GET_INTRCFG s'.mem, .rd 1 CMD v0, .rd 1 VRRS v1, .wr 1 VRRS 1 s'.mem, .rd 1 UVRS v2,
        .wr 1 UVRS 1 s'.mem] ∧
      s'.ntx = s.ntx ∧ s'.nrx = s.nrx ∧ s'.link = s.link ∧ s'.txq = s.ntx ∧ s'.rxq = s.nrx ∧
      Done al s.ntx s.nrx s.ntx s.nrx s.mem s'.mem := by
  obtain ⟨t2, ht2, h⟩ := andThen_ok h
  obtain ⟨t1, ht1, ht2⟩ := andThen_ok ht2
  obtain ⟨⟨a1, a2, a3, a4, a5⟩, q1, q2, d1⟩ := txRounds_ok hs hw s.ntx t1 (Nat.le_refl _) ht1
  rw [← a1, ← a2] at hs d1
  obtain ⟨⟨b1, b2, b3, b4, b5⟩, p1, p2, d2⟩ := rxRounds_ok hs hw d1 t1.nrx t2 (Nat.le_refl _) ht2
  simp only at h
  split at h
  · exact absurd h (by simp)
  rename_i hv
  unfold checkVersion at h
  split at h
  · exact absurd h (by simp)
  rename_i hv1
  simp only at h
  split at h
  · exact absurd h (by simp)
  rename_i hv2
  have h := Res.ok.inj h
  have hlog : t2.log = [] := by rw [b3, a3, hl]
  refine ⟨ans c (cmd t2 GET_INTRCFG) 1 CMD, ans c (rd c (cmd t2 GET_INTRCFG) 1 CMD) 1 VRRS,
    ans c (wr (rd c (rd c (cmd t2 GET_INTRCFG) 1 CMD) 1 VRRS) 1 VRRS 1) 1 UVRS, ?_, ?_, ?_, ?_, ?_⟩
  rotate_left 3
  · rw [← h]
    simp only [wr, rd, cmd, hlog, List.nil_append, List.cons_append]
  · rw [← h]
    refine ⟨by simp only [wr, rd, cmd, b1, a1], by simp only [wr, rd, cmd, b2, a2], by simp only [wr, rd, cmd, b4, a4], ?_, ?_, ?_⟩
    · simp only [wr, rd, cmd]; omega
    · simp only [wr, rd, cmd]; omega
    · simp only [wr, rd, cmd]; rw [a1, a2] at d2; exact d2
  · generalize ans c (cmd t2 GET_INTRCFG) 1 CMD = v at *
    omega
  · have := Nat.mod_two_eq_zero_or_one (ans c (rd c (cmd t2 GET_INTRCFG) 1 CMD) 1 VRRS)
    exact this.resolve_left hv1
  · have := Nat.mod_two_eq_zero_or_one (ans c (wr (rd c (rd c (cmd t2 GET_INTRCFG) 1 CMD) 1 VRRS) 1 VRRS 1) 1 UVRS)
    exact this.resolve_left hv2

theorem mac_low (low : Nat) (h : low < 4294967296) :
    (low % 256) ||| ((low >>> 8) % 256) <<< 8 ||| ((low >>> 16) % 256) <<< 16 ||| ((low >>> 24) % 256) <<< 24 = low := by
  apply Nat.eq_of_testBit_eq
  intro i
  have e : (256 : Nat) = 2 ^ 8 := rfl
  simp only [Nat.testBit_or, Nat.testBit_shiftLeft, e, Nat.testBit_mod_two_pow, Nat.testBit_shiftRight]
  by_cases h1 : i < 8
  · have a : ¬ 8 ≤ i := by omega
    have b : ¬ 16 ≤ i := by omega
    have d : ¬ 24 ≤ i := by omega
    simp [h1, a, b, d]
  by_cases h2 : i < 16
  · have a : 8 ≤ i := by omega
    have b : ¬ 16 ≤ i := by omega
    have d : ¬ 24 ≤ i := by omega
    have f : i - 8 < 8 := by omega
    have g : 8 + (i - 8) = i := by omega
    simp [h1, a, b, d, f, g]
  by_cases h3 : i < 24
  · have a : ¬ i - 8 < 8 := by omega
    have b : 16 ≤ i := by omega
    have d : ¬ 24 ≤ i := by omega
    have f : i - 16 < 8 := by omega
    have g : 16 + (i - 16) = i := by omega
    simp [h1, a, b, d, f, g]
  by_cases h4 : i < 32
  · have a : ¬ i - 8 < 8 := by omega
    have b : ¬ i - 16 < 8 := by omega
    have d : 24 ≤ i := by omega
    have f : i - 24 < 8 := by omega
    have g : 24 + (i - 24) = i := by omega
    simp [h1, a, b, d, f, g]
  · have a : ¬ i - 8 < 8 := by omega
    have b : ¬ i - 16 < 8 := by omega
    have d : ¬ i - 24 < 8 := by omega
    have f : low.testBit i = false :=
      Nat.testBit_lt_two_pow (Nat.lt_of_lt_of_le (show low < 2 ^ 32 from h) (Nat.pow_le_pow_right (by omega) (by omega)))
    simp [h1, a, b, d, f]

theorem mac_high (high : Nat) : (high % 256) ||| ((high >>> 8) % 256) <<< 8 = high % 65536 := by
  apply Nat.eq_of_testBit_eq
  intro i
  have e : (256 : Nat) = 2 ^ 8 := rfl
  have e' : (65536 : Nat) = 2 ^ 16 := rfl
  simp only [Nat.testBit_or, Nat.testBit_shiftLeft, e, e', Nat.testBit_mod_two_pow, Nat.testBit_shiftRight]
  by_cases h1 : i < 8
  · have a : ¬ 8 ≤ i := by omega
    have b : i < 16 := by omega
    simp [h1, a, b]
  by_cases h2 : i < 16
  · have a : 8 ≤ i := by omega
    have f : i - 8 < 8 := by omega
    have g : 8 + (i - 8) = i := by omega
    simp [h1, h2, a, f, g]
  · have a : ¬ i - 8 < 8 := by omega
    simp [h1, h2, a]

theorem ans_lt (c : Card) (s : Drv) (bar off : Nat) : ans c s bar off < 4294967296 := Nat.mod_lt _ (by decide)

theorem macList (low high : Nat) :
    [low % 256, (low >>> 8) % 256, (low >>> 16) % 256, (low >>> 24) % 256, high % 256, (high >>> 8) % 256] =
      macOf low high := by
  simp only [macOf, Nat.shiftRight_eq_div_pow, Nat.reducePow]

theorem setMac_ok {dbg : Bool} {c : Card} {s s' : Drv} (h : setMac dbg c s = .ok s') :
    ∃ low high, low < 4294967296 ∧ s'.mac = macOf low high ∧
      (dbg = true → (macOf low high).take 5 = [86, 180, 68, 233, 98]) ∧
      s'.log = s.log ++ [.wr 1 CMD GET_MACL s.mem, .rd 1 CMD low, .wr 1 CMD GET_MACH s.mem, .rd 1 CMD high,
        .wr 1 MACL low s.mem, .wr 1 MACH (high % 65536) s.mem] ∧
      s'.mem = s.mem ∧ s'.ntx = s.ntx ∧ s'.nrx = s.nrx ∧ s'.link = s.link ∧ s'.txq = s.txq ∧ s'.rxq = s.rxq := by
  obtain ⟨t, ht, h⟩ := andThen_ok h
  unfold retrieveMac at ht
  simp only [macList] at ht
  have hlow := ans_lt c (cmd s GET_MACL) 1 CMD
  split at ht
  · exact absurd ht (by simp)
  rename_i hd
  have ht := Res.ok.inj ht
  have h := Res.ok.inj h
  refine ⟨ans c (cmd s GET_MACL) 1 CMD, ans c (cmd (rd c (cmd s GET_MACL) 1 CMD) GET_MACH) 1 CMD, hlow, ?_, ?_, ?_, ?_⟩
  rotate_left 2
  · rw [← h, ← ht]
    simp only [wr, rd, cmd, Drv.macAt, macOf, List.append_assoc, List.cons_append, List.nil_append, List.getElem?_cons_zero,
      List.getElem?_cons_succ, Option.getD_some]
    congr 1
    have e1 := mac_low _ hlow
    have e2 := mac_high (ans c (cmd (rd c (cmd s GET_MACL) 1 CMD) GET_MACH) 1 CMD)
    simp only [Nat.shiftRight_eq_div_pow, Nat.reducePow] at e1 e2
    simp only [cmd, wr, rd, List.append_assoc, List.cons_append, List.nil_append] at e1 e2
    rw [e1, e2]
  · rw [← h, ← ht]
    exact ⟨rfl, rfl, rfl, rfl, rfl, rfl⟩
  · rw [← h, ← ht]
    rfl
  · intro hdb
    subst hdb
    simp only [Bool.true_and, bne_iff_ne, ne_eq, Decidable.not_not] at hd
    exact hd

/-- The events of `headRounds`. -/
def heads (m : Mem) : Nat → List Ev
  | 0 => []
  | n + 1 => heads m n ++ [.wr 0 (2048 + n * 8) 0 m, .wr 0 (2560 + n * 8) 0 m]

theorem headRounds_eq (n : Nat) (s : Drv) : headRounds n s = { s with log := s.log ++ heads s.mem n } := by
  induction n with
  | zero => simp [headRounds, heads]
  | succ n ih => simp only [headRounds, ih, wr, heads, List.append_assoc, List.cons_append, List.nil_append]

theorem enable_ok (c : Card) (s : Drv) : ∃ v, ∃ n, n ≤ s.rxq ∧ (v = 0 → n = s.rxq) ∧
    enableDevice c s = { s with log := s.log ++ ([.wr 1 CMD ENABLE s.mem, .rd 1 CMD v] ++ heads s.mem n) } := by
  unfold enableDevice
  simp only
  split
  · rename_i hv
    refine ⟨ans c (cmd s ENABLE) 1 CMD, 0, by omega, (fun h => absurd h hv), ?_⟩
    simp only [cmd, wr, rd, heads, List.append_assoc, List.cons_append, List.nil_append]
  · refine ⟨ans c (cmd s ENABLE) 1 CMD, s.rxq, Nat.le_refl _, fun _ => rfl, ?_⟩
    rw [headRounds_eq]
    simp only [cmd, wr, rd, List.append_assoc, List.cons_append, List.nil_append]

theorem link_ok (c : Card) (s : Drv) : ∃ v v', linkStatus c s =
    { s with log := s.log ++ [.wr 1 CMD GET_LINK s.mem, .rd 1 CMD v, .wr 1 CMD GET_LINK s.mem, .rd 1 CMD v'],
             link := decide (v' % 2 = 1) } := by
  refine ⟨ans c (cmd s GET_LINK) 1 CMD, ans c (cmd (rd c (cmd s GET_LINK) 1 CMD) GET_LINK) 1 CMD, ?_⟩
  unfold linkStatus
  simp only
  generalize hv : ans c (cmd (rd c (cmd s GET_LINK) 1 CMD) GET_LINK) 1 CMD = v'
  have hl : (rd c (cmd (rd c (cmd s GET_LINK) 1 CMD) GET_LINK) 1 CMD).log =
      s.log ++ [.wr 1 CMD GET_LINK s.mem, .rd 1 CMD (ans c (cmd s GET_LINK) 1 CMD), .wr 1 CMD GET_LINK s.mem, .rd 1 CMD v'] := by
    rw [← hv]
    simp only [rd, cmd, wr, List.append_assoc, List.cons_append, List.nil_append]
  have hk : (rd c (cmd (rd c (cmd s GET_LINK) 1 CMD) GET_LINK) 1 CMD).link = s.link := rfl
  have key : ∀ t : Drv, t.ntx = s.ntx → t.nrx = s.nrx → t.mem = s.mem → t.txq = s.txq → t.rxq = s.rxq → t.mac = s.mac →
      t.log = s.log ++ [.wr 1 CMD GET_LINK s.mem, .rd 1 CMD (ans c (cmd s GET_LINK) 1 CMD), .wr 1 CMD GET_LINK s.mem, .rd 1 CMD v'] →
      t.link = decide (v' % 2 = 1) → t = { s with log := s.log ++ [.wr 1 CMD GET_LINK s.mem, .rd 1 CMD (ans c (cmd s GET_LINK) 1 CMD), .wr 1 CMD GET_LINK s.mem, .rd 1 CMD v'], link := decide (v' % 2 = 1) } := by
    intro t h1 h2 h3 h4 h5 h6 h7 h8
    cases t
    simp only at h1 h2 h3 h4 h5 h6 h7 h8
    subst h1 h2 h3 h4 h5 h6 h7 h8
    rfl
  apply key
  iterate 6
    · split
      · rfl
      · split <;> rfl
  · split
    · exact hl
    · split <;> exact hl
  · rw [hk]
    rcases Nat.mod_two_eq_zero_or_one v' with hb | hb <;> cases hsl : s.link <;> simp [hb, hk, hsl]

end NRK.Nic
