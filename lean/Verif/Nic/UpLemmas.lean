import Verif.Nic.LogLemmas
/-!
# Lemmas: all of bringing up the card
-/

namespace NRK.Nic

theorem modlevels_other (m : Mem) (d b k : Nat) : ∀ n, b + k ≤ d + 83 ∨ d + 83 + n ≤ b →
    at' (modlevels m d n) b k = at' m b k
  | 0, _ => rfl
  | n + 1, h => by
    rw [modlevels, at'_put_other _ _ _ _ _ _ (by omega)]
    exact modlevels_other m d b k n (by omega)

theorem modlevels_same (m : Mem) (d i : Nat) : ∀ n, i < n → at' (modlevels m d n) (d + 83 + i) 1 = 8
  | 0, h => by omega
  | n + 1, h => by
    rw [modlevels]
    by_cases e : i = n
    · subst e; rw [at'_put_same]
    · rw [at'_put_other _ _ _ _ _ _ (by omega)]
      exact modlevels_same m d i n (by omega)

/-- The fields of the shared record that do not depend on the numbers of queues that are told. -/
structure Shared (m : Mem) (d ntx nrx qs : Nat) : Prop where
  magic : at' m d 4 = 3133079265
  version : at' m (d + 8) 4 = 65536
  guest : at' m (d + 12) 4 = 18
  revision : at' m (d + 16) 4 = 1
  upt : at' m (d + 20) 4 = 1
  features : at' m (d + 24) 8 = 0
  queues : at' m (d + 40) 8 = qs
  queuesLen : at' m (d + 52) 4 = 256 * (ntx + nrx)
  mtu : at' m (d + 56) 4 = 1500
  automask : at' m (d + 80) 1 = 1
  vectors : at' m (d + 81) 1 = nrx + ntx + 1
  event : at' m (d + 82) 1 = nrx
  moderation : ∀ i, i < nrx + ntx + 1 → at' m (d + 83 + i) 1 = 8
  masked : at' m (d + 108) 4 = 1
  rxmode : at' m (d + 120) 4 = 5

theorem bounded_le (low high n : Nat) (h : low ≤ high) : low ≤ bounded low high n ∧ bounded low high n ≤ high := by
  unfold bounded; omega

/-- The memory of the shared record after `new`. -/
theorem new_shared (al : Alloc) (ntx nrx : Nat) (m : Mem) (h1 : ntx ≤ 8) (h2 : nrx ≤ 16) (hq : al.addr .qs < 2 ^ 64) :
    let m' := setDriverData (dsNew m (al.addr .ds) (nrx + ntx + 1) nrx (al.addr .qs) (areaSize ntx nrx)) (al.addr .ds) al.vmx al.vmxSize
    let d := al.addr .ds
    at' m' d 4 = 3133079265 ∧ at' m' (d + 8) 4 = 65536 ∧ at' m' (d + 12) 4 = 18 ∧ at' m' (d + 16) 4 = 1 ∧
      at' m' (d + 20) 4 = 1 ∧ at' m' (d + 40) 8 = al.addr .qs ∧ at' m' (d + 52) 4 = 256 * (ntx + nrx) ∧
      at' m' (d + 80) 1 = 1 ∧ at' m' (d + 81) 1 = nrx + ntx + 1 ∧ at' m' (d + 82) 1 = nrx ∧
      (∀ i, i < nrx + ntx + 1 → at' m' (d + 83 + i) 1 = 8) ∧ at' m' (d + 108) 4 = 1 ∧ at' m' (d + 120) 4 = 5 := by
  simp only
  generalize al.addr .ds = d
  unfold setDriverData dsNew
  simp only
  refine ⟨?_, ?_, ?_, ?_, ?_, ?_, ?_, ?_, ?_, ?_, ?_, ?_, ?_⟩
  rotate_left 10
  · intro i hi
    rw [at'_put_other _ _ _ _ _ _ (by omega), at'_put_other _ _ _ _ _ _ (by omega)]
    exact modlevels_same _ _ _ _ hi
  all_goals
    rw [at'_put_other _ _ _ _ _ _ (by omega), at'_put_other _ _ _ _ _ _ (by omega), modlevels_other _ _ _ _ _ (by omega)]
    repeat rw [at'_put_other _ _ _ _ _ _ (by omega)]
    rw [at'_put_same]
  · exact Nat.mod_eq_of_lt hq
  · unfold areaSize
    rw [Nat.mod_eq_of_lt (by omega)]; omega
  · exact Nat.mod_eq_of_lt (by omega)
  · exact Nat.mod_eq_of_lt (by omega)

/-- All that is known when the card has been brought up. -/
structure Up (al : Alloc) (dbg : Bool) (ntx nrx : Nat) (s : Drv) : Prop where
  log : ∃ m1 m v0 v1 v2 low high ve n vl vl',
    s.log = ([.wr 1 CMD GET_INTRCFG m1, .rd 1 CMD v0, .rd 1 VRRS v1, .wr 1 VRRS 1 m1, .rd 1 UVRS v2, .wr 1 UVRS 1 m1,
      .wr 1 CMD GET_MACL m1, .rd 1 CMD low, .wr 1 CMD GET_MACH m1, .rd 1 CMD high, .wr 1 MACL low m1,
      .wr 1 MACH (high % 65536) m1, .wr 1 DSL (al.addr .ds % 4294967296) m,
      .wr 1 DSH (al.addr .ds / 4294967296 % 4294967296) m] ++ .wr 1 CMD ENABLE m :: (.rd 1 CMD ve :: heads m n ++
      [.wr 1 CMD GET_LINK m, .rd 1 CMD vl, .wr 1 CMD GET_LINK m, .rd 1 CMD vl'])) ∧
    (v0 = 0 ∨ v0 = 3) ∧ v1 % 2 = 1 ∧ v2 % 2 = 1 ∧ low < 4294967296 ∧ s.mac = macOf low high ∧
    (dbg = true → (macOf low high).take 5 = [86, 180, 68, 233, 98]) ∧ (ve = 0 → n = nrx) ∧
    s.link = decide (vl' % 2 = 1) ∧ Shared m (al.addr .ds) ntx nrx (al.addr .qs) ∧
    at' m (al.addr .ds + 62) 1 = nrx ∧ at' m (al.addr .ds + 63) 1 = ntx ∧
    (∀ i, i < ntx → txQueue m (al.addr .qs + 256 * i) = ⟨al.addr (.txc i), 512, 0, 0, al.addr (.txd i), 512⟩ ∧
      Zeroed al ntx nrx (.txc i) m ∧ Zeroed al ntx nrx (.txd i) m) ∧
    (∀ i, i < nrx → rxQueue m (al.addr .qs + 256 * ntx + 256 * i) = ⟨al.addr (.rxc i), 512, 0, 0, al.addr (.rxd i), 512⟩ ∧
      Zeroed al ntx nrx (.rxc i) m ∧ Zeroed al ntx nrx (.rxd i) m)

theorem new_ok {al : Alloc} {nrx trx : Nat} {m : Mem} {s : Drv} (h : new al nrx trx m = .ok s) :
    s = ⟨bounded 1 8 trx, bounded 1 16 nrx,
      setDriverData (dsNew (put m (al.addr .qs) (areaSize (bounded 1 8 trx) (bounded 1 16 nrx)) 0) (al.addr .ds)
        (bounded 1 16 nrx + bounded 1 8 trx + 1) (bounded 1 16 nrx) (al.addr .qs)
        (areaSize (bounded 1 8 trx) (bounded 1 16 nrx))) (al.addr .ds) al.vmx al.vmxSize,
      [], 0, 0, false, [0, 0, 0, 0, 0, 0]⟩ := by
  unfold new at h
  simp only at h
  split at h
  · exact absurd h (by simp)
  split at h
  · exact absurd h (by simp)
  exact (Res.ok.inj h).symm

theorem bringUp_up {dbg : Bool} {al : Alloc} {c : Card} {nrx trx : Nat} {m0 : Mem} {s : Drv}
    (h : bringUp dbg al c nrx trx m0 = .ok s) (hs : al.Separate (bounded 1 8 trx) (bounded 1 16 nrx))
    (hw : ∀ r, al.addr r < 2 ^ 64) : Up al dbg (bounded 1 8 trx) (bounded 1 16 nrx) s := by
  obtain ⟨t2, h, hi⟩ := andThen_ok h
  obtain ⟨t1, hn, ha⟩ := andThen_ok h
  have hn := new_ok hn
  have b1 := bounded_le 1 8 trx (by omega)
  have b2 := bounded_le 1 16 nrx (by omega)
  generalize hx : bounded 1 8 trx = ntx at *
  generalize hy : bounded 1 16 nrx = nrx' at *
  have hsh := new_shared al ntx nrx' (put m0 (al.addr .qs) (areaSize ntx nrx') 0) b1.2 b2.2 (hw _)
  simp only at hsh
  generalize hm1 : setDriverData (dsNew (put m0 (al.addr .qs) (areaSize ntx nrx') 0) (al.addr .ds)
    (nrx' + ntx + 1) nrx' (al.addr .qs) (areaSize ntx nrx')) (al.addr .ds) al.vmx al.vmxSize = m1 at *
  subst hn
  obtain ⟨v0, v1, v2, p0, p1, p2, hlog, e1, e2, e3, e4, e5, hd⟩ := attachPre_ok ha hs hw rfl ⟨rfl, rfl⟩
  simp only at e1 e2 e3 e4 e5 hd
  obtain ⟨t3, ht3, hi⟩ := andThen_ok hi
  obtain ⟨low, high, q0, q1, q2, q3, q4, q5, q6, q7, q8, q9⟩ := setMac_ok ht3
  have hi := Res.ok.inj hi
  -- the memory that is told to the card
  generalize hm : (reinitShared al t3).mem = m at *
  have hr : reinitShared al t3 = { t3 with mem := m, log := t3.log ++ [.wr 1 DSL (al.addr .ds % 4294967296) m, .wr 1 DSH (al.addr .ds / 4294967296 % 4294967296) m] } := by
    rw [← hm]
    simp only [reinitShared, wr, List.append_assoc, List.cons_append, List.nil_append]
  have hmm : m = put (put (put (put t2.mem (al.addr .ds + 56) 4 (bounded 1 9000 1500)) (al.addr .ds + 62) 1 nrx')
      (al.addr .ds + 63) 1 ntx) (al.addr .ds + 24) 8 0 := by
    rw [← hm]
    simp only [reinitShared, wr, q4, q5, q6, e1, e2]
  obtain ⟨ve, n, _, n2, hen⟩ := enable_ok c (reinitShared al t3)
  obtain ⟨vl, vl', hlk⟩ := link_ok c (enableDevice c (reinitShared al t3))
  have ho : Only al ntx nrx' .ds t2.mem m := by
    rw [hmm]
    have hz : (Rid.ds).size ntx nrx' = 720 := rfl
    apply only_put _ _ _ _ _ _ _ _ _ _ (by omega) (by omega)
    apply only_put _ _ _ _ _ _ _ _ _ _ (by omega) (by omega)
    apply only_put _ _ _ _ _ _ _ _ _ _ (by omega) (by omega)
    apply only_put _ _ _ _ _ _ _ _ _ _ (by omega) (by omega)
    exact fun _ _ => rfl
  have hqs : ∀ x, al.addr .qs ≤ x → x < al.addr .qs + areaSize ntx nrx' → m x = t2.mem x := fun x h1 h2 =>
    only_byte (s := .qs) ho hs trivial trivial (by simp) x h1 h2
  have hz : ∀ t : Rid, t.Valid ntx nrx' → Rid.ds ≠ t → Zeroed al ntx nrx' t t2.mem → Zeroed al ntx nrx' t m :=
    fun t ht hne hz x h1 h2 => by rw [only_byte ho hs trivial ht hne x h1 h2]; exact hz x h1 h2
  have har : areaSize ntx nrx' = 256 * nrx' + 256 * ntx := rfl
  have hkeep : ∀ k w, k + w ≤ 24 ∨ (32 ≤ k ∧ k + w ≤ 56) ∨ (64 ≤ k ∧ k + w ≤ 720) →
      at' m (al.addr .ds + k) w = at' m1 (al.addr .ds + k) w := by
    intro k w hk
    rw [hmm]
    repeat rw [at'_put_other _ _ _ _ _ _ (by omega)]
    exact at'_congr w _ (fun x h1 h2 => hd.ds x (by omega) (by omega))
  obtain ⟨g1, g2, g3, g4, g5, g6, g7, g8, g9, g10, g11, g12, g13⟩ := hsh
  have k0 : at' m (al.addr .ds) 4 = at' m1 (al.addr .ds) 4 := hkeep 0 4 (by omega)
  refine ⟨⟨t2.mem, m, v0, v1, v2, low, high, ve, n, vl, vl', ?_, p0, p1, p2, q0, ?_, q2, ?_, ?_, ?_, ?_, ?_, ?_, ?_⟩⟩
  · rw [← hi, hlk, hen]
    simp only [hr, q3, hlog, List.cons_append, List.nil_append]
  · rw [← hi, hlk, hen]
    simp only [hr]
    exact q1
  · intro hv
    rw [n2 hv, hr]
    exact q9.trans e5
  · rw [← hi, hlk]
  · refine ⟨k0.trans g1, (hkeep 8 4 (by omega)).trans g2, (hkeep 12 4 (by omega)).trans g3, (hkeep 16 4 (by omega)).trans g4,
      (hkeep 20 4 (by omega)).trans g5, ?_, (hkeep 40 8 (by omega)).trans g6, (hkeep 52 4 (by omega)).trans g7, ?_,
      (hkeep 80 1 (by omega)).trans g8, (hkeep 81 1 (by omega)).trans g9, (hkeep 82 1 (by omega)).trans g10, ?_,
      (hkeep 108 4 (by omega)).trans g12, (hkeep 120 4 (by omega)).trans g13⟩
    · rw [hmm, at'_put_same]
    · rw [hmm]
      rw [at'_put_other _ _ _ _ _ _ (by omega), at'_put_other _ _ _ _ _ _ (by omega), at'_put_other _ _ _ _ _ _ (by omega), at'_put_same]
      rfl
    · intro i hi
      have := hkeep (83 + i) 1 (by omega)
      rw [← Nat.add_assoc] at this
      exact this.trans (g11 i hi)
  · rw [hmm, at'_put_other _ _ _ _ _ _ (by omega), at'_put_other _ _ _ _ _ _ (by omega), at'_put_same]
    exact Nat.mod_eq_of_lt (by omega)
  · rw [hmm, at'_put_other _ _ _ _ _ _ (by omega), at'_put_same]
    exact Nat.mod_eq_of_lt (by omega)
  · intro i hi
    refine ⟨?_, hz _ hi (by simp) (hd.txz i hi).1, hz _ hi (by simp) (hd.txz i hi).2⟩
    rw [← hd.tx i hi]
    exact txQueue_congr _ (fun x h1 h2 => hqs x (by omega) (by omega))
  · intro i hi
    refine ⟨?_, hz _ hi (by simp) (hd.rxz i hi).1, hz _ hi (by simp) (hd.rxz i hi).2⟩
    rw [← hd.rx i hi]
    exact rxQueue_congr _ (fun x h1 h2 => hqs x (by omega) (by omega))

end NRK.Nic
