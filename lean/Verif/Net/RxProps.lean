import Verif.Net.RxDeq

/-!
# C75: frames are received once, in order, into the buffers that were given for them

The steps are those of `RxOk`; the ring has at least 4 entries (the driver is used with 512, `vmx.rs`, line 225).
-/

namespace NRK.Net

theorem RInv.init {n : Nat} (hn : 4 ≤ n) : RInv (RxSt.new n) := by
  refine ⟨⟨0, 0, 0, ?_, ?_, ?_⟩, rfl, ?_, ?_⟩
  · refine ⟨hn, fun c h => (by simp [RxSt.new] at h), ?_, ?_, ?_, ?_, ?_, Nat.le_refl _, Nat.zero_le _⟩
    · simp [RxSt.new, RxQ.new]
    · simp [RxSt.new, RxQ.new, par]
    · show 0 = 2 * 0 ∧ 2 * 0 + 2 ≤ n + 2 * 0
      omega
    · intro i _ h; omega
    · refine ⟨fun i h => by omega, fun i _ _ => rfl⟩
  · refine ⟨?_, ?_, ?_, fun f h => (by simp [RxSt.new, RxDev.new] at h), Nat.le_refl _, ?_, ?_,
      fun f h => (by simp [RxSt.new, RxDev.new] at h)⟩
    · simp [RxSt.new, RxDev.new]
    · simp [RxSt.new, RxDev.new, par]
    · simp [RxSt.new, RxDev.new]
    · simp [RxSt.new, RxWriter.chain, addrs]
    · intro k f _ h; simp [RxSt.new] at h
  · refine ⟨Nat.le_refl _, ?_, ?_, ?_, ?_, ?_, ?_, ?_, ?_, ?_⟩
    · simp [RxSt.new, RxDev.new, allKeys, midKeys]
    · simp [RxSt.new, RxDev.new, allKeys, midKeys]
    · simp [RxSt.new, RxQ.new, fragCount]
    · simp [RxSt.new, RxQ.new, par, fragCount]
    · simp [RxSt.new, RxDev.new]
    · simp [RxSt.new, RxDev.new, par]
    · simp only [RxSt.new, RxQ.new]; omega
    · intro k _ h; omega
    · refine ⟨fun i h => by omega, fun i _ _ => rfl⟩
  · intro k g h; simp [RxSt.new] at h
  · intro f h; simp [RxSt.new] at h

theorem RInv.next {s s' : RxSt} {a : RxAct} (h : RInv s) (ha : RxOk s a) (he : s.step a = .ok s') : RInv s' := by
  cases a with
  | enqueue c => exact h.enqueue ha he
  | write =>
    by_cases hw : s.w = .idle
    · simp [RxSt.step, hw] at he
    · obtain ⟨s2, h1, h2⟩ := h.write hw
      rw [he] at h1
      cases h1
      exact h2
  | dequeue =>
    by_cases hw : s.w = .idle
    · obtain ⟨s2, h1, h2, _⟩ := h.dequeue hw
      rw [he] at h1
      cases h1
      exact h2
    · cases hs : s.w with
      | idle => exact absurd hs hw
      | busy => simp [RxSt.step, hs] at he
  | devPass => exact h.devPass he
  | devHead f l e => exact h.devHead he
  | devBody f e => exact h.devBody he
  | devComp => exact h.devComp he
  | devZero => exact ha.elim

theorem RxRun.inv {n : Nat} (hn : 4 ≤ n) {s : RxSt} (h : RxRun n RxOk s) : RInv s := by
  induction h with
  | init => exact RInv.init hn
  | step a _ ha he ih => exact ih.next ha he

/-- The frames `dequeue` returns are the frames the device received, in order and without a gap; each one comes in
the buffers that were handed in for it. -/
theorem c75_received_partial {n : Nat} (hn : 4 ≤ n) {s : RxSt} (h : RxRun n RxOk s) :
    s.got.length ≤ s.frames.length ∧
    ∀ k, k < s.got.length → ∃ c f g, s.accepted[k]? = some c ∧ s.frames[k]? = some f ∧ s.got[k]? = some g ∧
      Receives c f g := by
  have hi := h.inv hn
  obtain ⟨W, D, C, hc, hd, hp⟩ := hi.ex
  refine ⟨hd.gf, fun k hk => ?_⟩
  obtain ⟨c, f, h1, h2, h3⟩ := hi.got k _ (List.getElem?_eq_getElem hk)
  exact ⟨c, f, _, h1, h2, List.getElem?_eq_getElem hk, h3⟩

/-- No step trips an assertion of the driver. -/
theorem c75_no_panic_partial {n : Nat} (hn : 4 ≤ n) {s : RxSt} (h : RxRun n RxOk s) {a : RxAct} (ha : RxOk s a) :
    s.step a ≠ .panic := by
  have hi := h.inv hn
  cases a with
  | enqueue c =>
    obtain ⟨a, b, hs, _⟩ := ha
    simp only [RxSt.step]
    split
    · simp only [RxQ.admit, hs, List.length_cons, List.length_nil]
      by_cases hroom : s.q.n - s.q.len < 0 + 1 + 1
      · simp [if_pos hroom]
      · simp [if_neg hroom]
    · simp
  | write =>
    by_cases hw : s.w = .idle
    · simp [RxSt.step, hw]
    · obtain ⟨s2, h1, h2⟩ := hi.write hw
      simp [h1]
  | dequeue =>
    by_cases hw : s.w = .idle
    · obtain ⟨s2, h1, h2, _⟩ := hi.dequeue hw
      simp [h1]
    · cases hs : s.w with
      | idle => exact absurd hs hw
      | busy => simp [RxSt.step, hs]
  | devPass => simp only [RxSt.step]; split <;> simp
  | devHead f l e => simp only [RxSt.step]; split <;> simp
  | devBody f e =>
    simp only [RxSt.step]
    split
    · simp
    · split <;> simp
  | devComp => simp only [RxSt.step]; split <;> simp
  | devZero => exact ha.elim

/-- A frame that is complete and reported is what the next `dequeue` returns. -/
theorem c75_available_partial {n : Nat} (hn : 4 ≤ n) {s : RxSt} (h : RxRun n RxOk s) (hw : s.w = .idle)
    (hf : s.got.length < s.frames.length) (hr : s.dev.pend = []) :
    ∃ s', s.step .dequeue = .ok s' ∧ s'.got.length = s.got.length + 1 := by
  obtain ⟨s', h1, _, h3⟩ := (h.inv hn).dequeue hw
  refine ⟨s', h1, ?_⟩
  rcases h3 with h3 | ⟨_, h3 | h3⟩
  · exact h3
  · omega
  · exact absurd hr h3

/-- The device writes to no memory but the buffers that are lent to it: those of chains that were handed in and not
given back, or that `enqueue` is just handing in. -/
theorem c75_dma_partial {n : Nat} (hn : 4 ≤ n) {s s' : RxSt} (h : RxRun n RxOk s) {a : RxAct} (he : s.step a = .ok s')
    {x : Nat} (hx : s'.mem x ≠ s.mem x) :
    ∃ c, c ∈ s.accepted.drop s.got.length ++ s.w.chain ∧ x ∈ c.segs.map Seg.addr := by
  have hi := h.inv hn
  obtain ⟨W, D, C, hc, hd, hp⟩ := hi.ex
  have key : (s.q.ring s.dev.next).gen = s.dev.gen →
      ∃ c, c ∈ s.accepted.drop s.got.length ++ s.w.chain ∧ (s.q.ring s.dev.next).addr ∈ c.segs.map Seg.addr ∨
        D / 2 < s.got.length := by
    intro hg
    rw [hd.next, hd.gen] at hg
    obtain ⟨c, sg, h1, h2, h3⟩ := hc.cont D (Nat.le_refl _) (hc.owned hg)
    refine ⟨c, ?_⟩
    rcases Nat.lt_or_ge (D / 2) s.got.length with hlt | hge
    · exact .inr hlt
    · left
      constructor
      · have hgl : s.got.length ≤ s.accepted.length := by
          rcases Nat.eq_zero_or_pos s.got.length with h0 | h0
          · omega
          · obtain ⟨c', f, h2, _⟩ := hi.got (s.got.length - 1) _ (List.getElem?_eq_getElem (by omega))
            have := (List.getElem?_eq_some_iff.1 h2).1
            omega
        rw [← List.drop_append_of_le_length hgl]
        have : ((s.accepted ++ s.w.chain).drop s.got.length)[D / 2 - s.got.length]? = some c := by
          rw [List.getElem?_drop, Nat.add_sub_cancel' hge]; exact h1
        exact List.mem_of_getElem? this
      · rw [hd.next, h3.1]
        exact List.mem_map_of_mem (List.mem_of_getElem? h2)
  have hG := hd.gf
  have hpos := hd.pos
  cases a with
  | enqueue c =>
    simp only [RxSt.step] at he
    split at he
    · split at he <;> simp at he <;> subst he <;> exact absurd rfl hx
    · simp at he
  | write =>
    simp only [RxSt.step] at he
    split at he
    · simp at he
    · split at he <;> simp at he
      subst he; exact absurd rfl hx
    · simp only [Res.ok.injEq] at he; subst he; exact absurd rfl hx
  | dequeue =>
    simp only [RxSt.step] at he
    split at he
    · split at he <;> simp at he <;> subst he <;> exact absurd rfl hx
    · simp at he
  | devPass =>
    simp only [RxSt.step] at he
    split at he
    · simp only [Res.ok.injEq] at he; subst he; exact absurd rfl hx
    · simp at he
  | devHead f l e =>
    simp only [RxSt.step] at he
    split at he
    · rename_i hcond
      simp only [Res.ok.injEq] at he
      subst he
      by_cases hxa : x = (s.q.ring s.dev.next).addr
      · obtain ⟨c, hk | hk⟩ := key hcond.1
        · exact ⟨c, hxa ▸ hk⟩
        · obtain ⟨h1, h2, h3, _⟩ := hcond
          have hg := h1
          rw [hd.next, hd.gen] at hg
          obtain ⟨c, sg, _, _, h5⟩ := hc.cont D (Nat.le_refl _) (hc.owned hg)
          rw [hd.next, h5.2.2] at h2
          simp only [decide_eq_true_eq] at h2
          simp only [h3, Option.toList_none, List.length_nil, Nat.add_zero] at hpos
          omega
      · exact absurd (put_ne _ _ hxa) hx
    · simp at he
  | devBody f e =>
    simp only [RxSt.step] at he
    split at he
    · simp at he
    · rename_i f0 hm
      split at he
      · rename_i hcond
        simp only [Res.ok.injEq] at he
        subst he
        by_cases hxa : x = (s.q.ring s.dev.next).addr
        · obtain ⟨c, hk | hk⟩ := key hcond.1
          · exact ⟨c, hxa ▸ hk⟩
          · have := hd.odd f0 hm
            omega
        · exact absurd (put_ne _ _ hxa) hx
      · simp at he
  | devComp =>
    simp only [RxSt.step] at he
    split at he
    · simp at he
    · simp only [Res.ok.injEq] at he; subst he; exact absurd rfl hx
  | devZero =>
    simp only [RxSt.step] at he
    split at he
    · simp only [Res.ok.injEq] at he; subst he; exact absurd rfl hx
    · simp at he

/-- As long as a chain is there for it the device can put the next frame of any size that fits the first buffer into
memory, after at most one BODY it passes over. -/
theorem c75_ready_partial {n : Nat} (hn : 4 ≤ n) {s : RxSt} (h : RxRun n RxOk s) (hm : s.dev.mid = none)
    {c : Chain} {a b : Seg} (hc : s.accepted[s.frames.length]? = some c) (hs : c.segs = [a, b]) :
    ∃ s', (s' = s ∨ s.step .devPass = .ok s') ∧ s'.frames = s.frames ∧ s'.accepted = s.accepted ∧
      ∀ (f : Frag) last err, 0 < f.length → f.length ≤ a.len → ∃ s'', s'.step (.devHead f last err) = .ok s'' := by
  have key : ∀ t : RxSt, RxRun n RxOk t → t.dev.mid = none → t.accepted = s.accepted → t.frames = s.frames →
      t.dev.next = (2 * t.frames.length) % t.q.n → t.dev.gen = par t.q.n (2 * t.frames.length) →
      (∃ W, RCmd t.q t.w t.accepted t.got.length W (2 * t.frames.length)) →
      ∀ (f : Frag) last err, 0 < f.length → f.length ≤ a.len → ∃ s'', t.step (.devHead f last err) = .ok s'' := by
    intro t ht htm hta htf hnx hgn hex f last err h0 hle
    obtain ⟨W, hcm⟩ := hex
    have hlt : 2 * t.frames.length < W := by
      have hl := (List.getElem?_eq_some_iff.1 hc).1
      rw [← hta, ← htf] at hl
      have hwr := hcm.wr
      cases hw : t.w with
      | idle => rw [hw] at hwr; simp only [RWrOk] at hwr; omega
      | busy c i r m =>
        rw [hw] at hwr
        obtain ⟨_, ⟨dn, _, _, hW⟩, _⟩ := hwr
        omega
    have hb := hcm.bound
    obtain ⟨c', sg, h1, h2, h3⟩ := hcm.cont _ (Nat.le_refl _) hlt
    have hgen := hcm.gens.g1 _ hlt (by omega)
    have e1 : 2 * t.frames.length / 2 = t.frames.length := by omega
    have e2 : 2 * t.frames.length % 2 = 0 := by omega
    have hl := (List.getElem?_eq_some_iff.1 hc).1
    rw [e1, List.getElem?_append_left (by rw [hta, htf]; exact hl), hta, htf, hc] at h1
    cases h1
    rw [e2, hs] at h2
    simp only [List.getElem?_cons_zero, Option.some.injEq] at h2
    subst h2
    simp only [rcell, e2, decide_true] at h3
    simp only [RxSt.step]
    refine ⟨_, if_pos ⟨?_, ?_, htm, h0, ?_⟩⟩
    · rw [hnx, hgn]; exact hgen
    · rw [hnx]; exact h3.2.2
    · rw [hnx, h3.2.1]; exact hle
  obtain ⟨W, D, C, hcm, hd, hp⟩ := (h.inv hn).ex
  have hpos := hd.pos
  simp only [hm, Option.toList_none, List.length_nil, Nat.add_zero] at hpos
  rcases hpos with hpos | hpos
  · subst hpos
    exact ⟨s, .inl rfl, rfl, rfl, key s h hm rfl rfl hd.next hd.gen ⟨W, hcm⟩⟩
  · have hlt : D < W := by
      have hl := (List.getElem?_eq_some_iff.1 hc).1
      have hwr := hcm.wr
      cases hw : s.w with
      | idle => rw [hw] at hwr; simp only [RWrOk] at hwr; omega
      | busy c i r m =>
        rw [hw] at hwr
        obtain ⟨_, ⟨dn, _, _, hW⟩, _⟩ := hwr
        omega
    have hb := hcm.bound
    obtain ⟨c', sg, h1, h2, h3⟩ := hcm.cont _ (Nat.le_refl _) hlt
    have hgen : (s.q.ring (D % s.q.n)).gen = par s.q.n D := hcm.gens.g1 _ hlt (by omega)
    have hhd : (s.q.ring (D % s.q.n)).head = false := by
      rw [h3.2.2]; simp only [decide_eq_false_iff_not]; omega
    have hadv := adv_par (n := s.q.n) (i := D) (by have := hcm.n4; omega)
    have hst : s.step .devPass = .ok { s with dev := { s.dev with
        next := (2 * s.frames.length) % s.q.n
        gen := par s.q.n (2 * s.frames.length) } } := by
      simp only [RxSt.step, hd.next, hd.gen, hgen, hhd, hm, hadv, hpos, and_self, if_true]
    refine ⟨_, .inr hst, rfl, rfl, key _ (.step .devPass h trivial hst) hm rfl rfl rfl rfl ⟨W, ?_⟩⟩
    rw [← hpos]
    exact hcm.advance hlt

/-! ## As `DevQueuePhy` uses the queue -/

/-- The steps of `DevQueuePhy::receive` (`lib/vmxnet3/src/smoltcp.rs`): a new chain is handed in only when none is
outstanding.  The device fits every frame into the first buffer. -/
def RxPhy (s : RxSt) : RxAct → Prop
  | .enqueue c => s.q.inflight = [] ∧ ∃ a b, c.segs = [a, b] ∧ a.len < 2 ^ 14 ∧ b.len < 2 ^ 14 ∧ a.addr ≠ b.addr
  | .devHead _ last _ => last = true
  | .devZero => False
  | _ => True

/-- Frames of one piece only. -/
def Single (s : RxSt) : Prop := s.dev.mid = none ∧ ∀ f ∈ s.frames, f.frags.length = 1

theorem RxPhy.ok {s : RxSt} {a : RxAct} (hn : 4 ≤ s.q.n) (h : RxPhy s a) : RxOk s a := by
  cases a with
  | enqueue c =>
    obtain ⟨hi, a, b, hs, h1, h2, h3⟩ := h
    refine ⟨a, b, hs, h1, h2, ?_, ?_⟩
    · rw [hi]
      simp [lent, h3]
    · rw [hi]
      simpa using hn
  | devZero => exact h
  | _ => trivial

theorem Single.next {s s' : RxSt} {a : RxAct} (h : Single s) (ha : RxPhy s a) (he : s.step a = .ok s') : Single s' := by
  obtain ⟨h1, h2⟩ := h
  cases a with
  | enqueue c =>
    simp only [RxSt.step] at he
    split at he
    · split at he <;> simp at he <;> subst he <;> exact ⟨h1, h2⟩
    · simp at he
  | write =>
    simp only [RxSt.step] at he
    split at he
    · simp at he
    · split at he <;> simp at he
      subst he; exact ⟨h1, h2⟩
    · simp only [Res.ok.injEq] at he; subst he; exact ⟨h1, h2⟩
  | dequeue =>
    simp only [RxSt.step] at he
    split at he
    · split at he <;> simp at he <;> subst he <;> exact ⟨h1, h2⟩
    · simp at he
  | devPass =>
    simp only [RxSt.step] at he
    split at he
    · simp only [Res.ok.injEq] at he; subst he; exact ⟨h1, h2⟩
    · simp at he
  | devHead f l e =>
    simp only [RxPhy] at ha
    subst ha
    simp only [RxSt.step] at he
    split at he
    · simp only [Res.ok.injEq] at he
      subst he
      refine ⟨rfl, fun f hf => ?_⟩
      simp only [if_true, List.mem_append, List.mem_singleton] at hf
      rcases hf with hf | rfl
      · exact h2 f hf
      · rfl
    · simp at he
  | devBody f e =>
    simp only [RxSt.step, h1] at he
    simp at he
  | devComp =>
    simp only [RxSt.step] at he
    split at he
    · simp at he
    · simp only [Res.ok.injEq] at he; subst he; exact ⟨h1, h2⟩
  | devZero => exact ha.elim

theorem RxRun.phy {n : Nat} (hn : 4 ≤ n) {s : RxSt} (h : RxRun n RxPhy s) : RxRun n RxOk s ∧ Single s := by
  induction h with
  | init => exact ⟨.init, rfl, fun f h => (by simp [RxSt.new] at h)⟩
  | step a _ ha he ih =>
    obtain ⟨h1, h2⟩ := ih
    obtain ⟨W, D, C, hc, _⟩ := (h1.inv hn).ex
    exact ⟨.step a h1 (ha.ok hc.n4) he, h2.next ha he⟩

theorem fragCount_single {fs : List Frame} (h : ∀ f ∈ fs, f.frags.length = 1) : fragCount fs = fs.length := by
  induction fs with
  | nil => rfl
  | cons a fs ih =>
    have h1 := ih (fun f hf => h f (List.mem_cons_of_mem _ hf))
    have h2 := h a List.mem_cons_self
    simp only [fragCount, List.map_cons, List.sum_cons, List.length_cons] at h1 ⊢
    omega

theorem twice_mod {n k : Nat} (hn : 4 ≤ n) :
    (if 2 * k % n > k % n then 2 * k % n - k % n else k % n - 2 * k % n) + 2 ≤ n := by
  have h1 := Nat.mod_lt k (show 0 < n by omega)
  have h2 : 2 * k % n = 2 * (k % n) % n := by rw [Nat.mul_mod, Nat.mul_mod 2 (k % n), Nat.mod_mod]
  rw [h2]
  generalize k % n = r at h1
  rcases Nat.lt_or_ge (2 * r) n with h | h
  · rw [Nat.mod_eq_of_lt h]
    split <;> omega
  · rw [Nat.mod_eq_sub_mod h, Nat.mod_eq_of_lt (by omega)]
    split <;> omega

/-- Used in this way, the queue takes every chain: the assertion in `DevQueuePhy::receive` holds. -/
theorem c75_phy_partial {n : Nat} (hn : 4 ≤ n) {s : RxSt} (h : RxRun n RxPhy s) (hw : s.w = .idle) {c : Chain}
    (ha : RxPhy s (.enqueue c)) : s.step (.enqueue c) = .ok { s with w := .busy c 0 c.segs false } := by
  obtain ⟨h1, _, hsg⟩ := h.phy hn
  have hi := h1.inv hn
  obtain ⟨W, D, C, hc, hd, hp⟩ := hi.ex
  obtain ⟨hinf, a, b, hs, _⟩ := ha
  have hwr := hc.wr
  rw [hw] at hwr
  simp only [RWrOk] at hwr
  have hle : s.accepted.length ≤ s.got.length := by
    have := hi.fl
    rw [hinf] at this
    exact List.drop_eq_nil_iff.1 this.symm
  have hpos := hd.pos
  have hgf := hd.gf
  have hdw := hc.dw
  have hW : W = 2 * s.got.length := by omega
  have hR : fragCount (s.frames.take s.got.length) = s.got.length := by
    rw [fragCount_single (fun f hf => hsg f (List.mem_of_mem_take hf)), List.length_take]
    omega
  have hlen : s.q.len + 2 ≤ s.q.n := by
    simp only [RxQ.len, hc.head, hp.tail, hR, hW]
    exact twice_mod hc.n4
  have h2 : ¬ s.q.n - s.q.len < c.segs.length := by
    rw [hs]
    simp only [List.length_cons, List.length_nil]
    omega
  have h3 : ¬ c.segs.length ≠ 2 := by simp [hs]
  simp only [RxSt.step, hw, RxQ.admit, if_neg h2, if_neg h3]

/-! ## Cases -/

def exR : Chain := ⟨[⟨0x1000, 128⟩, ⟨0x2000, 1500⟩], 0⟩
def exS : Chain := ⟨[⟨0x3000, 128⟩, ⟨0x4000, 1500⟩], 0⟩
def exF : Frag := [1, 2, 3]
def exG : Frag := [4, 5]

def rxEnq (c : Chain) : List RxAct := .enqueue c :: List.replicate 5 .write

/-- A frame of two pieces, a frame of one, and one with an error; the second chain is handed in while the first
frame arrives. -/
theorem c75_sample : (match (RxSt.new 32).exec (rxEnq exR ++ [.devHead exF false false, .devComp, .dequeue] ++ rxEnq exS ++
      [.devBody exG false, .devComp, .devHead exG true false, .dequeue, .devComp, .dequeue] ++ rxEnq exR ++
      [.devPass, .devHead exF true true, .devComp, .dequeue]) with
    | .ok s => decide (s.got = [⟨⟨[⟨0x1000, 3⟩, ⟨0x2000, 2⟩], 0⟩, [exF, exG]⟩,
        ⟨⟨[⟨0x3000, 2⟩, ⟨0x4000, 1500⟩], 0⟩, [exG]⟩, ⟨⟨[⟨0x1000, 0⟩, ⟨0x2000, 0⟩], 0⟩, []⟩] ∧
        s.q.inflight = [] ∧ s.accepted = [exR, exS, exR])
    | _ => false) = true := by decide +kernel

/-- The steps of the sample are among those of `RxOk`. -/
theorem c75_sample_ok : RxOk (RxSt.new 32) (.enqueue exR) ∧ RxPhy (RxSt.new 32) (.enqueue exR) := by
  refine ⟨⟨_, _, rfl, by decide, by decide, ?_, by decide⟩, rfl, _, _, rfl, by decide, by decide, by decide⟩
  simp [lent, RxSt.new, RxQ.new]

/-- A chain of its own for every `k`. -/
def exK (k : Nat) : Chain := ⟨[⟨0x10000 * (k + 1), 128⟩, ⟨0x10000 * (k + 1) + 128, 1500⟩], 0⟩

/-- Finding: `len` is 0 for a ring that is full, so that a ring of 32 takes a 17th chain of two; the descriptors
of the first are overwritten while it is lent. -/
theorem c75_overfill : (match (RxSt.new 32).exec ((List.range 17).flatMap (fun k => rxEnq (exK k))) with
    | .ok s => decide (s.accepted.length = 17 ∧ s.q.inflight.length = 17 ∧
        (s.q.ring 0).addr = 0x10000 * 17) &&
        (List.range 32).all (fun i => (s.q.ring i).addr != 0x10000)
    | _ => false) = true := by decide +kernel

/-- Finding: a packet of length 0 uses up a HEAD, `dequeue` reports nothing and gives nothing back; with one chain
outstanding no frame can be received any more. -/
theorem c75_zero : (match (RxSt.new 32).exec (rxEnq exR ++ [.devZero, .devComp, .dequeue, .devPass, .dequeue]) with
    | .ok s => decide (s.got = [] ∧ s.q.inflight.length = 1 ∧ s.dev.pend = [] ∧
        (s.q.ring s.dev.next).gen ≠ s.dev.gen)
    | _ => false) = true := by decide +kernel

/-- Finding: `len` compares a position of the command ring with one of the completion ring.  After 15 frames of two
pieces and one of one piece `enqueue` refuses a chain although nothing is outstanding (and `DevQueuePhy::receive`
asserts that it does not). -/
theorem c75_refused : (match (RxSt.new 32).exec ((List.replicate 15 (rxEnq exR ++ [.devHead exF false false, .devBody exG false,
      .devComp, .devComp, .dequeue])).flatten ++ rxEnq exR ++ [.devHead exF true false, .devComp, .dequeue]) with
    | .ok s => decide (s.q.inflight = [] ∧ s.got.length = 16) &&
        (match s.q.admit exR with | .ok none => true | _ => false)
    | _ => false) = true := by decide +kernel

end NRK.Net
