import Verif.Net.TxLemmas

/-! # C74: the invariant is kept -/

namespace NRK.Net

theorem step_write {s : TxSt} {c : Chain} {old : Nat} {g : Bool} {sg : Seg} {rest : List Seg} {ph : Phase} {q' : TxQ}
    {w' : Writer} (hw : s.w = .busy c old g (sg :: rest) ph) (e : s.q.write c old g sg rest ph = .ok (q', w')) :
    s.step .write = .ok { s with
      q := q'
      w := w' } := by
  simp only [TxSt.step, hw]
  rw [e]

theorem Inv.enqueue {s : TxSt} (h : Inv s) {c : Chain} (ha : c.Proper) :
    s.step (.enqueue c) = .off ∨ ∃ s', s.step (.enqueue c) = .ok s' ∧ Inv s' := by
  obtain ⟨⟨T, P, W, D, R, C, hq, hd, hc, hT⟩, hdb⟩ := h
  have h32 := hq.n32
  have hcp : c.Proper := ha
  cases hw : s.w with
  | busy _ _ _ _ _ => left; simp only [TxSt.step, hw]
  | idle =>
    right
    simp only [TxSt.step, hw, TxQ.admit]
    have h1 := hcp.2.1
    rw [if_neg (by omega)]
    by_cases hf : s.q.n - 1 - s.q.len < c.segs.length
    · rw [if_pos hf]
      exact ⟨s, rfl, ⟨T, P, W, D, R, C, hq, hd, hc, hT⟩, hdb⟩
    · rw [if_neg hf]
      rw [hw] at hq
      exact ⟨_, rfl, ⟨T, P, W, D, R, C, hq.begin hcp hf, hd, hc, hT⟩, hdb⟩

theorem Inv.write {s : TxSt} (h : Inv s) :
    s.step .write = .off ∨ ∃ s', s.step .write = .ok s' ∧ Inv s' := by
  obtain ⟨⟨T, P, W, D, R, C, hq, hd, hc, hT⟩, hdb⟩ := h
  have h32 := hq.n32
  cases hw : s.w with
  | idle => left; simp only [TxSt.step, hw]
  | busy c old g rest ph =>
    right
    rw [hw] at hq
    cases rest with
    | nil =>
      simp only [TxSt.step, hw]
      refine ⟨_, rfl, ⟨T, W, W, D, R, C, hq.publish, hd.grow c, ?_, ?_⟩, hdb⟩
      · obtain ⟨hcp, ⟨dn, hdn, hW⟩, _⟩ := hq.wr
        have hl : c.segs.length = dn.length := by rw [hdn]; simp
        have h1 := hcp.1
        refine hc.grow ?_
        have h2 := wsub_gen (T := 1) (W := W) hq.pow (by have := hq.n4k; omega) (by omega)
        have h3 : 1 % s.q.n = 1 := Nat.mod_eq_of_lt (by omega)
        simp only [← hq.head, h3] at h2
        rw [h2, eopAt, List.take_of_length_le (by simp), segCount_append, ← hq.hP, hW]
        simp [segCount, hl]
      · have := hc.rc
        have := hc.ck
        have := hc.ka
        rw [hT, List.take_append_of_le_length (by omega)]
    | cons sg rest =>
      cases ph with
      | addr =>
        obtain ⟨q', w', e, h', e1, e2, e3, e4, e5, e6, e7⟩ := hq.addr rfl
        rw [step_write hw e]
        refine ⟨_, rfl, ⟨T, P, W, D, R, C, h', by rw [e1]; exact hd,
          hc.sameQ e1 e2 e3 e4 e5 e6, hT⟩, by simp only [e7]; exact hdb⟩
      | gen =>
        obtain ⟨q', w', e, h', e1, e2, e3, e4, e5, e6, e7⟩ := hq.mark rfl
        rw [step_write hw e]
        refine ⟨_, rfl, ⟨T, P, W, D, R, C, h', by rw [e1]; exact hd,
          hc.sameQ e1 e2 e3 e4 e5 e6, hT⟩, by simp only [e7]; exact hdb⟩
      | adv =>
        obtain ⟨q', w', e, h', e1, e2, e3, e4, e5, e6, e7⟩ := hq.adv rfl
        rw [step_write hw e]
        refine ⟨_, rfl, ⟨T, P, W + 1, D, R, C, h', by rw [e1]; exact hd,
          hc.sameQ e1 e2 e3 e4 e5 e6, hT⟩, by simp only [e7]; exact hdb⟩

theorem Inv.reap {s : TxSt} (h : Inv s) :
    s.step .reap = .off ∨ ∃ s', s.step .reap = .ok s' ∧ Inv s' := by
  obtain ⟨⟨T, P, W, D, R, C, hq, hd, hc, hT⟩, hdb⟩ := h
  have h32 := hq.n32
  cases hw : s.w with
  | busy _ _ _ _ _ => left; simp only [TxSt.step, hw]
  | idle =>
    right
    rw [hw] at hq
    rcases Cp.reap hq rfl hc hT with ⟨_, e⟩ | ⟨hlt, q', c, e, h1, h2, h3, h4, h5, h6⟩
    · simp only [TxSt.step, hw, e]
      exact ⟨s, rfl, ⟨T, P, W, D, R, C, hw ▸ hq, hd, hc, hT⟩, hdb⟩
    · simp only [TxSt.step, hw, e]
      exact ⟨_, rfl, ⟨_, P, W, D, R + 1, C, h1, by rw [h3]; exact hd, h2, rfl⟩,
        by simp only [h4]; exact hdb⟩

theorem Inv.dequeue {s : TxSt} (h : Inv s) :
    s.step .dequeue = .off ∨ ∃ s', s.step .dequeue = .ok s' ∧ Inv s' := by
  obtain ⟨⟨T, P, W, D, R, C, hq, hd, hc, hT⟩, hdb⟩ := h
  have h32 := hq.n32
  cases hw : s.w with
  | busy _ _ _ _ _ => left; simp only [TxSt.step, hw]
  | idle =>
    right
    rw [hw] at hq
    cases hp : s.q.processed with
    | cons c cs =>
      have e : s.q.dequeue = .ok (some ({ s.q with processed := cs }, c)) := by
        unfold TxQ.dequeue; rw [hp]
      simp only [TxSt.step, hw, e]
      exact ⟨_, rfl, ⟨T, P, W, D, R, C, hq.same rfl rfl rfl rfl rfl, hd, hc.take hp, hT⟩,
        hdb⟩
    | nil =>
      have e := TxQ.dequeue_nil hp
      rcases Cp.reap hq rfl hc hT with ⟨_, e'⟩ | ⟨hlt, q', c, e', h1, h2, h3, h4, h5, h6⟩
      · rw [e'] at e
        simp only [TxSt.step, hw, e]
        exact ⟨s, rfl, ⟨T, P, W, D, R, C, hw ▸ hq, hd, hc, hT⟩, hdb⟩
      · rw [hp, List.nil_append] at h6
        rw [e'] at e
        simp only [h6] at e
        simp only [TxSt.step, hw, e]
        exact ⟨_, rfl, ⟨_, P, W, D, R + 1, C, h1.same rfl rfl rfl rfl rfl,
          by simp only [h3]; exact hd, h2.take h6, rfl⟩, by simp only [h4]; exact hdb⟩

theorem Inv.flush {s : TxSt} (h : Inv s) :
    s.step .flush = .off ∨ ∃ s', s.step .flush = .ok s' ∧ Inv s' := by
  obtain ⟨⟨T, P, W, D, R, C, hq, hd, hc, hT⟩, hdb⟩ := h
  have h32 := hq.n32
  cases hw : s.w with
  | busy _ _ _ _ _ => left; simp only [TxSt.step, hw]
  | idle =>
    right
    rw [hw] at hq
    simp only [TxSt.step, hw]
    refine ⟨_, rfl, ?_⟩
    unfold TxQ.flush
    by_cases hf : s.q.lastFlush = some s.q.head
    · rw [if_pos hf]
      refine ⟨⟨T, P, W, D, R, C, hq, ?_, ?_, hT⟩, hdb⟩
      · exact ⟨hd.le, hd.pre, hd.hD, hd.cur, hd.next, hd.gen⟩
      · exact ⟨hc.rc, hc.ck, hc.ka, hc.win, hc.cnext, hc.cgen, hc.dnext, hc.dgen, hc.pend, hc.comp, hc.g1, hc.g2,
          hc.fl, hc.ret⟩
    · rw [if_neg hf]
      refine ⟨⟨T, P, W, D, R, C, hq.same rfl rfl rfl rfl rfl, ?_, ?_, hT⟩, ?_⟩
      · exact ⟨hd.le, hd.pre, hd.hD, hd.cur, hd.next, hd.gen⟩
      · exact ⟨hc.rc, hc.ck, hc.ka, hc.win, hc.cnext, hc.cgen, hc.dnext, hc.dgen, hc.pend, hc.comp, hc.g1, hc.g2,
          hc.fl, hc.ret⟩
      · intro x hx
        simp only [Option.some.injEq] at hx
        simp only [Option.getD_some]
        exact hx

theorem Inv.devRead {s : TxSt} (h : Inv s) :
    s.step .devRead = .off ∨ ∃ s', s.step .devRead = .ok s' ∧ Inv s' := by
  obtain ⟨⟨T, P, W, D, R, C, hq, hd, hc, hT⟩, hdb⟩ := h
  have h32 := hq.n32
  have hwin := window hq hd hc hT
  have hpw := hq.pw
  have hroom := hq.room
  have hle := hd.le_sent
  rcases Nat.lt_or_ge D P with hlt | hge
  · right
    obtain ⟨c, r, sg, h1, h2, h3⟩ := hd.at hq.prop (by rw [← hq.hP]; exact hlt)
    have hcell := hq.cont D hwin.2.2 (by omega)
    rw [List.getElem?_append_left (by rw [flat_length, ← hq.hP]; exact hlt), h3, Option.some.injEq] at hcell
    have hgen := hq.g1 D (by omega) (by omega) (by omega)
    have hadv : NRK.Net.adv s.q.n s.dev.next s.dev.gen = ((D + 1) % s.q.n, par s.q.n (D + 1)) := by
      rw [hd.next, hd.gen]; exact adv_par (by omega)
    have hr : s.q.ring s.dev.next = s.q.ring (D % s.q.n) := by rw [hd.next]
    have hsg : (⟨(s.q.ring (D % s.q.n)).addr, (s.q.ring (D % s.q.n)).len⟩ : Seg) = sg :=
      (congrArg Prod.fst hcell).symm
    have hkl : s.wire.length < s.accepted.length := by
      rw [List.getElem?_eq_some_iff] at h1; exact h1.1
    have hcl : c.segs.length = s.dev.cur.length + (r.length + 1) := by rw [h2]; simp
    have hD := hd.hD
    by_cases hr0 : r = []
    · have heop : (s.q.ring (D % s.q.n)).eop = true := by
        have := congrArg Prod.snd hcell
        rw [if_pos hr0] at this
        simp only [cellOf] at this
        cases he : (s.q.ring (D % s.q.n)).eop with
        | true => rfl
        | false => rw [he] at this; simp at this
      simp only [TxSt.step, hr, hadv, hsg]
      rw [if_neg (by rw [hgen, hd.gen]; simp), if_pos heop]
      refine ⟨_, rfl, ⟨T, P, W, D + 1, R, C, hq, ?_, ?_, hT⟩, hdb⟩
      · refine ⟨by simp; omega, ?_, ?_, .inl rfl, rfl, rfl⟩
        · have h4 : (s.wire ++ [s.dev.cur ++ [sg]]).length = s.wire.length + 1 := by simp
          have h5 : c.segs = s.dev.cur ++ [sg] := by rw [h2, hr0]
          rw [h4, List.take_add_one, h1, List.map_append, ← hd.pre]
          simp [h5]
        · have h4 : (s.wire ++ [s.dev.cur ++ [sg]]).length = s.wire.length + 1 := by simp
          rw [h4, segCount_take_succ h1, hcl, hr0]
          simp; omega
      · exact {
          rc := hc.rc
          ck := by have := hc.ck; simp; omega
          ka := by simp; omega
          win := hc.win
          cnext := hc.cnext
          cgen := hc.cgen
          dnext := hc.dnext
          dgen := hc.dgen
          pend := by
            intro i hi
            simp only [List.length_append, List.length_singleton] at hi
            simp only
            rcases Nat.lt_or_ge i s.dev.pend.length with hil | hil
            · rw [List.getElem?_append_left hil]; exact hc.pend i hil
            · have hie : i = s.dev.pend.length := by omega
              have hck := hc.ck
              rw [hie, List.getElem?_append_right (Nat.le_refl _), Nat.sub_self, hck, eopAt, segCount_take_succ h1,
                hcl, hr0, hd.next]
              simp only [List.getElem?_cons_zero, Option.map_some, Option.some.injEq]
              congr 1
          comp := hc.comp
          g1 := hc.g1
          g2 := hc.g2
          fl := hc.fl
          ret := hc.ret }
    · have heop : (s.q.ring (D % s.q.n)).eop = false := by
        have := congrArg Prod.snd hcell
        rw [if_neg hr0] at this
        simp only [cellOf] at this
        cases he : (s.q.ring (D % s.q.n)).eop with
        | false => rfl
        | true => rw [he] at this; simp at this
      have hrl : 0 < r.length := List.length_pos_iff.2 hr0
      simp only [TxSt.step, hr, hadv, hsg]
      rw [if_neg (by rw [hgen, hd.gen]; simp), if_neg (by rw [heop]; simp)]
      refine ⟨_, rfl, ⟨T, P, W, D + 1, R, C, hq, ?_, ?_, hT⟩, hdb⟩
      · refine ⟨hd.le, hd.pre, by simp; omega, .inr ⟨c, h1, ?_, by simp; omega⟩, rfl, rfl⟩
        simp only [h2]
        rw [List.append_cons s.dev.cur sg r, List.take_left' rfl]
      · exact ⟨hc.rc, hc.ck, hc.ka, hc.win, hc.cnext, hc.cgen, hc.dnext, hc.dgen, hc.pend, hc.comp, hc.g1, hc.g2,
          hc.fl, hc.ret⟩
  · left
    have hDP : D = P := by have := hq.hP; omega
    simp only [TxSt.step]
    rw [if_pos]
    rw [hd.next, hd.gen, hDP, hq.g3]
    simp

theorem Inv.devComp {s : TxSt} (h : Inv s) :
    s.step .devComp = .off ∨ ∃ s', s.step .devComp = .ok s' ∧ Inv s' := by
  obtain ⟨⟨T, P, W, D, R, C, hq, hd, hc, hT⟩, hdb⟩ := h
  have h32 := hq.n32
  cases hp : s.dev.pend with
  | nil => left; simp only [TxSt.step, hp]
  | cons x rest =>
    right
    obtain ⟨i, b⟩ := x
    have hadv : NRK.Net.adv s.q.n s.dev.cnext s.dev.cgen = ((C + 1) % s.q.n, par s.q.n (C + 1)) := by
      rw [hc.dnext, hc.dgen]; exact adv_par (by omega)
    have hi : i = eopAt s.q.n s.accepted C := by
      have := hc.pend 0 (by rw [hp]; simp)
      rw [hp] at this
      simpa using this
    have h4k := hq.n4k
    have hi' : i % 2 ^ 12 = i := by
      have : i < s.q.n := by rw [hi, eopAt]; exact Nat.mod_lt _ (by omega)
      exact Nat.mod_eq_of_lt (by omega)
    have hck := hc.ck
    rw [hp, List.length_cons] at hck
    have hrc := hc.rc
    have hwin := (window hq hd hc hT).1
    have hne : ∀ k, k ≠ C → C < k + s.q.n → k < C + s.q.n → k % s.q.n ≠ s.dev.cnext := by
      intro k h1 h2 h3
      rw [hc.dnext]
      rcases Nat.lt_or_gt_of_ne h1 with h | h
      · exact mod_ne h h2
      · exact (mod_ne h h3).symm
    simp only [TxSt.step, hp]
    refine ⟨_, rfl, ⟨T, P, W, D, R, C + 1, hq.same rfl rfl rfl rfl rfl, ?_, ?_, hT⟩, hdb⟩
    · exact ⟨hd.le, hd.pre, hd.hD, hd.cur, hd.next, hd.gen⟩
    · exact {
        rc := by omega
        ck := by simp only; omega
        ka := hc.ka
        win := by simp only; omega
        cnext := hc.cnext
        cgen := hc.cgen
        dnext := by simp only [hadv]
        dgen := by simp only [hadv]
        pend := by
          intro j hj
          have := hc.pend (j + 1) (by rw [hp]; simp only [List.length_cons]; simp only at hj; omega)
          rw [hp, List.getElem?_cons_succ] at this
          simp only
          rw [this, Nat.add_assoc C 1 j, Nat.add_comm 1 j]
        comp := by
          intro k h1 h2
          simp only
          by_cases hk : k = C
          · rw [hk, hc.dnext, put_same]; simp only; rw [hi', hi]
          · rw [put_ne _ _ (hne k hk (by omega) (by omega))]
            exact hc.comp k h1 (by omega)
        g1 := by
          intro k h1 h2
          simp only at h2 ⊢
          by_cases hk : k = C
          · rw [hk, hc.dnext, put_same]; exact hc.dgen
          · rw [put_ne _ _ (hne k hk (by omega) (by omega))]
            exact hc.g1 k (by omega) (by omega)
        g2 := by
          intro k h1 h2
          simp only at h2 ⊢
          have := hne k (by omega) (by omega) (by omega)
          rw [Nat.mod_eq_of_lt h2] at this
          rw [put_ne _ _ this]
          exact hc.g2 k (by omega) h2
        fl := hc.fl
        ret := hc.ret }

theorem Inv.next {s : TxSt} (h : Inv s) {a : TxAct} (ha : TxOk a) :
    s.step a = .off ∨ ∃ s', s.step a = .ok s' ∧ Inv s' := by
  cases a with
  | enqueue c => exact h.enqueue ha
  | write => exact h.write
  | reap => exact h.reap
  | dequeue => exact h.dequeue
  | flush => exact h.flush
  | devRead => exact h.devRead
  | devComp => exact h.devComp
  | devSkip => exact absurd ha (by simp [TxOk])

theorem TxRun.inv {ndesc : Nat} (hn : Pow2 (TxSt.new ndesc).q.n) {s : TxSt} (h : TxRun ndesc TxOk s) : Inv s := by
  induction h with
  | init => exact Inv.init ndesc hn
  | step a _ ha he ih =>
    rcases ih.next ha with h1 | ⟨s', h1, h2⟩
    · rw [h1] at he; cases he
    · rw [h1] at he; cases he; exact h2

end NRK.Net
