import Verif.Net.RxLemmas

/-! # C75: steps keep the invariant -/

namespace NRK.Net

theorem RxQ.admit_ok {q : RxQ} {c : Chain} {w : RxWriter} (h : q.admit c = .ok (some w)) :
    w = .busy c 0 c.segs false := by
  simp only [RxQ.admit] at h
  split at h
  · simp at h
  · split at h
    · simp at h
    · simp only [Res.ok.injEq, Option.some.injEq] at h
      exact h.symm

theorem addrs_snd (fl : List (Nat × Chain)) : addrs (fl.map Prod.snd) = lent fl := by
  simp only [addrs, lent, List.flatMap_map]

theorem RInv.enqueue {s s' : RxSt} {c : Chain} (h : RInv s) (ha : RxOk s (.enqueue c))
    (he : s.step (.enqueue c) = .ok s') : RInv s' := by
  obtain ⟨⟨W, D, C, hc, hd, hp⟩, hfl, hgot, hsh⟩ := h
  simp only [RxSt.step] at he
  rcases hw : s.w with _ | ⟨a, b, e, f⟩
  · simp only [hw] at he
    split at he
    · rename_i w hadm
      have := RxQ.admit_ok hadm
      subst this
      simp only [Res.ok.injEq] at he
      subst he
      obtain ⟨a, b, hs, hla, hlb, hnd, hroom⟩ := ha
      have hlen := congrArg List.length hfl
      simp only [List.length_map, List.length_drop] at hlen
      have hg : s.got.length ≤ s.accepted.length := by
        have h1 := hc.wr
        rw [hw] at h1
        simp only [RWrOk] at h1
        have := hc.gd
        have := hc.dw
        have := hd.gf
        have := hd.pos
        omega
      refine ⟨⟨W, D, C, ?_, ?_, hp⟩, hfl, hgot, hsh⟩
      · have h1 := hc.wr
        rw [hw] at h1
        simp only [RWrOk] at h1
        refine ⟨hc.n4, hc.two, hc.head, hc.gen, ?_, ?_, hc.gens, hc.dw, hc.gd⟩
        · refine ⟨⟨a, b, hs, hla, hlb⟩, ⟨[], rfl, rfl, ?_⟩, ?_, (nomatch ·)⟩
          · simp only [List.length_nil]; exact h1.1
          · show 2 * s.accepted.length + 4 ≤ s.q.n + 2 * s.got.length
            omega
        · intro i h2 h3
          obtain ⟨c', sg, h4, h5⟩ := hc.cont i h2 h3
          rw [hw] at h4
          simp only [RxWriter.chain, List.append_nil] at h4
          refine ⟨c', sg, ?_, h5⟩
          exact List.getElem?_append_left (List.getElem?_eq_some_iff.1 h4).1 ▸ h4
      · have hnd0 := hd.nodup
        simp only [hw, RxWriter.chain, List.append_nil] at hd ⊢
        refine ⟨hd.next, hd.gen, hd.pos, hd.odd, hd.gf, ?_, ?_, ?_⟩
        · rw [List.drop_append_of_le_length hg, ← hfl]
          simp only [addrs, List.flatMap_append, List.flatMap_cons, List.flatMap_nil, List.append_nil, hs]
          have := addrs_snd s.q.inflight
          simp only [addrs] at this
          rw [this]
          rw [List.perm_append_comm.nodup_iff]
          simpa using hnd
        · intro k f h2 h3
          obtain ⟨c', h4, h5⟩ := hd.fits k f h2 h3
          exact ⟨c', List.getElem?_append_left (List.getElem?_eq_some_iff.1 h4).1 ▸ h4, h5⟩
        · intro f h2
          obtain ⟨c', a, b, h4, h5⟩ := hd.mid f h2
          exact ⟨c', a, b, List.getElem?_append_left (List.getElem?_eq_some_iff.1 h4).1 ▸ h4, h5⟩
    · simp only [Res.ok.injEq] at he
      subst he
      exact ⟨⟨W, D, C, hc, hd, hp⟩, hfl, hgot, hsh⟩
    · simp at he
    · simp at he
  · simp only [hw] at he
    simp at he

theorem rx_write_false {q : RxQ} {c : Chain} {i : Nat} {sg : Seg} {rest : List Seg} (h : sg.len < 2 ^ 14) :
    q.write c i sg rest false = .ok ({ q with
        ring := put q.ring q.head ⟨sg.addr, sg.len, decide (i % 2 = 0), (q.ring q.head).gen⟩ },
        .busy c i (sg :: rest) true) := by
  have h1 : ¬ 2 ^ 32 ≤ sg.len := by omega
  have h2 : sg.len % 2 ^ 14 = sg.len := Nat.mod_eq_of_lt h
  simp only [RxQ.write, if_neg h1, h2]

theorem RxSt.step_write {s : RxSt} {c : Chain} {i : Nat} {sg : Seg} {rest : List Seg} {m : Bool}
    (hw : s.w = .busy c i (sg :: rest) m) : s.step .write =
      (match s.q.write c i sg rest m with
      | .ok (q, w) => .ok { s with
          q := q
          w := w }
      | .panic => .panic
      | .off => .off) := by
  simp only [RxSt.step, hw]
  rfl

theorem RInv.write_false {s : RxSt} {c : Chain} {i : Nat} {sg : Seg} {rest : List Seg} (h : RInv s)
    (hw : s.w = .busy c i (sg :: rest) false) : ∃ s', s.step .write = .ok s' ∧ RInv s' := by
  obtain ⟨⟨W, D, C, hc, hd, hp⟩, hfl, hgot, hsh⟩ := h
  have hb := hc.bound
  have h1 := hc.wr
  rw [hw] at h1
  obtain ⟨htwo, ⟨dn, hdn, hi, hW⟩, hroom, -⟩ := h1
  have hl : sg.len < 2 ^ 14 := by
    obtain ⟨a, b, hs, ha, hb⟩ := htwo
    have : sg ∈ c.segs := by rw [hdn]; simp
    rw [hs] at this
    simp only [List.mem_cons, List.not_mem_nil, or_false] at this
    rcases this with rfl | rfl <;> assumption
  rw [RxSt.step_write hw, rx_write_false hl]
  refine ⟨_, rfl, ⟨W, D, C, ?_, ?_, ?_⟩, hfl, hgot, hsh⟩
  · refine ⟨hc.n4, hc.two, hc.head, hc.gen, ?_, ?_, ?_, hc.dw, hc.gd⟩
    · refine ⟨htwo, ⟨dn, hdn, hi, hW⟩, hroom, fun _ => ⟨sg, rest, rfl, ?_⟩⟩
      simp only [hc.head, put_same, rcell]
      exact ⟨trivial, trivial, trivial⟩
    · intro k h2 h3
      obtain ⟨c', sg', h4, h5, h6⟩ := hc.cont k h2 h3
      rw [hw] at h4
      refine ⟨c', sg', h4, h5, ?_⟩
      simp only [hc.head]
      rw [put_ne _ _ (mod_ne' (by omega) (by omega) (by omega))]
      exact h6
    · refine ⟨?_, ?_⟩
      · intro k h2 h3
        have := hc.gens.g1 k h2 h3
        simp only [put] at this ⊢
        split
        · rename_i he; simp only [← he]; exact this
        · exact this
      · intro k h2 h3
        have := hc.gens.g2 k h2 h3
        simp only [put] at this ⊢
        split
        · rename_i he; simp only [← he]; exact this
        · exact this
  · simp only [hw, RxWriter.chain] at hd ⊢
    exact hd
  · exact ⟨hp.rc, hp.ck, hp.pend, hp.tail, hp.cgen, hp.dnext, hp.dgen, hp.win, hp.comp, hp.gens⟩

theorem RInv.write_true {s : RxSt} {c : Chain} {i : Nat} {sg : Seg} {rest : List Seg} (h : RInv s)
    (hw : s.w = .busy c i (sg :: rest) true) : ∃ s', s.step .write = .ok s' ∧ RInv s' := by
  obtain ⟨⟨W, D, C, hc, hd, hp⟩, hfl, hgot, hsh⟩ := h
  have hb := hc.bound
  have hn := hc.n4
  have h1 := hc.wr
  rw [hw] at h1
  obtain ⟨htwo, ⟨dn, hdn, hi, hW⟩, hroom, hcell⟩ := h1
  obtain ⟨sg1, r1, he1, hcell⟩ := hcell rfl
  simp only [List.cons.injEq] at he1
  obtain ⟨rfl, rfl⟩ := he1
  rw [RxSt.step_write hw]
  simp only [RxQ.write]
  have hadv := adv_par (n := s.q.n) (i := W) (by omega)
  rw [← hc.head, ← hc.gen] at hadv
  simp only [hadv]
  have hlen : c.segs.length = 2 := by obtain ⟨a, b, hs, _⟩ := htwo; rw [hs]; rfl
  have hdl : dn.length < 2 := by rw [hdn] at hlen; simp at hlen; omega
  refine ⟨_, rfl, ⟨W + 1, D, C, ?_, ?_, ?_⟩, hfl, hgot, hsh⟩
  · refine ⟨hc.n4, hc.two, rfl, rfl, ?_, ?_, ?_, Nat.le_succ_of_le hc.dw, hc.gd⟩
    · refine ⟨htwo, ⟨dn ++ [sg], by simp [hdn], by simp [hi], ?_⟩, hroom, (nomatch ·)⟩
      simp only [List.length_append, List.length_singleton]
      omega
    · intro k h2 h3
      by_cases hk : k = W
      · subst hk
        refine ⟨c, sg, ?_, ?_, ?_⟩
        · have : k / 2 = s.accepted.length := by omega
          simp [RxWriter.chain, this]
        · have : k % 2 = dn.length := by omega
          rw [hdn, this]
          simp
        · simp only [hc.head, put_same]
          simp only [rcell] at hcell ⊢
          have : (i % 2 = 0) = (k % 2 = 0) := by rw [hi]; apply propext; omega
          simp only [this] at hcell
          exact hcell
      · obtain ⟨c', sg', h4, h5, h6⟩ := hc.cont k h2 (by omega)
        rw [hw] at h4
        refine ⟨c', sg', h4, h5, ?_⟩
        simp only [hc.head]
        rw [put_ne _ _ (mod_ne' (by omega) (by omega) (by omega))]
        exact h6
    · refine GenOK.put hc.gens ?_ ?_
      · simp only [hc.head, put_same, hc.gen]
      · intro j hj
        simp only [hc.head]
        rw [put_ne _ _ hj]
  · simp only [hw, RxWriter.chain] at hd ⊢
    exact hd
  · exact ⟨hp.rc, hp.ck, hp.pend, hp.tail, hp.cgen, hp.dnext, hp.dgen, hp.win, hp.comp, hp.gens⟩

theorem RInv.write_end {s : RxSt} {c : Chain} {i : Nat} {m : Bool} (h : RInv s)
    (hw : s.w = .busy c i [] m) : ∃ s', s.step .write = .ok s' ∧ RInv s' := by
  obtain ⟨⟨W, D, C, hc, hd, hp⟩, hfl, hgot, hsh⟩ := h
  have h1 := hc.wr
  rw [hw] at h1
  obtain ⟨htwo, ⟨dn, hdn, hi, hW⟩, hroom, hcell⟩ := h1
  have hlen : c.segs.length = 2 := by obtain ⟨a, b, hs, _⟩ := htwo; rw [hs]; rfl
  have hdl : dn.length = 2 := by rw [hdn] at hlen; simpa using hlen
  have hgl : s.got.length ≤ s.accepted.length := by
    rcases Nat.eq_zero_or_pos s.got.length with h0 | h0
    · omega
    · obtain ⟨c', f, h2, _⟩ := hgot (s.got.length - 1) _ (List.getElem?_eq_getElem (by omega))
      have := (List.getElem?_eq_some_iff.1 h2).1
      omega
  simp only [RxSt.step, hw]
  refine ⟨_, rfl, ⟨W, D, C, ?_, ?_, ?_⟩, ?_, ?_, hsh⟩
  · refine ⟨hc.n4, ?_, hc.head, hc.gen, ?_, ?_, hc.gens, hc.dw, hc.gd⟩
    · intro c' hm
      simp only [List.mem_append, List.mem_singleton] at hm
      rcases hm with hm | rfl
      · exact hc.two _ hm
      · exact htwo
    · simp only [RWrOk, List.length_append, List.length_singleton, RxQ.finish]
      omega
    · simp only [RxWriter.chain, List.append_nil]
      have := hc.cont
      rw [hw] at this
      exact this
  · simp only [hw, RxWriter.chain, List.append_nil] at hd ⊢
    exact hd
  · exact ⟨hp.rc, hp.ck, hp.pend, hp.tail, hp.cgen, hp.dnext, hp.dgen, hp.win, hp.comp, hp.gens⟩
  · simp only [RxQ.finish, List.map_append, List.map_cons, List.map_nil, hfl]
    rw [List.drop_append_of_le_length hgl]
  · intro k g hk
    obtain ⟨c', f, h2, h3⟩ := hgot k g hk
    exact ⟨c', f, List.getElem?_append_left (List.getElem?_eq_some_iff.1 h2).1 ▸ h2, h3⟩

theorem RInv.write {s : RxSt} (h : RInv s) (hw : s.w ≠ .idle) : ∃ s', s.step .write = .ok s' ∧ RInv s' := by
  rcases hs : s.w with _ | ⟨c, i, _ | ⟨sg, rest⟩, _ | _⟩
  · exact absurd hs hw
  · exact h.write_end hs
  · exact h.write_end hs
  · exact h.write_false hs
  · exact h.write_true hs

end NRK.Net
