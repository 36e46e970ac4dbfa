import Verif.Net.RxStep

/-! # C75: steps of the device keep the invariant -/

namespace NRK.Net

theorem RCmd.owned {q : RxQ} {w : RxWriter} {acc : List Chain} {G W D : Nat} (h : RCmd q w acc G W D)
    (hg : (q.ring (D % q.n)).gen = par q.n D) : D < W := by
  rcases Nat.lt_or_ge D W with hlt | hge
  · exact hlt
  · have : D = W := Nat.le_antisymm h.dw hge
    subst this
    have := h.gens.next (by have := h.n4; omega)
    simp only [hg] at this
    cases hp : par q.n D <;> simp [hp] at this

theorem RCmd.advance {q : RxQ} {w : RxWriter} {acc : List Chain} {G W D : Nat} (h : RCmd q w acc G W D)
    (hlt : D < W) : RCmd q w acc G W (D + 1) :=
  ⟨h.n4, h.two, h.head, h.gen, h.wr, fun i h1 h2 => h.cont i (by omega) h2, h.gens, hlt,
    by have := h.gd; omega⟩

theorem RCmd.full_two {q : RxQ} {w : RxWriter} {acc : List Chain} {G W D : Nat} (h : RCmd q w acc G W D)
    {c : Chain} (hc : c ∈ acc ++ w.chain) : c.Two := by
  simp only [List.mem_append] at hc
  rcases hc with hc | hc
  · exact h.two c hc
  · have := h.wr
    cases w with
    | idle => simp [RxWriter.chain] at hc
    | busy c' i r m =>
      simp only [RxWriter.chain, List.mem_singleton] at hc
      subst hc
      exact this.1

theorem addrs_ne {L : List Chain} (h : (addrs L).Nodup) {i j : Nat} {c c' : Chain} (hi : L[i]? = some c)
    (hj : L[j]? = some c') (hne : i ≠ j) {x y : Seg} (hx : x ∈ c.segs) (hy : y ∈ c'.segs) : x.addr ≠ y.addr := by
  induction L generalizing i j with
  | nil => simp at hi
  | cons a L ih =>
    simp only [addrs, List.flatMap_cons, List.nodup_append] at h
    obtain ⟨h1, h2, h3⟩ := h
    have key : ∀ (k : Nat) (d : Chain) (z u : Seg), L[k]? = some d → z ∈ d.segs → u ∈ a.segs → u.addr ≠ z.addr := by
      intro k d z u hk hz hu
      refine h3 _ (List.mem_map_of_mem hu) _ ?_
      simp only [List.mem_flatMap, List.mem_map]
      exact ⟨d, List.mem_of_getElem? hk, z, hz, rfl⟩
    cases i with
    | zero =>
      cases j with
      | zero => exact absurd rfl hne
      | succ j =>
        simp only [List.getElem?_cons_zero, Option.some.injEq, List.getElem?_cons_succ] at hi hj
        subst hi
        exact key _ _ _ _ hj hy hx
    | succ i =>
      cases j with
      | zero =>
        simp only [List.getElem?_cons_zero, Option.some.injEq, List.getElem?_cons_succ] at hi hj
        subst hj
        exact (key _ _ _ _ hi hx hy).symm
      | succ j =>
        simp only [List.getElem?_cons_succ] at hi hj
        exact ih h2 hi hj (by omega)

theorem addrs_self {L : List Chain} (h : (addrs L).Nodup) {c : Chain} (hc : c ∈ L) {a b : Seg} (hs : c.segs = [a, b]) :
    a.addr ≠ b.addr := by
  induction L with
  | nil => simp at hc
  | cons d L ih =>
    simp only [addrs, List.flatMap_cons, List.nodup_append] at h
    rcases List.mem_cons.1 hc with rfl | hc
    · have := h.1
      rw [hs] at this
      simpa using this
    · exact ih h.2.1 hc

/-- A write to the buffer of another chain does not matter. -/
theorem Fits.put {mem : Nat → Frag} {c : Chain} {f : Frame} (h : Fits mem c f) {x : Nat} {v : Frag}
    (hx : ∀ s ∈ c.segs, s.addr ≠ x) : Fits (put mem x v) c f := by
  obtain ⟨a, b, hs, h⟩ := h
  rw [hs] at hx
  have ha := hx a (by simp)
  have hb := hx b (by simp)
  refine ⟨a, b, hs, ?_⟩
  rw [put_ne _ _ ha, put_ne _ _ hb]
  exact h

theorem RInv.devPass {s s' : RxSt} (h : RInv s) (he : s.step .devPass = .ok s') : RInv s' := by
  obtain ⟨⟨W, D, C, hc, hd, hp⟩, hfl, hgot, hsh⟩ := h
  simp only [RxSt.step] at he
  split at he
  · rename_i hcond
    obtain ⟨h1, h2, h3⟩ := hcond
    rw [hd.next, hd.gen] at h1
    rw [hd.next] at h2
    have hlt := hc.owned h1
    simp only [Res.ok.injEq] at he
    subst he
    have hadv := adv_par (n := s.q.n) (i := D) (by have := hc.n4; omega)
    rw [← hd.next, ← hd.gen] at hadv
    simp only [hadv]
    obtain ⟨c, sg, _, _, hcell⟩ := hc.cont D (Nat.le_refl _) hlt
    rw [hcell.2.2] at h2
    have hodd : D % 2 = 1 := by
      simp only [decide_eq_false_iff_not] at h2
      omega
    have hpos := hd.pos
    simp only [h3, Option.toList_none, List.length_nil, Nat.add_zero] at hpos
    refine ⟨⟨W, D + 1, C, hc.advance hlt, ?_, ?_⟩, hfl, hgot, hsh⟩
    · refine ⟨rfl, rfl, ?_, ?_, hd.gf, hd.nodup, hd.fits, hd.mid⟩
      · simp only [h3, Option.toList_none, List.length_nil, Nat.add_zero]
        omega
      · intro f hf
        simp [h3] at hf
    · exact ⟨hp.rc, hp.ck, hp.pend, hp.tail, hp.cgen, hp.dnext, hp.dgen, hp.win, hp.comp, hp.gens⟩
  · simp at he

theorem RCp.push {q : RxQ} {dev dev' : RxDev} {keys : List Key} {R C : Nat} (h : RCp q dev keys R C) {c : RxComp}
    (h1 : dev'.pend = dev.pend ++ [c]) (h2 : dev'.cnext = dev.cnext) (h3 : dev'.cgen = dev.cgen) :
    RCp q dev' (keys ++ [c.key]) R C := by
  have hle : C ≤ keys.length := by have := h.ck; omega
  refine ⟨h.rc, ?_, ?_, h.tail, h.cgen, h2 ▸ h.dnext, h3 ▸ h.dgen, h.win, ?_, h.gens⟩
  · rw [h1]
    have := h.ck
    simp only [List.length_append, List.length_singleton]
    omega
  · rw [h1, List.map_append, h.pend, List.drop_append_of_le_length hle]
    rfl
  · intro k h4 h5
    have := h.comp k h4 h5
    rw [List.getElem?_append_left (List.getElem?_eq_some_iff.1 this).1]
    exact this

theorem take_append_le {α : Type} {l m : List α} {G : Nat} (h : G ≤ l.length) : (l ++ m).take G = l.take G := by
  rw [List.take_append_of_le_length h]

theorem RInv.devHead {s s' : RxSt} {f : Frag} {last err : Bool} (h : RInv s)
    (he : s.step (.devHead f last err) = .ok s') : RInv s' := by
  obtain ⟨⟨W, D, C, hc, hd, hp⟩, hfl, hgot, hsh⟩ := h
  simp only [RxSt.step] at he
  split at he
  · rename_i hcond
    obtain ⟨h1, h2, h3, h4, h5⟩ := hcond
    rw [hd.next, hd.gen] at h1
    have hlt := hc.owned h1
    simp only [Res.ok.injEq] at he
    subst he
    have hadv := adv_par (n := s.q.n) (i := D) (by have := hc.n4; omega)
    rw [← hd.next, ← hd.gen] at hadv
    simp only [hadv]
    obtain ⟨c, sg, hfull, hseg, hcell⟩ := hc.cont D (Nat.le_refl _) hlt
    rw [hd.next, hcell.2.2] at h2
    rw [hd.next, hcell.2.1] at h5
    have haddr : (s.q.ring s.dev.next).addr = sg.addr := by rw [hd.next]; exact hcell.1
    have heven : D % 2 = 0 := by simpa using h2
    have hpos := hd.pos
    simp only [h3, Option.toList_none, List.length_nil, Nat.add_zero] at hpos
    have hD : D = 2 * s.frames.length := by omega
    have hD2 : D / 2 = s.frames.length := by omega
    rw [hD2] at hfull
    rw [heven] at hseg
    obtain ⟨a, b, hs, _, _⟩ := hc.full_two (List.mem_of_getElem? hfull)
    have hsa : a = sg := by rw [hs] at hseg; simpa using hseg
    subst hsa
    simp only [haddr]
    have hG := hd.gf
    have hold : ∀ (k : Nat) fr, s.got.length ≤ k → s.frames[k]? = some fr →
        ∃ c, (s.accepted ++ s.w.chain)[k]? = some c ∧ Fits (put s.mem a.addr f) c fr := by
      intro k fr hk hfr
      obtain ⟨c', hc', hfit⟩ := hd.fits k fr hk hfr
      refine ⟨c', hc', hfit.put ?_⟩
      intro x hx
      have hkl := (List.getElem?_eq_some_iff.1 hfr).1
      refine addrs_ne hd.nodup (i := k - s.got.length) (j := s.frames.length - s.got.length) ?_ ?_ (by omega) hx
        (hs ▸ List.mem_cons_self)
      · rw [List.getElem?_drop, Nat.add_sub_cancel' hk]; exact hc'
      · rw [List.getElem?_drop, Nat.add_sub_cancel' hG]; exact hfull
    refine ⟨⟨W, D + 1, C, hc.advance hlt, ?_, ?_⟩, hfl, ?_, ?_⟩
    · cases last with
      | true =>
        simp only [if_true]
        refine ⟨rfl, rfl, ?_, ?_, ?_, hd.nodup, ?_, ?_⟩
        · simp only [Option.toList_none, List.length_nil, Nat.add_zero, List.length_append, List.length_singleton]
          omega
        · intro f hf
          simp at hf
        · simp only [List.length_append, List.length_singleton]
          omega
        · intro k fr hk hfr
          rcases Nat.lt_trichotomy k s.frames.length with hlt | heq | hgt
          · rw [List.getElem?_append_left hlt] at hfr
            exact hold k fr hk hfr
          · subst heq
            simp only [List.getElem?_concat_length, Option.some.injEq] at hfr
            subst hfr
            exact ⟨c, hfull, a, b, hs, .inl ⟨f, rfl, h4, h5, put_same _ _ _⟩⟩
          · have := (List.getElem?_eq_some_iff.1 hfr).1
            simp at this
            omega
        · intro f hf
          simp at hf
      | false =>
        simp only [Bool.false_eq_true, if_false]
        refine ⟨rfl, rfl, ?_, ?_, hG, hd.nodup, hold, ?_⟩
        · simp only [Option.toList_some, List.length_singleton]
          omega
        · intro f hf
          omega
        · intro f' hf
          simp only [Option.some.injEq] at hf
          subst hf
          exact ⟨c, a, b, hfull, hs, h4, h5, put_same _ _ _⟩
    · rw [h3] at hp
      cases last with
      | true =>
        simp only [if_true, Bool.true_and]
        rw [take_append_le hG]
        have := hp.push (c := ⟨s.dev.next, f.length, true, true, err, false⟩) (dev' := { s.dev with
          next := (D + 1) % s.q.n
          gen := par s.q.n (D + 1)
          mid := none
          pend := s.dev.pend ++ [⟨s.dev.next, f.length, true, true, err, false⟩] }) rfl rfl rfl
        simpa [allKeys, midKeys, Frame.keys, RxComp.key] using this
      | false =>
        simp only [Bool.false_eq_true, if_false, Bool.false_and]
        have := hp.push (c := ⟨s.dev.next, f.length, true, false, false, false⟩) (dev' := { s.dev with
          next := (D + 1) % s.q.n
          gen := par s.q.n (D + 1)
          mid := some f
          pend := s.dev.pend ++ [⟨s.dev.next, f.length, true, false, false, false⟩] }) rfl rfl rfl
        simpa [allKeys, midKeys, RxComp.key] using this
    · intro k g hk
      obtain ⟨c', fr, h6, h7, h8⟩ := hgot k g hk
      refine ⟨c', fr, h6, ?_, h8⟩
      cases last
      · exact h7
      · simp only [if_true]
        rw [List.getElem?_append_left (List.getElem?_eq_some_iff.1 h7).1]
        exact h7
    · intro fr hm
      cases last
      · exact hsh fr (by simpa using hm)
      · simp only [if_true, List.mem_append, List.mem_singleton] at hm
        rcases hm with hm | rfl
        · exact hsh fr hm
        · simp [Frame.keys]
  · simp at he

theorem RInv.devBody {s s' : RxSt} {f : Frag} {err : Bool} (h : RInv s)
    (he : s.step (.devBody f err) = .ok s') : RInv s' := by
  obtain ⟨⟨W, D, C, hc, hd, hp⟩, hfl, hgot, hsh⟩ := h
  simp only [RxSt.step] at he
  rcases hm : s.dev.mid with _ | f0
  · simp [hm] at he
  simp only [hm] at he
  split at he
  · rename_i hcond
    obtain ⟨h1, h2, h4, h5⟩ := hcond
    rw [hd.next, hd.gen] at h1
    have hlt := hc.owned h1
    simp only [Res.ok.injEq] at he
    subst he
    have hadv := adv_par (n := s.q.n) (i := D) (by have := hc.n4; omega)
    rw [← hd.next, ← hd.gen] at hadv
    simp only [hadv]
    obtain ⟨c, sg, hfull, hseg, hcell⟩ := hc.cont D (Nat.le_refl _) hlt
    rw [hd.next, hcell.2.1] at h5
    have haddr : (s.q.ring s.dev.next).addr = sg.addr := by rw [hd.next]; exact hcell.1
    have hD := hd.odd f0 hm
    have hD2 : D / 2 = s.frames.length := by omega
    have hodd : D % 2 = 1 := by omega
    rw [hD2] at hfull
    rw [hodd] at hseg
    obtain ⟨c', a, b, hfull', hs, hm1, hm2, hm3⟩ := hd.mid f0 hm
    have : c' = c := by rw [hfull] at hfull'; exact (Option.some.inj hfull').symm
    subst this
    have hsb : b = sg := by rw [hs] at hseg; simpa using hseg
    subst hsb
    simp only [haddr]
    have hG := hd.gf
    have hdrop : ((s.accepted ++ s.w.chain).drop s.got.length)[s.frames.length - s.got.length]? = some c' := by
      rw [List.getElem?_drop, Nat.add_sub_cancel' hG]; exact hfull
    have hab := addrs_self hd.nodup (List.mem_of_getElem? hdrop) hs
    refine ⟨⟨W, D + 1, C, hc.advance hlt, ?_, ?_⟩, hfl, ?_, ?_⟩
    · refine ⟨rfl, rfl, ?_, ?_, ?_, hd.nodup, ?_, ?_⟩
      · simp only [Option.toList_none, List.length_nil, Nat.add_zero, List.length_append, List.length_singleton]
        omega
      · intro f hf
        simp at hf
      · simp only [List.length_append, List.length_singleton]
        omega
      · intro k fr hk hfr
        replace hk : s.got.length ≤ k := hk
        rcases Nat.lt_trichotomy k s.frames.length with hlt | heq | hgt
        · rw [List.getElem?_append_left hlt] at hfr
          obtain ⟨c2, hc2, hfit⟩ := hd.fits k fr hk hfr
          refine ⟨c2, hc2, hfit.put ?_⟩
          intro x hx
          refine addrs_ne hd.nodup (i := k - s.got.length) (j := s.frames.length - s.got.length) ?_ hdrop (by omega) hx
            (by rw [hs]; simp)
          rw [List.getElem?_drop, Nat.add_sub_cancel' hk]; exact hc2
        · subst heq
          simp only [List.getElem?_concat_length, Option.some.injEq] at hfr
          subst hfr
          refine ⟨c', hfull, a, b, hs, .inr ⟨f0, f, rfl, hm1, hm2, ?_, h4, h5, put_same _ _ _⟩⟩
          exact (put_ne _ _ hab).trans hm3
        · have := (List.getElem?_eq_some_iff.1 hfr).1
          simp at this
          omega
      · intro f hf
        simp at hf
    · rw [hm] at hp
      rw [take_append_le hG]
      have := hp.push (c := ⟨s.dev.next, f.length, false, true, err, false⟩) (dev' := { s.dev with
          next := (D + 1) % s.q.n
          gen := par s.q.n (D + 1)
          mid := none
          pend := s.dev.pend ++ [⟨s.dev.next, f.length, false, true, err, false⟩] }) rfl rfl rfl
      simpa [allKeys, midKeys, Frame.keys, RxComp.key] using this
    · intro k g hk
      obtain ⟨c', fr, h6, h7, h8⟩ := hgot k g hk
      refine ⟨c', fr, h6, ?_, h8⟩
      simp only
      rw [List.getElem?_append_left (List.getElem?_eq_some_iff.1 h7).1]
      exact h7
    · intro fr hm
      simp only [List.mem_append, List.mem_singleton] at hm
      rcases hm with hm | rfl
      · exact hsh fr hm
      · simp [Frame.keys]
  · simp at he

theorem keys_length {fs : List Frame} (h : ∀ f ∈ fs, f.keys.length = f.frags.length ∧ f.frags.length ≤ 2) :
    (fs.flatMap Frame.keys).length = fragCount fs := by
  induction fs with
  | nil => rfl
  | cons a fs ih =>
    simp only [List.flatMap_cons, List.length_append, fragCount, List.map_cons, List.sum_cons]
    rw [ih (fun f hf => h f (List.mem_cons_of_mem _ hf)), (h a List.mem_cons_self).1]
    rfl

theorem fragCount_le {fs : List Frame} (h : ∀ f ∈ fs, f.keys.length = f.frags.length ∧ f.frags.length ≤ 2) :
    fragCount fs ≤ 2 * fs.length := by
  induction fs with
  | nil => simp [fragCount]
  | cons a fs ih =>
    have h1 := ih (fun f hf => h f (List.mem_cons_of_mem _ hf))
    have h2 := (h a List.mem_cons_self).2
    simp only [fragCount, List.map_cons, List.sum_cons, List.length_cons] at h1 ⊢
    omega

theorem fragCount_split (fs : List Frame) (G : Nat) :
    fragCount fs = fragCount (fs.take G) + fragCount (fs.drop G) := by
  simp only [fragCount]
  rw [← List.sum_append, ← List.map_append, List.take_append_drop]

/-- The completions of lent chains fit the ring. -/
theorem RInv.keys_bound {s : RxSt} (hsh : ∀ f ∈ s.frames, f.keys.length = f.frags.length ∧ f.frags.length ≤ 2)
    {W D : Nat} (hc : RCmd s.q s.w s.accepted s.got.length W D)
    (hd : RDv s.q.n s.dev s.mem (s.accepted ++ s.w.chain) s.frames s.got.length D) :
    (allKeys s.frames s.dev.mid).length < fragCount (s.frames.take s.got.length) + s.q.n := by
  have hb := hc.bound
  have hdw := hc.dw
  have hpos := hd.pos
  have hG := hd.gf
  have h1 := fragCount_split s.frames s.got.length
  have h2 : fragCount (s.frames.drop s.got.length) ≤ 2 * (s.frames.drop s.got.length).length :=
    fragCount_le (fun f hf => hsh f (List.mem_of_mem_drop hf))
  rw [List.length_drop] at h2
  simp only [allKeys, List.length_append, keys_length hsh]
  have h3 : (midKeys s.dev.mid).length = s.dev.mid.toList.length := by cases s.dev.mid <;> rfl
  rw [h3]
  omega

theorem RInv.devComp {s s' : RxSt} (h : RInv s) (he : s.step .devComp = .ok s') : RInv s' := by
  obtain ⟨⟨W, D, C, hc, hd, hp⟩, hfl, hgot, hsh⟩ := h
  have hkb := RInv.keys_bound hsh hc hd
  simp only [RxSt.step] at he
  rcases hm : s.dev.pend with _ | ⟨cd, rest⟩
  · simp [hm] at he
  simp only [hm] at he
  simp only [Res.ok.injEq] at he
  subst he
  have hadv := adv_par (n := s.q.n) (i := C) (by have := hc.n4; omega)
  rw [← hp.dnext, ← hp.dgen] at hadv
  simp only [hadv]
  have hck := hp.ck
  rw [hm] at hck
  simp only [List.length_cons] at hck
  have hpd := hp.pend
  rw [hm, List.drop_eq_getElem_cons (by omega)] at hpd
  simp only [List.map_cons, List.cons.injEq] at hpd
  refine ⟨⟨W, D, C + 1, ?_, ?_, ?_⟩, hfl, hgot, hsh⟩
  · exact ⟨hc.n4, hc.two, hc.head, hc.gen, hc.wr, hc.cont, hc.gens, hc.dw, hc.gd⟩
  · exact ⟨hd.next, hd.gen, hd.pos, hd.odd, hd.gf, hd.nodup, hd.fits, hd.mid⟩
  · refine ⟨Nat.le_succ_of_le hp.rc, by simp only; omega, hpd.2, hp.tail, hp.cgen, rfl, rfl, by simp only; omega, ?_, ?_⟩
    · intro k h1 h2
      replace h1 : fragCount (s.frames.take s.got.length) ≤ k := h1
      simp only [hp.dnext]
      by_cases hk : k = C
      · subst hk
        rw [put_same, List.getElem?_eq_getElem (by omega), ← hpd.1]
        rfl
      · rw [put_ne _ _ (mod_ne' hk (by have := hp.win; omega) (by omega))]
        exact hp.comp k h1 (by omega)
    · refine GenOK.put hp.gens ?_ ?_
      · simp only [hp.dnext, put_same, hp.dgen]
      · intro j hj
        simp only [hp.dnext]
        rw [put_ne _ _ hj]

end NRK.Net
