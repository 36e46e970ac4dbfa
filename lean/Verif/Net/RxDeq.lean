import Verif.Net.RxDev

/-! # C75: `dequeue` keeps the invariant -/

namespace NRK.Net

theorem fragCount_succ {fs : List Frame} {G : Nat} {f : Frame} (h : fs[G]? = some f) :
    fragCount (fs.take (G + 1)) = fragCount (fs.take G) + f.frags.length := by
  simp only [fragCount, List.take_add_one, h, Option.toList_some, List.map_append, List.map_cons, List.map_nil,
    List.sum_append, List.sum_cons, List.sum_nil, Nat.add_zero]

theorem keys_at {fs : List Frame} {m : Option Frag} {G : Nat} {f : Frame} (h : fs[G]? = some f)
    (hsh : ∀ f ∈ fs, f.keys.length = f.frags.length ∧ f.frags.length ≤ 2) {j : Nat} {k : Key}
    (hk : f.keys[j]? = some k) : (allKeys fs m)[fragCount (fs.take G) + j]? = some k := by
  have hl := (List.getElem?_eq_some_iff.1 h).1
  have he := (List.getElem?_eq_some_iff.1 h).2
  have h1 : fs = fs.take G ++ f :: fs.drop (G + 1) := by
    rw [← he, ← List.drop_eq_getElem_cons hl, List.take_append_drop]
  have h2 : (fs.flatMap Frame.keys) = (fs.take G).flatMap Frame.keys ++ (f.keys ++ (fs.drop (G + 1)).flatMap Frame.keys) := by
    have := congrArg (List.flatMap Frame.keys) h1
    rw [List.flatMap_append, List.flatMap_cons] at this
    exact this
  have h3 := keys_length (fs := fs.take G) (fun f hf => hsh f (List.mem_of_mem_take hf))
  have hj := (List.getElem?_eq_some_iff.1 hk).1
  rw [allKeys, h2, ← h3, List.append_assoc, List.getElem?_append_right (by omega), Nat.add_sub_cancel_left,
    List.append_assoc, List.getElem?_append_left hj]
  exact hk

theorem keys_total {fs : List Frame} {m : Option Frag}
    (hsh : ∀ f ∈ fs, f.keys.length = f.frags.length ∧ f.frags.length ≤ 2) :
    (allKeys fs m).length = fragCount fs + m.toList.length := by
  simp only [allKeys, List.length_append, keys_length hsh]
  cases m <;> rfl

theorem keys_mid {fs : List Frame} {f : Frag}
    (hsh : ∀ f ∈ fs, f.keys.length = f.frags.length ∧ f.frags.length ≤ 2) :
    (allKeys fs (some f))[fragCount fs]? = some (f.length, true, false, false) := by
  have := keys_length hsh
  rw [allKeys, ← this, List.getElem?_append_right (Nat.le_refl _), Nat.sub_self]
  rfl

theorem scan_none {q : RxQ} {i F : Nat} {g : Bool} (h : (q.comp i).gen ≠ g) : q.scan i g (F + 1) = false := by
  simp only [RxQ.scan, if_pos h]

theorem scan_one {q : RxQ} {i F : Nat} {g : Bool} (h : (q.comp i).gen = g) (h1 : (q.comp i).eop = true)
    (h2 : (q.comp i).len ≠ 0) : q.scan i g (F + 1) = true := by
  have : ¬ (q.comp i).gen ≠ g := fun hn => hn h
  simp only [RxQ.scan, if_neg this, h1, true_and, if_pos h2]

theorem scan_next {q : RxQ} {i F : Nat} {g : Bool} (h : (q.comp i).gen = g) (h1 : (q.comp i).eop = false) :
    q.scan i g (F + 1) = q.scan (adv q.n i g).1 (adv q.n i g).2 F := by
  have : ¬ (q.comp i).gen ≠ g := fun hn => hn h
  simp only [RxQ.scan, if_neg this, h1, Bool.false_eq_true, false_and, if_false]

theorem skipZero_none {q : RxQ} {F : Nat} (h : (q.comp q.tail).len ≠ 0) : q.skipZero (F + 1) = .ok q := by
  simp only [RxQ.skipZero, if_pos h]

theorem RCp.read {q : RxQ} {dev : RxDev} {keys : List Key} {R C : Nat} (h : RCp q dev keys R C) {k : Nat}
    (h1 : R ≤ k) (h2 : k < C) {v : Key} (hv : keys[k]? = some v) :
    (q.comp (k % q.n)).key = v ∧ (q.comp (k % q.n)).gen = par q.n k := by
  refine ⟨?_, h.gens.g1 k h2 (by have := h.win; omega)⟩
  have := h.comp k h1 h2
  rw [hv] at this
  exact (Option.some.inj this).symm

theorem RCp.unread {q : RxQ} {dev : RxDev} {keys : List Key} {R C : Nat} (h : RCp q dev keys R C) (hn : 0 < q.n) :
    (q.comp (C % q.n)).gen ≠ par q.n C := by
  have : (q.comp (C % q.n)).gen = !par q.n C := h.gens.next hn
  rw [this]
  cases par q.n C <;> simp

/-- The state after `dequeue` has returned a frame. -/
theorem RInv.consume {s : RxSt} {W D C : Nat} (hw : s.w = .idle) (hc : RCmd s.q s.w s.accepted s.got.length W D)
    (hd : RDv s.q.n s.dev s.mem (s.accepted ++ s.w.chain) s.frames s.got.length D)
    (hp : RCp s.q s.dev (allKeys s.frames s.dev.mid) (fragCount (s.frames.take s.got.length)) C)
    (hgot : ∀ (k : Nat) g, s.got[k]? = some g → ∃ c f, s.accepted[k]? = some c ∧ s.frames[k]? = some f ∧ Receives c f g)
    (hsh : ∀ f ∈ s.frames, f.keys.length = f.frags.length ∧ f.frags.length ≤ 2)
    {f : Frame} (hf : s.frames[s.got.length]? = some f) {c : Chain} (hcc : s.accepted[s.got.length]? = some c)
    {fl : List (Nat × Chain)} (hfl : fl.map Prod.snd = s.accepted.drop (s.got.length + 1))
    {g : RxGot} (hg : Receives c f g) (hC : fragCount (s.frames.take s.got.length) + f.frags.length ≤ C)
    (hpos : 0 < f.frags.length) :
    RInv { s with
      q := { s.q with
        inflight := fl
        tail := (fragCount (s.frames.take s.got.length) + f.frags.length) % s.q.n
        cgen := par s.q.n (fragCount (s.frames.take s.got.length) + f.frags.length) }
      got := s.got ++ [g] } := by
  have hfs := fragCount_succ hf
  have hlt := (List.getElem?_eq_some_iff.1 hf).1
  have hposd := hd.pos
  have h1 := hc.wr
  rw [hw] at h1
  simp only [RWrOk] at h1
  refine ⟨⟨W, D, C, ?_, ?_, ?_⟩, ?_, ?_, hsh⟩
  · refine ⟨hc.n4, hc.two, hc.head, hc.gen, ?_, hc.cont, hc.gens, hc.dw, ?_⟩
    · simp only [hw, RWrOk, List.length_append, List.length_singleton]
      omega
    · simp only [List.length_append, List.length_singleton]
      omega
  · simp only [List.length_append, List.length_singleton]
    refine ⟨hd.next, hd.gen, hd.pos, hd.odd, by omega, ?_, ?_, hd.mid⟩
    · refine List.Nodup.sublist ?_ hd.nodup
      simp only [addrs]
      rw [← List.drop_drop]
      cases hL : (s.accepted ++ s.w.chain).drop s.got.length with
      | nil => simp
      | cons a L => simp only [List.drop_one, List.tail_cons, List.flatMap_cons]; exact List.sublist_append_right _ _
    · intro k fr hk hfr
      exact hd.fits k fr (by omega) hfr
  · simp only [List.length_append, List.length_singleton, hfs]
    refine ⟨hC, hp.ck, hp.pend, rfl, rfl, hp.dnext, hp.dgen, ?_, ?_, hp.gens⟩
    · have := hp.win
      simp only
      omega
    · intro k hk hk2
      exact hp.comp k (by omega) hk2
  · simp only [List.length_append, List.length_singleton]
    exact hfl
  · intro k g' hk
    simp only at hk
    rcases Nat.lt_trichotomy k s.got.length with hlt | heq | hgt
    · rw [List.getElem?_append_left hlt] at hk
      exact hgot k g' hk
    · subst heq
      simp only [List.getElem?_concat_length, Option.some.injEq] at hk
      subst hk
      exact ⟨c, f, hcc, hf, hg⟩
    · have := (List.getElem?_eq_some_iff.1 hk).1
      simp at this
      omega

theorem RxSt.step_dequeue {s : RxSt} (hw : s.w = .idle) : s.step .dequeue =
      (match s.q.dequeue s.mem with
      | .ok (some (q, g)) => .ok { s with
          q := q
          got := s.got ++ [g] }
      | .ok none => .ok s
      | .panic => .panic
      | .off => .off) := by
  simp only [RxSt.step, hw]
  rfl

theorem dequeue_none {q : RxQ} {mem : Nat → Frag} (h : q.scan q.tail q.cgen (q.n + 1) = false) :
    q.dequeue mem = .ok none := by
  simp only [RxQ.dequeue, h, if_true]

theorem dequeue_some {q : RxQ} {mem : Nat → Frag} (h : q.scan q.tail q.cgen (q.n + 1) = true)
    (hl : (q.comp q.tail).len ≠ 0) (hs : (q.comp q.tail).sop = true) {j : Nat} {c : Chain} {fl : List (Nat × Chain)}
    (hi : q.inflight = (j, c) :: fl) {q2 : RxQ} {segs : List Seg} {data : List Frag} {err : Bool}
    (hp : RxQ.pieces { q with inflight := fl } mem [] [] c.segs = .ok (q2, segs, data, err)) :
    q.dequeue mem = .ok (some (q2, if err then ⟨{ c with segs := segs.map (fun s => { s with len := 0 }) }, []⟩
              else ⟨{ c with segs := segs }, data⟩)) := by
  have h1 : ¬ (q.scan q.tail q.cgen (q.n + 1) = false) := by simp [h]
  have h2 : ¬ ¬ (q.comp q.tail).sop = true := by simp [hs]
  simp only [RxQ.dequeue, if_neg h1, skipZero_none hl, if_neg h2, hi, hp]

/-- `dequeue` returns the next frame or, if there is none whose completions are all there, nothing. -/
theorem RInv.dequeue {s : RxSt} (h : RInv s) (hw : s.w = .idle) : ∃ s', s.step .dequeue = .ok s' ∧ RInv s' ∧
    ((s'.got.length = s.got.length + 1) ∨
     (s' = s ∧ (s.frames.length = s.got.length ∨ s.dev.pend ≠ []))) := by
  have hinv := h
  obtain ⟨⟨W, D, C, hc, hd, hp⟩, hfl, hgot, hsh⟩ := h
  have hn : 0 < s.q.n := by have := hc.n4; omega
  have hG := hd.gf
  have hrc := hp.rc
  rw [RxSt.step_dequeue hw]
  have hnone : s.q.scan s.q.tail s.q.cgen (s.q.n + 1) = false →
      (s.frames.length = s.got.length ∨ s.dev.pend ≠ []) → ∃ s',
      (match s.q.dequeue s.mem with
      | .ok (some (q, g)) => Res.ok { s with
          q := q
          got := s.got ++ [g] }
      | .ok none => .ok s
      | .panic => .panic
      | .off => .off) = .ok s' ∧ RInv s' ∧
    ((s'.got.length = s.got.length + 1) ∨
     (s' = s ∧ (s.frames.length = s.got.length ∨ s.dev.pend ≠ []))) := by
    intro h1 h2
    rw [dequeue_none h1]
    exact ⟨s, rfl, hinv, .inr ⟨rfl, h2⟩⟩
  have htail := hp.tail
  have hcgen := hp.cgen
  have hct := hp.ck
  rw [keys_total hsh] at hct
  have hsplit := fragCount_split s.frames s.got.length
  have hpend : C < fragCount s.frames + s.dev.mid.toList.length → s.dev.pend ≠ [] := by
    intro h1 h2
    rw [h2] at hct
    simp at hct
    omega
  have hadv := adv_par (n := s.q.n) (i := fragCount (s.frames.take s.got.length)) hn
  rcases Nat.lt_or_ge s.got.length s.frames.length with hlt | hge
  · -- a frame is complete
    have hf : s.frames[s.got.length]? = some s.frames[s.got.length] := List.getElem?_eq_getElem hlt
    generalize hfe : s.frames[s.got.length] = f at hf
    obtain ⟨c, hfull, hfit⟩ := hd.fits _ f (Nat.le_refl _) hf
    rw [hw] at hfull
    simp only [RxWriter.chain, List.append_nil] at hfull
    have hcl := (List.getElem?_eq_some_iff.1 hfull).1
    have hce := (List.getElem?_eq_some_iff.1 hfull).2
    obtain ⟨fl, j, hinfl, hfl2⟩ : ∃ fl j, s.q.inflight = (j, c) :: fl ∧ fl.map Prod.snd = s.accepted.drop (s.got.length + 1) := by
      rw [List.drop_eq_getElem_cons hcl] at hfl
      rcases hq : s.q.inflight with _ | ⟨⟨j, c'⟩, fl⟩
      · rw [hq] at hfl
        cases hfl
      · rw [hq] at hfl
        simp only [List.map_cons, List.cons.injEq] at hfl
        exact ⟨fl, j, by rw [hfl.1, hce], hfl.2⟩
    have hfs := fragCount_succ hf
    have htot : fragCount (s.frames.take s.got.length) + f.frags.length ≤ fragCount s.frames := by
      rw [← hfs, fragCount_split s.frames (s.got.length + 1)]
      omega
    by_cases hCR : C = fragCount (s.frames.take s.got.length)
    · -- nothing reported
      refine hnone ?_ (.inr (hpend ?_))
      · rw [htail, hcgen, ← hCR]
        exact scan_none (hp.unread hn)
      · have : 0 < f.frags.length := by
          obtain ⟨a, b, _, ⟨x, hx, _⟩ | ⟨x, y, hx, _⟩⟩ := hfit <;> simp [hx]
        omega
    have hRC : fragCount (s.frames.take s.got.length) < C := by omega
    obtain ⟨a, b, hs, ⟨x, hx, hx1, hx2, hx3⟩ | ⟨x, y, hx, hx1, hx2, hx3, hy1, hy2, hy3⟩⟩ := hfit
    · -- one piece
      have hk : f.keys[0]? = some (x.length, true, true, f.err) := by simp [Frame.keys, hx]
      obtain ⟨hkey, hgen⟩ := hp.read (Nat.le_refl _) hRC (keys_at hf hsh hk)
      rw [← htail] at hkey hgen
      rw [← hcgen] at hgen
      simp only [RxComp.key, Prod.mk.injEq] at hkey
      obtain ⟨hk1, hk2, hk3, hk4⟩ := hkey
      have hl : (s.q.comp s.q.tail).len ≠ 0 := by omega
      have hng : ¬ (s.q.comp s.q.tail).gen ≠ s.q.cgen := fun hn => hn hgen
      rw [← htail, ← hcgen] at hadv
      have hmin : min a.len x.length = x.length := by omega
      have hpc : RxQ.pieces { s.q with inflight := fl } s.mem [] [] c.segs = .ok ({ s.q with
          inflight := fl
          tail := (fragCount (s.frames.take s.got.length) + 1) % s.q.n
          cgen := par s.q.n (fragCount (s.frames.take s.got.length) + 1) },
          [⟨a.addr, x.length⟩, b], [x], f.err) := by
        rw [hs]
        simp only [RxQ.pieces, if_neg hng, hk1, hk3, hk4, if_true, hadv, hmin, hx3, List.take_length,
          List.nil_append]
      rw [dequeue_some (scan_one hgen hk3 hl) hl hk2 hinfl hpc]
      refine ⟨_, rfl, ?_, .inl (by simp)⟩
      have := RInv.consume hw hc hd hp hgot hsh hf hfull hfl2
        (g := if f.err then ⟨{ c with segs := [⟨a.addr, x.length⟩, b].map (fun s => { s with len := 0 }) }, []⟩
              else ⟨{ c with segs := [⟨a.addr, x.length⟩, b] }, [x]⟩) ?_ (by rw [hx]; exact hRC) (by simp [hx])
      · rw [hx] at this
        exact this
      · cases he : f.err <;> simp [Receives, he, hs, hx]
    · -- two pieces
      have hk : f.keys[0]? = some (x.length, true, false, false) := by simp [Frame.keys, hx]
      have hkb : f.keys[1]? = some (y.length, false, true, f.err) := by simp [Frame.keys, hx]
      obtain ⟨hkey, hgen⟩ := hp.read (Nat.le_refl _) hRC (keys_at hf hsh hk)
      rw [← htail] at hkey hgen
      rw [← hcgen] at hgen
      simp only [RxComp.key, Prod.mk.injEq] at hkey
      obtain ⟨hk1, hk2, hk3, hk4⟩ := hkey
      have hl : (s.q.comp s.q.tail).len ≠ 0 := by omega
      have hng : ¬ (s.q.comp s.q.tail).gen ≠ s.q.cgen := fun hn => hn hgen
      have hadv2 := adv_par (n := s.q.n) (i := fragCount (s.frames.take s.got.length) + 1) hn
      rw [← htail, ← hcgen] at hadv
      obtain ⟨F, hF⟩ : ∃ F, s.q.n = F + 1 := ⟨s.q.n - 1, by omega⟩
      have hscan : s.q.scan s.q.tail s.q.cgen (s.q.n + 1) =
          s.q.scan ((fragCount (s.frames.take s.got.length) + 1) % s.q.n)
            (par s.q.n (fragCount (s.frames.take s.got.length) + 1)) s.q.n := by
        rw [scan_next hgen hk3, hadv]
      by_cases hCR1 : C = fragCount (s.frames.take s.got.length) + 1
      · refine hnone ?_ (.inr (hpend ?_))
        · rw [hscan]
          have hu := hp.unread hn
          rw [hCR1] at hu
          conv => lhs; arg 4; rw [hF]
          exact scan_none hu
        · simp only [hx, List.length_cons, List.length_nil] at htot
          omega
      · have hRC1 : fragCount (s.frames.take s.got.length) + 1 < C := by omega
        obtain ⟨hkeyb, hgenb⟩ := hp.read (Nat.le_add_right _ _) hRC1 (keys_at hf hsh hkb)
        simp only [RxComp.key, Prod.mk.injEq] at hkeyb
        obtain ⟨hb1, hb2, hb3, hb4⟩ := hkeyb
        have hlb : (s.q.comp ((fragCount (s.frames.take s.got.length) + 1) % s.q.n)).len ≠ 0 := by omega
        have hngb : ¬ (s.q.comp ((fragCount (s.frames.take s.got.length) + 1) % s.q.n)).gen ≠
          par s.q.n (fragCount (s.frames.take s.got.length) + 1) := fun hn => hn hgenb
        have hmin : min a.len x.length = x.length := by omega
        have hminb : min b.len y.length = y.length := by omega
        have hpc : RxQ.pieces { s.q with inflight := fl } s.mem [] [] c.segs = .ok ({ s.q with
            inflight := fl
            tail := (fragCount (s.frames.take s.got.length) + 1 + 1) % s.q.n
            cgen := par s.q.n (fragCount (s.frames.take s.got.length) + 1 + 1) },
            [⟨a.addr, x.length⟩, ⟨b.addr, y.length⟩], [x, y], f.err) := by
          rw [hs]
          simp only [RxQ.pieces, if_neg hng, hk1, hk3, if_false, hadv, hmin, hx3, List.take_length,
            List.nil_append, Bool.false_eq_true]
          simp only [if_neg hngb, hb1, hb3, hb4, if_true, hadv2, hminb, hy3, List.take_length,
            List.singleton_append]
        have hsc : s.q.scan s.q.tail s.q.cgen (s.q.n + 1) = true := by
          rw [hscan]
          conv => lhs; arg 4; rw [hF]
          exact scan_one hgenb hb3 hlb
        rw [dequeue_some hsc hl hk2 hinfl hpc]
        refine ⟨_, rfl, ?_, .inl (by simp)⟩
        have := RInv.consume hw hc hd hp hgot hsh hf hfull hfl2
          (g := if f.err then ⟨{ c with segs := ([⟨a.addr, x.length⟩, ⟨b.addr, y.length⟩] : List Seg).map (fun s => { s with len := 0 }) }, []⟩
                else ⟨{ c with segs := [⟨a.addr, x.length⟩, ⟨b.addr, y.length⟩] }, [x, y]⟩) ?_
          (by rw [hx]; exact hRC1) (by simp [hx])
        · rw [hx] at this
          exact this
        · cases he : f.err <;> simp [Receives, he, hs, hx]
  · -- no frame is complete
    have hGf : s.frames.length = s.got.length := by omega
    refine hnone ?_ (.inl hGf)
    have htk : s.frames.take s.got.length = s.frames := List.take_of_length_le (by omega)
    rw [htk] at htail hcgen hrc hadv hp
    rw [htail, hcgen]
    by_cases hCR : C = fragCount s.frames
    · rw [← hCR]
      exact scan_none (hp.unread hn)
    · rcases hm : s.dev.mid with _ | f0
      · simp [hm] at hct
        omega
      · have hC : C = fragCount s.frames + 1 := by
          simp [hm] at hct
          omega
        have hk := keys_mid (f := f0) hsh
        rw [← hm] at hk
        obtain ⟨hkey, hgen⟩ := hp.read (Nat.le_refl _) (by omega) hk
        simp only [RxComp.key, Prod.mk.injEq] at hkey
        rw [scan_next hgen hkey.2.2.1, hadv]
        obtain ⟨F, hF⟩ : ∃ F, s.q.n = F + 1 := ⟨s.q.n - 1, by omega⟩
        conv => lhs; arg 4; rw [hF]
        have hu := hp.unread hn
        rw [hC] at hu
        exact scan_none hu

end NRK.Net
