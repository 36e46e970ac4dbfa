import Verif.Load.LoaderProc

/-!
# C59: program loading
-/

namespace NRK.Load

open NRK.Mem (Frame LARGE LARGE_eq roundUp)
open NRK.VSpace (VSpace Env MapAction mapFrame Run userTop PageSize)
open Spec

/-- **C59** A program of the shape that the build produces (`GoodProgram`: read-only headers and then at most
one writeable header, on separate large pages) loads, on every replica:
* every address of a header can be used with exactly the rights that the header asks for, and holds the byte
  of the file, with the relocations applied; where the file has no byte, it holds what the page held before
  (the full property wants zero there, see `c59_bss_not_zeroed`, and has no limit on the shape);
* a writeable address is the same memory on all replicas;
* no page outside the headers' pages is mapped, and no memory is changed but the pages that the allocators
  handed out. -/
theorem c59_image_partial (env : Env) (hk : env.pages4k = false) (offset : Nat) (ros ws : List Hdr)
    (rs : List Reloc) (supply : List Frame) (reps : List (VSpace × List Frame)) (m : Mem)
    (g : GoodProgram offset ros ws rs) (gm : GoodMemory env ros ws supply reps) :
    ∃ vs m', makeProcess env offset (ros ++ ws) rs supply reps m = .ok (vs, m') ∧
      vs.length = reps.length ∧
      (∀ s ∈ vs, ∀ h ∈ ros ++ ws, ∀ va, Covers h va →
        ∃ p, s.resolve (offset + va) = .ok (p, rights h) ∧
          m' p = image offset (ros ++ ws) rs (m p) va) ∧
      (∀ s ∈ vs, ∀ s' ∈ vs, ∀ h ∈ ws, ∀ va, Covers h va →
        s.resolve (offset + va) = s'.resolve (offset + va)) ∧
      (∀ s ∈ vs, ∀ x, x < userTop → (∀ h ∈ ros ++ ws, ¬ OnPageOf offset h x) →
        s.resolve x = .err .notMapped) ∧
      (∀ p, ¬ InFrames (supply ++ reps.flatMap (·.2)) p → m' p = m p) := by
  have hd := gm.distinct
  rw [List.map_append, List.nodup_append] at hd
  have hal : ∀ f ∈ supply ++ reps.flatMap (·.2), f.base % LARGE = 0 := fun f hf => (gm.large f hf).2
  obtain ⟨m1, d1, d2, d3, d4, d5⟩ := makeData_spec g (fun f hf => gm.large f (List.mem_append_left _ hf))
    hd.1 gm.enough_w.1 m
  have hlen : ((dataPl ws supply).map (·.2)).length = totalPages ws := by rw [List.length_map, d4]
  have hwl : ∀ h ∈ ws, largePages h ≤ ((dataPl ws supply).map (·.2)).length := by
    intro h hh
    rw [hlen]
    cases ws with
    | nil => cases hh
    | cons w ws =>
      have : ws = [] := by
        have := g.ws_one
        simp only [List.length_cons] at this
        exact List.length_eq_zero_iff.1 (by omega)
      subst this
      rw [List.mem_singleton] at hh
      subst hh
      rw [totalPages_one]
      exact Nat.le_refl _
  obtain ⟨vs, m2, p1, p2, p3, p4⟩ := procAll_spec env hk g ((dataPl ws supply).map (·.2))
    (fun f hf => by
      obtain ⟨q, hq, rfl⟩ := List.mem_map.1 hf
      exact gm.large _ (List.mem_append_left _ (dataPl_frames hq))) hwl reps m1 gm.fresh
    (fun f hf => gm.large f (List.mem_append_right _ hf)) hd.2.1 gm.enough_ro
  -- the writeable part
  have hw : ∀ h ∈ ws, ∀ va, Covers h va → ∃ q ∈ dataPl ws supply,
      q ∈ pagesAt (pageBase h) (((dataPl ws supply).map (·.2)).take (largePages h)) ∧
      q.1 ≤ va ∧ va < q.1 + LARGE := by
    intro h hh va hc
    have h1 := pageBase_le h
    have h2 := le_pageEnd h
    unfold pageEnd at h2
    have hl := hwl h hh
    unfold Covers at hc
    cases ws with
    | nil => cases hh
    | cons w ws =>
      have : ws = [] := by
        have := g.ws_one
        simp only [List.length_cons] at this
        exact List.length_eq_zero_iff.1 (by omega)
      subst this
      rw [List.mem_singleton] at hh
      subst hh
      have e : (dataPl [h] supply).map (·.2) = supply.take (largePages h) := pagesAt_frames _ _
      rw [e] at hl
      have e1 : (supply.take (largePages h)).length = largePages h :=
        Nat.le_antisymm (by rw [List.length_take]; exact Nat.min_le_left _ _) hl
      obtain ⟨q, hq, q1, q2⟩ := pagesAt_cover (fs := supply.take (largePages h)) (base := pageBase h) (va := va)
        (by omega) (by rw [e1]; omega)
      refine ⟨q, hq, ?_, q1, q2⟩
      rw [e, List.take_take, Nat.min_self]
      exact hq
  refine ⟨vs, m2, ?_, p2, ?_, ?_, fun s hs => (p4 s hs).2.2, ?_⟩
  · unfold makeProcess
    rw [d1, Outcome.bind_ok]
    simp only
    rw [if_neg (by have := gm.enough_w.2; omega), p1]
  · intro s hs h hh va hc
    rcases List.mem_append.1 hh with hh | hh
    · obtain ⟨p, x1, x2, x3⟩ := (p4 s hs).1 h hh va hc
      refine ⟨p, x2, ?_⟩
      have := d3 p (fun hx => inFrames_disj hal gm.distinct hx x1)
      rw [this] at x3
      exact x3
    · obtain ⟨q, hq, q0, q1, q2⟩ := hw h hh va hc
      have e1 : offset + q.1 + (va - q.1) = offset + va := by omega
      have e2 : q.1 + (va - q.1) = va := by omega
      have hr := (p4 s hs).2.1 h hh q q0 (va - q.1) (by omega)
      rw [e1] at hr
      refine ⟨_, hr, ?_⟩
      have hin : InFrames supply (q.2.base + (va - q.1)) :=
        ⟨q.2, dataPl_frames hq, Nat.le_add_right _ _, by omega⟩
      rw [p3 _ (inFrames_disj hal gm.distinct hin), d5 q hq _ (by omega), e2]
  · intro s hs s' hs' h hh va hc
    obtain ⟨q, hq, q0, q1, q2⟩ := hw h hh va hc
    have e1 : offset + q.1 + (va - q.1) = offset + va := by omega
    have h1 := (p4 s hs).2.1 h hh q q0 (va - q.1) (by omega)
    have h2 := (p4 s' hs').2.1 h hh q q0 (va - q.1) (by omega)
    rw [e1] at h1 h2
    rw [h1, h2]
  · intro p hp
    rw [p3 p (fun ⟨f, hf, x⟩ => hp ⟨f, List.mem_append_right _ hf, x⟩),
      d3 p (fun ⟨f, hf, x⟩ => hp ⟨f, List.mem_append_left _ hf, x⟩)]

/-- Where the file has a byte and no relocation is, the image is this byte. -/
theorem c59_image_file (offset : Nat) (hs : List Hdr) (rs : List Reloc) (old : UInt8) (va : Nat) (b : UInt8)
    (h : fileByte hs va = some b) (hr : ∀ r ∈ rs, ¬ (r.off ≤ va ∧ va < r.off + 8)) :
    image offset hs rs old va = b := by
  have : relocByte offset rs va = none := by
    induction rs with
    | nil => rfl
    | cons r rs ih =>
      rw [relocByte_cons, ih fun x hx => hr x (List.mem_cons_of_mem _ hx)]
      unfold one
      rw [if_neg (hr r (by simp))]
      rfl
  unfold image
  rw [this, h]
  rfl

/-- Finding: the part of a header that is not in the file (zero-initialised data) is not cleared: the program
finds there what the page held before, for instance data of another process. -/
theorem c59_bss_not_zeroed (env : Env) (hk : env.pages4k = false) (offset : Nat) (ros ws : List Hdr)
    (rs : List Reloc) (supply : List Frame) (reps : List (VSpace × List Frame)) (m : Mem)
    (g : GoodProgram offset ros ws rs) (gm : GoodMemory env ros ws supply reps) (h : Hdr)
    (hh : h ∈ ros ++ ws) (va : Nat) (hva : h.vaddr + h.data.length ≤ va) (hc : Covers h va)
    (hr : ∀ r ∈ rs, ¬ (r.off ≤ va ∧ va < r.off + 8)) (secret : UInt8) (hm : ∀ p, m p = secret) :
    ∃ vs m', makeProcess env offset (ros ++ ws) rs supply reps m = .ok (vs, m') ∧
      ∀ s ∈ vs, ∃ p, s.resolve (offset + va) = .ok (p, rights h) ∧ m' p = secret := by
  obtain ⟨vs, m', h1, _, h2, _⟩ := c59_image_partial env hk offset ros ws rs supply reps m g gm
  refine ⟨vs, m', h1, fun s hs => ?_⟩
  obtain ⟨p, p1, p2⟩ := h2 s hs h hh va hc
  refine ⟨p, p1, ?_⟩
  rw [p2]
  have e1 : relocByte offset rs va = none := by
    clear h1 h2 p2 g
    induction rs with
    | nil => rfl
    | cons r rs ih =>
      rw [relocByte_cons, ih fun x hx => hr x (List.mem_cons_of_mem _ hx)]
      unfold one
      rw [if_neg (hr r (by simp))]
      rfl
  have hb := pageBase_le h
  have he := le_pageEnd h
  unfold Covers at hc
  unfold image
  rw [e1, fileByte_mem g.apart' g.fits hh (by omega) (by omega), overlay_out (by omega)]
  exact hm p

theorem dataRelocs_append (offset : Nat) (pl : List (Nat × Frame)) (rs rs' : List Reloc) (m : Mem) :
    dataRelocs offset pl (rs ++ rs') m = (dataRelocs offset pl rs m).bind (dataRelocs offset pl rs') := by
  induction rs generalizing m with
  | nil => rfl
  | cons r rs ih =>
    rw [List.cons_append, dataRelocs, dataRelocs]
    cases dataReloc offset r pl m with
    | ok m1 => rw [Outcome.bind_ok, Outcome.bind_ok]; exact ih m1
    | err e => rfl
    | panic => rfl

/-- A relocation of another type: a page is found for it, and the program is refused. -/
theorem dataReloc_unsupported (offset : Nat) (r : Reloc) (hr : r.relative = false)
    (ho : offset % LARGE = 0) :
    ∀ (fs : List Frame) (base : Nat) (m : Mem), (∀ f ∈ fs, f.size = LARGE) → base % LARGE = 0 →
      base ≤ r.off → r.off < base + fs.length * LARGE →
      dataReloc offset r (pagesAt base fs) m = .err .unableToLoad := by
  intro fs
  induction fs with
  | nil => intro base m _ _ h1 h2; rw [List.length_nil, Nat.zero_mul] at h2; omega
  | cons f fs ih =>
    intro base m hf hb h1 h2
    have e : (offset + base) - (offset + base) % LARGE = offset + base := by
      rw [Nat.add_mod, ho, hb]; simp
    rw [List.length_cons, Nat.add_mul, Nat.one_mul] at h2
    rw [pagesAt, dataReloc]
    simp only [e, hf f (by simp)]
    by_cases hi : r.off ≤ base + LARGE
    · rw [if_pos (by omega), if_neg (by rw [hr]; decide)]
    · rw [if_neg (by omega)]
      exact ih (base + LARGE) m (fun x hx => hf x (List.mem_cons_of_mem _ hx))
        (by rw [Nat.add_mod_right]; exact hb) (by omega) (by omega)

/-- **C59** A program with a relocation of another type in its writeable header is refused with an error,
whatever follows. -/
theorem c59_unsupported_relocation (env : Env) (offset : Nat) (ros : List Hdr) (w : Hdr)
    (rs rs' : List Reloc) (supply : List Frame) (reps : List (VSpace × List Frame)) (m : Mem)
    (g : GoodProgram offset ros [w] rs) (gm : GoodMemory env ros [w] supply reps) (r : Reloc)
    (hr : r.relative = false) (hin : Covers w r.off) :
    makeProcess env offset (ros ++ [w]) (rs ++ r :: rs') supply reps m = .err .unableToLoad := by
  have hd := gm.distinct
  rw [List.map_append, List.nodup_append] at hd
  have hw : w.w = true := g.ws_w w (by simp)
  have hle : largePages w ≤ supply.length := by
    rw [← totalPages_one]; exact gm.enough_w.1
  obtain ⟨m1, d1, _⟩ := makeData_spec g (fun f hf => gm.large f (List.mem_append_left _ hf))
    hd.1 gm.enough_w.1 m
  have hda : dataAllocate (ros ++ [w]) supply =
      .ok (pagesAt (pageBase w) (supply.take (largePages w)), supply.drop (largePages w)) := by
    rw [dataAllocate_ros _ _ g.ros_ro, dataAllocate, if_pos hw, takePages_eq _ _ _ hle, Outcome.bind_ok,
      dataAllocate, Outcome.map_ok]
    simp only [List.append_nil]
  have hl : (supply.take (largePages w)).length = largePages w := by
    rw [List.length_take]; exact Nat.min_eq_left hle
  unfold makeProcess
  unfold makeData at d1 ⊢
  rw [hda, Outcome.bind_ok] at d1 ⊢
  simp only at d1 ⊢
  cases hx : dataLoad (pagesAt (pageBase w) (supply.take (largePages w))) (ros ++ [w]) m with
  | err e => rw [hx] at d1; cases d1
  | panic => rw [hx] at d1; cases d1
  | ok m2 =>
    rw [hx, Outcome.bind_ok] at d1
    rw [Outcome.bind_ok, dataRelocs_append]
    cases hy : dataRelocs offset (pagesAt (pageBase w) (supply.take (largePages w))) rs m2 with
    | err e => rw [hy] at d1; cases d1
    | panic => rw [hy] at d1; cases d1
    | ok m3 =>
      rw [Outcome.bind_ok, dataRelocs]
      have h1 := pageBase_le w
      have h2 := le_pageEnd w
      unfold pageEnd at h2
      unfold Covers at hin
      rw [dataReloc_unsupported offset r hr g.offset_aligned _ _ _
        (fun f hf => (gm.large f (List.mem_append_left _ (List.mem_of_mem_take hf))).1) (pageBase_mod w)
        (by omega) (by rw [hl]; omega)]
      rfl

/-- Finding: the range check for relocations includes the end of the frame.  A relocation of the first bytes
of the second page of a writeable header is also stored behind the frame of the first page, which is memory
that does not belong to the program. -/
theorem c59_relocation_outside_frame (offset b addend : Nat) (f1 f2 : Frame) (m : Mem)
    (ho : offset % LARGE = 0) (hb : b % LARGE = 0) (ha : offset + addend < 2 ^ 64)
    (s1 : f1.size = LARGE) (s2 : f2.size = LARGE) (hf1 : f1.base % LARGE = 0) (hf2 : f2.base % LARGE = 0)
    (hne : f2.base ≠ f1.base + LARGE) :
    ∃ m', makeData offset [⟨b, LARGE + LARGE, true, true, false, []⟩] [⟨b + LARGE, true, addend⟩] [f1, f2] m =
        .ok ([f1, f2], m') ∧
      ¬ InFrames [f1, f2] (f1.base + LARGE) ∧ m' (f1.base + LARGE) = UInt8.ofNat (offset + addend) := by
  have hL : 0 < LARGE := by rw [LARGE_eq]; omega
  have hlp : largePages ⟨b, LARGE + LARGE, true, true, false, []⟩ = 2 := by
    rw [← pages_eq]
    unfold pages
    simp only
    have e1 : b + (LARGE + LARGE) + LARGE - 1 = (LARGE - 1) + (b + LARGE + LARGE) := by omega
    have e2 : b + LARGE + LARGE = LARGE * (b / LARGE + 2) := by
      have := Nat.div_add_mod b LARGE
      rw [Nat.mul_add]
      omega
    rw [e1, e2, Nat.add_mul_div_left _ _ hL, Nat.div_eq_of_lt (by omega)]
    omega
  have hpb : pageBase ⟨b, LARGE + LARGE, true, true, false, []⟩ = b := by
    unfold pageBase; simp only; omega
  have v1 : (offset + b) - (offset + b) % LARGE = offset + b := by
    rw [Nat.add_mod, ho, hb]; simp
  have v2 : (offset + (b + LARGE)) - (offset + (b + LARGE)) % LARGE = offset + (b + LARGE) := by
    rw [Nat.add_mod, ho, Nat.add_mod_right, hb]; simp
  have hgap := mul_gap hf2 (b := f1.base + LARGE) (by rw [Nat.add_mod_right]; exact hf1) hne
  refine ⟨(m.write (f1.base + LARGE) (le64 (offset + addend))).write f2.base (le64 (offset + addend)), ?_,
    ?_, ?_⟩
  · have e1 : offset + (b + LARGE) - (offset + b) = LARGE := by omega
    have e2 : offset + (b + LARGE) - (offset + (b + LARGE)) = 0 := by omega
    unfold makeData
    rw [dataAllocate, if_pos rfl, hlp, hpb]
    simp only [takePages, Outcome.map_ok, Outcome.bind_ok, dataAllocate, List.append_nil, dataLoad, if_true]
    have hcopy : dataCopy m b [] [(b, f1), (b + LARGE, f2)] = .ok m := by
      simp only [dataCopy, List.length_nil, s1, s2, Nat.add_zero, Nat.lt_irrefl, and_false, if_false]
      rw [if_neg (by omega)]
    simp only [hcopy, Outcome.bind_ok]
    rw [dataRelocs, dataReloc]
    simp only [v1, s1]
    rw [if_pos (by omega), if_pos trivial]
    unfold relocValue
    rw [if_pos ha, Outcome.bind_ok, dataReloc]
    simp only [v2, s2]
    rw [if_pos (by omega), if_pos trivial]
    unfold relocValue
    rw [if_pos ha, Outcome.bind_ok, e1, e2]
    rfl
  · rintro ⟨f, hf, h1, h2⟩
    rcases List.mem_cons.1 hf with rfl | hf
    · omega
    · rw [List.mem_singleton] at hf
      subst hf
      omega
  · rw [write_out (by rw [le64_length]; rw [LARGE_eq] at *; omega)]
    unfold Mem.write
    rw [if_pos (Nat.le_refl _), Nat.sub_self]
    rw [le64_get _ (by omega)]
    simp

/-- Finding: with two writeable headers, both are mapped to the frames of the first one: the second header's
addresses alias the first one's. -/
theorem c59_two_writable_alias (env : Env) (hk : env.pages4k = false) (offset : Nat)
    (ho : offset % LARGE = 0) (f : Frame) (fs : List Frame)
    (hf : ∀ x ∈ f :: fs, x.size = LARGE ∧ x.base % LARGE = 0) (w1 w2 : Hdr)
    (h1 : w1.r = true ∧ w1.w = true) (h2 : w2.r = true ∧ w2.w = true) (hap : Apart w1 w2)
    (p1 : largePages w1 = 1) (p2 : largePages w2 = 1) (hu : offset + pageEnd w2 ≤ userTop) (s : VSpace)
    (hr : Run env s) (hfree : ∀ x, x < userTop → s.resolve x = .err .notMapped) :
    ∃ s' l, procAllocate env offset (f :: fs) [w1, w2] [] s = .ok (s', l) ∧ ∀ i, i < LARGE →
      s'.resolve (offset + pageBase w1 + i) = .ok (f.base + i, rights w1) ∧
      s'.resolve (offset + pageBase w2 + i) = .ok (f.base + i, rights w2) := by
  have hlow1 : offset + pageEnd w1 ≤ userTop := by
    unfold Apart at hap
    have := pageBase_le w2
    have := le_pageEnd w2
    omega
  obtain ⟨s', l, e1, _, e3, _⟩ := procAllocate_spec env hk offset ho (f :: fs) hf [w1, w2] [] s hr
    (by simp [hap]) (by simp [h1.1, h2.1]) (by simp [hlow1, hu]) (by simp [p1, p2])
    (by unfold roPages
        rw [List.filter_eq_nil_iff.2 (by simp [h1.2, h2.2])]
        exact Nat.le_refl 0)
    (by simp)
    (by intro h hh x _ x2
        refine hfree x ?_
        rcases List.mem_cons.1 hh with rfl | hh
        · omega
        · rw [List.mem_singleton] at hh; subst hh; omega)
  refine ⟨s', l, e1, fun i hi => ⟨?_, ?_⟩⟩
  · exact e3 (w1, pageBase w1, f) (hdrPl_w _ _ _ (by simp) h1.2 (by rw [p1]; simp [pagesAt])) i hi
  · exact e3 (w2, pageBase w2, f) (hdrPl_w _ _ _ (by simp) h2.2 (by rw [p2]; simp [pagesAt])) i hi

/-- Finding: two read-only headers on the same large page make the kernel panic (the linker's option
`max-page-size=0x200000` in the build scripts avoids it). -/
theorem c59_shared_page_panics (env : Env) (hk : env.pages4k = false) (offset : Nat)
    (ho : offset % LARGE = 0) (f1 f2 : Frame) (s1 : f1.size = LARGE ∧ f1.base % LARGE = 0)
    (s2 : f2.size = LARGE ∧ f2.base % LARGE = 0) (hne : f1.base ≠ f2.base) (ws ros : List Frame) (a b : Hdr)
    (ha : a.r = true ∧ a.w = false) (hb : b.r = true ∧ b.w = false) (hsame : pageBase a = pageBase b)
    (p1 : largePages a = 1) (p2 : largePages b = 1) (hu : offset + pageEnd a ≤ userTop) (s : VSpace)
    (hr : Run env s) (hfree : ∀ x, x < userTop → s.resolve x = .err .notMapped) :
    procAllocate env offset ws [a, b] (f1 :: f2 :: ros) s = .panic := by
  have hL : 0 < LARGE := by rw [LARGE_eq]; omega
  obtain ⟨aa, ea, ea'⟩ := action_eq ha.1
  obtain ⟨ab, eb, _⟩ := action_eq hb.1
  have hmod : (offset + pageBase a) % LARGE = 0 := by rw [Nat.add_mod, ho, pageBase_mod]; rfl
  have hE : pageEnd a = pageBase a + LARGE := by unfold pageEnd; rw [p1, Nat.one_mul]
  obtain ⟨v1, e1⟩ := VSpace.c28_map_succeeds env hk s hr (offset + pageBase a) f1 aa (largeFrame s1.1)
    (by rw [s1.1]; omega) (by rw [s1.1]; exact s1.2) (by rw [s1.1]; exact hmod)
    (fun x _ x2 => hfree x (by rw [s1.1] at x2; omega))
  have r1 : Run env v1 := by
    have := Run.map (env := env) false (offset + pageBase a) f1 aa hr (largeFrame s1.1) (by rw [s1.1]; omega)
    rw [e1] at this; exact this
  have hu48 : userTop ≤ 2 ^ 48 := by decide
  have e2 := VSpace.c28_map_reachable_partial env hk false s v1 hr (offset + pageBase a) f1 aa (largeFrame s1.1)
    (by rw [s1.1]; omega) e1 (fun hc => absurd (hfree _ (by omega)) hc) (offset + pageBase a) (by omega)
  rw [if_pos ⟨Nat.le_refl _, by rw [s1.1]; omega⟩, Nat.sub_self, Nat.add_zero] at e2
  have e3 := VSpace.c31_overlap_refused env hk false v1 r1 (offset + pageBase a) f2 ab (largeFrame s2.1)
    (by rw [s2.1]; omega) (by rw [s2.1]; exact s2.2) (by rw [s2.1]; exact hmod) (offset + pageBase a)
    ⟨Nat.le_refl _, by rw [s2.1]; omega⟩ (by rw [e2]; intro h; cases h)
  have e4 : ∃ e, mapFrame env false v1 (offset + pageBase a) f2 ab = (v1, .err e) := by
    rcases e3 with ⟨_, _, _, _, h, _⟩ | ⟨_, h⟩
    · exact ⟨_, h⟩
    · rw [e2] at h
      injection h with h
      injection h with h _
      exact absurd h hne
  obtain ⟨e, e4⟩ := e4
  rw [procAllocate, ea]
  simp only
  rw [p1, ha.2]
  simp only [mapHdr, Bool.false_eq_true, if_false, e1, Outcome.bind_ok]
  rw [procAllocate, eb]
  simp only
  rw [p2, hb.2, ← hsame]
  simp only [mapHdr, Bool.false_eq_true, if_false, e4]
  rfl

/-! ## The hypotheses can be met -/

/-- A program with a code header, and a data header with two file bytes, more memory than that and a
relocation. -/
def sampleRo : Hdr := ⟨0, 5000, true, false, true, [1, 2, 3, 4, 5, 6, 7, 8]⟩

def sampleW : Hdr := ⟨2 * LARGE + 64, LARGE, true, true, false, [9, 10]⟩

theorem c59_sample_program : GoodProgram (64 * LARGE) [sampleRo] [sampleW]
    [⟨0, true, 7⟩, ⟨2 * LARGE + 128, true, 9⟩] := by
  have e := LARGE_eq
  have ht : userTop = 70368744177664 := rfl
  constructor
  · rw [e]
  · simp [sampleRo]
  · simp [sampleW]
  · simp
  · simp [sampleRo, sampleW]
  · simp [sampleRo, sampleW, e]
  · simp only [List.cons_append, List.nil_append, List.pairwise_cons, List.mem_singleton]
    refine ⟨?_, by simp, List.Pairwise.nil⟩
    rintro b rfl
    exact ⟨1, by simp [sampleRo, e], by simp [sampleW, e]⟩
  · intro h hh
    simp only [List.cons_append, List.nil_append, List.mem_cons, List.not_mem_nil, or_false] at hh
    rcases hh with rfl | rfl
    · exact ⟨1, by simp [sampleRo, e], by rw [e, ht]; omega⟩
    · exact ⟨4, by simp [sampleW, e], by rw [e, ht]; omega⟩
  · intro r hr
    simp only [List.mem_cons, List.not_mem_nil, or_false] at hr
    rcases hr with rfl | rfl
    · simp [e]
    · simp [e]
  · intro r hr
    simp only [List.mem_cons, List.not_mem_nil, or_false] at hr
    rcases hr with rfl | rfl
    · left; exact ⟨sampleRo, by simp, by simp [sampleRo], by simp [sampleRo]⟩
    · right
      refine ⟨sampleW, by simp, by simp [sampleW], ?_, ?_⟩
      · simp only [sampleW]; rw [e]; omega
      · simp only; rw [e]; decide

/-- Two replicas, with one page each for code, and two pages for data. -/
theorem c59_sample_memory (env : Env) : GoodMemory env [sampleRo] [sampleW]
    [⟨LARGE, LARGE, 0⟩, ⟨3 * LARGE, LARGE, 0⟩]
    [(⟨[], VSpace.PML4.empty⟩, [⟨5 * LARGE, LARGE, 0⟩]), (⟨[], VSpace.PML4.empty⟩, [⟨2 * LARGE, LARGE, 1⟩])] := by
  have e := LARGE_eq
  constructor
  · simp
  · simp [e]
  · rw [totalPages_one, ← pages_eq]
    simp [pages, sampleW, e]
  · simp [totalPages, pages, sampleRo, e]
  · have hrun : Run env ⟨[], VSpace.PML4.empty⟩ := Run.new _ fun _ _ => rfl
    intro r hr
    simp only [List.mem_cons, List.not_mem_nil, or_false] at hr
    rcases hr with rfl | rfl <;> exact ⟨hrun, fun x _ => rfl⟩

/-- The sample program loads; the third byte of its data is what was in memory before, the ninth byte of
the data page's relocation is the offset's. -/
example (env : Env) (hk : env.pages4k = false) (m : Mem) :
    ∃ vs m', makeProcess env (64 * LARGE) [sampleRo, sampleW] [⟨0, true, 7⟩, ⟨2 * LARGE + 128, true, 9⟩]
      [⟨LARGE, LARGE, 0⟩, ⟨3 * LARGE, LARGE, 0⟩]
      [(⟨[], VSpace.PML4.empty⟩, [⟨5 * LARGE, LARGE, 0⟩]),
        (⟨[], VSpace.PML4.empty⟩, [⟨2 * LARGE, LARGE, 1⟩])] m = .ok (vs, m') ∧ vs.length = 2 := by
  obtain ⟨vs, m', h1, h2, _⟩ := c59_image_partial env hk _ _ _ _ _ _ m c59_sample_program
    (c59_sample_memory env)
  exact ⟨vs, m', h1, h2⟩

end NRK.Load
