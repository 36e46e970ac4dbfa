import Verif.Mem.McacheModel
import Verif.Mem.FrameProps

/-!
# C21, C22, C23: page caches and their refilling
-/

namespace NRK.Mem

open Spec

theorem LARGE_mod : LARGE % BASE = 0 := by simp [LARGE_eq, BASE_eq]

/-! ## C22: populating -/

theorem pushBases_eq (ps : List Frame) : ∀ c : MCache,
    c.pushBases ps = { c with bp := ((ps.take c.spareBase).map (·.base)).reverse ++ c.bp } := by
  induction ps with
  | nil => intro c; simp [MCache.pushBases]
  | cons p ps ih =>
    intro c
    by_cases h : c.bp.length < c.capB
    · have hp : c.pushBase p.base = some { c with bp := p.base :: c.bp } := by
        simp [MCache.pushBase, h]
      have hs : c.spareBase = (MCache.spareBase { c with bp := p.base :: c.bp }) + 1 := by
        simp only [MCache.spareBase, List.length_cons]; omega
      rw [MCache.pushBases, hp]
      simp only
      rw [ih, hs, List.take_succ_cons, List.map_cons, List.reverse_cons, List.append_assoc]
      rfl
    · have hp : c.pushBase p.base = none := by simp [MCache.pushBase, h]
      have hs : c.spareBase = 0 := by unfold MCache.spareBase; omega
      rw [MCache.pushBases, hp]
      simp [hs]

/-- Addresses of `m` consecutive large pages. -/
def largeList (base m : Nat) : List Nat := (List.range m).map (fun i => base + LARGE * i)

theorem map_step_succ (L base m : Nat) :
    (List.range (m + 1)).map (fun i => base + L * i) =
      base :: (List.range m).map (fun i => base + L + L * i) := by
  rw [List.range_succ_eq_map, List.map_cons, List.map_map, Nat.mul_zero, Nat.add_zero]
  refine congrArg (List.cons base) (List.map_congr_left fun i _ => ?_)
  show base + L * (i + 1) = base + L + L * i
  rw [Nat.mul_succ, Nat.add_assoc, Nat.add_comm L]

theorem largeList_succ (base m : Nat) :
    largeList base (m + 1) = base :: largeList (base + LARGE) m :=
  map_step_succ LARGE base m


theorem pushLarges_eq (n : Nat) : ∀ (c : MCache) (f : Frame), f.Ok → f.base % LARGE = 0 →
    ∃ rest, c.pushLarges f n = .ok ({ c with
        lp := ((largeList f.base (min n (f.size / LARGE))).take c.spareLarge).reverse ++ c.lp },
        rest) ∧ rest.Ok ∧
      (∀ a, rest.block.Has a ↔ f.block.Has a ∧ f.base + LARGE * min n (f.size / LARGE) ≤ a) ∧
      (0 < rest.size → rest.aff = f.aff) := by
  induction n with
  | zero =>
    intro c f hf hl
    refine ⟨f, ?_, hf, ?_, fun _ => rfl⟩
    · simp [MCache.pushLarges, largeList]
    · intro a; simp only [Block.Has, Frame.block, Nat.zero_min, Nat.mul_zero]; omega
  | succ n ih =>
    intro c f hf hl
    by_cases hs : f.size ≥ LARGE
    · rw [MCache.pushLarges, if_pos hs, splitAt_ok f hf LARGE LARGE_mod]
      have hm : min (n + 1) (f.size / LARGE) = min n ((f.size - LARGE) / LARGE) + 1 := by momega
      -- the cache after this page
      have hc : ∀ k, ((({ (c.pushLarge f.base).getD c with
            lp := ((largeList (f.base + LARGE) k).take
              ((c.pushLarge f.base).getD c).spareLarge).reverse ++ ((c.pushLarge f.base).getD c).lp })
            : MCache) = { c with
              lp := ((largeList f.base (k + 1)).take c.spareLarge).reverse ++ c.lp }) := by
        intro k
        rw [largeList_succ]
        by_cases h : c.lp.length < c.capL
        · have hp : c.pushLarge f.base = some { c with lp := f.base :: c.lp } := by
            simp [MCache.pushLarge, h]
          have hsp : c.spareLarge = (MCache.spareLarge { c with lp := f.base :: c.lp }) + 1 := by
            simp only [MCache.spareLarge, List.length_cons]; omega
          rw [hp, Option.getD_some, hsp, List.take_succ_cons, List.reverse_cons, List.append_assoc]
          rfl
        · have hp : c.pushLarge f.base = none := by simp [MCache.pushLarge, h]
          have hsp : c.spareLarge = 0 := by unfold MCache.spareLarge; omega
          rw [hp, Option.getD_none, hsp]
          simp
      by_cases hle : LARGE ≥ f.size
      · have hsz : f.size = LARGE := by omega
        rw [if_pos hle]
        obtain ⟨rest, e, h1, h2, h3⟩ := ih ((c.pushLarge f.base).getD c) Frame.empty
          (by simp [Frame.Ok, Frame.empty]) (by simp [Frame.empty])
        have hz : Frame.empty.size / LARGE = 0 := by simp [Frame.empty]
        have hz2 : min n ((f.size - LARGE) / LARGE) = 0 := by
          rw [hsz]; simp
        refine ⟨rest, ?_, h1, ?_, ?_⟩
        · simp only
          rw [e, hm, hz2, hz]
          have := hc 0
          simp only [Nat.min_zero, largeList, List.range_zero, List.map_nil, List.take_nil,
            List.reverse_nil, List.nil_append] at this ⊢
          rw [← this]
        · intro a
          rw [h2, hm, hz2]
          simp only [Block.Has, Frame.block, Frame.empty]
          omega
        · intro hpos
          exfalso
          have := (h2 rest.base).1 (by simp only [Block.Has, Frame.block]; omega)
          simp only [Block.Has, Frame.block, Frame.empty] at this
          omega
      · rw [if_neg hle]
        have hr : (⟨f.base + LARGE, f.size - LARGE, f.aff⟩ : Frame).Ok := by
          obtain ⟨q1, q2⟩ := hf
          constructor <;> simp only <;> momega
        obtain ⟨rest, e, h1, h2, h3⟩ := ih ((c.pushLarge f.base).getD c) _ hr
          (by simp only; momega)
        refine ⟨rest, ?_, h1, ?_, h3⟩
        · simp only
          rw [e, hm]
          simp only
          rw [← hc]
        · intro a
          rw [h2, hm]
          simp only [Block.Has, Frame.block]
          simp only [LARGE_eq] at *
          omega
    · rw [MCache.pushLarges, if_neg hs]
      have hz : min (n + 1) (f.size / LARGE) = 0 := by
        rw [Nat.div_eq_of_lt (by omega)]; simp
      refine ⟨f, ?_, hf, ?_, fun _ => rfl⟩
      · rw [hz]; simp [largeList]
      · intro a; rw [hz]; simp only [Block.Has, Frame.block]; omega

/-- Everything `populate` does, in one formula. -/
theorem populate_eq (c : MCache) (f : Frame) (hf : f.Ok) (howMany : Nat) :
    ∃ (low high rest : Frame) (m : Nat), c.populate f howMany = .ok { c with
        bp := (((pageList rest).take (c.spareBase - (pageList low).length)).map (·.base)).reverse ++
          (((pageList low).take c.spareBase).map (·.base)).reverse ++ c.bp
        lp := ((largeList high.base m).take c.spareLarge).reverse ++ c.lp } ∧
      low.Ok ∧ rest.Ok ∧ high.base % LARGE = 0 ∧ m ≤ high.size / LARGE ∧
      (∀ a, f.block.Has a ↔ low.block.Has a ∨ high.block.Has a) ∧
      Disjoint low.block high.block ∧
      (∀ a, rest.block.Has a ↔ high.block.Has a ∧ high.base + LARGE * m ≤ a) := by
  obtain ⟨low, high, e, p1, p2, p3, p4, p5, _⟩ := c20_split_at_large_boundary f hf
  unfold MCache.populate
  simp only [e, pages_eq low p3, pushBases_eq]
  obtain ⟨rest, e2, q1, q2, _⟩ := pushLarges_eq (if howMany = 0 then 1 else howMany)
    { c with bp := (((pageList low).take c.spareBase).map (·.base)).reverse ++ c.bp } high p4 p5
  simp only [e2, pages_eq rest q1, pushBases_eq]
  refine ⟨low, high, rest, _, ?_, p3, q1, p5, Nat.min_le_right _ _, p1, p2, q2⟩
  have hsp : (MCache.spareBase { c with
      bp := (((pageList low).take c.spareBase).map (·.base)).reverse ++ c.bp
      lp := ((largeList high.base (min (if howMany = 0 then 1 else howMany) (high.size / LARGE))).take
        (MCache.spareLarge { c with
          bp := (((pageList low).take c.spareBase).map (·.base)).reverse ++ c.bp })).reverse ++ c.lp })
      = c.spareBase - (pageList low).length := by
    simp only [MCache.spareBase, List.length_append, List.length_reverse, List.length_map,
      List.length_take]
    omega
  rw [hsp]
  simp only [List.append_assoc]
  rfl

theorem mem_pageList {f : Frame} {p : Frame} (h : p ∈ pageList f) :
    ∃ i, i < f.basePages ∧ p = ⟨f.base + BASE * i, BASE, f.aff⟩ := by
  simp only [pageList, List.mem_map, List.mem_range] at h
  obtain ⟨i, hi, rfl⟩ := h
  exact ⟨i, hi, rfl⟩

theorem pageList_inside {f : Frame} {p : Frame} (h : p ∈ pageList f) : Inside p.block f.block := by
  obtain ⟨i, hi, rfl⟩ := mem_pageList h
  apply inside_of_le
  · simp [Frame.block]
  · simp only [Frame.block, Frame.basePages] at *; momega

theorem pageList_disjoint (f : Frame) :
    AllDisjoint ((pageList f).map (fun p => (⟨p.base, BASE⟩ : Block))) := by
  unfold AllDisjoint pageList
  rw [List.map_map, List.pairwise_map]
  apply List.Pairwise.imp _ (List.pairwise_lt_range)
  intro i j hij
  apply disjoint_of_le
  simp only [Function.comp, BASE_eq]
  omega

theorem largeList_disjoint (b m : Nat) :
    AllDisjoint ((largeList b m).map (fun a => (⟨a, LARGE⟩ : Block))) := by
  unfold AllDisjoint largeList
  rw [List.map_map, List.pairwise_map]
  apply List.Pairwise.imp _ (List.pairwise_lt_range)
  intro i j hij
  apply disjoint_of_le
  simp only [Function.comp, LARGE_eq]
  omega

theorem allDisjoint_perm {l l' : List Block} (h : AllDisjoint l) (p : l.Perm l') : AllDisjoint l' :=
  (List.Perm.pairwise_iff (fun h => Disjoint.symm h) p).1 h

theorem allDisjoint_sublist {l l' : List Block} (h : AllDisjoint l') (p : l.Sublist l') :
    AllDisjoint l := List.Pairwise.sublist p h

/-- **C22** Populating a cache from a block neither invents nor duplicates memory: for every
page-aligned block, every capacity and every number of large pages asked for, the call succeeds,
what was in the cache stays, and the pages added lie inside the block, are disjoint from each other
and are aligned to their size. -/
theorem c22_populate (c : MCache) (f : Frame) (hf : f.Ok) (howMany : Nat) :
    ∃ nb nl, c.populate f howMany = .ok { c with bp := nb ++ c.bp, lp := nl ++ c.lp } ∧
      AllDisjoint (nb.map (⟨·, BASE⟩) ++ nl.map (⟨·, LARGE⟩)) ∧
      (∀ b ∈ nb.map (⟨·, BASE⟩) ++ nl.map (⟨·, LARGE⟩), Inside b f.block) ∧
      (∀ a ∈ nb, a % BASE = 0) ∧ (∀ a ∈ nl, a % LARGE = 0) := by
  obtain ⟨low, high, rest, m, e, hl, hr, hal, hm, hcov, hdis, hrest⟩ := populate_eq c f hf howMany
  -- everything offered to the base-page stack and to the large-page stack
  have hbl : ∀ (g : Frame) (k : Nat), ((pageList g).take k).map (·.base) = ((pageList g).map (·.base)).take k :=
    fun g k => List.map_take
  refine ⟨_, _, e, ?_, ?_, ?_, ?_⟩
  · have hd : AllDisjoint ((pageList rest).map (fun p => (⟨p.base, BASE⟩ : Block)) ++
        ((pageList low).map (fun p => (⟨p.base, BASE⟩ : Block)) ++
        (largeList high.base m).map (fun a => (⟨a, LARGE⟩ : Block)))) := by
      have inlow : ∀ p ∈ pageList low, Inside ⟨p.base, BASE⟩ low.block := by
        intro p hp
        have := pageList_inside hp
        obtain ⟨i, hi, rfl⟩ := mem_pageList hp
        exact this
      have inrest : ∀ p ∈ pageList rest, Inside ⟨p.base, BASE⟩ rest.block := by
        intro p hp
        have := pageList_inside hp
        obtain ⟨i, hi, rfl⟩ := mem_pageList hp
        exact this
      have inlarge : ∀ a ∈ largeList high.base m, ∀ x, (⟨a, LARGE⟩ : Block).Has x →
          high.block.Has x ∧ x < high.base + LARGE * m := by
        intro a ha x hx
        simp only [largeList, List.mem_map, List.mem_range] at ha
        obtain ⟨i, hi, rfl⟩ := ha
        simp only [Block.Has, Frame.block] at *
        simp only [LARGE_eq] at *
        omega
      refine List.pairwise_append.2 ⟨pageList_disjoint rest, ?_, ?_⟩
      · refine List.pairwise_append.2 ⟨pageList_disjoint low, largeList_disjoint _ _, ?_⟩
        intro b hb b' hb'
        simp only [List.mem_map] at hb hb'
        obtain ⟨p, hp, rfl⟩ := hb
        obtain ⟨a, ha, rfl⟩ := hb'
        intro x ⟨hx1, hx2⟩
        exact hdis x ⟨inlow p hp x hx1, (inlarge a ha x hx2).1⟩
      · intro b hb b' hb'
        simp only [List.mem_append, List.mem_map] at hb hb'
        obtain ⟨p, hp, rfl⟩ := hb
        intro x ⟨hx1, hx2⟩
        have h1 := (hrest x).1 (inrest p hp x hx1)
        rcases hb' with ⟨q, hq, rfl⟩ | ⟨a, ha, rfl⟩
        · exact hdis x ⟨inlow q hq x hx2, h1.1⟩
        · have := (inlarge a ha x hx2).2
          omega
    apply allDisjoint_perm (l := ((pageList rest).take (c.spareBase - (pageList low).length)).map
        (fun p => (⟨p.base, BASE⟩ : Block)) ++
        (((pageList low).take c.spareBase).map (fun p => (⟨p.base, BASE⟩ : Block)) ++
        ((largeList high.base m).take c.spareLarge).map (fun a => (⟨a, LARGE⟩ : Block))))
    · refine allDisjoint_sublist hd ?_
      exact List.Sublist.append ((List.take_sublist _ _).map _)
        (List.Sublist.append ((List.take_sublist _ _).map _) ((List.take_sublist _ _).map _))
    · rw [List.map_append, List.map_reverse, List.map_reverse, List.map_reverse, List.append_assoc,
        List.map_map, List.map_map]
      exact (List.reverse_perm _).symm.append
        ((List.reverse_perm _).symm.append (List.reverse_perm _).symm)
  · intro b hb x hx
    simp only [List.map_append, List.map_reverse, List.mem_append, List.mem_reverse, List.mem_map] at hb
    rw [hcov]
    rcases hb with (⟨y, ⟨p, hp, rfl⟩, rfl⟩ | ⟨y, ⟨p, hp, rfl⟩, rfl⟩) | ⟨a, ha, rfl⟩
    · have hp' := List.mem_of_mem_take hp
      have := pageList_inside hp'
      obtain ⟨i, hi, rfl⟩ := mem_pageList hp'
      exact .inr ((hrest x).1 (this x hx)).1
    · have hp' := List.mem_of_mem_take hp
      have := pageList_inside hp'
      obtain ⟨i, hi, rfl⟩ := mem_pageList hp'
      exact .inl (this x hx)
    · have ha' := List.mem_of_mem_take ha
      simp only [largeList, List.mem_map, List.mem_range] at ha'
      obtain ⟨i, hi, rfl⟩ := ha'
      right
      simp only [Block.Has, Frame.block] at *
      simp only [LARGE_eq] at *
      omega
  · intro a ha
    simp only [List.mem_append, List.mem_reverse, List.mem_map] at ha
    rcases ha with ⟨p, hp, rfl⟩ | ⟨p, hp, rfl⟩
    · obtain ⟨i, hi, rfl⟩ := mem_pageList (List.mem_of_mem_take hp)
      have := hr.1
      simp only; momega
    · obtain ⟨i, hi, rfl⟩ := mem_pageList (List.mem_of_mem_take hp)
      have := hl.1
      simp only; momega
  · intro a ha
    rw [List.mem_reverse] at ha
    have := List.mem_of_mem_take ha
    simp only [largeList, List.mem_map, List.mem_range] at this
    obtain ⟨i, hi, rfl⟩ := this
    momega

/-- **C22** With enough room in the cache nothing is lost: every byte of the block is in one of the
pages added. -/
theorem c22_populate_complete (c : MCache) (f : Frame) (hf : f.Ok) (howMany : Nat)
    (hb : f.size / BASE ≤ c.spareBase) (hl : f.size / LARGE ≤ c.spareLarge) :
    ∃ nb nl, c.populate f howMany = .ok { c with bp := nb ++ c.bp, lp := nl ++ c.lp } ∧
      ∀ a, f.block.Has a ↔ ∃ b ∈ nb.map (⟨·, BASE⟩) ++ nl.map (⟨·, LARGE⟩), Block.Has b a := by
  obtain ⟨low, high, rest, m, e, hlo, hr, hal, hm, hcov, hdis, hrest⟩ := populate_eq c f hf howMany
  obtain ⟨nb, nl, e', _, hins, _⟩ := c22_populate c f hf howMany
  rw [e] at e'
  refine ⟨nb, nl, by rw [e, e'], ?_⟩
  have e2 : (⟨c.capB, c.capL, c.node,
      (((pageList rest).take (c.spareBase - (pageList low).length)).map (·.base)).reverse ++
          (((pageList low).take c.spareBase).map (·.base)).reverse ++ c.bp,
      ((largeList high.base m).take c.spareLarge).reverse ++ c.lp⟩ : MCache) =
      ⟨c.capB, c.capL, c.node, nb ++ c.bp, nl ++ c.lp⟩ := by
    injection e'
  simp only [MCache.mk.injEq, true_and] at e2
  have hnb := List.append_cancel_right e2.1
  have hnl := List.append_cancel_right e2.2
  intro a
  refine ⟨?_, fun ⟨b, hb, ha⟩ => hins b hb a ha⟩
  intro ha
  -- sizes: low and rest together fit
  have hE : f.block.Has a := ha
  have hlen : ∀ g : Frame, (pageList g).length = g.basePages := fun g => by simp [pageList]
  have hsz : low.size + high.size ≤ f.size := by
    -- low and high are inside f and disjoint
    by_cases h1 : 0 < low.size
    · by_cases h2 : 0 < high.size
      · have a1 := (hcov low.base).2 (.inl (by simp only [Block.Has, Frame.block]; omega))
        have a2 := (hcov (low.base + low.size - 1)).2 (.inl (by simp only [Block.Has, Frame.block]; omega))
        have b1 := (hcov high.base).2 (.inr (by simp only [Block.Has, Frame.block]; omega))
        have b2 := (hcov (high.base + high.size - 1)).2 (.inr (by simp only [Block.Has, Frame.block]; omega))
        have d1 := hdis high.base
        have d2 := hdis low.base
        simp only [Block.Has, Frame.block] at *
        omega
      · have a1 := (hcov low.base).2 (.inl (by simp only [Block.Has, Frame.block]; omega))
        have a2 := (hcov (low.base + low.size - 1)).2 (.inl (by simp only [Block.Has, Frame.block]; omega))
        simp only [Block.Has, Frame.block] at *
        omega
    · by_cases h2 : 0 < high.size
      · have b1 := (hcov high.base).2 (.inr (by simp only [Block.Has, Frame.block]; omega))
        have b2 := (hcov (high.base + high.size - 1)).2 (.inr (by simp only [Block.Has, Frame.block]; omega))
        simp only [Block.Has, Frame.block] at *
        omega
      · omega
  have hrs : rest.size ≤ high.size := by
    by_cases h1 : 0 < rest.size
    · have a1 := (hrest rest.base).1 (by simp only [Block.Has, Frame.block]; omega)
      have a2 := (hrest (rest.base + rest.size - 1)).1 (by simp only [Block.Has, Frame.block]; omega)
      simp only [Block.Has, Frame.block] at *
      omega
    · omega
  have hfit1 : (pageList low).length ≤ c.spareBase := by
    rw [hlen]; unfold Frame.basePages
    have : low.size / BASE ≤ f.size / BASE := Nat.div_le_div_right (by omega)
    omega
  have hfit2 : (pageList rest).length ≤ c.spareBase - (pageList low).length := by
    rw [hlen, hlen]; unfold Frame.basePages
    have h1 : (low.size + rest.size) / BASE ≤ f.size / BASE := Nat.div_le_div_right (by omega)
    have := hlo.2
    have := hr.2
    momega
  have hfit3 : (largeList high.base m).length ≤ c.spareLarge := by
    simp only [largeList, List.length_map, List.length_range]
    have : high.size / LARGE ≤ f.size / LARGE := Nat.div_le_div_right (by omega)
    omega
  rw [List.take_of_length_le hfit1, List.take_of_length_le hfit2] at hnb
  rw [List.take_of_length_le hfit3] at hnl
  rw [← hnb, ← hnl]
  simp only [List.map_append, List.map_reverse, List.mem_append, List.mem_reverse, List.mem_map]
  have viaPages : ∀ g : Frame, g.Ok → g.block.Has a → ∃ p ∈ pageList g, Block.Has ⟨p.base, BASE⟩ a := by
    intro g hg hga
    obtain ⟨ps, e1, _, _, _, h5⟩ := c20_pages g hg
    rw [pages_eq g hg] at e1
    cases e1
    obtain ⟨p, hp, hpa⟩ := (h5 a).1 hga
    obtain ⟨i, hi, rfl⟩ := mem_pageList hp
    exact ⟨_, hp, hpa⟩
  rcases (hcov a).1 hE with h | h
  · obtain ⟨p, hp, hpa⟩ := viaPages low hlo h
    exact ⟨_, .inl (.inr ⟨_, ⟨p, hp, rfl⟩, rfl⟩), hpa⟩
  · by_cases hh : high.base + LARGE * m ≤ a
    · obtain ⟨p, hp, hpa⟩ := viaPages rest hr ((hrest a).2 ⟨h, hh⟩)
      exact ⟨_, .inl (.inl ⟨_, ⟨p, hp, rfl⟩, rfl⟩), hpa⟩
    · refine ⟨⟨high.base + LARGE * ((a - high.base) / LARGE), LARGE⟩, .inr ⟨_, ?_, rfl⟩, ?_⟩
      · simp only [largeList, List.mem_map, List.mem_range]
        refine ⟨_, ?_, rfl⟩
        simp only [Block.Has, Frame.block] at h
        momega
      · simp only [Block.Has, Frame.block] at *
        momega

/-- **C22** The two entry points are `populate` with some page count; that of `populate_2m_first` makes
up at most 87 percent of the frame.  `populate_4k_first` can only fail in a build with debug assertions, for a cache that holds more than 2 MiB of base pages. -/
theorem c22_entry_points (c : MCache) (f : Frame) (hf : f.Ok) :
    (∃ n, c.populate2mFirst f = c.populate f n ∧ n * LARGE * 100 ≤ f.size * 87) ∧
    (∀ debug, (c.populate4kFirst f debug = .panic ↔
        debug = true ∧ LARGE < c.capB * BASE ∧ f.basePages ≤ c.capB) ∧
      (c.populate4kFirst f debug ≠ .panic → ∃ n, c.populate4kFirst f debug = c.populate f n)) := by
  refine ⟨⟨_, rfl, ?_⟩, ?_⟩
  · have h1 : f.size / LARGE * LARGE ≤ f.size := Nat.div_mul_le_self _ _
    have h2 : f.size / LARGE * 87 / 100 * 100 ≤ f.size / LARGE * 87 := Nat.div_mul_le_self _ _
    calc f.size / LARGE * 87 / 100 * LARGE * 100
        = f.size / LARGE * 87 / 100 * 100 * LARGE := Nat.mul_right_comm _ _ _
      _ ≤ f.size / LARGE * 87 * LARGE := Nat.mul_le_mul_right _ h2
      _ = f.size / LARGE * LARGE * 87 := Nat.mul_right_comm _ _ _
      _ ≤ f.size * 87 := Nat.mul_le_mul_right _ h1
  intro debug
  have np : ∀ n, c.populate f n ≠ .panic := by
    intro n h
    obtain ⟨nb, nl, e, _⟩ := c22_populate c f hf n
    rw [e] at h
    cases h
  unfold MCache.populate4kFirst
  split
  · rename_i h
    refine ⟨⟨fun q => absurd q (np _), fun q => by omega⟩, fun _ => ⟨_, rfl⟩⟩
  · rename_i h
    split
    · rename_i h2
      simp only [Bool.and_eq_true, decide_eq_true_eq] at h2
      refine ⟨⟨fun _ => ⟨h2.1, h2.2, by omega⟩, fun _ => rfl⟩, fun q => absurd rfl q⟩
    · rename_i h2
      refine ⟨⟨fun q => absurd q (np _), fun q => ?_⟩, fun _ => ⟨_, rfl⟩⟩
      simp only [Bool.and_eq_true, decide_eq_true_eq] at h2
      exact absurd ⟨q.1, q.2.1⟩ h2

/-- Finding: the early cache (`FrameCacheEarly`, 2048 base pages) built from an 8 MiB frame trips
the assertion in a debug build. -/
theorem c22_early_cache_debug_panic :
    MCache.newWithFrame 2048 12 0 ⟨0, 2048 * 4096, 0⟩ true = .panic := by
  simp [MCache.newWithFrame, MCache.populate4kFirst, MCache.new, Frame.basePages, BASE_eq, LARGE_eq]

/-- **C22** Adding a block that is disjoint from everything in the cache keeps all cached pages
disjoint. -/
theorem c22_populate_keeps_disjoint (c c' : MCache) (f : Frame) (hf : f.Ok) (howMany : Nat)
    (hd : AllDisjoint c.held) (hnew : ∀ b ∈ c.held, Disjoint b f.block)
    (e : c.populate f howMany = .ok c') :
    AllDisjoint c'.held ∧ ∀ b ∈ c'.held, b ∈ c.held ∨ Inside b f.block := by
  obtain ⟨nb, nl, e', h1, h2, _⟩ := c22_populate c f hf howMany
  rw [e'] at e
  cases e
  have hperm : ((nb.map (fun a => (⟨a, BASE⟩ : Block)) ++ nl.map (fun a => (⟨a, LARGE⟩ : Block))) ++ c.held).Perm
      (MCache.held { c with bp := nb ++ c.bp, lp := nl ++ c.lp }) := by
    simp only [MCache.held, List.map_append]
    simp only [List.append_assoc]
    apply List.Perm.append_left
    rw [← List.append_assoc, ← List.append_assoc]
    apply List.Perm.append_right
    exact List.perm_append_comm
  constructor
  · refine allDisjoint_perm (List.pairwise_append.2 ⟨h1, hd, ?_⟩) hperm
    intro b hb b' hb'
    exact ((hnew b' hb').symm).mono (h2 b hb) (fun _ h => h)
  · intro b hb
    have := hperm.mem_iff.2 hb
    rw [List.mem_append] at this
    rcases this with h | h
    · exact .inr (h2 b h)
    · exact .inl h

/-- Non-vacuity: a cache populated from 5 pages one of which lies below a 2 MiB boundary. -/
example : (⟨2093056, 5 * 4096, 0⟩ : Frame).Ok ∧
    (MCache.new 4 1 0).populate ⟨2093056, 5 * 4096, 0⟩ 1 =
      .ok ⟨4, 1, 0, [2105344, 2101248, 2097152, 2093056], []⟩ := by
  refine ⟨by constructor <;> simp [BASE_eq], ?_⟩
  simp [MCache.populate, MCache.new, Frame.splitAtLargeBoundary, Frame.splitAt, Frame.new, roundUp,
    LARGE_eq, BASE_eq, Frame.pages, Frame.basePages, Frame.collect, Frame.next, Frame.empty,
    Outcome.map, MCache.pushBases, MCache.pushBase, MCache.pushLarges]

/-! ## C21: conservation -/

/-- What can be asked of a cache. -/
inductive CacheOp where
  | allocBase | allocLarge
  | releaseBase (f : Frame) | releaseLarge (f : Frame)
  | growBase (fs : List Frame) | growLarge (fs : List Frame)
  | reapBase (n : Nat) | reapLarge (n : Nat)

/-- The frames the caller passes in. -/
def CacheOp.gives : CacheOp → List Frame
  | .releaseBase f | .releaseLarge f => [f]
  | .growBase fs | .growLarge fs => fs
  | _ => []

/-- Run an operation: its outcome, the frames handed to the caller, the frames the caller passed in
that the cache did not take, and the cache.  `grow` that reports a full cache has taken as many
frames as there was room for. -/
def MCache.exec (c : MCache) (rack : Bool) : CacheOp → Outcome Unit × List Frame × List Frame × MCache
  | .allocBase =>
    match c.allocBase with
    | (.ok f, c') => (.ok (), [f], [], c')
    | (.err e, c') => (.err e, [], [], c')
    | (.panic, c') => (.panic, [], [], c')
  | .allocLarge =>
    match c.allocLarge with
    | (.ok f, c') => (.ok (), [f], [], c')
    | (.err e, c') => (.err e, [], [], c')
    | (.panic, c') => (.panic, [], [], c')
  | .releaseBase f =>
    match c.releaseBase f with
    | (.ok u, c') => (.ok u, [], [], c')
    | (r, c') => (r, [], [f], c')
  | .releaseLarge f =>
    match c.releaseLarge f with
    | (.ok u, c') => (.ok u, [], [], c')
    | (r, c') => (r, [], [f], c')
  | .growBase fs =>
    match c.growBase rack fs with
    | (r, c') => (r, [], if r = .ok () then [] else fs.drop c.spareBase, c')
  | .growLarge fs =>
    match c.growLarge fs with
    | (r, c') => (r, [], if r = .ok () then [] else fs.drop c.spareLarge, c')
  | .reapBase n =>
    match c.reapBase (List.replicate n none) with
    | (slots, c') => (.ok (), slots.filterMap id, [], c')
  | .reapLarge n =>
    match c.reapLarge (List.replicate n none) with
    | (slots, c') => (.ok (), slots.filterMap id, [], c')

/-- Histories.  `out` are the frames that are outside the cache; a caller passes in only frames it
has, and an operation that panics ends the history. -/
inductive CacheRun (rack : Bool) (c0 : MCache) (out0 : List Frame) : MCache → List Frame → Prop
  | start : CacheRun rack c0 out0 c0 out0
  | step {c : MCache} {out : List Frame} (op : CacheOp) (rest : List Frame) :
      CacheRun rack c0 out0 c out → out.Perm (op.gives ++ rest) →
      (c.exec rack op).1 ≠ .panic →
      CacheRun rack c0 out0 (c.exec rack op).2.2.2
        ((c.exec rack op).2.1 ++ ((c.exec rack op).2.2.1 ++ rest))

/-- What a cache looks like: not above its capacity, addresses aligned. -/
structure MCache.Wf (c : MCache) : Prop where
  capB : c.bp.length ≤ c.capB
  capL : c.lp.length ≤ c.capL
  alB : ∀ a ∈ c.bp, a % BASE = 0
  alL : ∀ a ∈ c.lp, a % LARGE = 0

theorem large_aligned {a : Nat} (h : a % LARGE = 0) : a % BASE = 0 := by momega

theorem growBase_spec (rack : Bool) (fs : List Frame) : ∀ (c : MCache), c.Wf →
    (c.growBase rack fs).1 ≠ .panic →
    ∃ acc : List Frame, (c.growBase rack fs).2 = { c with bp := acc.map (·.base) ++ c.bp } ∧
      (∀ f ∈ acc, f.block = ⟨f.base, BASE⟩) ∧ (c.growBase rack fs).2.Wf ∧
      ((c.growBase rack fs).1 = .ok () → acc.Perm fs) ∧
      ((c.growBase rack fs).1 ≠ .ok () → c.spareBase < fs.length ∧ acc.Perm (fs.take c.spareBase)) := by
  induction fs with
  | nil =>
    intro c hc _
    exact ⟨[], by simp [MCache.growBase], by simp, hc, by simp, by simp [MCache.growBase]⟩
  | cons f fs ih =>
    intro c hc hp
    unfold MCache.growBase at hp ⊢
    split at hp
    · rename_i hchk
      rw [if_pos hchk]
      by_cases h : c.bp.length < c.capB
      · have hpb : c.pushBase f.base = some { c with bp := f.base :: c.bp } := by
          simp [MCache.pushBase, h]
        simp only [hpb] at hp ⊢
        have hc' : MCache.Wf { c with bp := f.base :: c.bp } := by
          refine ⟨?_, hc.capL, ?_, hc.alL⟩
          · simp only [List.length_cons]; omega
          · intro a ha
            rw [List.mem_cons] at ha
            rcases ha with rfl | ha
            · exact hchk.2.1
            · exact hc.alB a ha
        obtain ⟨acc, h1, h2, h3, h4, h5⟩ := ih _ hc' hp
        have hsp : c.spareBase = (MCache.spareBase { c with bp := f.base :: c.bp }) + 1 := by
          simp only [MCache.spareBase, List.length_cons]; omega
        refine ⟨acc ++ [f], ?_, ?_, h3, ?_, ?_⟩
        · rw [h1]; simp
        · intro g hg
          rw [List.mem_append, List.mem_singleton] at hg
          rcases hg with hg | rfl
          · exact h2 g hg
          · unfold Frame.block; rw [hchk.1]
        · intro q
          exact (List.perm_append_comm.trans ((h4 q).cons f))
        · intro q
          obtain ⟨q1, q2⟩ := h5 q
          rw [hsp]
          refine ⟨by simp only [List.length_cons]; omega, ?_⟩
          rw [List.take_succ_cons]
          exact (List.perm_append_comm.trans (q2.cons f))
      · have hpb : c.pushBase f.base = none := by simp [MCache.pushBase, h]
        have hsp : c.spareBase = 0 := by unfold MCache.spareBase; omega
        simp only [hpb]
        exact ⟨[], by simp, by simp, hc, by simp, fun _ => ⟨by simp [hsp], by simp [hsp]⟩⟩
    · exact absurd rfl hp

theorem growLarge_spec (fs : List Frame) : ∀ (c : MCache), c.Wf →
    (c.growLarge fs).1 ≠ .panic →
    ∃ acc : List Frame, (c.growLarge fs).2 = { c with lp := acc.map (·.base) ++ c.lp } ∧
      (∀ f ∈ acc, f.block = ⟨f.base, LARGE⟩) ∧ (c.growLarge fs).2.Wf ∧
      ((c.growLarge fs).1 = .ok () → acc.Perm fs) ∧
      ((c.growLarge fs).1 ≠ .ok () → c.spareLarge < fs.length ∧ acc.Perm (fs.take c.spareLarge)) := by
  induction fs with
  | nil =>
    intro c hc _
    exact ⟨[], by simp [MCache.growLarge], by simp, hc, by simp, by simp [MCache.growLarge]⟩
  | cons f fs ih =>
    intro c hc hp
    unfold MCache.growLarge at hp ⊢
    split at hp
    · rename_i hchk
      rw [if_pos hchk]
      by_cases h : c.lp.length < c.capL
      · have hpb : c.pushLarge f.base = some { c with lp := f.base :: c.lp } := by
          simp [MCache.pushLarge, h]
        simp only [hpb] at hp ⊢
        have hc' : MCache.Wf { c with lp := f.base :: c.lp } := by
          refine ⟨hc.capB, ?_, hc.alB, ?_⟩
          · simp only [List.length_cons]; omega
          · intro a ha
            rw [List.mem_cons] at ha
            rcases ha with rfl | ha
            · exact hchk.2.1
            · exact hc.alL a ha
        obtain ⟨acc, h1, h2, h3, h4, h5⟩ := ih _ hc' hp
        have hsp : c.spareLarge = (MCache.spareLarge { c with lp := f.base :: c.lp }) + 1 := by
          simp only [MCache.spareLarge, List.length_cons]; omega
        refine ⟨acc ++ [f], ?_, ?_, h3, ?_, ?_⟩
        · rw [h1]; simp
        · intro g hg
          rw [List.mem_append, List.mem_singleton] at hg
          rcases hg with hg | rfl
          · exact h2 g hg
          · unfold Frame.block; rw [hchk.1]
        · intro q
          exact (List.perm_append_comm.trans ((h4 q).cons f))
        · intro q
          obtain ⟨q1, q2⟩ := h5 q
          rw [hsp]
          refine ⟨by simp only [List.length_cons]; omega, ?_⟩
          rw [List.take_succ_cons]
          exact (List.perm_append_comm.trans (q2.cons f))
      · have hpb : c.pushLarge f.base = none := by simp [MCache.pushLarge, h]
        have hsp : c.spareLarge = 0 := by unfold MCache.spareLarge; omega
        simp only [hpb]
        exact ⟨[], by simp, by simp, hc, by simp, fun _ => ⟨by simp [hsp], by simp [hsp]⟩⟩
    · exact absurd rfl hp

theorem reapBase_spec (n : Nat) : ∀ (c : MCache),
    c.reapBase (List.replicate n none) =
      ((c.bp.take n).map (fun a => some ⟨a, BASE, c.node⟩) ++ List.replicate (n - c.bp.length) none,
        { c with bp := c.bp.drop n }) := by
  induction n with
  | zero => intro c; simp [MCache.reapBase]
  | succ n ih =>
    intro c
    rw [List.replicate_succ]
    cases hb : c.bp with
    | nil =>
      simp only [MCache.reapBase, hb]
      simp [List.replicate_succ]
      cases c; simp_all
    | cons a as =>
      simp only [MCache.reapBase, hb]
      rw [ih]
      simp

theorem reapLarge_spec (n : Nat) : ∀ (c : MCache),
    c.reapLarge (List.replicate n none) =
      ((c.lp.take n).map (fun a => some ⟨a, LARGE, c.node⟩) ++ List.replicate (n - c.lp.length) none,
        { c with lp := c.lp.drop n }) := by
  induction n with
  | zero => intro c; simp [MCache.reapLarge]
  | succ n ih =>
    intro c
    rw [List.replicate_succ]
    cases hb : c.lp with
    | nil =>
      simp only [MCache.reapLarge, hb]
      simp [List.replicate_succ]
      cases c; simp_all
    | cons a as =>
      simp only [MCache.reapLarge, hb]
      rw [ih]
      simp

end NRK.Mem
