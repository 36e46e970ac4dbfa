import Verif.Mem.AllocModel
import Verif.Mem.ConserveProps

/-!
# C23, C24, C26, C27: sizing, emergency allocations, affinity switching, user heaps
-/

namespace NRK.Mem

open Spec

/-! ## C23 -/

/-- **C23** The pages computed for a size cover it, waste less than one base page, and there are
never as many base pages as would fill a large page and a half: at most 512. -/
theorem c23_size_to_pages (size : Nat) :
    let p := sizeToPages size
    size ≤ p.2 * LARGE + p.1 * BASE ∧ p.2 * LARGE + p.1 * BASE < size + BASE ∧
      p.1 * BASE ≤ LARGE := by
  have hL : LARGE = 512 * BASE := by rw [BASE_eq, LARGE_eq]
  have hb : 0 < BASE := by rw [BASE_eq]; omega
  simp only [sizeToPages]
  have h0 : (size - size % LARGE) % LARGE = 0 := Nat.mod_eq_zero_of_dvd (Nat.dvd_sub_mod size)
  rw [h0]
  have h1 : (size - size % LARGE) / LARGE * LARGE = size - size % LARGE :=
    Nat.div_mul_cancel (Nat.dvd_sub_mod size)
  simp only [gt_iff_lt, Nat.lt_irrefl, if_false]
  rw [h1]
  have h2 : size % LARGE < LARGE := Nat.mod_lt _ (by rw [LARGE_eq]; omega)
  have h3 : size % LARGE ≤ size := Nat.mod_le _ _
  generalize hr : size % LARGE = r at *
  have h4 := Nat.div_add_mod r BASE
  have h5 : r % BASE < BASE := Nat.mod_lt _ hb
  rw [Nat.mul_comm] at h4
  split
  · rename_i hm
    have : r / BASE + 1 ≤ 512 := by
      have : r / BASE < 512 := by
        rw [Nat.div_lt_iff_lt_mul hb]; omega
      omega
    have h6 : (r / BASE + 1) * BASE ≤ 512 * BASE := Nat.mul_le_mul_right _ this
    rw [Nat.add_mul] at *
    omega
  · rename_i hm
    have : r % BASE = 0 := by omega
    omega

/-- **C23** What refilling asks for suffices for one allocation by the allocator that will serve
the size: one page of a kind large enough, or enough pages to cover the size.  The hypotheses are
the values of the slab allocator's constants: the largest object of a base page fits into a base
page, the largest of a large page into a large page. -/
theorem c23_refill_amount (maxZone maxBase size : Nat) (h1 : maxBase ≤ BASE) (h2 : maxZone ≤ LARGE) :
    let p := refillAmount maxZone maxBase size
    size ≤ p.2 * LARGE + p.1 * BASE ∧
    (allocatorFor maxZone size ≠ .mapBig → p = (1, 0) ∨ p = (0, 1)) ∧
    (allocatorFor maxZone size = .mapBig → p.2 * LARGE + p.1 * BASE < size + BASE) := by
  simp only
  unfold refillAmount
  split
  · rename_i h
    have hs : size ≤ maxZone := by
      unfold allocatorFor at h; split at h
      · assumption
      · split at h <;> cases h
    rw [h]
    split
    · exact ⟨by simp only; omega, fun _ => .inl rfl, fun q => by cases q⟩
    · exact ⟨by simp only; omega, fun _ => .inr rfl, fun q => by cases q⟩
  · rename_i h
    have hs : size ≤ LARGE := by
      unfold allocatorFor at h; split at h
      · cases h
      · split at h
        · assumption
        · cases h
    rw [h]
    split
    · exact ⟨by simp only; omega, fun _ => .inl rfl, fun q => by cases q⟩
    · exact ⟨by simp only; omega, fun _ => .inr rfl, fun q => by cases q⟩
  · rename_i h
    rw [h]
    obtain ⟨a, b, _⟩ := c23_size_to_pages size
    exact ⟨a, fun q => absurd rfl q, fun _ => b⟩

/-- **C23** A big allocation maps at least the size asked for, inside the part of the address space
that it claims, and the next one starts behind it. -/
theorem c23_map_big (sbrk size : Nat) :
    let r := mapBig sbrk size
    r.1 = sbrk ∧ size ≤ r.2.1 ∧ r.1 + r.2.1 ≤ r.2.2 ∧
      (sbrk % LARGE = 0 → r.2.2 % LARGE = 0) := by
  obtain ⟨h1, h2, h3⟩ := c23_size_to_pages size
  simp only [mapBig, mapBigPages] at *
  generalize hp : sizeToPages size = p at *
  obtain ⟨b, l⟩ := p
  simp only at *
  have e : (l + 1) * LARGE = l * LARGE + LARGE := by rw [Nat.add_mul, Nat.one_mul]
  have e2 : (l + 1 + 1) * LARGE = l * LARGE + LARGE + LARGE := by
    rw [Nat.add_mul, Nat.add_mul, Nat.one_mul]
  refine ⟨by first | rfl | trivial, ?_, ?_, ?_⟩
  · split
    · simp only; rw [e]; omega
    · simp only; omega
  · split
    · simp only; rw [e2, e]; omega
    · simp only; rw [e]; omega
  · intro h
    split <;> (rw [Nat.add_mod, h, Nat.mul_mod_left]; simp)

/-- The ranges of any series of big allocations, from the successive values of the break. -/
def mapBigs (sbrk : Nat) : List Nat → List Block
  | [] => []
  | s :: ss => ⟨(mapBig sbrk s).1, (mapBig sbrk s).2.1⟩ :: mapBigs (mapBig sbrk s).2.2 ss

/-- **C23** Any series of big allocations gets ranges that are pairwise disjoint. -/
theorem c23_map_bigs_disjoint (sizes : List Nat) : ∀ sbrk, AllDisjoint (mapBigs sbrk sizes) ∧
    ∀ b ∈ mapBigs sbrk sizes, sbrk ≤ b.start := by
  induction sizes with
  | nil => intro sbrk; simp [mapBigs, AllDisjoint]
  | cons s ss ih =>
    intro sbrk
    obtain ⟨h1, h2, h3, _⟩ := c23_map_big sbrk s
    obtain ⟨i1, i2⟩ := ih (mapBig sbrk s).2.2
    simp only [mapBigs, AllDisjoint, List.pairwise_cons, List.mem_cons]
    refine ⟨⟨?_, i1⟩, ?_⟩
    · intro b hb
      have := i2 b hb
      apply disjoint_of_le
      simp only; omega
    · rintro b (rfl | hb)
      · simp only; omega
      · have := i2 b hb
        omega

theorem takeLarge_spec (n : Nat) : ∀ tc : MCache, tc.Wf →
    (n ≤ tc.lp.length → ∃ fs, takeLarge tc n = (.ok fs, { tc with lp := tc.lp.drop n }) ∧
      fs.map (·.block) = (tc.lp.take n).map (fun a => (⟨a, LARGE⟩ : Block)) ∧
      ∀ f ∈ fs, f.aff = tc.node) ∧
    (tc.lp.length < n → (takeLarge tc n).1 = .panic) := by
  induction n with
  | zero => intro tc _; simp [takeLarge]
  | succ n ih =>
    intro tc hw
    cases hb : tc.lp with
    | nil => simp [takeLarge, MCache.allocLarge, hb]
    | cons a as =>
      have ha : a % LARGE = 0 := hw.alL a (by simp [hb])
      have w1 : MCache.Wf { tc with lp := as } := by
        refine ⟨hw.capB, ?_, hw.alB, ?_⟩
        · have := hw.capL; rw [hb] at this; simp at this; simp only; omega
        · intro x hx; exact hw.alL x (by rw [hb]; exact List.mem_cons_of_mem _ hx)
      obtain ⟨i1, i2⟩ := ih _ w1
      constructor
      · intro h
        obtain ⟨fs, e, e2, e3⟩ := i1 (by simpa using h)
        refine ⟨⟨a, LARGE, tc.node⟩ :: fs, ?_, ?_, ?_⟩
        · simp [takeLarge, MCache.allocLarge, hb, new_large ha, e]
        · simp only [List.map_cons, List.take_succ_cons]
          exact congrArg (List.cons (⟨a, LARGE⟩ : Block)) e2
        · intro f hf
          rw [List.mem_cons] at hf
          rcases hf with rfl | hf
          · rfl
          · exact e3 f hf
      · intro h
        have := i2 (by simpa using h)
        simp only [takeLarge, MCache.allocLarge, hb, new_large ha]
        split
        · rename_i e; rw [e] at this; cases this
        · exact this

theorem takeBase_spec (n : Nat) : ∀ tc : MCache, tc.Wf →
    (n ≤ tc.bp.length → ∃ fs, takeBase tc n = (.ok fs, { tc with bp := tc.bp.drop n }) ∧
      fs.map (·.block) = (tc.bp.take n).map (fun a => (⟨a, BASE⟩ : Block)) ∧
      ∀ f ∈ fs, f.aff = tc.node) ∧
    (tc.bp.length < n → (takeBase tc n).1 = .panic) := by
  induction n with
  | zero => intro tc _; simp [takeBase]
  | succ n ih =>
    intro tc hw
    cases hb : tc.bp with
    | nil => simp [takeBase, MCache.allocBase, hb]
    | cons a as =>
      have ha : a % BASE = 0 := hw.alB a (by simp [hb])
      have w1 : MCache.Wf { tc with bp := as } := by
        refine ⟨?_, hw.capL, ?_, hw.alL⟩
        · have := hw.capB; rw [hb] at this; simp at this; simp only; omega
        · intro x hx; exact hw.alB x (by rw [hb]; exact List.mem_cons_of_mem _ hx)
      obtain ⟨i1, i2⟩ := ih _ w1
      constructor
      · intro h
        obtain ⟨fs, e, e2, e3⟩ := i1 (by simpa using h)
        refine ⟨⟨a, BASE, tc.node⟩ :: fs, ?_, ?_, ?_⟩
        · simp [takeBase, MCache.allocBase, hb, new_base ha, e]
        · simp only [List.map_cons, List.take_succ_cons]
          exact congrArg (List.cons (⟨a, BASE⟩ : Block)) e2
        · intro f hf
          rw [List.mem_cons] at hf
          rcases hf with rfl | hf
          · rfl
          · exact e3 f hf
      · intro h
        have := i2 (by simpa using h)
        simp only [takeBase, MCache.allocBase, hb, new_base ha]
        split
        · rename_i e; rw [e] at this; cases this
        · exact this

/-- After `maybeRefill` succeeds the cache has what was asked for or is full. -/
theorem maybeRefill_spec (rack : Bool) (nc tc : MCache) (h1 : nc.Wf) (h2 : tc.Wf)
    (hn : nc.node = tc.node) (needB needL : Nat) (hB : needB ≤ nc.bp.length)
    (hL : needL ≤ nc.lp.length) :
    let r := maybeRefill rack nc tc needB needL
    r.1 = .ok () ∧ (r.2.1.held ++ r.2.2.held).Perm (nc.held ++ tc.held) ∧ r.2.1.Wf ∧ r.2.2.Wf ∧
    min tc.capB needB ≤ r.2.2.bp.length ∧ min tc.capL needL ≤ r.2.2.lp.length := by
  simp only
  unfold maybeRefill
  split
  · obtain ⟨_, a2, a3, a4, a5, _⟩ := c21_refill rack nc tc h1 h2 hn needB needL
    obtain ⟨b1, b2, b3⟩ := a5 hB hL
    refine ⟨b1, a2, a3, a4, ?_, ?_⟩
    · rw [b2]; have := h2.capB; unfold MCache.spareBase; omega
    · rw [b3]; have := h2.capL; unfold MCache.spareLarge; omega
  · rename_i h
    exact ⟨rfl, List.Perm.refl _, h1, h2, by simp only; omega, by simp only; omega⟩

/-- **C23** A big allocation succeeds whenever the node has the pages and the core's cache has the
capacity for them; the pages that back it come out of the caches and cover the size. -/
theorem c23_big_allocation (rack : Bool) (nc tc : MCache) (h1 : nc.Wf) (h2 : tc.Wf)
    (hn : nc.node = tc.node) (sbrk size : Nat)
    (hB : (mapBigPages size).1 + 20 ≤ nc.bp.length) (hL : (mapBigPages size).2 + 1 ≤ nc.lp.length)
    (cB : (mapBigPages size).1 ≤ tc.capB) (cL : (mapBigPages size).2 ≤ tc.capL) :
    ∃ (fs : List Frame) (sbrk' : Nat) (nc' tc' : MCache),
      allocBig rack nc tc sbrk size = (.ok (sbrk, fs), sbrk', nc', tc') ∧
      size ≤ (fs.map (·.size)).sum ∧
      sbrk + (fs.map (·.size)).sum ≤ sbrk' ∧
      (nc'.held ++ tc'.held ++ fs.map Frame.block).Perm (nc.held ++ tc.held) := by
  obtain ⟨r1, r2, r3, r4, r5, r6⟩ := maybeRefill_spec rack nc tc h1 h2 hn _ _ hB hL
  have hmb := c23_map_big sbrk size
  simp only [allocBig] at *
  generalize hr : maybeRefill rack nc tc ((mapBigPages size).1 + 20) ((mapBigPages size).2 + 1) = r at *
  obtain ⟨o, nc', tc'⟩ := r
  simp only at r1 r2 r3 r4 r5 r6
  subst r1
  obtain ⟨⟨ls, l1, l2, _⟩, _⟩ := And.intro ((takeLarge_spec (mapBigPages size).2 tc' r4).1 (by omega)) trivial
  have w : MCache.Wf { tc' with lp := tc'.lp.drop (mapBigPages size).2 } := by
    refine ⟨r4.capB, ?_, r4.alB, fun x hx => r4.alL x (List.mem_of_mem_drop hx)⟩
    have := r4.capL; simp only [List.length_drop]; omega
  obtain ⟨bs, b1, b2, _⟩ := (takeBase_spec (mapBigPages size).1 _ w).1 (by simp only; omega)
  simp only [l1, b1]
  have sl : (ls.map (·.size)) = List.replicate (mapBigPages size).2 LARGE := by
    have e : ls.map (·.size) = (ls.map (·.block)).map (·.len) := by
      rw [List.map_map]; rfl
    rw [e, l2, List.map_map]
    rw [List.eq_replicate_iff]
    refine ⟨by simp only [List.length_map, List.length_take]; omega, ?_⟩
    intro x hx
    rw [List.mem_map] at hx
    obtain ⟨a, _, rfl⟩ := hx
    rfl
  have sb : (bs.map (·.size)) = List.replicate (mapBigPages size).1 BASE := by
    have e : bs.map (·.size) = (bs.map (·.block)).map (·.len) := by
      rw [List.map_map]; rfl
    rw [e, b2, List.map_map]
    rw [List.eq_replicate_iff]
    refine ⟨by simp only [List.length_map, List.length_take]; omega, ?_⟩
    intro x hx
    rw [List.mem_map] at hx
    obtain ⟨a, _, rfl⟩ := hx
    rfl
  have sum : ((ls ++ bs).map (·.size)).sum = (mapBig sbrk size).2.1 := by
    rw [List.map_append, List.sum_append, sl, sb]
    simp [mapBig]
  refine ⟨_, _, _, _, rfl, ?_, ?_, ?_⟩
  · rw [sum]; omega
  · rw [sum]; omega
  · refine List.Perm.trans ?_ r2
    rw [List.append_assoc]
    apply List.Perm.append_left
    rw [List.map_append, l2, b2]
    simp only [MCache.held]
    generalize (mapBigPages size).1 = n
    generalize (mapBigPages size).2 = m
    have e1 : List.map (fun a => (⟨a, BASE⟩ : Block)) tc'.bp =
        List.map (fun a => (⟨a, BASE⟩ : Block)) (tc'.bp.take n) ++
        List.map (fun a => (⟨a, BASE⟩ : Block)) (tc'.bp.drop n) := by
      rw [← List.map_append, List.take_append_drop]
    have e2 : List.map (fun a => (⟨a, LARGE⟩ : Block)) tc'.lp =
        List.map (fun a => (⟨a, LARGE⟩ : Block)) (tc'.lp.take m) ++
        List.map (fun a => (⟨a, LARGE⟩ : Block)) (tc'.lp.drop m) := by
      rw [← List.map_append, List.take_append_drop]
    rw [e1, e2]
    generalize List.map (fun a => (⟨a, BASE⟩ : Block)) (tc'.bp.take n) = A
    generalize List.map (fun a => (⟨a, BASE⟩ : Block)) (tc'.bp.drop n) = B
    generalize List.map (fun a => (⟨a, LARGE⟩ : Block)) (tc'.lp.take m) = C
    generalize List.map (fun a => (⟨a, LARGE⟩ : Block)) (tc'.lp.drop m) = D
    rw [List.perm_iff_count]
    intro x
    simp only [List.count_append]
    omega

/-- Finding: a big allocation that needs more large pages than the core's cache can hold (128, that
is 256 MiB) panics whatever memory the machine has, because the cache is refilled only once. -/
theorem c23_too_big_panics (rack : Bool) (nc tc : MCache) (h1 : nc.Wf) (h2 : tc.Wf)
    (hn : nc.node = tc.node) (sbrk size : Nat)
    (hB : (mapBigPages size).1 + 20 ≤ nc.bp.length) (hL : (mapBigPages size).2 + 1 ≤ nc.lp.length)
    (cL : tc.capL < (mapBigPages size).2) :
    (allocBig rack nc tc sbrk size).1 = .panic := by
  obtain ⟨r1, r2, r3, r4, r5, r6⟩ := maybeRefill_spec rack nc tc h1 h2 hn _ _ hB hL
  simp only [allocBig] at *
  have hcap : (maybeRefill rack nc tc ((mapBigPages size).1 + 20) ((mapBigPages size).2 + 1)).2.2.lp.length
      ≤ tc.capL := by
    have hc2 := h2.capL
    unfold maybeRefill
    split
    · obtain ⟨_, _, _, _, a5, _⟩ := c21_refill rack nc tc h1 h2 hn ((mapBigPages size).1 + 20)
        ((mapBigPages size).2 + 1)
      rw [(a5 hB hL).2.2]; unfold MCache.spareLarge; omega
    · exact hc2
  generalize hr : maybeRefill rack nc tc ((mapBigPages size).1 + 20) ((mapBigPages size).2 + 1) = r at *
  obtain ⟨o, nc', tc'⟩ := r
  simp only at r1 r4 hcap
  subst r1
  have := (takeLarge_spec (mapBigPages size).2 tc' r4).2 (by omega)
  simp only
  generalize hq : takeLarge tc' (mapBigPages size).2 = q at *
  obtain ⟨o, t⟩ := q
  simp only at this
  subst this
  rfl

/-- Non-vacuity: 3 MiB + 5 bytes need one large and 257 base pages, so two large pages are used. -/
example : sizeToPages (3 * 1024 * 1024 + 5) = (257, 1) ∧ mapBigPages (3 * 1024 * 1024 + 5) = (0, 2) := by
  have : sizeToPages (3 * 1024 * 1024 + 5) = (257, 1) := by simp [sizeToPages, BASE_eq, LARGE_eq]
  exact ⟨this, by simp [mapBigPages, this]⟩

/-! ## C24 -/

theorem roundUp_base (n : Nat) : n ≤ roundUp n BASE ∧ roundUp n BASE < n + BASE ∧
    roundUp n BASE % BASE = 0 := by
  refine ⟨?_, ?_, by unfold roundUp; exact Nat.mul_mod_left _ _⟩ <;> unfold roundUp <;> momega

/-- **C24** One allocation: it succeeds exactly when the rounded size fits, and then gives a block
at the bottom of the region, aligned, at least as large as asked, with less than a page of waste;
the region keeps the rest. -/
theorem c24_allocation (e : EmAlloc) (he : e.region.Ok) (size align : Nat) (ha : align ≤ BASE) :
    (roundUp size BASE ≤ e.region.size → ∃ f e', e.allocate size align = (.ok f, e') ∧
      f.base = e.region.base ∧ f.base % BASE = 0 ∧ size ≤ f.size ∧ f.size < size + BASE ∧
      e'.region.Ok ∧ Inside f.block e.region.block ∧ Inside e'.region.block e.region.block ∧
      Disjoint f.block e'.region.block) ∧
    (e.region.size < roundUp size BASE → e.allocate size align = (.err .cacheExhausted, e)) := by
  obtain ⟨h1, h2, h3⟩ := roundUp_base size
  obtain ⟨k1, k2⟩ := he
  constructor
  · intro h
    by_cases hge : roundUp size BASE ≥ e.region.size
    · refine ⟨e.region, ⟨Frame.empty⟩, ?_, rfl, k1, by omega, by omega, ⟨by simp [Frame.empty], by simp [Frame.empty]⟩,
        fun _ h => h, ?_, ?_⟩
      · simp [EmAlloc.allocate, ha, h, Frame.splitAt, h3, hge]
      · intro a q
        unfold Block.Has at q
        simp [Frame.empty, Frame.block] at q
      · intro a q
        have := q.2
        unfold Block.Has at this
        simp [Frame.empty, Frame.block] at this
    · have e1 : Frame.new e.region.base (roundUp size BASE) e.region.aff =
          .ok ⟨e.region.base, roundUp size BASE, e.region.aff⟩ := by simp [Frame.new, k1, h3]
      have e2 : Frame.new (e.region.base + roundUp size BASE) (e.region.size - roundUp size BASE)
          e.region.aff = .ok ⟨e.region.base + roundUp size BASE, e.region.size - roundUp size BASE,
            e.region.aff⟩ := by
        have a1 : (e.region.base + roundUp size BASE) % BASE = 0 := by momega
        have a2 : (e.region.size - roundUp size BASE) % BASE = 0 := by momega
        simp [Frame.new, a1, a2]
      refine ⟨⟨e.region.base, roundUp size BASE, e.region.aff⟩,
        ⟨⟨e.region.base + roundUp size BASE, e.region.size - roundUp size BASE, e.region.aff⟩⟩,
        ?_, rfl, k1, h1, h2, ⟨?_, ?_⟩, ?_, ?_, ?_⟩
      · simp [EmAlloc.allocate, ha, h, Frame.splitAt, h3, hge, e1, e2]
      · simp only; momega
      · simp only; momega
      · apply inside_of_le <;> simp only [Frame.block] <;> omega
      · apply inside_of_le <;> simp only [Frame.block] <;> omega
      · apply disjoint_of_le; simp only [Frame.block]; omega
  · intro h
    have : ¬ roundUp size BASE ≤ e.region.size := by omega
    simp [EmAlloc.allocate, ha, this]

/-- **C24** A base page from the emergency allocator is exactly one aligned base page, at the bottom
of the region. -/
theorem c24_base_page (e : EmAlloc) (he : e.region.Ok) :
    (BASE ≤ e.region.size → ∃ f e', e.allocateBase = (.ok f, e') ∧ f.size = BASE ∧
      f.base % BASE = 0 ∧ f.base = e.region.base ∧ Disjoint f.block e'.region.block) ∧
    (e.region.size < BASE → e.allocateBase = (.err .cacheExhausted, e)) := by
  have hr : roundUp BASE BASE = BASE := by unfold roundUp; simp only [BASE_eq]
  obtain ⟨h1, h2⟩ := c24_allocation e he BASE BASE (Nat.le_refl _)
  rw [hr] at h1 h2
  refine ⟨fun h => ?_, h2⟩
  obtain ⟨f, e', h3, h4, h5, h6, h7, h8, h9, h10, h11⟩ := h1 h
  refine ⟨f, e', h3, ?_, h5, h4, h11⟩
  have hs : f.size % BASE = 0 := by
    unfold EmAlloc.allocate at h3
    rw [if_pos (Nat.le_refl _), hr] at h3
    rw [if_pos h, splitAt_ok e.region he BASE (Nat.mod_self _)] at h3
    split at h3
    · rename_i low high hsp
      cases h3
      split at hsp
      · cases hsp; exact he.2
      · cases hsp; exact Nat.mod_self _
    · cases h3
    · cases h3
  momega

/-- Histories of allocations (of any size) and refills with fresh pages.  `given` are all pages the
allocator was given so far, `out` the blocks it handed out.  A new page does not overlap an earlier
one (C21). -/
inductive EmRun : EmAlloc → List Block → List Block → Prop
  | start : EmRun EmAlloc.empty [] []
  | alloc {e e' given out f} (size align : Nat) : EmRun e given out →
      e.allocate size align = (.ok f, e') → EmRun e' given (f.block :: out)
  | allocFails {e given out er e'} (size align : Nat) : EmRun e given out →
      e.allocate size align = (.err er, e') → EmRun e' given out
  | refill {e e' given out} (pa : Nat) : EmRun e given out →
      (∀ b ∈ given, Disjoint b ⟨pa, BASE⟩) → e.refill pa = (.ok (), e') →
      EmRun e' (⟨pa, BASE⟩ :: given) out
  | refillLarge {e e' given out} (pa : Nat) : EmRun e given out →
      (∀ b ∈ given, Disjoint b ⟨pa, LARGE⟩) → e.refillLarge pa = (.ok (), e') →
      EmRun e' (⟨pa, LARGE⟩ :: given) out

theorem refill_ok {e e' : EmAlloc} {pa : Nat} (h : e.refill pa = (.ok (), e')) :
    e'.region = ⟨pa, BASE, 0⟩ ∧ e'.region.Ok := by
  unfold EmAlloc.refill Frame.new at h
  split at h
  · rename_i f hf
    split at hf
    · rename_i hk
      cases hf; cases h
      exact ⟨rfl, hk⟩
    · cases hf
  · cases h
  · cases h

theorem refillLarge_ok {e e' : EmAlloc} {pa : Nat} (h : e.refillLarge pa = (.ok (), e')) :
    e'.region = ⟨pa, LARGE, 0⟩ ∧ e'.region.Ok := by
  unfold EmAlloc.refillLarge Frame.new at h
  split at h
  · rename_i f hf
    split at hf
    · rename_i hk
      cases hf; cases h
      exact ⟨rfl, hk⟩
    · cases hf
  · cases h
  · cases h

theorem allocate_ok {e e' : EmAlloc} (he : e.region.Ok) {size align : Nat} {f : Frame}
    (h : e.allocate size align = (.ok f, e')) :
    size ≤ f.size ∧ f.base % BASE = 0 ∧ e'.region.Ok ∧ Inside f.block e.region.block ∧
      Inside e'.region.block e.region.block ∧ Disjoint f.block e'.region.block := by
  have ha : align ≤ BASE := by
    apply Classical.byContradiction
    intro q; simp [EmAlloc.allocate, q] at h
  obtain ⟨c1, c2⟩ := c24_allocation e he size align ha
  by_cases hs : roundUp size BASE ≤ e.region.size
  · obtain ⟨f', e'', q1, q2, q3, q4, q5, q6, q7, q8, q9⟩ := c1 hs
    rw [q1] at h
    cases h
    exact ⟨q4, q3, q6, q7, q8, q9⟩
  · rw [c2 (by omega)] at h
    cases h

theorem size_zero_of_inside {b c : Block} (h : Inside b c) (hc : c.len = 0) : b.len = 0 := by
  apply Classical.byContradiction
  intro q
  have := h b.start ⟨Nat.le_refl _, by omega⟩
  unfold Block.Has at this
  omega

theorem disjoint_of_len_zero {b c : Block} (h : b.len = 0) : Disjoint b c := by
  intro a q
  have := q.1
  unfold Block.Has at this
  omega

/-- **C24** Along every history: the blocks handed out are pairwise disjoint, each (non-empty one)
lies inside a page the allocator was given, and none overlaps what the allocator still has. -/
theorem c24_disjoint {e : EmAlloc} {given out : List Block} (h : EmRun e given out) :
    AllDisjoint out ∧ (∀ b ∈ out, b.len = 0 ∨ ∃ g ∈ given, Inside b g) ∧
      (∀ b ∈ out, Disjoint b e.region.block) ∧ e.region.Ok := by
  suffices hs : AllDisjoint out ∧ (∀ b ∈ out, b.len = 0 ∨ ∃ g ∈ given, Inside b g) ∧
      (∀ b ∈ out, Disjoint b e.region.block) ∧ e.region.Ok ∧
      (e.region.block.len = 0 ∨ ∃ g ∈ given, Inside e.region.block g) from
    ⟨hs.1, hs.2.1, hs.2.2.1, hs.2.2.2.1⟩
  induction h with
  | start => simp [EmAlloc.empty, Frame.empty, AllDisjoint, Frame.Ok, Frame.block]
  | @alloc e e' given out f size align _ hal ih =>
    obtain ⟨i1, i2, i3, i4, i5⟩ := ih
    obtain ⟨a1, a2, a3, a4, a5, a6⟩ := allocate_ok i4 hal
    refine ⟨?_, ?_, ?_, a3, ?_⟩
    · exact List.pairwise_cons.2 ⟨fun b hb => ((i3 b hb).mono (fun _ h => h) a4).symm, i1⟩
    · intro b hb
      rw [List.mem_cons] at hb
      rcases hb with rfl | hb
      · rcases i5 with hz | ⟨g, hg, hi⟩
        · exact .inl (size_zero_of_inside a4 hz)
        · exact .inr ⟨g, hg, fun a ha => hi a (a4 a ha)⟩
      · exact i2 b hb
    · intro b hb
      rw [List.mem_cons] at hb
      rcases hb with rfl | hb
      · exact a6
      · exact (i3 b hb).mono (fun _ h => h) a5
    · rcases i5 with hz | ⟨g, hg, hi⟩
      · exact .inl (size_zero_of_inside a5 hz)
      · exact .inr ⟨g, hg, fun a ha => hi a (a5 a ha)⟩
  | @allocFails e given out er e' size align _ hal ih =>
    obtain ⟨i1, i2, i3, i4, i5⟩ := ih
    have ha : align ≤ BASE := by
      apply Classical.byContradiction
      intro q; simp [EmAlloc.allocate, q] at hal
    obtain ⟨c1, c2⟩ := c24_allocation e i4 size align ha
    have : e' = e := by
      by_cases hs : roundUp size BASE ≤ e.region.size
      · obtain ⟨f', e'', q1, _⟩ := c1 hs
        rw [q1] at hal; cases hal
      · rw [c2 (by omega)] at hal
        cases hal; rfl
    subst this
    exact ⟨i1, i2, i3, i4, i5⟩
  | @refill e e' given out pa _ hf hr ih =>
    obtain ⟨i1, i2, i3, i4, i5⟩ := ih
    obtain ⟨r1, r2⟩ := refill_ok hr
    refine ⟨i1, ?_, ?_, r2, .inr ⟨⟨pa, BASE⟩, by simp, ?_⟩⟩
    · intro b hb
      rcases i2 b hb with h | ⟨g, hg, hi⟩
      · exact .inl h
      · exact .inr ⟨g, List.mem_cons_of_mem _ hg, hi⟩
    · intro b hb
      rw [r1]
      rcases i2 b hb with h | ⟨g, hg, hi⟩
      · exact disjoint_of_len_zero h
      · exact (hf g hg).mono hi (fun _ h => h)
    · rw [r1]; exact fun _ h => h
  | @refillLarge e e' given out pa _ hf hr ih =>
    obtain ⟨i1, i2, i3, i4, i5⟩ := ih
    obtain ⟨r1, r2⟩ := refillLarge_ok hr
    refine ⟨i1, ?_, ?_, r2, .inr ⟨⟨pa, LARGE⟩, by simp, ?_⟩⟩
    · intro b hb
      rcases i2 b hb with h | ⟨g, hg, hi⟩
      · exact .inl h
      · exact .inr ⟨g, List.mem_cons_of_mem _ hg, hi⟩
    · intro b hb
      rw [r1]
      rcases i2 b hb with h | ⟨g, hg, hi⟩
      · exact disjoint_of_len_zero h
      · exact (hf g hg).mono hi (fun _ h => h)
    · rw [r1]; exact fun _ h => h

/-- Non-vacuity: refill with a large page, allocate 5000 and 100 bytes. -/
example : ∃ e out, EmRun e [⟨LARGE, LARGE⟩] out ∧ out.length = 2 := by
  have h0 : LARGE % BASE = 0 := LARGE_mod
  refine ⟨_, _, .alloc 100 8 (.alloc 5000 8 (.refillLarge (e' := ⟨⟨LARGE, LARGE, 0⟩⟩) LARGE .start
    (by simp) ?_) (f := ⟨LARGE, 8192, 0⟩) (e' := ⟨⟨LARGE + 8192, LARGE - 8192, 0⟩⟩) ?_)
    (f := ⟨LARGE + 8192, 4096, 0⟩) (e' := ⟨⟨LARGE + 12288, LARGE - 12288, 0⟩⟩) ?_, rfl⟩
  · simp [EmAlloc.refillLarge, Frame.new, h0]
  · simp [EmAlloc.allocate, roundUp, Frame.splitAt, Frame.new, BASE_eq, LARGE_eq]
  · simp [EmAlloc.allocate, roundUp, Frame.splitAt, Frame.new, BASE_eq, LARGE_eq]

/-! ## C26 -/

/-- What the state of a core looks like: the current arena is not also put aside, and every arena
that is put aside is at the place of its node. -/
structure CoreMem.Wf (m : CoreMem) : Prop where
  cur : m.cur.aff < m.arenas.length
  free : m.arenas[m.cur.aff]? = some none
  place : ∀ (i : Nat) (a : Arena), m.arenas[i]? = some (some a) → a.aff = i

theorem new_wf (len node : Nat) (h : node < len) : (CoreMem.new len node).Wf := by
  refine ⟨by simpa [CoreMem.new, Arena.new] using h, ?_, ?_⟩
  · simp [CoreMem.new, Arena.new, List.getElem?_replicate, h]
  · intro i a ha
    simp [CoreMem.new, List.getElem?_replicate] at ha

/-- The arena of a node, wherever it is: the current one, or the one put aside. -/
def CoreMem.arenaOf (m : CoreMem) (node : Nat) : Option Arena :=
  if node = m.cur.aff then some m.cur else m.arenas.getD node none

theorem swap_ok (t : Topo) (m : CoreMem) (hm : m.Wf) (node : Nat) (hne : node ≠ m.cur.aff)
    (hv : validNode t m.arenas.length node = true) :
    m.setAffinity t node = (.ok (), ⟨(m.arenas.getD node none).getD (Arena.new node),
      (m.arenas.set node none).set m.cur.aff (some m.cur)⟩) := by
  simp [CoreMem.setAffinity, hne, CoreMem.swap, hv, hm.cur]

theorem validNode_lt {t : Topo} {len node : Nat} (h : validNode t len node = true) : node < len := by
  unfold validNode at h
  split at h <;> simp at h <;> exact h.1

/-- **C26** Selecting a node that exists never crashes, makes the arena of that node the current
one, and leaves the arena of every other node, including the one used before, exactly as it was;
the arena of the selected node is the one it had before, or a new empty one. -/
theorem c26_switch (t : Topo) (m : CoreMem) (hm : m.Wf) (node : Nat)
    (hv : validNode t m.arenas.length node = true ∨ node = m.cur.aff) :
    let r := m.setAffinity t node
    r.1 = .ok () ∧ r.2.Wf ∧ r.2.cur.aff = node ∧
      r.2.cur = (m.arenaOf node).getD (Arena.new node) ∧
      (∀ n, n ≠ node → r.2.arenaOf n = m.arenaOf n) ∧ r.2.arenas.length = m.arenas.length := by
  simp only
  by_cases hne : node = m.cur.aff
  · have e : m.setAffinity t node = (.ok (), m) := by simp [CoreMem.setAffinity, hne]
    rw [e]
    refine ⟨rfl, hm, hne.symm, by simp [CoreMem.arenaOf, hne], fun _ _ => rfl, rfl⟩
  · have hv := hv.resolve_right hne
    have hlt := validNode_lt hv
    rw [swap_ok t m hm node hne hv]
    have hget : m.arenas.getD node none = m.arenas[node] := by simp [List.getD, hlt]
    have haff : ((m.arenas.getD node none).getD (Arena.new node)).aff = node := by
      rw [hget]
      cases ha : m.arenas[node] with
      | none => rfl
      | some a =>
        exact hm.place node a (by rw [List.getElem?_eq_getElem hlt, ha])
    refine ⟨rfl, ⟨?_, ?_, ?_⟩, haff, ?_, ?_, by simp⟩
    · simp only [List.length_set]; rw [haff]; exact hlt
    · simp only [haff]
      rw [List.getElem?_set_ne (by omega), List.getElem?_set_self (by omega)]
    · intro i a ha
      simp only at ha
      by_cases hi : i = m.cur.aff
      · subst hi
        rw [List.getElem?_set_self (by simpa using hm.cur)] at ha
        cases ha; rfl
      · rw [List.getElem?_set_ne (by omega)] at ha
        by_cases hn : i = node
        · subst hn
          rw [List.getElem?_set_self (by omega)] at ha
          cases ha
        · rw [List.getElem?_set_ne (by omega)] at ha
          exact hm.place i a ha
    · simp [CoreMem.arenaOf, hne]
    · intro n hn
      simp only [CoreMem.arenaOf, haff, if_neg hn]
      by_cases hc : n = m.cur.aff
      · subst hc
        simp [List.getD, List.getElem?_set, hm.cur]
      · simp only [if_neg hc, List.getD]
        rw [List.getElem?_set_ne (by omega), List.getElem?_set_ne (by omega)]

/-- **C26** A node that does not exist is rejected and nothing changes.  Which nodes exist: those
of the topology (at least node 0) and, in the rack-scale build, one for each machine's shared
memory. -/
theorem c26_invalid (t : Topo) (m : CoreMem) (node : Nat) (hne : node ≠ m.cur.aff) :
    (m.setAffinity t node = (.err .invalidAffinityId, m) ↔
      ¬ (node < m.arenas.length ∧ ((t.rack = false ∧ node < max 1 t.nodes) ∨
        (t.rack = true ∧ ((node < MAX_NUMA_NODES ∧ node < max 1 t.nodes) ∨
          (MAX_NUMA_NODES ≤ node ∧ node - MAX_NUMA_NODES < t.machines)))))) := by
  have hv : validNode t m.arenas.length node = true ↔
      (node < m.arenas.length ∧ ((t.rack = false ∧ node < max 1 t.nodes) ∨
        (t.rack = true ∧ ((node < MAX_NUMA_NODES ∧ node < max 1 t.nodes) ∨
          (MAX_NUMA_NODES ≤ node ∧ node - MAX_NUMA_NODES < t.machines))))) := by
    unfold validNode isShmemAffinity
    cases t.rack <;> simp
  rw [← hv]
  cases h : validNode t m.arenas.length node with
  | true =>
    simp only [not_true_eq_false, iff_false]
    simp only [CoreMem.setAffinity, hne, if_false, CoreMem.swap, h, if_true]
    split
    · intro q; cases q
    · intro q; cases q
  | false => simp [CoreMem.setAffinity, hne, CoreMem.swap, h]

/-- Everything a core does to its memory: switch, or change the current arena (allocate, free,
refill), which keeps its node. -/
inductive CoreRun (t : Topo) (len node : Nat) : CoreMem → List Nat → Prop
  | start : CoreRun t len node (CoreMem.new len node) []
  | switch {m sel} (n : Nat) : CoreRun t len node m sel → (m.setAffinity t n).1 = .ok () →
      CoreRun t len node (m.setAffinity t n).2 (n :: sel)
  | rejected {m sel} (n : Nat) : CoreRun t len node m sel → (m.setAffinity t n).1 ≠ .ok () →
      CoreRun t len node (m.setAffinity t n).2 sel
  | use {m sel} (a : Arena) : CoreRun t len node m sel → a.aff = m.cur.aff →
      CoreRun t len node { m with cur := a } sel

/-- **C26** After any sequence of switches and uses, the current arena is that of the node selected
last (the initial node if none was), and an unknown node never crashes the core. -/
theorem c26_current (t : Topo) (len node : Nat) (h0 : node < len) {m : CoreMem} {sel : List Nat}
    (h : CoreRun t len node m sel) :
    m.Wf ∧ m.cur.aff = sel.headD node ∧ m.arenas.length = len ∧
      ∀ n, (m.setAffinity t n).1 = .ok () ∨ m.setAffinity t n = (.err .invalidAffinityId, m) := by
  have total : ∀ {m : CoreMem}, m.Wf → ∀ n, (m.setAffinity t n).1 = .ok () ∨
      m.setAffinity t n = (.err .invalidAffinityId, m) := by
    intro m hm n
    by_cases hc : n = m.cur.aff
    · exact .inl (c26_switch t m hm n (.inr hc)).1
    · cases hv : validNode t m.arenas.length n with
      | true => exact .inl (c26_switch t m hm n (.inl hv)).1
      | false => exact .inr (by simp [CoreMem.setAffinity, hc, CoreMem.swap, hv])
  suffices hs : m.Wf ∧ m.cur.aff = sel.headD node ∧ m.arenas.length = len from
    ⟨hs.1, hs.2.1, hs.2.2, total hs.1⟩
  induction h with
  | start => exact ⟨new_wf len node h0, rfl, by simp [CoreMem.new]⟩
  | @switch m sel n _ hok ih =>
    obtain ⟨i1, i2, i3⟩ := ih
    have hv : validNode t m.arenas.length n = true ∨ n = m.cur.aff := by
      by_cases hc : n = m.cur.aff
      · exact .inr hc
      · left
        cases hv : validNode t m.arenas.length n with
        | true => rfl
        | false => simp [CoreMem.setAffinity, hc, CoreMem.swap, hv] at hok
    obtain ⟨c1, c2, c3, c4, c5, c6⟩ := c26_switch t m i1 n hv
    exact ⟨c2, c3, by rw [c6, i3]⟩
  | @rejected m sel n _ hno ih =>
    rcases total ih.1 n with h | h
    · exact absurd h hno
    · rw [h]; exact ih
  | @use m sel a _ ha ih =>
    obtain ⟨i1, i2, i3⟩ := ih
    exact ⟨⟨by simpa [ha] using i1.cur, by simpa [ha] using i1.free, i1.place⟩, by rw [← i2]; exact ha, i3⟩

theorem held_set (l : List (Option Arena)) : ∀ (i : Nat) (x : Option Arena), i < l.length →
    (((l.set i x).map (fun a => (a.map Arena.held).getD [])).flatten ++
        ((l.getD i none).map Arena.held).getD []).Perm
      ((l.map (fun a => (a.map Arena.held).getD [])).flatten ++ (x.map Arena.held).getD []) := by
  induction l with
  | nil => intro i x h; simp at h
  | cons y l ih =>
    intro i x h
    cases i with
    | zero =>
      simp only [List.set_cons_zero, List.map_cons, List.flatten_cons]
      rw [List.perm_iff_count]
      intro b
      simp only [List.count_append, List.getD_cons_zero]
      omega
    | succ i =>
      have := ih i x (by simpa using h)
      rw [List.perm_iff_count] at this ⊢
      intro b
      have := this b
      simp only [List.set_cons_succ, List.map_cons, List.flatten_cons, List.count_append,
        List.getD_cons_succ] at this ⊢
      omega

/-- **C26** Switching neither loses nor duplicates memory: the memory in all arenas of the core is
the same, as a multiset. -/
theorem c26_no_memory_lost (t : Topo) (m : CoreMem) (hm : m.Wf) (node : Nat) :
    (m.setAffinity t node).2.held.Perm m.held := by
  by_cases hne : node = m.cur.aff
  · have e : m.setAffinity t node = (.ok (), m) := by simp [CoreMem.setAffinity, hne]
    rw [e]
  · cases hv : validNode t m.arenas.length node with
    | false =>
      have : m.setAffinity t node = (.err .invalidAffinityId, m) := by
        simp [CoreMem.setAffinity, hne, CoreMem.swap, hv]
      rw [this]
    | true =>
      have hlt := validNode_lt hv
      rw [swap_ok t m hm node hne hv]
      have p1 := held_set m.arenas node none hlt
      have p2 := held_set (m.arenas.set node none) m.cur.aff (some m.cur) (by simpa using hm.cur)
      have g1 : (m.arenas.set node none).getD m.cur.aff none = none := by
        rw [List.getD, List.getElem?_set_ne (by omega), hm.free]; rfl
      have g2 : ((m.arenas.getD node none).getD (Arena.new node)).held =
          ((m.arenas.getD node none).map Arena.held).getD [] := by
        cases m.arenas.getD node none with
        | none => rfl
        | some a => rfl
      rw [g1] at p2
      unfold CoreMem.held
      simp only [g2]
      rw [List.perm_iff_count] at *
      intro b
      have q1 := p1 b
      have q2 := p2 b
      simp only [List.count_append, Option.map_none, Option.getD_none, List.count_nil,
        Option.map_some, Option.getD_some] at q1 q2 ⊢
      omega

/-- Non-vacuity: a core of node 0 on a two-node machine; node 1 can be selected, node 2 cannot. -/
example : (CoreMem.new 12 0).Wf ∧ ((CoreMem.new 12 0).setAffinity ⟨2, 0, false⟩ 1).1 = .ok () ∧
    ((CoreMem.new 12 0).setAffinity ⟨2, 0, false⟩ 2).1 = .err .invalidAffinityId :=
  ⟨new_wf 12 0 (by omega), rfl, rfl⟩

/-! ## C27 -/

theorem roundUp_ge (n s : Nat) (hs : 0 < s) : n ≤ roundUp n s := by
  unfold roundUp
  have h1 := Nat.div_add_mod (n + s - 1) s
  have h2 := Nat.mod_lt (n + s - 1) hs
  rw [Nat.mul_comm] at h1
  omega

/-- The heaps of all cores and what has been allocated: (core, block). -/
structure Heaps where
  pagers : Nat → Pager
  out : List (Nat × Block)

/-- The state after core `core` asked for `size` bytes. -/
def Heaps.alloc (h : Heaps) (mapOk : Nat → Nat → Bool) (core size align : Nat) : Heaps :=
  ⟨upd h.pagers core ((h.pagers core).allocate mapOk size align).2,
    match ((h.pagers core).allocate mapOk size align).1 with
    | .ok a => (core, ⟨a, roundUp size 4096⟩) :: h.out
    | _ => h.out⟩

/-- Histories of allocations on any cores.  `req` says which sizes and alignments are asked for,
`kernel` which answers of the mapping system call are possible when some blocks are already mapped
(the system call may also fail for other reasons). -/
inductive HeapRun (start region : Nat) (req : Nat → Nat → Prop)
    (kernel : List Block → (Nat → Nat → Bool) → Prop) : Heaps → Prop
  | start : HeapRun start region req kernel ⟨Pager.init start region, []⟩
  | alloc {h : Heaps} (mapOk : Nat → Nat → Bool) (core size align : Nat) :
      HeapRun start region req kernel h → req size align → kernel (h.out.map (·.2)) mapOk →
      HeapRun start region req kernel (h.alloc mapOk core size align)

/-- A kernel that refuses to map a range that overlaps a mapped one (C31). -/
def RefusesOverlap (mapped : List Block) (mapOk : Nat → Nat → Bool) : Prop :=
  ∀ base size, mapOk base size = true → ∀ b ∈ mapped, Disjoint b ⟨base, size⟩

theorem allocate_spec (p : Pager) (mapOk : Nat → Nat → Bool) (size align : Nat) :
    (∃ a, p.allocate mapOk size align = (.ok a, ⟨a + roundUp size 4096, p.limit⟩) ∧
        a = roundUp p.sbrk (max align 4096) ∧ a < p.limit ∧ mapOk a (roundUp size 4096) = true) ∨
    (p.allocate mapOk size align = (.err .outOfMemory, ⟨roundUp p.sbrk (max align 4096), p.limit⟩)) := by
  unfold Pager.allocate
  simp only
  split
  · exact .inr rfl
  · split
    · rename_i h1 h2
      exact .inl ⟨_, rfl, rfl, by omega, h2⟩
    · exact .inr rfl

/-- **C27** Whatever the cores ask for, blocks handed out by the heaps never overlap, because the
kernel refuses to map a range twice. -/
theorem c27_heaps_disjoint (start region : Nat) (h : Heaps)
    (hr : HeapRun start region (fun _ _ => True) RefusesOverlap h) :
    AllDisjoint (h.out.map (·.2)) := by
  induction hr with
  | start => simp [AllDisjoint]
  | @alloc h mapOk core size align _ _ hk ih =>
    unfold Heaps.alloc
    rcases allocate_spec (h.pagers core) mapOk size align with ⟨a, e, _, _, hm⟩ | e
    · rw [e]
      simp only [List.map_cons]
      exact List.pairwise_cons.2 ⟨fun b hb => (hk _ _ hm b hb).symm, ih⟩
    · rw [e]; exact ih

/-- Requests for whole pages: the size is the alignment, a multiple of 4 KiB that divides the heap
regions (what the page allocators of lines 90-105 ask for). -/
def PageRequest (start region size align : Nat) : Prop :=
  size = align ∧ 4096 ≤ align ∧ size % 4096 = 0 ∧ start % align = 0 ∧ region % align = 0

/-- **C27** Independently of the kernel: as long as the cores ask for whole pages, every block lies
in the region of its core and no two overlap. -/
theorem c27_pages_stay_in_region_partial (start region : Nat) (h : Heaps)
    (hr : HeapRun start region (PageRequest start region) (fun _ _ => True) h) :
    AllDisjoint (h.out.map (·.2)) ∧
    ∀ c b, (c, b) ∈ h.out → Inside b ⟨start + c * region, region⟩ := by
  suffices hs : AllDisjoint (h.out.map (·.2)) ∧
      (∀ c b, (c, b) ∈ h.out → start + c * region ≤ b.start ∧
        b.start + b.len ≤ (h.pagers c).sbrk ∧ b.start + b.len ≤ start + (c + 1) * region) ∧
      (∀ c, (h.pagers c).limit = start + (c + 1) * region ∧ start + c * region ≤ (h.pagers c).sbrk) by
    refine ⟨hs.1, fun c b hb => ?_⟩
    obtain ⟨h1, _, h3⟩ := hs.2.1 c b hb
    refine inside_of_le h1 ?_
    have e : (c + 1) * region = c * region + region := by rw [Nat.add_mul, Nat.one_mul]
    rw [e] at h3
    simp only
    omega
  induction hr with
  | start =>
    refine ⟨by simp [AllDisjoint], by simp, fun c => ⟨rfl, Nat.le_refl _⟩⟩
  | @alloc h mapOk core size align _ hq _ ih =>
    obtain ⟨i1, i2, i3⟩ := ih
    obtain ⟨rfl, q2, q3, q4, q5⟩ := hq
    have hmax : max size 4096 = size := by omega
    have hrs : roundUp size 4096 = size := by
      unfold roundUp
      have h1 : (size + 4096 - 1) / 4096 = size / 4096 := by omega
      rw [h1]; omega
    have hge := roundUp_ge (h.pagers core).sbrk size (by omega)
    unfold Heaps.alloc
    rcases allocate_spec (h.pagers core) mapOk size size with ⟨a, e, ha, hlt, _⟩ | e
    · rw [e]
      rw [hmax] at ha
      rw [hrs]
      obtain ⟨j1, j2⟩ := i3 core
      -- both `a` and the limit are multiples of the page size
      have hend : a + size ≤ start + (core + 1) * region := by
        rw [j1] at hlt
        have m1 : a % size = 0 := by rw [ha]; unfold roundUp; exact Nat.mul_mod_left _ _
        have m2 : (start + (core + 1) * region) % size = 0 := by
          rw [Nat.add_mod, q4, Nat.mul_mod, q5]; simp
        generalize start + (core + 1) * region = L at *
        obtain ⟨x, hx⟩ := Nat.dvd_of_mod_eq_zero m1
        obtain ⟨y, hy⟩ := Nat.dvd_of_mod_eq_zero m2
        have hxy : x < y := by
          apply Nat.lt_of_mul_lt_mul_left (a := size)
          rw [← hx, ← hy]; exact hlt
        have : size * (x + 1) ≤ size * y := Nat.mul_le_mul_left _ hxy
        rw [Nat.mul_add, Nat.mul_one] at this
        omega
      refine ⟨?_, ?_, ?_⟩
      · simp only [List.map_cons]
        refine List.pairwise_cons.2 ⟨?_, i1⟩
        intro b hb
        rw [List.mem_map] at hb
        obtain ⟨⟨c, b'⟩, hb, rfl⟩ := hb
        obtain ⟨k1, k2, k3⟩ := i2 c b' hb
        simp only
        by_cases hc : c = core
        · subst hc
          apply disjoint_of_ge
          simp only; omega
        · rcases Nat.lt_or_gt_of_ne hc with hc | hc
          · apply disjoint_of_ge
            have : (c + 1) * region ≤ core * region := Nat.mul_le_mul_right _ hc
            simp only; omega
          · apply disjoint_of_le
            have : (core + 1) * region ≤ c * region := Nat.mul_le_mul_right _ hc
            simp only; omega
      · intro c b hb
        simp only [List.mem_cons] at hb
        rcases hb with hb | hb
        · cases hb
          simp only [upd_same]
          omega
        · obtain ⟨k1, k2, k3⟩ := i2 c b hb
          by_cases hc : c = core
          · subst hc
            simp only [upd_same]
            omega
          · simp only [upd_other _ _ hc]
            exact ⟨k1, k2, k3⟩
      · intro c
        by_cases hc : c = core
        · subst hc
          simp only [upd_same]
          omega
        · simp only [upd_other _ _ hc]
          exact i3 c
    · rw [e]
      obtain ⟨j1, j2⟩ := i3 core
      rw [hmax]
      refine ⟨i1, ?_, ?_⟩
      · intro c b hb
        obtain ⟨k1, k2, k3⟩ := i2 c b hb
        by_cases hc : c = core
        · subst hc
          simp only [upd_same]
          omega
        · simp only [upd_other _ _ hc]
          exact ⟨k1, k2, k3⟩
      · intro c
        by_cases hc : c = core
        · subst hc
          simp only [upd_same]
          omega
        · simp only [upd_other _ _ hc]
          exact i3 c

/-- Finding: the limit is checked before the size is added, so a larger request runs into the next
core's heap: only the kernel's refusal keeps the two apart. -/
theorem c27_crosses_region (start n : Nat) (hs : start % 4096 = 0) :
    ∃ h, HeapRun start (4096 * (n + 1)) (fun _ _ => True) (fun _ _ => True) h ∧
      ¬ AllDisjoint (h.out.map (·.2)) := by
  have hr0 : roundUp start 4096 = start := by
    unfold roundUp
    have h1 : (start + 4096 - 1) / 4096 = start / 4096 := by omega
    rw [h1]; omega
  have hr1 : roundUp (start + 4096 * (n + 1)) 4096 = start + 4096 * (n + 1) := by
    unfold roundUp
    have h1 : (start + 4096 * (n + 1) + 4096 - 1) / 4096 = (start + 4096 * (n + 1)) / 4096 := by omega
    rw [h1]; omega
  have hr2 : roundUp (4096 * (n + 1) + 1) 4096 = 4096 * (n + 2) := by
    unfold roundUp
    omega
  have hr3 : roundUp 1 4096 = 4096 := rfl
  have e1 : (Pager.init start (4096 * (n + 1)) 0).allocate (fun _ _ => true) (4096 * (n + 1) + 1) 8 =
      (.ok start, ⟨start + 4096 * (n + 2), start + 4096 * (n + 1)⟩) := by
    have : (max 8 4096 : Nat) = 4096 := rfl
    simp only [Pager.allocate, Pager.init, Nat.zero_mul, Nat.add_zero, Nat.zero_add, Nat.one_mul,
      this, hr0, hr2]
    rw [if_neg (by omega)]
    rfl
  have e2 : (Pager.init start (4096 * (n + 1)) 1).allocate (fun _ _ => true) 1 8 =
      (.ok (start + 4096 * (n + 1)), ⟨start + 4096 * (n + 1) + 4096, start + 2 * (4096 * (n + 1))⟩) := by
    have : (max 8 4096 : Nat) = 4096 := rfl
    simp only [Pager.allocate, Pager.init, Nat.one_mul, this, hr1, hr3]
    rw [if_neg (by omega)]
    rfl
  refine ⟨_, .alloc (fun _ _ => true) 1 1 8
    (.alloc (fun _ _ => true) 0 (4096 * (n + 1) + 1) 8 .start trivial trivial) trivial trivial, ?_⟩
  have hu : (upd (Pager.init start (4096 * (n + 1))) 0 ⟨start + 4096 * (n + 2), start + 4096 * (n + 1)⟩) 1 =
      Pager.init start (4096 * (n + 1)) 1 := rfl
  simp only [Heaps.alloc, e1, hu, e2, List.map_cons, List.map_nil, hr2, hr3]
  intro hd
  have := (List.pairwise_cons.1 hd).1 ⟨start, 4096 * (n + 2)⟩ (by simp)
  refine this (start + 4096 * (n + 1)) ⟨⟨Nat.le_refl _, ?_⟩, ⟨?_, ?_⟩⟩ <;> simp only <;> omega

/-- Non-vacuity: the page sizes that the user-level allocator uses satisfy `PageRequest` for the
addresses it uses (`HEAP_START` and the region size are 512 GiB). -/
example : PageRequest (512 * 2 ^ 30) (512 * 2 ^ 30) 4096 4096 ∧
    PageRequest (512 * 2 ^ 30) (512 * 2 ^ 30) 2097152 2097152 := by
  unfold PageRequest; omega

end NRK.Mem
