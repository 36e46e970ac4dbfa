import Verif.VSpace.VSpaceLemmas

/-!
# C28-C31, C58: address spaces

`resolve` is the observation: what an address translates to, and with which rights.  Rights read back
are `MapAction.canon` of those asked for (C32).  `win x` is the part of `x` above the 48 bits that
are translated; two addresses with the same window and the same 48 bits are the same.
-/

namespace NRK.VSpace

open NRK.Mem (Frame)

/-! ## C28: map -/

/-- **C28** The page table, for any frame size: after a successful map every address of the range
translates to the corresponding physical address with the rights asked for, and every other address
translates as before.  No assumption on what was mapped before. -/
theorem c28_page_table_exact (env : Env) (t t' : PML4) (v p s : Nat) (r : MapAction)
    (h : ptMap env t v p s r = .ok t') (hs : 0 < s) (hw : v + s ≤ (win v + 1) * 2 ^ 48)
    (x : Nat) (hx : win x = win v) :
    resolve t' x = if v ≤ x ∧ x < v + s then .ok (p + (x - v), r.canon) else resolve t x := by
  obtain ⟨ha, hb⟩ := mapGeneric_spec env r _ t v p s t' h hs hw x hx
  by_cases hin : v ≤ x ∧ x < v + s
  · rw [if_pos hin]; exact resolve_of_belongs (ha hin)
  · rw [if_neg hin]; unfold resolve; rw [hb hin]

/-- **C28** `map_frame`, for any state, frame and address: if it succeeds and nothing was mapped at
exactly that base, the range translates to the frame with the rights asked for, and every other
address translates as before. -/
theorem c28_map_exact (env : Env) (oom : Bool) (s s' : VSpace) (base : Nat) (f : Frame) (a : MapAction)
    (h : mapFrame env oom s base f a = (s', .ok ())) (hnew : ∀ i, (base, i) ∉ s.maps)
    (hw : base + f.size ≤ (win base + 1) * 2 ^ 48) (x : Nat) (hx : win x = win base) :
    s'.resolve x = if base ≤ x ∧ x < base + f.size then .ok (f.base + (x - base), a.canon)
      else s.resolve x := by
  have ins : ∀ q : VSpace × Outcome Unit, q =
      (if oom then (s, .err .outOfMemory) else
        match ptMap env s.pt base f.base f.size a with
        | .ok pt' => (⟨insertMap base ⟨f, a⟩ s.maps, pt'⟩, .ok ())
        | .err e => (⟨insertMap base ⟨f, a⟩ s.maps, s.pt⟩, .err e)
        | .panic => (⟨insertMap base ⟨f, a⟩ s.maps, s.pt⟩, .panic)) →
      f.size ≠ 0 → q = (s', .ok ()) → s'.resolve x = if base ≤ x ∧ x < base + f.size then
        .ok (f.base + (x - base), a.canon) else s.resolve x := by
    intro q hq h0 hok
    rw [hq] at hok
    split at hok
    · cases hok
    · split at hok
      · rename_i pt' hpt
        cases hok
        exact c28_page_table_exact env s.pt pt' base f.base f.size a hpt (by omega) hw x hx
      · cases hok
      · cases hok
  unfold mapFrame at h
  split at h
  · cases h
  · rename_i h0
    split at h
    · cases h
    · split at h
      · cases h
      · simp only at h
        split at h
        · rename_i b i hf
          split at h
          · exact ins _ rfl h0 h
          · split at h
            · rename_i hsame
              obtain ⟨rfl, _⟩ := hsame
              exact absurd (List.mem_of_find?_eq_some hf) (hnew i)
            · cases h
        · exact ins _ rfl h0 h

/-- **C28** In a reachable address space: a successful map, also one that repeats an earlier map,
leaves the range translating to the frame with the rights asked for and everything else as it was.
Partial: frames are base or large pages, and a large page must not start at a base page that is mapped
already (see `c28_larger_remap_ignored`): if the first address is mapped, the last one is. -/
theorem c28_map_reachable_partial (env : Env) (hk : env.pages4k = false) (oom : Bool) (s s' : VSpace)
    (hr : Run env s) (base : Nat) (f : Frame) (a : MapAction) (hn : PageSize f.size)
    (hu : base + f.size ≤ userTop) (h : mapFrame env oom s base f a = (s', .ok ()))
    (hfree : s.resolve base ≠ .err .notMapped → s.resolve (base + f.size - 1) ≠ .err .notMapped)
    (x : Nat) (hx : x < 2 ^ 48) :
    s'.resolve x = if base ≤ x ∧ x < base + f.size then .ok (f.base + (x - base), a.canon)
      else s.resolve x := by
  have hi := hr.inv hk
  have hpos : 0 < f.size := by rcases hn with e | e <;> omega
  rcases mapFrame_cases env hk oom hi base f a hn hu with ⟨e, he, _⟩ | ⟨_, _, q, hq, h1, h2, hrest, hc⟩ |
    ⟨hb, hv, hall, hc⟩
  · rw [he] at h; cases h
  · rcases hc with ⟨e1, e2, e3, e4, he⟩ | ⟨_, he⟩
    · rw [he] at h; cases h
      have hcb : Covers q base := by unfold Covers; omega
      have hlast : Covers q (base + f.size - 1) := by
        have : s.resolve base ≠ .err .notMapped := by rw [hi.resolve_cov hq hcb]; simp
        obtain ⟨q', hq', hc'⟩ := hi.exists_cov (by omega) (hfree this)
        rcases hrest q' hq' with rfl | h3 | h3
        · exact hc'
        · unfold Covers at hc'; omega
        · unfold Covers at hc'; omega
      have hsz : q.2.frame.size = f.size := by unfold Covers at hlast; omega
      by_cases hin : base ≤ x ∧ x < base + f.size
      · rw [if_pos hin, hi.resolve_cov hq (by unfold Covers; omega), e1, e2, e4]
      · rw [if_neg hin]
    · rw [he] at h; cases h
  · rcases hc with ⟨_, he⟩ | ⟨_, t', he, hl⟩
    · rw [he] at h; cases h
    · have hw : win base = 0 := win_user (by omega)
      refine c28_map_exact env oom s s' base f a h (fun i hmem => ?_) ?_ x ?_
      · have hp := (hi.page _ hmem).1
        have := hall _ hmem
        rcases hp with e | e <;> simp only at * <;> omega
      · rw [hw]; unfold userTop at hu; omega
      · rw [hw]; unfold win; omega

/-- **C28** Mapping a page where nothing is mapped succeeds. -/
theorem c28_map_succeeds (env : Env) (hk : env.pages4k = false) (s : VSpace) (hr : Run env s)
    (base : Nat) (f : Frame) (a : MapAction) (hn : PageSize f.size) (hu : base + f.size ≤ userTop)
    (hb : f.base % f.size = 0) (hv : base % f.size = 0)
    (hfree : ∀ x, base ≤ x → x < base + f.size → s.resolve x = .err .notMapped) :
    ∃ s', mapFrame env false s base f a = (s', .ok ()) := by
  have hi := hr.inv hk
  have hpos : 0 < f.size := by rcases hn with e | e <;> omega
  rcases mapFrame_cases env hk false hi base f a hn hu with ⟨e, he, hc⟩ | ⟨_, _, q, hq, h1, h2, hrest, hc⟩ |
    ⟨hb, hv, hall, hc⟩
  · omega
  · have hp := (hi.page q hq).1
    have hcov : Covers q (max q.1 base) := by
      unfold Covers; rcases hp with e | e <;> omega
    have := hfree (max q.1 base) (by omega) (by omega)
    rw [hi.resolve_cov hq hcov] at this
    cases this
  · rcases hc with ⟨h, _⟩ | ⟨_, t', he, _⟩
    · cases h
    · exact ⟨_, he⟩

/-- An address space in which only one base page is mapped. -/
def exBase : VSpace :=
  (mapFrame ⟨false, fun _ => false⟩ false ⟨[], PML4.empty⟩ 0x200000 ⟨0x200000, 4096, 0⟩ MapAction.writable).1

/-- **C28** Witness: mapping a large page over a base page at the same address with the same physical
address and rights reports success, but maps nothing beyond the base page. -/
theorem c28_larger_remap_ignored :
    Run ⟨false, fun _ => false⟩ exBase ∧
    (mapFrame ⟨false, fun _ => false⟩ false exBase 0x200000 ⟨0x200000, 2097152, 0⟩ MapAction.writable).2 =
      .ok () ∧
    (mapFrame ⟨false, fun _ => false⟩ false exBase 0x200000 ⟨0x200000, 2097152, 0⟩
      MapAction.writable).1.resolve 0x201000 = .err .notMapped := by
  refine ⟨?_, by decide +kernel, by decide +kernel⟩
  exact Run.map _ _ _ _ (Run.new _ (fun x _ => rfl)) (Or.inl rfl) (by decide)

/-- **C28** Witness: the page table panics when a frame of two large pages is mapped over a slot where
a base page has been unmapped, although nothing is mapped there: the empty page table is taken for a
mapping. -/
theorem c28_leftover_table_panics :
    let env : Env := ⟨false, fun _ => false⟩
    let s0 : VSpace := ⟨[], PML4.empty⟩
    let s1 := (mapFrame env false s0 0x600000 ⟨0x1000, 4096, 0⟩ MapAction.writable).1
    let s2 := (unmap s1 0x600000).1
    s2.maps = [] ∧ s2.resolve 0x600000 = .err .notMapped ∧
      (mapFrame env false s2 0x400000 ⟨0x400000, 4194304, 0⟩ MapAction.writable).2 = .panic := by
  decide +kernel

/-! ## C29: unmap -/

/-- **C29** A successful unmap reports the range and the frame that was mapped there, removes the
translation of exactly that range and leaves every other address as it was. -/
theorem c29_unmap_exact (env : Env) (hk : env.pages4k = false) (s s' : VSpace) (hr : Run env s)
    (x : Nat) (hu : x < userTop) (h : FlushHandle) (he : unmap s x = (s', .ok h)) :
    h.vaddr ≤ x ∧ x < h.vaddr + h.size ∧
    (∀ y, h.vaddr ≤ y → y < h.vaddr + h.size →
      s.resolve y = .ok (h.paddr + (y - h.vaddr), h.flags) ∧ s'.resolve y = .err .notMapped) ∧
    (∀ y, y < 2 ^ 48 → ¬ (h.vaddr ≤ y ∧ y < h.vaddr + h.size) → s'.resolve y = s.resolve y) := by
  have hi := hr.inv hk
  rcases unmap_cases hi x hu with ⟨h1, _⟩ | ⟨h1, _⟩ | ⟨q, hq, hc, _, t', h1, hl⟩
  · rw [h1] at he; cases he
  · rw [h1] at he; cases he
  · rw [h1] at he; cases he
    refine ⟨hc.1, hc.2, fun y hy1 hy2 => ?_, fun y hy hout => ?_⟩
    · refine ⟨hi.resolve_cov hq ⟨hy1, hy2⟩, ?_⟩
      have hyu := hi.cov_user hq (x := y) ⟨hy1, hy2⟩
      show resolve t' y = _
      unfold resolve
      rw [hl y (win_user hyu), if_pos ⟨hy1, hy2⟩]
    · show resolve t' y = resolve s.pt y
      unfold resolve
      rw [hl y (by unfold win; omega), if_neg hout]

/-- **C29** Unmap never panics and fails only if the address is not page-aligned or not mapped; it
changes nothing then. -/
theorem c29_unmap_fails (env : Env) (hk : env.pages4k = false) (s s' : VSpace) (hr : Run env s)
    (x : Nat) (hu : x < userTop) (o : Outcome FlushHandle) (he : unmap s x = (s', o)) :
    o ≠ .panic ∧ ((∃ h, o = .ok h) ↔ (x % 4096 = 0 ∧ s.resolve x ≠ .err .notMapped)) ∧
      ∀ e, o = .err e → s' = s ∧ (e = .invalidBase ∨ e = .notMapped) := by
  have hi := hr.inv hk
  rcases unmap_cases hi x hu with ⟨h1, hn⟩ | ⟨h1, hx⟩ | ⟨q, hq, hc, hx, t', h1, hl⟩
  · rw [h1] at he; cases he
    refine ⟨by simp, ⟨fun ⟨h, e⟩ => (by cases e), fun ⟨_, h⟩ => absurd (hi.resolve_unc hu hn) h⟩, ?_⟩
    intro e h; cases h; exact ⟨rfl, Or.inr rfl⟩
  · rw [h1] at he; cases he
    refine ⟨by simp, ⟨fun ⟨h, e⟩ => (by cases e), fun ⟨h, _⟩ => absurd h hx⟩, ?_⟩
    intro e h; cases h; exact ⟨rfl, Or.inl rfl⟩
  · rw [h1] at he; cases he
    refine ⟨by simp, ⟨fun _ => ⟨hx, by rw [hi.resolve_cov hq hc]; simp⟩, fun _ => ⟨_, rfl⟩⟩, ?_⟩
    intro e h; cases h

/-- **C29** Unmapping any page of a frame right after mapping it gives the frame back and restores the
translation of every address. -/
theorem c29_map_unmap (env : Env) (hk : env.pages4k = false) (oom : Bool) (s s1 : VSpace)
    (hr : Run env s) (base : Nat) (f : Frame) (a : MapAction) (hn : PageSize f.size)
    (hu : base + f.size ≤ userTop) (h : mapFrame env oom s base f a = (s1, .ok ()))
    (hfree : s.resolve base = .err .notMapped) (x : Nat) (hx : base ≤ x ∧ x < base + f.size)
    (hal : x % 4096 = 0) :
    ∃ s2, unmap s1 x = (s2, .ok ⟨base, f.base, f.size, a.canon⟩) ∧
      ∀ y, y < 2 ^ 48 → s2.resolve y = s.resolve y := by
  have hi := hr.inv hk
  have hpos : 0 < f.size := by rcases hn with e | e <;> omega
  have hr1 : Run env s1 := by have := Run.map oom base f a hr hn hu; rw [h] at this; exact this
  have hi1 := hr1.inv hk
  rcases mapFrame_cases env hk oom hi base f a hn hu with ⟨e, he, _⟩ | ⟨_, _, q, hq, h1, h2, hrest, hc⟩ |
    ⟨hb, hv, hall, hc⟩
  · rw [he] at h; cases h
  · rcases hc with ⟨e1, e2, e3, e4, he⟩ | ⟨_, he⟩
    · rw [hi.resolve_cov hq (x := base) (by unfold Covers; omega)] at hfree; cases hfree
    · rw [he] at h; cases h
  · rcases hc with ⟨_, he⟩ | ⟨_, t', he, hl⟩
    · rw [he] at h; cases h
    · rw [he] at h; cases h
      have hm : (base, (⟨f, a⟩ : MappingInfo)) ∈ insertMap base ⟨f, a⟩ s.maps :=
        (mem_insertMap _ _ _ _).2 (Or.inl rfl)
      have hcx : Covers (base, (⟨f, a⟩ : MappingInfo)) x := hx
      rcases unmap_cases hi1 x (by omega) with ⟨h1, hn⟩ | ⟨h1, hx'⟩ | ⟨q, hq, hc, _, t2, h1, hl2⟩
      · exact absurd hcx (hn _ hm)
      · exact absurd hal hx'
      · have := hi1.cov_unique hq hm hc hcx
        subst this
        refine ⟨_, h1, fun y hy => ?_⟩
        have hwy : win y = 0 := by unfold win; omega
        have hsame : leafAt t2 y = leafAt s.pt y := by
          rw [hl2 y hwy]
          by_cases hin : base ≤ y ∧ y < base + f.size
          · rw [if_pos hin]
            rw [hi.unc y (by omega)]
            intro q hq hcq
            have := hall q hq
            unfold Covers at hcq
            omega
          · rw [if_neg hin]
            show leafAt t' y = _
            rw [hl y hwy, if_neg hin]
        show resolve t2 y = resolve s.pt y
        unfold resolve
        rw [hsame]

/-- **C29** Witness: with the feature `pages-4k` a large frame is mapped with base pages, and unmap
removes only the first of them. -/
theorem c29_pages_4k :
    let env : Env := ⟨true, fun _ => false⟩
    let s1 := (mapFrame env false ⟨[], PML4.empty⟩ 0x200000 ⟨0x200000, 2097152, 0⟩ MapAction.writable).1
    (unmap s1 0x200000).2 = .ok ⟨0x200000, 0x200000, 4096, MapAction.writable⟩ ∧
    (unmap s1 0x200000).1.maps = [] ∧
    (unmap s1 0x200000).1.resolve 0x201000 = .ok (0x201000, MapAction.writable) := by
  decide +kernel

/-- **C29** Witness: of a frame that is not a single page (here 8 KiB), unmap removes only one page
of translation, and forgets the mapping. -/
theorem c29_two_page_frame :
    let env : Env := ⟨false, fun _ => false⟩
    let s1 := (mapFrame env false ⟨[], PML4.empty⟩ 0x2000 ⟨0x4000, 8192, 0⟩ MapAction.writable).1
    (unmap s1 0x2000).2 = .ok ⟨0x2000, 0x4000, 4096, MapAction.writable⟩ ∧
    (unmap s1 0x2000).1.maps = [] ∧
    (unmap s1 0x2000).1.resolve 0x3000 = .ok (0x5000, MapAction.writable) := by
  decide +kernel

/-! ## C30: adjust -/

/-- **C30** A successful adjust changes the rights of exactly the page it reports, which contains the
address; physical addresses and all other pages stay. -/
theorem c30_adjust_exact (env : Env) (hk : env.pages4k = false) (s s' : VSpace) (hr : Run env s)
    (x : Nat) (r : MapAction) (hu : x < userTop) (va sz : Nat)
    (he : adjust s x r = (s', .ok (va, sz))) :
    va ≤ x ∧ x < va + sz ∧
    (∀ y, va ≤ y → y < va + sz → ∃ p r0, s.resolve y = .ok (p, r0) ∧ s'.resolve y = .ok (p, r.canon)) ∧
    (∀ y, y < 2 ^ 48 → ¬ (va ≤ y ∧ y < va + sz) → s'.resolve y = s.resolve y) := by
  have hi := hr.inv hk
  rcases adjust_cases hi x r hu with ⟨h1, _⟩ | ⟨h1, _⟩ | ⟨q, hq, hc, _, t', h1, hl⟩
  · rw [h1] at he; cases he
  · rw [h1] at he; cases he
  · rw [h1] at he; cases he
    obtain ⟨hps, hal, _, _⟩ := hi.page q hq
    refine ⟨hc.1, hc.2, fun y hy1 hy2 => ?_, fun y hy hout => ?_⟩
    · refine ⟨_, _, hi.resolve_cov hq ⟨hy1, hy2⟩, ?_⟩
      have hyu := hi.cov_user hq (x := y) ⟨hy1, hy2⟩
      show resolve t' y = _
      unfold resolve
      rw [hl y (win_user hyu), if_pos ⟨hy1, hy2⟩]
      show Outcome.ok (q.2.frame.base + y % (pageLevel q.2.frame.size).size, ofFlags _ (leafFlags _ _)) = _
      rw [c32_decode, pageLevel_size hps, (page_arith hps hal ⟨hy1, hy2⟩).1]
    · show resolve t' y = resolve s.pt y
      unfold resolve
      rw [hl y (by unfold win; omega), if_neg hout]

/-- **C30** Adjust never panics and fails only if the address is not page-aligned or not mapped; it
changes nothing then. -/
theorem c30_adjust_fails (env : Env) (hk : env.pages4k = false) (s s' : VSpace) (hr : Run env s)
    (x : Nat) (r : MapAction) (hu : x < userTop) (o : Outcome (Nat × Nat))
    (he : adjust s x r = (s', o)) :
    o ≠ .panic ∧ ((∃ h, o = .ok h) ↔ (x % 4096 = 0 ∧ s.resolve x ≠ .err .notMapped)) ∧
      ∀ e, o = .err e → s' = s ∧ (e = .invalidBase ∨ e = .notMapped) := by
  have hi := hr.inv hk
  rcases adjust_cases hi x r hu with ⟨h1, hn⟩ | ⟨h1, hx⟩ | ⟨q, hq, hc, hx, t', h1, hl⟩
  · rw [h1] at he; cases he
    refine ⟨by simp, ⟨fun ⟨h, e⟩ => (by cases e), fun ⟨_, h⟩ => absurd (hi.resolve_unc hu hn) h⟩, ?_⟩
    intro e h; cases h; exact ⟨rfl, Or.inr rfl⟩
  · rw [h1] at he; cases he
    refine ⟨by simp, ⟨fun ⟨h, e⟩ => (by cases e), fun ⟨h, _⟩ => absurd h hx⟩, ?_⟩
    intro e h; cases h; exact ⟨rfl, Or.inl rfl⟩
  · rw [h1] at he; cases he
    refine ⟨by simp, ⟨fun _ => ⟨hx, by rw [hi.resolve_cov hq hc]; simp⟩, fun _ => ⟨_, rfl⟩⟩, ?_⟩
    intro e h; cases h

/-- **C30** Witness: for a frame that is not a single page, adjusting its second page changes the
rights of that page in the page table and then reports that it is not mapped. -/
theorem c30_two_page_frame :
    let env : Env := ⟨false, fun _ => false⟩
    let s1 := (mapFrame env false ⟨[], PML4.empty⟩ 0x2000 ⟨0x4000, 8192, 0⟩ MapAction.writable).1
    (adjust s1 0x3000 MapAction.user).2 = .err .notMapped ∧
    s1.resolve 0x3000 = .ok (0x5000, MapAction.writable) ∧
    (adjust s1 0x3000 MapAction.user).1.resolve 0x3000 = .ok (0x5000, MapAction.user) := by
  decide +kernel

/-! ## C31: mapping over an existing mapping -/

theorem mapGeneric_ne_err (env : Env) (r : MapAction) : ∀ n t v p s e,
    mapGeneric env r n t v p s ≠ .err e := by
  have fne : ∀ {E : Type} (clash : E → Nat → Bool) (mk : Nat → E) (step : Nat) n t idx pa s e,
      fill clash mk step n t idx pa s ≠ .err e := by
    intro E clash mk step n
    induction n with
    | zero => intro t idx pa s e h; simp [fill] at h
    | succ n ih =>
      intro t idx pa s e h
      rw [fill] at h
      split at h
      · split at h
        · cases h
        · split at h
          · cases h
          · exact ih _ _ _ _ _ h
      · cases h
  have hne : ∀ d v p s e, canHuge env d v p s ≠ .err e := by
    intro d v p s e h
    unfold canHuge at h
    split at h
    · split at h
      · cases h
      · cases h
      · split at h <;> cases h
    · cases h
  have lne : ∀ d v p s e, canLarge env d v p s ≠ .err e := by
    intro d v p s e h
    unfold canLarge at h
    split at h
    · cases h
    · split at h
      · split at h
        · cases h
        · cases h
        · split at h <;> cases h
      · cases h
  intro n
  induction n with
  | zero => intro t v p s e h; cases h
  | succ n ih =>
    intro t v p s e h
    unfold mapGeneric at h
    split at h
    · simp only at h
      split at h
      · split at h
        · split at h
          · cases h
          · exact ih _ _ _ _ _ h
        · rename_i h'; exact fne _ _ _ _ _ _ _ _ _ h'
        · cases h
      · split at h
        · cases h
        · split at h
          · split at h
            · split at h
              · cases h
              · exact ih _ _ _ _ _ h
            · rename_i h'; exact fne _ _ _ _ _ _ _ _ _ h'
            · cases h
          · split at h
            · cases h
            · split at h
              · split at h
                · cases h
                · exact ih _ _ _ _ _ h
              · rename_i h'; exact fne _ _ _ _ _ _ _ _ _ h'
              · cases h
          · rename_i h'; exact lne _ _ _ _ _ h'
          · cases h
      · rename_i h'; exact hne _ _ _ _ _ h'
      · cases h
    · cases h

/-- **C31** A map that is refused changes nothing, whatever the state, the frame and the address. -/
theorem c31_error_changes_nothing (env : Env) (oom : Bool) (s s' : VSpace) (base : Nat) (f : Frame)
    (a : MapAction) (e : KError) (h : mapFrame env oom s base f a = (s', .err e)) : s' = s := by
  have ins : ∀ q : VSpace × Outcome Unit, q =
      (if oom then (s, .err .outOfMemory) else
        match ptMap env s.pt base f.base f.size a with
        | .ok pt' => (⟨insertMap base ⟨f, a⟩ s.maps, pt'⟩, .ok ())
        | .err e => (⟨insertMap base ⟨f, a⟩ s.maps, s.pt⟩, .err e)
        | .panic => (⟨insertMap base ⟨f, a⟩ s.maps, s.pt⟩, .panic)) → q = (s', .err e) → s' = s := by
    intro q hq hok
    rw [hq] at hok
    split at hok
    · cases hok; rfl
    · split at hok
      · cases hok
      · rename_i h'; exact absurd h' (mapGeneric_ne_err _ _ _ _ _ _ _ _)
      · cases hok
  unfold mapFrame at h
  split at h
  · cases h; rfl
  · split at h
    · cases h; rfl
    · split at h
      · cases h; rfl
      · simp only at h
        split at h
        · split at h
          · exact ins _ rfl h
          · split at h
            · cases h
            · cases h; rfl
        · exact ins _ rfl h

/-- **C31** Mapping a page over something mapped: the call is refused with an error that names the
base of a mapping which covers an address of the range, unless it repeats an existing mapping (same
base, physical address and rights); in both cases nothing changes. -/
theorem c31_overlap_refused (env : Env) (hk : env.pages4k = false) (oom : Bool) (s : VSpace)
    (hr : Run env s) (base : Nat) (f : Frame) (a : MapAction) (hn : PageSize f.size)
    (hu : base + f.size ≤ userTop) (hb : f.base % f.size = 0) (hv : base % f.size = 0)
    (y : Nat) (hy : base ≤ y ∧ y < base + f.size) (hm : s.resolve y ≠ .err .notMapped) :
    (∃ b z p r, mapFrame env oom s base f a = (s, .err (.alreadyMapped b)) ∧
      base ≤ z ∧ z < base + f.size ∧ b ≤ z ∧ s.resolve b = .ok (p, r) ∧
      s.resolve z = .ok (p + (z - b), r)) ∨
    (mapFrame env oom s base f a = (s, .ok ()) ∧ s.resolve base = .ok (f.base, a.canon)) := by
  have hi := hr.inv hk
  have hpos : 0 < f.size := by rcases hn with e | e <;> omega
  rcases mapFrame_cases env hk oom hi base f a hn hu with ⟨e, he, hc⟩ | ⟨_, _, q, hq, h1, h2, hrest, hc⟩ |
    ⟨hb, hv, hall, hc⟩
  · omega
  · have hp := (hi.page q hq).1
    rcases hc with ⟨e1, e2, e3, e4, he⟩ | ⟨_, he⟩
    · right
      refine ⟨he, ?_⟩
      rw [hi.resolve_cov hq (x := base) (by unfold Covers; omega), e2, e4, e1]
      simp
    · left
      refine ⟨q.1, max q.1 base, q.2.frame.base, q.2.rights.canon, he, by omega, by omega, by omega, ?_, ?_⟩
      · rw [hi.resolve_cov hq (by unfold Covers; rcases hp with e | e <;> omega)]
        simp
      · rw [hi.resolve_cov hq (by unfold Covers; rcases hp with e | e <;> omega)]
  · obtain ⟨q, hq, hcq⟩ := hi.exists_cov (by omega) hm
    have := hall q hq
    unfold Covers at hcq
    omega

/-- **C31** The other half of the decision: mapping an aligned page never panics, and if nothing in the
range is mapped it is refused only for lack of memory for the bookkeeping. -/
theorem c31_decision (env : Env) (hk : env.pages4k = false) (oom : Bool) (s : VSpace) (hr : Run env s)
    (base : Nat) (f : Frame) (a : MapAction) (hn : PageSize f.size) (hu : base + f.size ≤ userTop)
    (hb : f.base % f.size = 0) (hv : base % f.size = 0) :
    (mapFrame env oom s base f a).2 ≠ .panic ∧
    ((∀ y, base ≤ y → y < base + f.size → s.resolve y = .err .notMapped) →
      ((mapFrame env oom s base f a).2 = if oom then .err .outOfMemory else .ok ())) := by
  have hi := hr.inv hk
  rcases mapFrame_cases env hk oom hi base f a hn hu with ⟨e, he, hc⟩ | ⟨_, _, q, hq, h1, h2, hrest, hc⟩ |
    ⟨hb, hv, hall, hc⟩
  · omega
  · have hp := (hi.page q hq).1
    constructor
    · rcases hc with ⟨e1, e2, e3, e4, he⟩ | ⟨_, he⟩ <;> rw [he] <;> simp
    · intro hfree
      have := hfree (max q.1 base) (by omega) (by rcases hn with e | e <;> omega)
      rw [hi.resolve_cov hq (by unfold Covers; rcases hp with e | e <;> omega)] at this
      cases this
  · rcases hc with ⟨e1, he⟩ | ⟨e1, t', he, _⟩ <;> rw [he, e1] <;> simp

/-- **C31** Witness: mapping several frames at once is not all-or-nothing; a conflict at the second
frame leaves the first one mapped. -/
theorem c31_map_frames_not_atomic :
    let env : Env := ⟨false, fun _ => false⟩
    let s1 := (mapFrame env false ⟨[], PML4.empty⟩ 0x2000 ⟨0x9000, 4096, 0⟩ MapAction.writable).1
    let r := mapFrames env s1 0x1000
      [(false, ⟨0x5000, 4096, 0⟩, MapAction.writable), (false, ⟨0x6000, 4096, 0⟩, MapAction.writable)]
    r.2 = .err (.alreadyMapped 0x2000) ∧ s1.resolve 0x1000 = .err .notMapped ∧
      r.1.resolve 0x1000 = .ok (0x5000, MapAction.writable) := by
  decide +kernel

/-! ## C58: the map system call -/

/-- Specification: what an address translates to if frames are laid out one after another. -/
def seg : Nat → List Frame → Nat → Option Nat
  | _, [], _ => Option.none
  | base, f :: rest, x =>
    if base ≤ x ∧ x < base + f.size then some (f.base + (x - base)) else seg (base + f.size) rest x

/-- Every frame is an aligned page and is placed at an aligned address. -/
def Fits : Nat → List Frame → Prop
  | _, [] => True
  | base, f :: rest => PageSize f.size ∧ f.base % f.size = 0 ∧ base % f.size = 0 ∧ Fits (base + f.size) rest

def total (l : List Frame) : Nat := (l.map (·.size)).sum

theorem seg_out {x : Nat} : ∀ (l : List Frame) (base : Nat), ¬ (base ≤ x ∧ x < base + total l) →
    seg base l x = Option.none := by
  intro l
  induction l with
  | nil => intro _ _; rfl
  | cons f rest ih =>
    intro base h
    have ht : total (f :: rest) = f.size + total rest := by simp [total]
    rw [ht] at h
    rw [seg, if_neg (by omega)]
    exact ih _ (by omega)

/-- Mapping frames one after another into an unmapped range maps all of them. -/
theorem mapFrames_spec (env : Env) (hk : env.pages4k = false) (a : MapAction) :
    ∀ (l : List (Bool × Frame × MapAction)) (s : VSpace) (base : Nat), Run env s →
      (∀ p ∈ l, p.1 = false ∧ p.2.2 = a) → Fits base (l.map (·.2.1)) →
      base + total (l.map (·.2.1)) ≤ userTop →
      (∀ x, base ≤ x → x < base + total (l.map (·.2.1)) → s.resolve x = .err .notMapped) →
      ∃ s', mapFrames env s base l = (s', .ok ()) ∧ Run env s' ∧
        ∀ x, x < 2 ^ 48 → s'.resolve x = match seg base (l.map (·.2.1)) x with
          | some p => .ok (p, a.canon)
          | Option.none => s.resolve x := by
  intro l
  induction l with
  | nil =>
    intro s base hr _ _ _ _
    exact ⟨s, rfl, hr, fun x _ => rfl⟩
  | cons p rest ih =>
    obtain ⟨oom, f, a'⟩ := p
    intro s base hr hall hfit htop hfree
    obtain ⟨h1, h2⟩ := hall (oom, f, a') (by simp)
    simp only at h1 h2
    subst h1; subst h2
    obtain ⟨hn, hb, hv, hfit'⟩ : PageSize f.size ∧ f.base % f.size = 0 ∧ base % f.size = 0 ∧
      Fits (base + f.size) (rest.map (fun p : Bool × Frame × MapAction => p.2.1)) := hfit
    have ht : total (((false, f, a') :: rest).map (·.2.1)) = f.size + total (rest.map (·.2.1)) := by
      simp [total]
    rw [ht] at htop hfree
    have hpos : 0 < f.size := by rcases hn with e | e <;> omega
    obtain ⟨s1, he⟩ := c28_map_succeeds env hk s hr base f a' hn (by omega) hb hv
      (fun x hx1 hx2 => hfree x hx1 (by omega))
    have hr1 : Run env s1 := by
      have := Run.map false base f a' hr hn (by omega); rw [he] at this; exact this
    have hres := c28_map_reachable_partial env hk false s s1 hr base f a' hn (by omega) he
      (fun h => absurd (hfree base (by omega) (by omega)) h)
    have hfree1 : ∀ x, base + f.size ≤ x → x < base + f.size + total (rest.map (·.2.1)) →
        s1.resolve x = .err .notMapped := by
      intro x hx1 hx2
      rw [hres x (by unfold userTop at htop; omega), if_neg (by omega)]
      exact hfree x (by omega) (by omega)
    obtain ⟨s2, he2, hr2, hx2⟩ := ih s1 (base + f.size) hr1 (fun p hp => hall p (by simp [hp])) hfit'
      (by omega) hfree1
    refine ⟨s2, ?_, hr2, fun x hx => ?_⟩
    · rw [mapFrames, he]; exact he2
    · rw [hx2 x hx]
      show _ = match seg base (f :: rest.map (·.2.1)) x with | some p => _ | Option.none => _
      rw [seg]
      by_cases hin : base ≤ x ∧ x < base + f.size
      · rw [if_pos hin, seg_out _ _ (by omega)]
        show s1.resolve x = _
        rw [hres x hx, if_pos hin]
      · rw [if_neg hin]
        cases seg (base + f.size) (rest.map (·.2.1)) x with
        | some p => rfl
        | none => show s1.resolve x = s.resolve x; rw [hres x hx, if_neg hin]

/-- What the page allocator hands out for `lp` large and `bp` base pages. -/
def GoodAlloc (alloc : Nat → Nat → List Frame) : Prop :=
  ∀ lp bp, ∃ ls bs, alloc lp bp = ls ++ bs ∧ ls.length = lp ∧ bs.length = bp ∧
    (∀ f ∈ ls, f.size = 2097152 ∧ f.base % 2097152 = 0) ∧ (∀ f ∈ bs, f.size = 4096 ∧ f.base % 4096 = 0)

theorem sizeToPages_eq (size : Nat) :
    NRK.Mem.sizeToPages size = ((size % 2097152 + 4095) / 4096, size / 2097152) := by
  unfold NRK.Mem.sizeToPages
  simp only [NRK.Mem.LARGE_eq, NRK.Mem.BASE_eq]
  refine Prod.ext ?_ ?_ <;> simp only <;> split <;> omega

theorem mapMem_eq (env : Env) (alloc : Nat → Nat → List Frame) (oom : Nat → Bool) (s : VSpace)
    (base size : Nat) : mapMem env alloc oom s base size =
      mapPages env (alloc (size / 2097152) ((size % 2097152 + 4095) / 4096)) oom s base := by
  unfold mapMem
  rw [sizeToPages_eq]

theorem fits_base : ∀ (bs : List Frame) (base : Nat), base % 4096 = 0 →
    (∀ f ∈ bs, f.size = 4096 ∧ f.base % 4096 = 0) → Fits base bs ∧ total bs = bs.length * 4096 := by
  intro bs
  induction bs with
  | nil => intro _ _ _; exact ⟨trivial, by simp [total]⟩
  | cons f rest ih =>
    intro base hb hall
    obtain ⟨h1, h2⟩ := hall f (by simp)
    obtain ⟨i1, i2⟩ := ih (base + 4096) (by omega) (fun g hg => hall g (by simp [hg]))
    refine ⟨⟨Or.inl h1, by rw [h1]; exact h2, by rw [h1]; exact hb, by rw [h1]; exact i1⟩, ?_⟩
    have : total (f :: rest) = f.size + total rest := by simp [total]
    rw [this, i2, h1, List.length_cons]
    omega

theorem fits_large (bs : List Frame) (hbs : ∀ f ∈ bs, f.size = 4096 ∧ f.base % 4096 = 0) :
    ∀ (ls : List Frame) (base : Nat), base % 4096 = 0 → (ls ≠ [] → base % 2097152 = 0) →
    (∀ f ∈ ls, f.size = 2097152 ∧ f.base % 2097152 = 0) →
      Fits base (ls ++ bs) ∧ total (ls ++ bs) = ls.length * 2097152 + bs.length * 4096 := by
  intro ls
  induction ls with
  | nil =>
    intro base hb _ _
    obtain ⟨i1, i2⟩ := fits_base bs base hb hbs
    exact ⟨i1, by simpa using i2⟩
  | cons f rest ih =>
    intro base hb hl hall
    obtain ⟨h1, h2⟩ := hall f (by simp)
    have hl' := hl (by simp)
    obtain ⟨i1, i2⟩ := ih (base + 2097152) (by omega) (fun _ => by omega) (fun g hg => hall g (by simp [hg]))
    refine ⟨⟨Or.inr h1, by rw [h1]; exact h2, by rw [h1]; exact hl', by rw [h1]; exact i1⟩, ?_⟩
    have : total ((f :: rest) ++ bs) = f.size + total (rest ++ bs) := by simp [total]
    rw [this, i2, h1, List.length_cons]
    omega

/-- **C58** The system call that maps memory: given an aligned base, a size that is not zero and an
unmapped range of user addresses, it succeeds, reports the address of the first frame and the size
rounded up to pages, and maps exactly that range, writable, to the frames one after another.  Partial:
for other arguments the kernel stops, see the witnesses below. -/
theorem c58_map_syscall_partial (env : Env) (hk : env.pages4k = false)
    (alloc : Nat → Nat → List Frame) (ha : GoodAlloc alloc) (oom : Nat → Bool) (s : VSpace)
    (hr : Run env s) (base size : Nat) (h0 : 0 < size) (hal : base % 4096 = 0)
    (hlarge : 2097152 ≤ size → base % 2097152 = 0) (hoom : ∀ i, oom i = false)
    (hu : base + (size + 4095) / 4096 * 4096 ≤ userTop)
    (hfree : ∀ x, base ≤ x → x < base + (size + 4095) / 4096 * 4096 → s.resolve x = .err .notMapped) :
    ∃ s' first frames, frames = alloc (size / 2097152) ((size % 2097152 + 4095) / 4096) ∧
      mapMem env alloc oom s base size = (s', .ok (first, (size + 4095) / 4096 * 4096)) ∧
      frames.head?.map (·.base) = some first ∧ total frames = (size + 4095) / 4096 * 4096 ∧ Run env s' ∧
      ∀ x, x < 2 ^ 48 → s'.resolve x = match seg base frames x with
        | some p => .ok (p, MapAction.writable)
        | Option.none => s.resolve x := by
  obtain ⟨ls, bs, hsplit, hll, hbl, hls, hbs⟩ := ha (size / 2097152) ((size % 2097152 + 4095) / 4096)
  obtain ⟨hfit, htot⟩ := fits_large bs hbs ls base hal
    (fun hne => hlarge (by
      have : 0 < ls.length := List.length_pos_iff.2 hne
      omega)) hls
  have htot' : total (ls ++ bs) = (size + 4095) / 4096 * 4096 := by rw [htot, hll, hbl]; omega
  have hidx : ((ls ++ bs).mapIdx fun i f => (oom i, f, MapAction.writable)).map (·.2.1) = ls ++ bs := by
    apply List.ext_getElem
    · simp
    · intro i h1 h2; simp
  obtain ⟨s', he, hr', hx⟩ := mapFrames_spec env hk MapAction.writable
    ((ls ++ bs).mapIdx fun i f => (oom i, f, MapAction.writable)) s base hr
    (fun p hpm => by
      obtain ⟨i, hi, rfl⟩ := List.mem_mapIdx.1 hpm
      exact ⟨hoom i, rfl⟩)
    (by rw [hidx]; exact hfit) (by rw [hidx, htot']; exact hu)
    (by rw [hidx, htot']; exact hfree)
  rw [hidx] at hx
  cases hc : ls ++ bs with
  | nil => rw [hc] at htot'; simp [total] at htot'; omega
  | cons f rest =>
    refine ⟨s', f.base, ls ++ bs, by rw [hsplit], ?_, by rw [hc]; rfl, htot', hr', hx⟩
    rw [mapMem_eq, hsplit]
    unfold mapPages
    rw [he, ← htot']
    show (match ls ++ bs with | [] => _ | f :: _ => _) = _
    rw [hc]
    rfl

/-- Frames handed out one after another from 16 MiB on. -/
def exAlloc (lp bp : Nat) : List Frame :=
  (List.range lp).map (fun i => ⟨0x1000000 + i * 2097152, 2097152, 0⟩) ++
    (List.range bp).map (fun i => ⟨0x8000000 + i * 4096, 4096, 0⟩)

theorem exAlloc_good : GoodAlloc exAlloc := by
  intro lp bp
  refine ⟨_, _, rfl, by simp, by simp, fun f hf => ?_, fun f hf => ?_⟩
  · obtain ⟨i, _, rfl⟩ := List.mem_map.1 hf
    exact ⟨rfl, by show (0x1000000 + i * 2097152) % 2097152 = 0; omega⟩
  · obtain ⟨i, _, rfl⟩ := List.mem_map.1 hf
    exact ⟨rfl, by show (0x8000000 + i * 4096) % 4096 = 0; omega⟩

/-- **C58** Witnesses: a process stops the kernel by asking for zero bytes, by giving an address that
is not aligned, and by mapping the same address twice. -/
theorem c58_map_syscall_panics :
    let env : Env := ⟨false, fun _ => false⟩
    let s0 : VSpace := ⟨[], PML4.empty⟩
    let call := fun s base size => mapMem env exAlloc (fun _ => false) s base size
    let next := fun lp bp => (exAlloc lp (bp + 1)).drop 1
    (call s0 0x400000 0).2 = .panic ∧ (call s0 0x400008 4096).2 = .panic ∧
      (call s0 0x401000 2097152).2 = .panic ∧
      (call s0 0x400000 4096).2 = .ok (0x8000000, 4096) ∧
      (mapMem env next (fun _ => false) (call s0 0x400000 4096).1 0x400000 4096).2 = .panic := by
  simp only [mapMem_eq]
  decide +kernel

/-- **C58** Witness: the address is not checked against the start of the kernel's addresses; a process
gets a page there, accessible from user mode. -/
theorem c58_map_syscall_kernel_address :
    let env : Env := ⟨false, fun _ => false⟩
    let r := mapMem env exAlloc (fun _ => false) ⟨[], PML4.empty⟩ (userTop + 0x5000) 4096
    r.2 = .ok (0x8000000, 4096) ∧ r.1.resolve (userTop + 0x5000) = .ok (0x8000000, MapAction.writable) ∧
      MapAction.writable.kernel = false := by
  simp only [mapMem_eq]
  decide +kernel

/-! ## Concrete cases -/

/-- Reachable states with something in them: a large page and a base page. -/
def exTwo : VSpace :=
  (mapFrame ⟨false, fun _ => false⟩ false
    (mapFrame ⟨false, fun _ => false⟩ false ⟨[], PML4.empty⟩ 0x400000 ⟨0x800000, 2097152, 0⟩
      MapAction.user).1 0x3ff000 ⟨0x7000, 4096, 0⟩ MapAction.writable).1

theorem exTwo_run : Run ⟨false, fun _ => false⟩ exTwo :=
  Run.map _ _ _ _ (Run.map _ _ _ _ (Run.new _ (fun x _ => rfl)) (Or.inr rfl) (by decide))
    (Or.inl rfl) (by decide)

example : exTwo.resolve 0x412345 = .ok (0x812345, MapAction.user) ∧
    exTwo.resolve 0x3ff010 = .ok (0x7010, MapAction.writable) ∧
    exTwo.resolve 0x600000 = .err .notMapped ∧
    (unmap exTwo 0x450000).2 = .ok ⟨0x400000, 0x800000, 2097152, MapAction.user⟩ ∧
    (adjust exTwo 0x3ff000 MapAction.user).2 = .ok (0x3ff000, 4096) ∧
    (mapFrame ⟨false, fun _ => false⟩ false exTwo 0x401000 ⟨0x9000, 4096, 0⟩ MapAction.user).2 =
      .err (.alreadyMapped 0x400000) := by
  decide +kernel

example := c28_map_succeeds ⟨false, fun _ => false⟩ rfl ⟨[], PML4.empty⟩ (Run.new _ (fun x _ => rfl))
  0x400000 ⟨0x800000, 2097152, 0⟩ MapAction.writable (Or.inr rfl) (by decide) rfl rfl
  (fun _ _ _ => rfl)

example := c29_unmap_exact ⟨false, fun _ => false⟩ rfl exTwo _ exTwo_run 0x450000 (by decide)
  ⟨0x400000, 0x800000, 2097152, MapAction.user⟩
  (Prod.ext rfl (by decide +kernel : (unmap exTwo 0x450000).2 = _))

example := c58_map_syscall_partial ⟨false, fun _ => false⟩ rfl exAlloc exAlloc_good (fun _ => false)
  ⟨[], PML4.empty⟩ (Run.new _ (fun x _ => rfl)) 0x400000 (2097152 + 5000) (by decide) (by decide)
  (by decide) (fun _ => rfl) (by decide) (fun _ _ _ => rfl)

end NRK.VSpace
