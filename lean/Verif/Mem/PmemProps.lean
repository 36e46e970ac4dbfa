import Verif.Mem.PmemModel
import Verif.Mem.BootProps

/-!
# C105: persistent memory the kernel manages can be used
-/

namespace NRK.Mem.Pmem

open NRK.Mem.Spec NRK.Mem.Pmem.Spec

theorem bind_ok {α β : Type} {o : Outcome α} {f : α → Outcome β} {b : β} (h : o.bind f = .ok b) :
    ∃ a, o = .ok a ∧ f a = .ok b := by
  cases o with
  | ok a => exact ⟨a, rfl, h⟩
  | err e => cases h
  | panic => cases h

theorem map_ok {α β : Type} {o : Outcome α} {f : α → β} {b : β} (h : o.map f = .ok b) :
    ∃ a, o = .ok a ∧ f a = b := by
  cases o with
  | ok a => exact ⟨a, rfl, by simpa [Outcome.map] using h⟩
  | err e => cases h
  | panic => cases h

/-- The persistent regions. -/
def Persistent (rs : List Region) : List Region := rs.filter (·.usable)

theorem pmemFrames_ok (rs : List Region) : ∀ {fs : List Frame}, pmemFrames rs = .ok fs →
    fs = (Persistent rs).map (fun r => ⟨r.start, r.pages * BASE, 0⟩) ∧ ∀ f ∈ fs, f.Ok := by
  induction rs with
  | nil =>
    intro fs h
    simp only [pmemFrames, Outcome.ok.injEq] at h
    subst h
    simp [Persistent]
  | cons r rs ih =>
    intro fs h
    unfold pmemFrames at h
    by_cases hu : r.usable = true
    · rw [if_pos hu] at h
      obtain ⟨f, h1, h2⟩ := bind_ok h
      obtain ⟨fs', h3, rfl⟩ := map_ok h2
      obtain ⟨i1, i2⟩ := ih h3
      unfold Frame.new at h1
      split at h1
      · rename_i hal
        cases h1
        refine ⟨by simp [Persistent, hu, i1], fun f hf => ?_⟩
        rcases List.mem_cons.1 hf with rfl | hf
        · exact hal
        · exact i2 f hf
      · cases h1
    · rw [if_neg hu] at h
      simpa [Persistent, hu] using ih h

theorem mapPmem_ok (rs : List Region) : ∀ {ms ms' : List Mapping}, mapPmem ms rs = .ok ms' →
    ∀ m, m ∈ ms' ↔ m ∈ ms ∨ ∃ r ∈ Persistent rs, r.start ≠ 0 ∧ ¬ ReachesApic r.block ∧
      (m = ⟨r.start, r.start, r.pages * BASE⟩ ∨ m = ⟨window r.start, r.start, r.pages * BASE⟩) := by
  induction rs with
  | nil =>
    intro ms ms' h m
    simp only [mapPmem, Outcome.ok.injEq] at h
    subst h
    simp [Persistent]
  | cons r rs ih =>
    intro ms ms' h m
    have hp : Persistent (r :: rs) = if r.usable then r :: Persistent rs else Persistent rs := by
      simp [Persistent, List.filter_cons]
    have skip : (r.usable = true → r.start = 0 ∨ ReachesApic r.block) → mapPmem ms rs = .ok ms' →
        (m ∈ ms' ↔ m ∈ ms ∨ ∃ r' ∈ Persistent (r :: rs), r'.start ≠ 0 ∧ ¬ ReachesApic r'.block ∧
          (m = ⟨r'.start, r'.start, r'.pages * BASE⟩ ∨ m = ⟨window r'.start, r'.start, r'.pages * BASE⟩)) := by
      intro hr hm
      rw [ih hm m, hp]
      by_cases hu : r.usable = true
      · rw [if_pos hu]
        constructor
        · rintro (h1 | ⟨r', h1, h2⟩)
          · exact Or.inl h1
          · exact Or.inr ⟨r', List.mem_cons_of_mem _ h1, h2⟩
        · rintro (h1 | ⟨r', h1, h2, h3, h4⟩)
          · exact Or.inl h1
          · rcases List.mem_cons.1 h1 with rfl | h1
            · rcases hr hu with h5 | h5
              · exact absurd h5 h2
              · exact absurd h5 h3
            · exact Or.inr ⟨r', h1, h2, h3, h4⟩
      · rw [if_neg hu]
    unfold mapPmem at h
    split at h
    · rename_i h0
      exact skip (fun _ => Or.inl h0) h
    · rename_i h0
      split at h
      · rename_i ha
        exact skip (fun _ => Or.inr ha) h
      · rename_i ha
        split at h
        · rename_i hu
          obtain ⟨m2, h1, h2⟩ := bind_ok h
          obtain ⟨m1, h3, h4⟩ := bind_ok h1
          by_cases hal : r.start % BASE = 0
          · simp only [mapOne, if_pos hal, Outcome.ok.injEq] at h3 h4
            subst h3
            subst h4
            · rw [ih h2 m, hp, if_pos hu]
              have hna : ¬ ReachesApic r.block := ha
              simp only [List.mem_cons, KERNEL_BASE, Nat.zero_add]
              constructor
              · rintro ((h5 | h5 | h5) | ⟨r', h5, h6⟩)
                · exact Or.inr ⟨r, Or.inl rfl, h0, hna, Or.inr h5⟩
                · exact Or.inr ⟨r, Or.inl rfl, h0, hna, Or.inl h5⟩
                · exact Or.inl h5
                · exact Or.inr ⟨r', Or.inr h5, h6⟩
              · rintro (h5 | ⟨r', rfl | h5, h6, h7, h8⟩)
                · exact Or.inl (Or.inr (Or.inr h5))
                · exact Or.inl (h8.elim (fun e => Or.inr (Or.inl e)) Or.inl)
                · exact Or.inr ⟨r', h5, h6, h7, h8⟩
          · simp [mapOne, if_neg hal] at h3
        · rename_i hu
          exact skip (fun h => absurd h hu) h

/-- A sorting function: the same frames, ordered by node. -/
def Sorts (sort : List Frame → List Frame) : Prop :=
  ∀ l, (sort l).Perm l ∧ (sort l).Pairwise (fun a b => a.aff ≤ b.aff)

theorem frames_blocks (rs : List Region) :
    ((Persistent rs).map (fun r => (⟨r.start, r.pages * BASE, 0⟩ : Frame))).map Frame.block =
      (Persistent rs).map Region.block := by
  rw [List.map_map]
  rfl

theorem initPmem_frames {sort : List Frame → List Frame} (hs : Sorts sort) {ns : List NumaRange} {rs : List Region}
    {ms : List Mapping} {gs : List Frame} (hr : AllDisjoint ((Persistent rs).map Region.block))
    (hns : ns.Pairwise (fun a b => ∀ x, ¬ (a.Has x ∧ b.Has x))) (e : initPmem sort ns rs = .ok (ms, gs)) :
    mapPmem [] rs = .ok ms ∧ AllDisjoint (gs.map Frame.block) ∧
    (∀ g ∈ gs, g.Ok ∧ (∃ r ∈ Persistent rs, Inside g.block r.block) ∧
      (if ns = [] then g.aff = 0 else ∃ n ∈ ns, n.node = g.aff ∧ ∀ a, g.block.Has a → n.Has a)) ∧
    gs.Pairwise (fun a b => a.aff ≤ b.aff) ∧
    (gs.map (·.size)).sum = ((Persistent rs).map (fun r => r.pages * BASE)).sum ∧
    (ns = [] → ∀ r ∈ Persistent rs, ∃ g ∈ gs, g.block = r.block) := by
  unfold initPmem at e
  obtain ⟨ms', h1, e⟩ := bind_ok e
  obtain ⟨fs, h2, e⟩ := bind_ok e
  obtain ⟨as, h3, e⟩ := map_ok e
  simp only [Prod.mk.injEq] at e
  obtain ⟨rfl, rfl⟩ := e
  obtain ⟨hf, hok⟩ := pmemFrames_ok rs h2
  obtain ⟨hperm, hsort⟩ := hs as
  have hfd : AllDisjoint (fs.map Frame.block) := by rw [hf, frames_blocks]; exact hr
  have hfr : ∀ f ∈ fs, ∃ r ∈ Persistent rs, f.block = r.block ∧ f.aff = 0 := by
    intro f hm
    rw [hf, List.mem_map] at hm
    obtain ⟨r, hr, rfl⟩ := hm
    exact ⟨r, hr, rfl, rfl⟩
  have hsum : (as.map (·.size)).sum = (fs.map (·.size)).sum := by
    unfold identifyNuma at h3
    simp only at h3
    split at h3
    · split at h3
      · rename_i hq
        cases h3
        exact hq
      · cases h3
    · rename_i hne
      exact absurd h3 (hne as)
  have hann : AllDisjoint (as.map Frame.block) ∧ (∀ x ∈ as, x.Ok ∧ (∃ f ∈ fs, Inside x.block f.block) ∧
      (if ns = [] then x.aff = 0 else ∃ n ∈ ns, n.node = x.aff ∧ ∀ a, x.block.Has a → n.Has a)) ∧
      (ns = [] → as = fs) := by
    unfold identifyNuma at h3
    simp only at h3
    by_cases hz : ns = []
    · simp only [if_pos hz] at h3 ⊢
      simp only [if_true] at h3
      cases h3
      refine ⟨hfd, fun x hx => ⟨hok x hx, ⟨x, hx, fun _ h => h⟩, ?_⟩, fun _ => rfl⟩
      obtain ⟨_, _, _, h⟩ := hfr x hx
      exact h
    · simp only [if_neg hz] at h3 ⊢
      split at h3
      · rename_i gs' hgs'
        split at h3
        · cases h3
          obtain ⟨a1, a2, _⟩ := annotateAll_spec ns hns fs as hfd hgs'
          exact ⟨a1, a2, fun h => absurd h hz⟩
        · cases h3
      · rename_i hne
        exact absurd h3 (hne as)
  refine ⟨h1, allDisjoint_perm hann.1 (hperm.symm.map _), ?_, hsort, ?_, ?_⟩
  · intro g hg
    obtain ⟨a1, ⟨f, a2, a3⟩, a4⟩ := hann.2.1 g (hperm.mem_iff.1 hg)
    obtain ⟨r, b1, b2, _⟩ := hfr f a2
    exact ⟨a1, ⟨r, b1, b2 ▸ a3⟩, a4⟩
  · rw [(hperm.map (·.size)).sum_nat, hsum, hf, List.map_map]
    rfl
  · intro hz r hr
    refine ⟨⟨r.start, r.pages * BASE, 0⟩, hperm.mem_iff.2 ?_, rfl⟩
    rw [hann.2.2 hz, hf]
    exact List.mem_map_of_mem hr

/-- **C105.**  If persistent regions do not overlap, neither do the ranges of NUMA nodes, and no persistent region starts
at 0 or reaches the interrupt controller's page, then after setting up persistent memory: what the memory manager holds
is pairwise disjoint and inside persistent regions; what it has for node `i` is inside a range of node `i` (everything
is node 0 without NUMA information); and every byte of it can be reached, at its own address and in the kernel's
window.  Missing: those regions (`c105_not_mapped`). -/
theorem c105_managed_partial (debug : Bool) {sort : List Frame → List Frame} (hs : Sorts sort) {ns : List NumaRange}
    {rs : List Region} {ms : List Mapping} {g : GlobalMem} (hr : AllDisjoint ((Persistent rs).map Region.block))
    (hns : ns.Pairwise (fun a b => ∀ x, ¬ (a.Has x ∧ b.Has x)))
    (hz : ∀ r ∈ Persistent rs, r.start ≠ 0 ∧ ¬ ReachesApic r.block)
    (e : bootPmem debug sort ns rs = .ok (ms, some g)) :
    AllDisjoint ((g.emem.map MCache.held).flatten ++ g.nodePages.map Frame.block ++
      (g.caches.map MCache.held).flatten) ∧
    (∀ i x, (∃ c, (g.emem[i]? = some c ∨ g.caches[i]? = some c) ∧ x ∈ c.held) ∨
        (∃ p, g.nodePages[i]? = some p ∧ x = p.block) →
      (∃ r ∈ Persistent rs, Inside x r.block) ∧
      (if ns = [] then i = 0 else ∃ n ∈ ns, n.node = i ∧ ∀ a, x.Has a → n.Has a) ∧
      ∀ a, x.Has a → Maps ms a a ∧ Maps ms (window a) a) := by
  unfold bootPmem at e
  obtain ⟨⟨ms', gs⟩, h1, e⟩ := bind_ok e
  simp only at e
  split at e
  · obtain ⟨g', h2, e⟩ := map_ok e
    simp only [Prod.mk.injEq, Option.some.injEq] at e
    obtain ⟨rfl, rfl⟩ := e
    obtain ⟨k1, k2, k3, _, _, _⟩ := initPmem_frames hs hr hns h1
    obtain ⟨g1, g2, g3, _⟩ := c57_global_memory debug gs (fun f hf => (k3 f hf).1) k2 g' h2
    refine ⟨g1, fun i x hx => ?_⟩
    have hf : ∃ f ∈ gs, f.aff = i ∧ Inside x f.block := by
      rcases hx with ⟨c, hc, hxc⟩ | ⟨p, hp, rfl⟩
      · exact (g2 i c hc).2.2 x hxc
      · exact (g3 i p hp).2.2.2
    obtain ⟨f, hf, hfa, hfi⟩ := hf
    obtain ⟨_, ⟨r, hrm, hri⟩, hn⟩ := k3 f hf
    refine ⟨⟨r, hrm, fun a ha => hri a (hfi a ha)⟩, ?_, fun a ha => ?_⟩
    · split
      · rename_i hq
        rw [if_pos hq] at hn
        omega
      · rename_i hq
        rw [if_neg hq] at hn
        obtain ⟨n, hn1, hn2, hn3⟩ := hn
        exact ⟨n, hn1, by omega, fun a ha => hn3 a (hfi a ha)⟩
    · obtain ⟨b1, b2⟩ := hri a (hfi a ha)
      obtain ⟨z1, z2⟩ := hz r hrm
      simp only [Region.block] at b1 b2
      refine ⟨⟨⟨r.start, r.start, r.pages * BASE⟩, (mapPmem_ok rs k1 _).2 (Or.inr ⟨r, hrm, z1, z2, Or.inl rfl⟩), b1, b2, ?_⟩,
        ⟨⟨window r.start, r.start, r.pages * BASE⟩, (mapPmem_ok rs k1 _).2 (Or.inr ⟨r, hrm, z1, z2, Or.inr rfl⟩), ?_, ?_, ?_⟩⟩
      · simp only; omega
      · simp only [window]; omega
      · simp only [window]; omega
      · simp only [window]; omega
  · simp at e

/-- **C105, no more than persistent memory.**  Whatever the setup maps is persistent memory, at its own address or in
the kernel's window. -/
theorem c105_only {sort : List Frame → List Frame} {ns : List NumaRange} {rs : List Region} {ms : List Mapping}
    {gs : List Frame} (e : initPmem sort ns rs = .ok (ms, gs)) (v p : Nat) (h : Maps ms v p) :
    (∃ r ∈ Persistent rs, r.block.Has p) ∧ (v = p ∨ v = window p) := by
  unfold initPmem at e
  obtain ⟨ms', h1, e⟩ := bind_ok e
  obtain ⟨fs, h2, e⟩ := bind_ok e
  obtain ⟨as, h3, e⟩ := map_ok e
  simp only [Prod.mk.injEq] at e
  obtain ⟨rfl, rfl⟩ := e
  obtain ⟨m, hm, b1, b2, b3⟩ := h
  rcases (mapPmem_ok rs h1 m).1 hm with h | ⟨r, hr, _, _, rfl | rfl⟩
  · exact absurd h (by simp)
  · simp only at b1 b2 b3
    refine ⟨⟨r, hr, ?_⟩, Or.inl (by omega)⟩
    simp only [Block.Has, Region.block]
    omega
  · simp only [window] at b1 b2 b3
    refine ⟨⟨r, hr, ?_⟩, Or.inr ?_⟩
    · simp only [Block.Has, Region.block]
      omega
    · simp only [window]
      omega

/-- **C105, all of it.**  No byte gets lost: the frames have the size of the persistent regions together, ordered by
node, as the memory manager wants them. -/
theorem c105_all {sort : List Frame → List Frame} (hs : Sorts sort) {ns : List NumaRange} {rs : List Region}
    {ms : List Mapping} {gs : List Frame} (hr : AllDisjoint ((Persistent rs).map Region.block))
    (hns : ns.Pairwise (fun a b => ∀ x, ¬ (a.Has x ∧ b.Has x))) (e : initPmem sort ns rs = .ok (ms, gs)) :
    (gs.map (·.size)).sum = ((Persistent rs).map (fun r => r.pages * BASE)).sum ∧
    gs.Pairwise (fun a b => a.aff ≤ b.aff) :=
  ⟨(initPmem_frames hs hr hns e).2.2.2.2.1, (initPmem_frames hs hr hns e).2.2.2.1⟩

/-- **C105, every byte.**  Every byte of a persistent region that does not start at 0 is in a frame: of the node whose
range it is in, or of node 0 if there is no NUMA information. -/
theorem c105_bytes {sort : List Frame → List Frame} (hs : Sorts sort) {ns : List NumaRange} {rs : List Region}
    {ms : List Mapping} {gs : List Frame} (hr : AllDisjoint ((Persistent rs).map Region.block))
    (hns : ns.Pairwise (fun a b => ∀ x, ¬ (a.Has x ∧ b.Has x))) (e : initPmem sort ns rs = .ok (ms, gs))
    {r : Region} (hm : r ∈ Persistent rs) (h0 : r.start ≠ 0) {a : Nat} (ha : r.block.Has a) :
    (ns = [] → ∃ g ∈ gs, g.aff = 0 ∧ g.block.Has a) ∧
    ∀ n ∈ ns, n.Has a → ∃ g ∈ gs, g.aff = n.node ∧ g.block.Has a := by
  refine ⟨fun hz => ?_, fun n hn hna => ?_⟩
  · obtain ⟨_, _, k3, _, _, k6⟩ := initPmem_frames hs hr hns e
    obtain ⟨g, hg, hb⟩ := k6 hz r hm
    have := (k3 g hg).2.2
    rw [if_pos hz] at this
    exact ⟨g, hg, this, hb ▸ ha⟩
  · unfold initPmem at e
    obtain ⟨ms', h1, e⟩ := bind_ok e
    obtain ⟨fs, h2, e⟩ := bind_ok e
    obtain ⟨as, h3, e⟩ := map_ok e
    simp only [Prod.mk.injEq] at e
    obtain ⟨rfl, rfl⟩ := e
    obtain ⟨hf, _⟩ := pmemFrames_ok rs h2
    have hfd : AllDisjoint (fs.map Frame.block) := by rw [hf, frames_blocks]; exact hr
    have hz : ns ≠ [] := by rintro rfl; simp at hn
    unfold identifyNuma at h3
    simp only [if_neg hz] at h3
    split at h3
    · split at h3
      · cases h3
        obtain ⟨_, _, a3⟩ := annotateAll_spec ns hns fs as hfd (by assumption)
        have hfm : (⟨r.start, r.pages * BASE, 0⟩ : Frame) ∈ fs := by rw [hf]; exact List.mem_map_of_mem hm
        obtain ⟨g, hg, hga, hgb⟩ := a3 _ hfm (Nat.pos_of_ne_zero h0) n hn a ha hna
        exact ⟨g, (hs as).1.mem_iff.2 hg, hga, hgb⟩
      · cases h3
    · rename_i hne
      exact absurd h3 (hne as)

theorem le_sum_of_mem {n : Nat} {l : List Nat} (h : n ∈ l) : n ≤ l.sum := by
  induction l with
  | nil => simp at h
  | cons m l ih =>
    rw [List.sum_cons]
    rcases List.mem_cons.1 h with rfl | h
    · omega
    · have := ih h
      omega

/-- **C105, the manager is there.**  A machine with a persistent region that is not empty gets a memory manager for
persistent memory, if the setup succeeds. -/
theorem c105_some (debug : Bool) {sort : List Frame → List Frame} (hs : Sorts sort) {ns : List NumaRange}
    {rs : List Region} {ms : List Mapping} {m : Option GlobalMem} (hr : AllDisjoint ((Persistent rs).map Region.block))
    (hns : ns.Pairwise (fun a b => ∀ x, ¬ (a.Has x ∧ b.Has x))) {r : Region} (hm : r ∈ Persistent rs)
    (hp : 0 < r.pages) (e : bootPmem debug sort ns rs = .ok (ms, m)) : ∃ g, m = some g := by
  unfold bootPmem at e
  obtain ⟨⟨ms', gs⟩, h1, e⟩ := bind_ok e
  have hsum := (c105_all hs hr hns h1).1
  have hle : r.pages * BASE ≤ ((Persistent rs).map (fun r => r.pages * BASE)).sum :=
    le_sum_of_mem (List.mem_map_of_mem (f := fun r : Region => r.pages * BASE) hm)
  have hb : 0 < BASE := by rw [BASE_eq]; decide
  have hpos := Nat.mul_pos hp hb
  have hl : gs.length > 0 := by
    cases gs with
    | nil => simp only [List.map_nil, List.sum_nil] at hsum; omega
    | cons g gs => simp
  simp only [if_pos hl] at e
  obtain ⟨g, _, e⟩ := map_ok e
  simp only [Prod.mk.injEq] at e
  exact ⟨g, e.2.symm⟩

/-- **C105, negation.**  On a machine without NUMA information, every persistent region that starts at 0, that
reaches the interrupt controller's page or ends just before it, is given to the memory manager, but no byte of it is mapped. -/
theorem c105_not_mapped {sort : List Frame → List Frame} (hs : Sorts sort) {rs : List Region} {ms : List Mapping}
    {gs : List Frame} (hr : AllDisjoint ((Persistent rs).map Region.block)) {r : Region} (hm : r ∈ Persistent rs)
    (ha : r.start = 0 ∨ ReachesApic r.block) (e : initPmem sort [] rs = .ok (ms, gs)) :
    (∃ g ∈ gs, g.block = r.block) ∧ ∀ a, r.block.Has a → ∀ v, ¬ Maps ms v a := by
  obtain ⟨k1, _, _, _, _, k6⟩ := initPmem_frames hs hr List.Pairwise.nil e
  refine ⟨k6 rfl r hm, ?_⟩
  rintro a hra v ⟨m, h1, b1, b2, b3⟩
  rcases (mapPmem_ok rs k1 m).1 h1 with h | ⟨r', hr', hn0, hna, hm'⟩
  · exact absurd h (by simp)
  · have hin : r'.block.Has a := by
      rcases hm' with rfl | rfl
      · simp only [Block.Has, Region.block] at *
        omega
      · simp only [Block.Has, Region.block, window] at *
        omega
    have hne : r.block ≠ r'.block := by
      intro h
      rcases ha with ha | ha
      · have : r.start = r'.start := congrArg Block.start h
        omega
      · exact hna (h ▸ ha)
    exact pairwise_mem (fun _ _ h => Disjoint.symm h) hr (List.mem_map_of_mem hm) (List.mem_map_of_mem hr') hne a
      ⟨hra, hin⟩

/-- **C105, no persistent memory.**  Without persistent regions nothing is mapped and the manager is empty. -/
theorem c105_none (debug : Bool) {sort : List Frame → List Frame} (hs : Sorts sort) (ns : List NumaRange)
    {rs : List Region} (h : ∀ r ∈ rs, r.usable = false) : bootPmem debug sort ns rs = .ok ([], none) := by
  have h1 : ∀ (rs : List Region) (ms : List Mapping), (∀ r ∈ rs, r.usable = false) → mapPmem ms rs = .ok ms := by
    intro rs
    induction rs with
    | nil => intro ms _; rfl
    | cons r rs ih =>
      intro ms h
      have hu := h r (List.mem_cons_self ..)
      have := ih ms (fun r hr => h r (List.mem_cons_of_mem _ hr))
      simp [mapPmem, hu, this]
  have h2 : ∀ rs : List Region, (∀ r ∈ rs, r.usable = false) → pmemFrames rs = .ok [] := by
    intro rs
    induction rs with
    | nil => intro _; rfl
    | cons r rs ih =>
      intro h
      have hu := h r (List.mem_cons_self ..)
      have := ih (fun r hr => h r (List.mem_cons_of_mem _ hr))
      simp [pmemFrames, hu, this]
  have h3 : identifyNuma ns [] = .ok [] := by
    unfold identifyNuma annotateAll
    simp
  have h4 : sort [] = [] := List.Perm.eq_nil (hs []).1
  simp [bootPmem, initPmem, h1 rs [] h, h2 rs h, h3, h4, Outcome.bind, Outcome.map]

end NRK.Mem.Pmem
