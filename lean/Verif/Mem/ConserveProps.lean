import Verif.Mem.McacheProps

/-!
# C21: page caches conserve memory
-/

namespace NRK.Mem

open Spec

theorem new_base {a n : Nat} (h : a % BASE = 0) : Frame.new a BASE n = .ok ⟨a, BASE, n⟩ := by
  have h2 : BASE % BASE = 0 := Nat.mod_self _
  simp [Frame.new, h, h2]

theorem new_large {a n : Nat} (h : a % LARGE = 0) : Frame.new a LARGE n = .ok ⟨a, LARGE, n⟩ := by
  have h1 : a % BASE = 0 := large_aligned h
  have h2 : LARGE % BASE = 0 := LARGE_mod
  simp [Frame.new, h1, h2]

theorem held_cons_base (c : MCache) (a : Nat) (as : List Nat) (h : c.bp = a :: as) :
    c.held.Perm ((⟨a, BASE⟩ : Block) :: MCache.held { c with bp := as }) := by
  unfold MCache.held; rw [h]; exact List.Perm.refl _

theorem held_cons_large (c : MCache) (a : Nat) (as : List Nat) (h : c.lp = a :: as) :
    c.held.Perm ((⟨a, LARGE⟩ : Block) :: MCache.held { c with lp := as }) := by
  unfold MCache.held; rw [h]; exact List.perm_middle

theorem filterMap_slots (g : Nat → Frame) (l : List Nat) (k : Nat) :
    (l.map (fun a => some (g a)) ++ List.replicate k none).filterMap id = l.map g := by
  rw [List.filterMap_append]
  have h1 : (List.replicate k (none : Option Frame)).filterMap id = [] := by
    induction k with
    | zero => rfl
    | succ k ih => simp [List.replicate_succ]
  rw [h1, List.append_nil]
  induction l with
  | nil => rfl
  | cons a l ih => simp

theorem perm_take_drop {α : Type} (l : List α) (n : Nat) : (l.drop n ++ l.take n).Perm l := by
  refine List.perm_append_comm.trans ?_
  rw [List.take_append_drop]

/-- What one operation does to the memory. -/
theorem exec_conserves (rack : Bool) (c : MCache) (hc : c.Wf) (op : CacheOp)
    (hp : (c.exec rack op).1 ≠ .panic) :
    ((c.exec rack op).2.2.2.held ++
        ((c.exec rack op).2.1 ++ (c.exec rack op).2.2.1).map Frame.block).Perm
      (c.held ++ op.gives.map Frame.block) ∧
    (c.exec rack op).2.2.2.Wf ∧
    (c.exec rack op).2.2.2.node = c.node ∧
    (∀ f ∈ (c.exec rack op).2.1, f.aff = c.node ∧ f.block ∈ c.held ∧
      ((f.size = BASE ∧ f.base % BASE = 0) ∨ (f.size = LARGE ∧ f.base % LARGE = 0))) ∧
    (∀ f ∈ (c.exec rack op).2.2.1, f ∈ op.gives) := by
  cases op with
  | allocBase =>
    cases hb : c.bp with
    | nil =>
      have e : c.exec rack .allocBase = (.err .cacheExhausted, [], [], c) := by
        simp [MCache.exec, MCache.allocBase, hb]
      rw [e]
      exact ⟨by simp [CacheOp.gives], hc, rfl, by simp, by simp⟩
    | cons a as =>
      have ha : a % BASE = 0 := hc.alB a (by simp [hb])
      have e : c.exec rack .allocBase = (.ok (), [⟨a, BASE, c.node⟩], [], { c with bp := as }) := by
        simp [MCache.exec, MCache.allocBase, hb, new_base ha]
      rw [e]
      refine ⟨?_, ⟨?_, hc.capL, ?_, hc.alL⟩, rfl, ?_, by simp⟩
      · simp only [CacheOp.gives, List.map_nil, List.append_nil, List.map_cons, Frame.block]
        exact List.perm_append_comm.trans (held_cons_base c a as hb).symm
      · have := hc.capB; rw [hb] at this; simp at this; simp only; omega
      · intro x hx; exact hc.alB x (by rw [hb]; exact List.mem_cons_of_mem _ hx)
      · intro f hf
        rw [List.mem_singleton] at hf
        subst hf
        exact ⟨rfl, by simp [MCache.held, hb, Frame.block], .inl ⟨rfl, ha⟩⟩
  | allocLarge =>
    cases hb : c.lp with
    | nil =>
      have e : c.exec rack .allocLarge = (.err .cacheExhausted, [], [], c) := by
        simp [MCache.exec, MCache.allocLarge, hb]
      rw [e]
      exact ⟨by simp [CacheOp.gives], hc, rfl, by simp, by simp⟩
    | cons a as =>
      have ha : a % LARGE = 0 := hc.alL a (by simp [hb])
      have e : c.exec rack .allocLarge = (.ok (), [⟨a, LARGE, c.node⟩], [], { c with lp := as }) := by
        simp [MCache.exec, MCache.allocLarge, hb, new_large ha]
      rw [e]
      refine ⟨?_, ⟨hc.capB, ?_, hc.alB, ?_⟩, rfl, ?_, by simp⟩
      · simp only [CacheOp.gives, List.map_nil, List.append_nil, List.map_cons, Frame.block]
        exact List.perm_append_comm.trans (held_cons_large c a as hb).symm
      · have := hc.capL; rw [hb] at this; simp at this; simp only; omega
      · intro x hx; exact hc.alL x (by rw [hb]; exact List.mem_cons_of_mem _ hx)
      · intro f hf
        rw [List.mem_singleton] at hf
        subst hf
        exact ⟨rfl, by simp [MCache.held, hb, Frame.block], .inr ⟨rfl, ha⟩⟩
  | releaseBase f =>
    by_cases hk : f.size = BASE ∧ f.base % BASE = 0 ∧ f.aff = c.node
    · by_cases h : c.bp.length < c.capB
      · have e : c.exec rack (.releaseBase f) = (.ok (), [], [], { c with bp := f.base :: c.bp }) := by
          simp [MCache.exec, MCache.releaseBase, hk, MCache.pushBase, h]
        rw [e]
        refine ⟨?_, ⟨?_, hc.capL, ?_, hc.alL⟩, rfl, by simp, by simp⟩
        · have hbk : f.block = ⟨f.base, BASE⟩ := by unfold Frame.block; rw [hk.1]
          simp only [CacheOp.gives, List.map_nil, List.append_nil, List.map_cons, hbk]
          refine (held_cons_base { c with bp := f.base :: c.bp } f.base c.bp rfl).trans ?_
          exact (List.perm_append_comm (l₁ := [_])).trans (List.Perm.refl _)
        · simp only [List.length_cons]; omega
        · intro x hx
          rw [List.mem_cons] at hx
          rcases hx with rfl | hx
          · exact hk.2.1
          · exact hc.alB x hx
      · have e : c.exec rack (.releaseBase f) = (.err .cacheFull, [], [f], c) := by
          simp [MCache.exec, MCache.releaseBase, hk, MCache.pushBase, h]
        rw [e]
        exact ⟨by simp [CacheOp.gives], hc, rfl, by simp, by simp [CacheOp.gives]⟩
    · exfalso
      apply hp
      simp [MCache.exec, MCache.releaseBase, hk]
  | releaseLarge f =>
    by_cases hk : f.size = LARGE ∧ f.base % LARGE = 0 ∧ f.aff = c.node
    · by_cases h : c.lp.length < c.capL
      · have e : c.exec rack (.releaseLarge f) = (.ok (), [], [], { c with lp := f.base :: c.lp }) := by
          simp [MCache.exec, MCache.releaseLarge, hk, MCache.pushLarge, h]
        rw [e]
        refine ⟨?_, ⟨hc.capB, ?_, hc.alB, ?_⟩, rfl, by simp, by simp⟩
        · have hbk : f.block = ⟨f.base, LARGE⟩ := by unfold Frame.block; rw [hk.1]
          simp only [CacheOp.gives, List.map_nil, List.append_nil, List.map_cons, hbk]
          refine (held_cons_large { c with lp := f.base :: c.lp } f.base c.lp rfl).trans ?_
          exact (List.perm_append_comm (l₁ := [_])).trans (List.Perm.refl _)
        · simp only [List.length_cons]; omega
        · intro x hx
          rw [List.mem_cons] at hx
          rcases hx with rfl | hx
          · exact hk.2.1
          · exact hc.alL x hx
      · have e : c.exec rack (.releaseLarge f) = (.err .cacheFull, [], [f], c) := by
          simp [MCache.exec, MCache.releaseLarge, hk, MCache.pushLarge, h]
        rw [e]
        exact ⟨by simp [CacheOp.gives], hc, rfl, by simp, by simp [CacheOp.gives]⟩
    · exfalso
      apply hp
      simp [MCache.exec, MCache.releaseLarge, hk]
  | growBase fs =>
    have hp' : (c.growBase rack fs).1 ≠ .panic := hp
    obtain ⟨acc, h1, h2, h3, h4, h5⟩ := growBase_spec rack fs c hc hp'
    have e : c.exec rack (.growBase fs) = ((c.growBase rack fs).1, [],
        if (c.growBase rack fs).1 = .ok () then [] else fs.drop c.spareBase, (c.growBase rack fs).2) := rfl
    rw [e]
    have hacc : acc.map (fun f => (⟨f.base, BASE⟩ : Block)) = acc.map Frame.block :=
      List.map_congr_left (fun f hf => (h2 f hf).symm)
    have hheld : (c.growBase rack fs).2.held = acc.map Frame.block ++ c.held := by
      rw [h1]
      simp only [MCache.held, List.map_append, List.map_map, ← hacc, List.append_assoc]
      rfl
    refine ⟨?_, h3, by rw [h1], by simp, ?_⟩
    · simp only [CacheOp.gives, List.nil_append]
      rw [hheld]
      split
      · rename_i q
        simp only [List.map_nil, List.append_nil]
        exact List.perm_append_comm.trans (List.Perm.append_left _ ((h4 q).map _))
      · rename_i q
        refine (List.Perm.append_right _ List.perm_append_comm).trans ?_
        rw [List.append_assoc, ← List.map_append]
        apply List.Perm.append_left
        apply List.Perm.map
        refine (List.Perm.append_right _ (h5 q).2).trans ?_
        rw [List.take_append_drop]
    · intro f hf
      simp only at hf
      split at hf
      · simp at hf
      · exact List.mem_of_mem_drop hf
  | growLarge fs =>
    have hp' : (c.growLarge fs).1 ≠ .panic := hp
    obtain ⟨acc, h1, h2, h3, h4, h5⟩ := growLarge_spec fs c hc hp'
    have e : c.exec rack (.growLarge fs) = ((c.growLarge fs).1, [],
        if (c.growLarge fs).1 = .ok () then [] else fs.drop c.spareLarge, (c.growLarge fs).2) := rfl
    rw [e]
    have hacc : acc.map (fun f => (⟨f.base, LARGE⟩ : Block)) = acc.map Frame.block :=
      List.map_congr_left (fun f hf => (h2 f hf).symm)
    have hheld : (c.growLarge fs).2.held.Perm (c.held ++ acc.map Frame.block) := by
      rw [h1]
      simp only [MCache.held, List.map_append, List.map_map, ← hacc, List.append_assoc]
      exact List.Perm.append_left _ List.perm_append_comm
    refine ⟨?_, h3, by rw [h1], by simp, ?_⟩
    · simp only [CacheOp.gives, List.nil_append]
      refine (List.Perm.append_right _ hheld).trans ?_
      split
      · rename_i q
        simp only [List.map_nil, List.append_nil]
        exact List.Perm.append_left _ ((h4 q).map _)
      · rename_i q
        rw [List.append_assoc, ← List.map_append]
        apply List.Perm.append_left
        apply List.Perm.map
        refine (List.Perm.append_right _ (h5 q).2).trans ?_
        rw [List.take_append_drop]
    · intro f hf
      simp only at hf
      split at hf
      · simp at hf
      · exact List.mem_of_mem_drop hf
  | reapBase n =>
    have e : c.exec rack (.reapBase n) = (.ok (), (c.bp.take n).map (fun a => ⟨a, BASE, c.node⟩), [],
        { c with bp := c.bp.drop n }) := by
      simp only [MCache.exec, reapBase_spec]
      rw [filterMap_slots (fun a => ⟨a, BASE, c.node⟩)]
    rw [e]
    refine ⟨?_, ⟨?_, hc.capL, ?_, hc.alL⟩, rfl, ?_, by simp⟩
    · simp only [CacheOp.gives, List.map_nil, List.append_nil, List.map_map, MCache.held]
      refine List.perm_append_comm.trans ?_
      rw [← List.append_assoc]
      apply List.Perm.append_right
      have : List.map (Frame.block ∘ fun a => (⟨a, BASE, c.node⟩ : Frame)) (List.take n c.bp) =
          List.map (fun a => (⟨a, BASE⟩ : Block)) (List.take n c.bp) := rfl
      rw [this, ← List.map_append, List.take_append_drop]
    · have := hc.capB; simp only [List.length_drop]; omega
    · intro x hx; exact hc.alB x (List.mem_of_mem_drop hx)
    · intro f hf
      rw [List.mem_map] at hf
      obtain ⟨a, ha, rfl⟩ := hf
      have ha := List.mem_of_mem_take ha
      exact ⟨rfl, by simp [MCache.held, Frame.block, ha], .inl ⟨rfl, hc.alB a ha⟩⟩
  | reapLarge n =>
    have e : c.exec rack (.reapLarge n) = (.ok (), (c.lp.take n).map (fun a => ⟨a, LARGE, c.node⟩), [],
        { c with lp := c.lp.drop n }) := by
      simp only [MCache.exec, reapLarge_spec]
      rw [filterMap_slots (fun a => ⟨a, LARGE, c.node⟩)]
    rw [e]
    refine ⟨?_, ⟨hc.capB, ?_, hc.alB, ?_⟩, rfl, ?_, by simp⟩
    · simp only [CacheOp.gives, List.map_nil, List.append_nil, List.map_map, MCache.held]
      rw [List.append_assoc]
      apply List.Perm.append_left
      have : List.map (Frame.block ∘ fun a => (⟨a, LARGE, c.node⟩ : Frame)) (List.take n c.lp) =
          List.map (fun a => (⟨a, LARGE⟩ : Block)) (List.take n c.lp) := rfl
      rw [this, ← List.map_append]
      exact (perm_take_drop _ _).map _
    · have := hc.capL; simp only [List.length_drop]; omega
    · intro x hx; exact hc.alL x (List.mem_of_mem_drop hx)
    · intro f hf
      rw [List.mem_map] at hf
      obtain ⟨a, ha, rfl⟩ := hf
      have ha := List.mem_of_mem_take ha
      exact ⟨rfl, by simp [MCache.held, Frame.block, ha], .inr ⟨rfl, hc.alL a ha⟩⟩

/-- **C21** Along every history of a cache: the blocks in the cache together with the blocks outside
are, as a multiset, always those of the beginning.  Nothing is invented, lost or duplicated. -/
theorem c21_conservation (rack : Bool) (c0 c : MCache) (out0 out : List Frame) (h0 : c0.Wf)
    (hr : CacheRun rack c0 out0 c out) :
    (c.held ++ out.map Frame.block).Perm (c0.held ++ out0.map Frame.block) ∧ c.Wf ∧
      c.node = c0.node := by
  induction hr with
  | start => exact ⟨List.Perm.refl _, h0, rfl⟩
  | @step c out op rest _ hperm hp ih =>
    obtain ⟨i1, i2, i3⟩ := ih
    obtain ⟨e1, e2, e3, _, _⟩ := exec_conserves rack c i2 op hp
    refine ⟨?_, e2, e3.trans i3⟩
    refine List.Perm.trans ?_ i1
    rw [← List.append_assoc, List.map_append, ← List.append_assoc]
    refine (List.Perm.append_right _ e1).trans ?_
    rw [List.append_assoc, ← List.map_append]
    exact List.Perm.append_left _ (hperm.symm.map _)

/-- **C21** So if at the beginning no two blocks overlap, then at no time do two blocks, in the
cache or handed out, overlap: a page is never handed out twice without having been given back in
between, and never overlaps a page that is still cached. -/
theorem c21_never_twice (rack : Bool) (c0 c : MCache) (out0 out : List Frame) (h0 : c0.Wf)
    (hd : AllDisjoint (c0.held ++ out0.map Frame.block)) (hr : CacheRun rack c0 out0 c out) :
    AllDisjoint (c.held ++ out.map Frame.block) :=
  allDisjoint_perm hd (c21_conservation rack c0 c out0 out h0 hr).1.symm

/-- **C21** What is handed out at any time was in the cache, carries the affinity of the cache and
is a whole, aligned base or large page. -/
theorem c21_hands_out (rack : Bool) (c0 c : MCache) (out0 out : List Frame) (h0 : c0.Wf)
    (hr : CacheRun rack c0 out0 c out) (op : CacheOp) (hp : (c.exec rack op).1 ≠ .panic)
    (f : Frame) (hf : f ∈ (c.exec rack op).2.1) :
    f.aff = c0.node ∧ f.block ∈ c.held ∧
      ((f.size = BASE ∧ f.base % BASE = 0) ∨ (f.size = LARGE ∧ f.base % LARGE = 0)) := by
  obtain ⟨_, h2, h3⟩ := c21_conservation rack c0 c out0 out h0 hr
  have := (exec_conserves rack c h2 op hp).2.2.2.1 f hf
  rw [h3] at this
  exact this

/-- **C21** Allocation succeeds exactly when the cache has a page of that size, and otherwise
reports the exhausted cache and changes nothing; it never crashes. -/
theorem c21_alloc_exact (c : MCache) (hc : c.Wf) :
    (c.bp ≠ [] → ∃ f c', c.allocBase = (.ok f, c') ∧ f.size = BASE ∧
      c'.bp.length + 1 = c.bp.length ∧ c'.lp = c.lp) ∧
    (c.bp = [] → c.allocBase = (.err .cacheExhausted, c)) ∧
    (c.lp ≠ [] → ∃ f c', c.allocLarge = (.ok f, c') ∧ f.size = LARGE ∧
      c'.lp.length + 1 = c.lp.length ∧ c'.bp = c.bp) ∧
    (c.lp = [] → c.allocLarge = (.err .cacheExhausted, c)) := by
  refine ⟨?_, ?_, ?_, ?_⟩
  · intro h
    cases hb : c.bp with
    | nil => exact absurd hb h
    | cons a as =>
      have ha : a % BASE = 0 := hc.alB a (by simp [hb])
      exact ⟨⟨a, BASE, c.node⟩, { c with bp := as },
        by simp [MCache.allocBase, hb, new_base ha], rfl, rfl, rfl⟩
  · intro h; simp [MCache.allocBase, h]
  · intro h
    cases hb : c.lp with
    | nil => exact absurd hb h
    | cons a as =>
      have ha : a % LARGE = 0 := hc.alL a (by simp [hb])
      exact ⟨⟨a, LARGE, c.node⟩, { c with lp := as },
        by simp [MCache.allocLarge, hb, new_large ha], rfl, rfl, rfl⟩
  · intro h; simp [MCache.allocLarge, h]

/-- **C21** Giving back an aligned page of the right size and node succeeds exactly when there is
room, and afterwards that page is the next one to be handed out; without room nothing changes. -/
theorem c21_release_exact (c : MCache) (f : Frame) (haff : f.aff = c.node) :
    (f.size = BASE → f.base % BASE = 0 →
      (c.bp.length < c.capB → ∃ c', c.releaseBase f = (.ok (), c') ∧ c'.allocBase = (.ok f, c)) ∧
      (¬ c.bp.length < c.capB → c.releaseBase f = (.err .cacheFull, c))) ∧
    (f.size = LARGE → f.base % LARGE = 0 →
      (c.lp.length < c.capL → ∃ c', c.releaseLarge f = (.ok (), c') ∧ c'.allocLarge = (.ok f, c)) ∧
      (¬ c.lp.length < c.capL → c.releaseLarge f = (.err .cacheFull, c))) := by
  obtain ⟨base, size, aff⟩ := f
  simp only at haff
  subst haff
  constructor
  · intro hs ha
    simp only at hs ha
    subst hs
    refine ⟨fun h => ⟨{ c with bp := base :: c.bp }, ?_, ?_⟩, fun h => ?_⟩
    · simp [MCache.releaseBase, ha, MCache.pushBase, h]
    · simp [MCache.allocBase, new_base ha]
    · simp [MCache.releaseBase, ha, MCache.pushBase, h]
  · intro hs ha
    simp only at hs ha
    subst hs
    refine ⟨fun h => ⟨{ c with lp := base :: c.lp }, ?_, ?_⟩, fun h => ?_⟩
    · simp [MCache.releaseLarge, ha, MCache.pushLarge, h]
    · simp [MCache.allocLarge, new_large ha]
    · simp [MCache.releaseLarge, ha, MCache.pushLarge, h]

/-- **C21** Outside the rack-scale build a cache takes only pages of its own node: growing it succeeds
only if every page has that node's affinity (and the right size). -/
theorem c21_grow_own_node (fs : List Frame) : ∀ (c : MCache),
    ((c.growBase false fs).1 = .ok () → ∀ f ∈ fs, f.aff = c.node ∧ f.size = BASE) ∧
    ((c.growLarge fs).1 = .ok () → ∀ f ∈ fs, f.aff = c.node ∧ f.size = LARGE) := by
  induction fs with
  | nil => intro c; exact ⟨fun _ f hf => absurd hf (by simp), fun _ f hf => absurd hf (by simp)⟩
  | cons g rest ih =>
    intro c
    constructor
    · intro h
      unfold MCache.growBase at h
      split at h
      · rename_i hc
        have hn : g.aff = c.node := by simpa [affinityFits] using hc.2.2
        split at h
        · rename_i c' hp
          have hnode : c'.node = c.node := by
            unfold MCache.pushBase at hp
            split at hp
            · cases hp; rfl
            · cases hp
          intro f hf
          rcases List.mem_cons.1 hf with rfl | hf
          · exact ⟨hn, hc.1⟩
          · have := (ih c').1 h f hf
            rw [hnode] at this
            exact this
        · cases h
      · cases h
    · intro h
      unfold MCache.growLarge at h
      split at h
      · rename_i hc
        split at h
        · rename_i c' hp
          have hnode : c'.node = c.node := by
            unfold MCache.pushLarge at hp
            split at hp
            · cases hp; rfl
            · cases hp
          intro f hf
          rcases List.mem_cons.1 hf with rfl | hf
          · exact ⟨hc.2.2, hc.1⟩
          · have := (ih c').2 h f hf
            rw [hnode] at this
            exact this
        · cases h
      · cases h

example : ((MCache.new 4 4 1).growBase false [⟨4096, 4096, 1⟩, ⟨8192, 4096, 1⟩]).1 = .ok () ∧
    ((MCache.new 4 4 1).growBase false [⟨4096, 4096, 2⟩]).1 = .panic ∧
    ((MCache.new 4 4 1).growLarge [⟨2097152, 2097152, 1⟩]).1 = .ok () := by
  simp [MCache.growBase, MCache.growLarge, MCache.new, MCache.pushBase, MCache.pushLarge, affinityFits,
    BASE_eq, LARGE_eq]

/-- Finding: in the rack-scale build `grow_base_pages` only compares whether both affinities are
shared-memory ones, so a page of machine 1's shared memory that is added to the cache of machine
2's shared memory is handed out as memory of machine 2. -/
theorem c21_rackscale_relabels :
    ∃ (c : MCache) (f g : Frame), c.Wf ∧ (c.growBase true [f]).1 = .ok () ∧
      (c.growBase true [f]).2.allocBase.1 = .ok g ∧ f.block = g.block ∧
      f.aff = midToShmemAffinity 1 ∧ g.aff = midToShmemAffinity 2 := by
  refine ⟨MCache.new 1 0 14, ⟨0, BASE, 13⟩, ⟨0, BASE, 14⟩, ?_, ?_, ?_, rfl, rfl, rfl⟩
  · constructor <;> simp [MCache.new]
  · simp [MCache.growBase, MCache.new, affinityFits, isShmemAffinity, MAX_NUMA_NODES, MCache.pushBase]
  · simp [MCache.growBase, MCache.new, affinityFits, isShmemAffinity, MAX_NUMA_NODES, MCache.pushBase,
      MCache.allocBase, Frame.new]

/-- Refilling a core's cache from the cache of its node. -/
theorem moveBase_spec (rack : Bool) (n : Nat) : ∀ (nc tc : MCache), nc.Wf → tc.Wf →
    nc.node = tc.node → n ≤ tc.spareBase →
    (moveBase rack nc tc n).1 ≠ .panic ∧
    ((moveBase rack nc tc n).2.1.held ++ (moveBase rack nc tc n).2.2.held).Perm (nc.held ++ tc.held) ∧
    (moveBase rack nc tc n).2.1.Wf ∧ (moveBase rack nc tc n).2.2.Wf ∧
    (moveBase rack nc tc n).2.1.node = nc.node ∧ (moveBase rack nc tc n).2.2.node = tc.node ∧
    (moveBase rack nc tc n).2.1.lp = nc.lp ∧ (moveBase rack nc tc n).2.2.lp = tc.lp ∧
    (moveBase rack nc tc n).2.2.capL = tc.capL ∧ (moveBase rack nc tc n).2.2.capB = tc.capB ∧
    (n ≤ nc.bp.length → (moveBase rack nc tc n).1 = .ok () ∧
      (moveBase rack nc tc n).2.2.bp.length = tc.bp.length + n ∧
      (moveBase rack nc tc n).2.1.bp.length + n = nc.bp.length) ∧
    (nc.bp.length < n → (moveBase rack nc tc n).1 = .err .cacheExhausted) := by
  induction n with
  | zero => intro nc tc h1 h2 _ _; simp [moveBase, h1, h2]
  | succ n ih =>
    intro nc tc h1 h2 hn hs
    cases hb : nc.bp with
    | nil =>
      have e : moveBase rack nc tc (n + 1) = (.err .cacheExhausted, nc, tc) := by
        simp [moveBase, MCache.allocBase, hb]
      rw [e]; simp [h1, h2]
    | cons a as =>
      have ha : a % BASE = 0 := h1.alB a (by simp [hb])
      have hlt : tc.bp.length < tc.capB := by unfold MCache.spareBase at hs; omega
      have haf : affinityFits rack tc.node tc.node = true := by
        cases rack <;> simp [affinityFits]
      have e : moveBase rack nc tc (n + 1) =
          moveBase rack { nc with bp := as } { tc with bp := a :: tc.bp } n := by
        simp [moveBase, MCache.allocBase, hb, new_base ha, MCache.growBase, ha, hn, haf,
          MCache.pushBase, hlt]
      rw [e]
      have w1 : MCache.Wf { nc with bp := as } := by
        refine ⟨?_, h1.capL, ?_, h1.alL⟩
        · have := h1.capB; rw [hb] at this; simp at this; simp only; omega
        · intro x hx; exact h1.alB x (by rw [hb]; exact List.mem_cons_of_mem _ hx)
      have w2 : MCache.Wf { tc with bp := a :: tc.bp } := by
        refine ⟨by simp only [List.length_cons]; omega, h2.capL, ?_, h2.alL⟩
        intro x hx
        rw [List.mem_cons] at hx
        rcases hx with rfl | hx
        · exact ha
        · exact h2.alB x hx
      obtain ⟨r1, r2, r3, r4, r5, r6, r7, r8, r9, r10, r11, r12⟩ :=
        ih { nc with bp := as } { tc with bp := a :: tc.bp } w1 w2 hn
          (by simp only [MCache.spareBase, List.length_cons] at hs ⊢; omega)
      refine ⟨r1, r2.trans ?_, r3, r4, r5, r6, r7, r8, r9, r10, ?_, ?_⟩
      · refine ((held_cons_base { tc with bp := a :: tc.bp } a tc.bp rfl).append_left _).trans ?_
        refine List.perm_middle.trans ?_
        rw [← List.cons_append]
        exact (held_cons_base nc a as hb).symm.append_right _
      · intro h
        simp only [List.length_cons] at h r11 ⊢
        obtain ⟨q1, q2, q3⟩ := r11 (by omega)
        exact ⟨q1, by omega, by omega⟩
      · intro h
        simp only [List.length_cons] at h r12
        exact r12 (by omega)

theorem moveLarge_spec (n : Nat) : ∀ (nc tc : MCache), nc.Wf → tc.Wf →
    nc.node = tc.node → n ≤ tc.spareLarge →
    (moveLarge nc tc n).1 ≠ .panic ∧
    ((moveLarge nc tc n).2.1.held ++ (moveLarge nc tc n).2.2.held).Perm (nc.held ++ tc.held) ∧
    (moveLarge nc tc n).2.1.Wf ∧ (moveLarge nc tc n).2.2.Wf ∧
    (moveLarge nc tc n).2.1.bp = nc.bp ∧ (moveLarge nc tc n).2.2.bp = tc.bp ∧
    (n ≤ nc.lp.length → (moveLarge nc tc n).1 = .ok () ∧
      (moveLarge nc tc n).2.2.lp.length = tc.lp.length + n ∧
      (moveLarge nc tc n).2.1.lp.length + n = nc.lp.length) ∧
    (nc.lp.length < n → (moveLarge nc tc n).1 = .err .cacheExhausted) := by
  induction n with
  | zero => intro nc tc h1 h2 _ _; simp [moveLarge, h1, h2]
  | succ n ih =>
    intro nc tc h1 h2 hn hs
    cases hb : nc.lp with
    | nil =>
      have e : moveLarge nc tc (n + 1) = (.err .cacheExhausted, nc, tc) := by
        simp [moveLarge, MCache.allocLarge, hb]
      rw [e]; simp [h1, h2]
    | cons a as =>
      have ha : a % LARGE = 0 := h1.alL a (by simp [hb])
      have hlt : tc.lp.length < tc.capL := by unfold MCache.spareLarge at hs; omega
      have e : moveLarge nc tc (n + 1) =
          moveLarge { nc with lp := as } { tc with lp := a :: tc.lp } n := by
        simp [moveLarge, MCache.allocLarge, hb, new_large ha, MCache.growLarge, ha, hn,
          MCache.pushLarge, hlt]
      rw [e]
      have w1 : MCache.Wf { nc with lp := as } := by
        refine ⟨h1.capB, ?_, h1.alB, ?_⟩
        · have := h1.capL; rw [hb] at this; simp at this; simp only; omega
        · intro x hx; exact h1.alL x (by rw [hb]; exact List.mem_cons_of_mem _ hx)
      have w2 : MCache.Wf { tc with lp := a :: tc.lp } := by
        refine ⟨h2.capB, by simp only [List.length_cons]; omega, h2.alB, ?_⟩
        intro x hx
        rw [List.mem_cons] at hx
        rcases hx with rfl | hx
        · exact ha
        · exact h2.alL x hx
      obtain ⟨r1, r2, r3, r4, r5, r6, r11, r12⟩ :=
        ih { nc with lp := as } { tc with lp := a :: tc.lp } w1 w2 hn
          (by simp only [MCache.spareLarge, List.length_cons] at hs ⊢; omega)
      refine ⟨r1, r2.trans ?_, r3, r4, r5, r6, ?_, ?_⟩
      · refine ((held_cons_large { tc with lp := a :: tc.lp } a tc.lp rfl).append_left _).trans ?_
        refine List.perm_middle.trans ?_
        rw [← List.cons_append]
        exact (held_cons_large nc a as hb).symm.append_right _
      · intro h
        simp only [List.length_cons] at h r11 ⊢
        obtain ⟨q1, q2, q3⟩ := r11 (by omega)
        exact ⟨q1, by omega, by omega⟩
      · intro h
        simp only [List.length_cons] at h r12
        exact r12 (by omega)

/-- **C21/C23** Refilling a core's cache from its node's cache moves pages, it never crashes,
creates or loses one; when the node has the pages, the core's cache gains what was asked for (up to
its capacity). -/
theorem c21_refill (rack : Bool) (nc tc : MCache) (h1 : nc.Wf) (h2 : tc.Wf)
    (hn : nc.node = tc.node) (needB needL : Nat) :
    let r := refillTcache rack nc tc needB needL
    r.1 ≠ .panic ∧ (r.2.1.held ++ r.2.2.held).Perm (nc.held ++ tc.held) ∧ r.2.1.Wf ∧ r.2.2.Wf ∧
    (needB ≤ nc.bp.length → needL ≤ nc.lp.length → r.1 = .ok () ∧
      r.2.2.bp.length = tc.bp.length + min tc.spareBase needB ∧
      r.2.2.lp.length = tc.lp.length + min tc.spareLarge needL) ∧
    (r.1 = .ok () ∨ r.1 = .err .cacheExhausted) := by
  simp only
  obtain ⟨r1, r2, r3, r4, r5, r6, r7, r8, r9, r10, r11, r12⟩ :=
    moveBase_spec rack (min tc.spareBase needB) nc tc h1 h2 hn (Nat.min_le_left _ _)
  by_cases hb : min tc.spareBase needB ≤ nc.bp.length
  · obtain ⟨q1, q2, q3⟩ := r11 hb
    have e : refillTcache rack nc tc needB needL =
        moveLarge (moveBase rack nc tc (min tc.spareBase needB)).2.1
          (moveBase rack nc tc (min tc.spareBase needB)).2.2 (min tc.spareLarge needL) := by
      unfold refillTcache
      split
      · rename_i e; rw [e]
      · rename_i q; exfalso; apply q (moveBase rack nc tc (min tc.spareBase needB)).2.1
          (moveBase rack nc tc (min tc.spareBase needB)).2.2; rw [← q1]
    rw [e]
    have hsp : (moveBase rack nc tc (min tc.spareBase needB)).2.2.spareLarge = tc.spareLarge := by
      unfold MCache.spareLarge; rw [r8, r9]
    obtain ⟨s1, s2, s3, s4, s5, s6, s7, s8⟩ := moveLarge_spec (min tc.spareLarge needL) _ _ r3 r4
      (by rw [r5, r6, hn]) (by rw [hsp]; exact Nat.min_le_left _ _)
    refine ⟨s1, s2.trans r2, s3, s4, ?_, ?_⟩
    · intro _ hl
      rw [r7] at s7
      obtain ⟨t1, t2, t3⟩ := s7 (by omega)
      refine ⟨t1, by rw [s6]; exact q2, by rw [t2, r8]⟩
    · by_cases hl : min tc.spareLarge needL ≤ nc.lp.length
      · rw [r7] at s7; exact .inl (s7 hl).1
      · rw [r7] at s8; exact .inr (s8 (by omega))
  · have q := r12 (by omega)
    have e : refillTcache rack nc tc needB needL = moveBase rack nc tc (min tc.spareBase needB) := by
      unfold refillTcache
      split
      · rename_i e; rw [e] at q; cases q
      · rfl
    rw [e]
    exact ⟨r1, r2, r3, r4, fun h => by omega, .inr q⟩

/-- The bytes that a cache says are free are the bytes of the blocks it holds, and it is full when
there is no room for another page of either size. -/
theorem c21_free (c : MCache) :
    c.free = (c.held.map (·.len)).sum ∧
    (c.bp.length ≤ c.capB → c.lp.length ≤ c.capL →
      c.free + (c.spareBase * BASE + c.spareLarge * LARGE) = c.capacity) := by
  have sum : ∀ (l : List Nat) (k : Nat), ((l.map (fun a => (⟨a, k⟩ : Block))).map (·.len)).sum =
      l.length * k := by
    intro l k
    induction l with
    | nil => simp
    | cons a l ih =>
      simp only [List.map_cons, List.sum_cons, List.length_cons, ih, Nat.add_mul, Nat.one_mul]
      omega
  constructor
  · unfold MCache.free MCache.held
    rw [List.map_append, List.sum_append, sum, sum]
  · intro h1 h2
    unfold MCache.free MCache.capacity MCache.spareBase MCache.spareLarge
    have e1 : c.bp.length * BASE + (c.capB - c.bp.length) * BASE = c.capB * BASE := by
      rw [← Nat.add_mul]; congr 1; omega
    have e2 : c.lp.length * LARGE + (c.capL - c.lp.length) * LARGE = c.capL * LARGE := by
      rw [← Nat.add_mul]; congr 1; omega
    omega

/-- Non-vacuity: two pages, allocate one, give it back, allocate two. -/
example : ∃ c out, CacheRun false ⟨4, 1, 3, [0, BASE], [LARGE]⟩ [] c out ∧ out.length = 2 ∧
    MCache.Wf ⟨4, 1, 3, [0, BASE], [LARGE]⟩ ∧
    AllDisjoint (MCache.held ⟨4, 1, 3, [0, BASE], [LARGE]⟩ ++ [].map Frame.block) := by
  refine ⟨_, _, .step .allocLarge [⟨0, BASE, 3⟩] (.step .allocBase [] .start ?_ ?_) ?_ ?_, ?_, ?_, ?_⟩
  · simp [CacheOp.gives]
  · simp [MCache.exec, MCache.allocBase, Frame.new]
  · simp [CacheOp.gives, MCache.exec, MCache.allocBase, Frame.new]
  · simp [MCache.exec, MCache.allocLarge, MCache.allocBase, Frame.new, LARGE_mod]
  · simp [MCache.exec, MCache.allocLarge, MCache.allocBase, Frame.new, LARGE_mod]
  · constructor <;> simp
  · simp only [MCache.held, AllDisjoint, List.map_cons, List.map_nil, List.cons_append,
      List.nil_append, List.append_nil, List.pairwise_cons, List.mem_cons, List.not_mem_nil,
      or_false]
    refine ⟨?_, ?_, by simp, by simp⟩
    · rintro b (rfl | rfl) <;> apply disjoint_of_le <;> simp [BASE_eq, LARGE_eq]
    · rintro b rfl; apply disjoint_of_le; simp [BASE_eq, LARGE_eq]

end NRK.Mem
