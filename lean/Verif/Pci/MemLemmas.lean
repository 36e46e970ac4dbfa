import Verif.Pci.Model

/-!
# Lemmas about memory for devices, interrupts and claimed devices
-/

namespace NRK.Pci

open Spec (IrqCall Dev translate handlerOf cookieOf)

theorem lookup_filter {x k : Nat} (h : x ≠ k) : ∀ l : List (Nat × Nat),
    (l.filter (·.1 != k)).lookup x = l.lookup x
  | [] => rfl
  | (a, b) :: l => by
    by_cases e : a = k
    · have hx : (x == a) = false := by simp [e, h]
      rw [List.filter_cons_of_neg (by simp [e]), List.lookup_cons, hx]
      exact lookup_filter h l
    · rw [List.filter_cons_of_pos (by simp [e]), List.lookup_cons, List.lookup_cons, lookup_filter h l]

theorem lookup_put (ht : List (Nat × Nat)) (k v x : Nat) :
    (put ht k v).lookup x = if x = k then some v else ht.lookup x := by
  unfold put
  by_cases e : x = k
  · simp [e]
  · have hx : (x == k) = false := by simp [e]
    rw [List.lookup_cons, hx, if_neg e]
    exact lookup_filter e ht

/-- Frames are aligned, and what is cached about a page is true. -/
structure MInv (p : Nat) (m : Mem) : Prop where
  aligned : ∀ x f, m.pt x = some f → f % 4096 = 0
  cached : ∀ ht f, m.cache = some ht → ht.lookup p = some f → m.pt p = some f

theorem allFree_spec {pt : Nat → Option Nat} {v n : Nat} (h : allFree pt v n = true) {x : Nat} (h1 : v ≤ x)
    (h2 : x < v + n) : pt x = none := by
  unfold allFree at h
  rw [List.all_eq_true] at h
  have := h (x - v) (List.mem_range.2 (by omega))
  rw [show v + (x - v) = x by omega] at this
  exact Option.isNone_iff_eq_none.1 this

/-- What a successful allocation of the pager means. -/
theorem pager_ok {m m' : Mem} {core size : Nat} {frame : Option Nat} {v p : Nat}
    (e : pagerAllocate m core size frame = (some (v, p), m')) :
    v = roundUp (m.sbrk core) size ∧ p % size = 0 ∧ allFree m.pt (v / 4096) (size / 4096) = true ∧
      m'.pt = mapped m.pt (v / 4096) (size / 4096) p ∧ m'.cache = m.cache := by
  unfold pagerAllocate at e
  simp only at e
  split at e
  · cases e
  split at e
  · split at e
    · rename_i h
      cases e
      exact ⟨rfl, h.1, h.2, rfl, rfl⟩
    · cases e
  · cases e

theorem pager_fail {m m' : Mem} {core size : Nat} {frame : Option Nat}
    (e : pagerAllocate m core size frame = (none, m')) : m'.pt = m.pt ∧ m'.cache = m.cache := by
  unfold pagerAllocate at e
  simp only at e
  split at e
  · cases e; exact ⟨rfl, rfl⟩
  split at e
  · split at e
    · cases e
    · cases e; exact ⟨rfl, rfl⟩
  · cases e; exact ⟨rfl, rfl⟩

theorem span_pages (size : Nat) : 4096 ∣ span size := by
  unfold span; split
  · exact ⟨512, rfl⟩
  · exact ⟨1, rfl⟩

theorem span_pos (size : Nat) : 0 < span size := by
  unfold span; split <;> decide

theorem le_span {size : Nat} (h : size ≤ 2 * 1024 * 1024) : size ≤ span size := by
  unfold span; split <;> omega

theorem mapped_aligned {pt : Nat → Option Nat} {v n p : Nat} (h : ∀ x f, pt x = some f → f % 4096 = 0)
    (hp : p % 4096 = 0) : ∀ x f, mapped pt v n p x = some f → f % 4096 = 0 := by
  intro x f e
  unfold mapped at e
  split at e
  · cases e; omega
  · exact h x f e

/-- What `dmalloc` does to the memory. -/
theorem dmalloc_cases (m : Mem) (core size al : Nat) (frame : Option Nat) :
    (∃ v p m', dmalloc m core size al frame = (.ok v p, m') ∧ size ≤ 2 * 1024 * 1024 ∧
      v % span size = 0 ∧ p % span size = 0 ∧ allFree m.pt (v / 4096) (span size / 4096) = true ∧
      m'.pt = mapped m.pt (v / 4096) (span size / 4096) p ∧
      m'.cache = m.cache.map (put · (v / 4096) p)) ∨
    (∃ r m', dmalloc m core size al frame = (r, m') ∧ (∀ v p, r ≠ .ok v p) ∧ m'.pt = m.pt ∧
      m'.cache = m.cache) := by
  by_cases hs : size ≤ 2 * 1024 * 1024
  · cases e : pagerAllocate m core (span size) frame with
    | mk r m' =>
      cases r with
      | none =>
        refine .inr ⟨.fail, m', ?_, (by intro _ _ h; cases h), pager_fail e⟩
        unfold dmalloc; rw [if_pos hs, e]
      | some vp =>
        obtain ⟨v, p⟩ := vp
        obtain ⟨h1, h2, h3, h4, h5⟩ := pager_ok e
        refine .inl ⟨v, p, { m' with cache := m'.cache.map (put · (v / 4096) p) }, ?_, hs, ?_, h2, h3, h4, ?_⟩
        · unfold dmalloc; rw [if_pos hs, e]
        · rw [h1]; unfold roundUp; exact Nat.mul_mod_left ..
        · show Option.map _ m'.cache = _; rw [h5]
  · refine .inr ⟨.panic, m, ?_, (by intro _ _ h; cases h), rfl, rfl⟩
    unfold dmalloc; rw [if_neg hs]

theorem mod_page {x size : Nat} (h : x % span size = 0) : x % 4096 = 0 := by
  have h1 : span size ∣ x := Nat.dvd_of_mod_eq_zero h
  exact Nat.mod_eq_zero_of_dvd (Nat.dvd_trans (span_pages size) h1)

/-- The kernel's map only grows when nothing is unmapped. -/
theorem memStep_pt (m : Mem) (a : MemAct) {x f : Nat} (h : m.pt x = some f) (ha : a ≠ .unmap x) :
    (memStep m a).pt x = some f := by
  cases a with
  | init => exact h
  | translate va =>
    show (((virtToMach m va).map (·.2)).getD m).pt x = some f
    unfold virtToMach
    split
    · cases identify m va <;> exact h
    · split
      · exact h
      · split <;> exact h
  | dmalloc core size al frame =>
    show (dmalloc m core size al frame).2.pt x = some f
    rcases dmalloc_cases m core size al frame with ⟨v, p, m', e, _, _, _, hf, hp, _⟩ | ⟨r, m', e, _, hp, _⟩
    · simp only [e, hp, mapped]
      split
      · rename_i hx
        rw [allFree_spec hf hx.1 hx.2] at h; cases h
      · exact h
    · simp only [e, hp]; exact h
  | dmafree => exact h
  | map page frame =>
    unfold memStep
    simp only
    split
    · rename_i hc
      show upd m.pt page (some frame) x = some f
      by_cases e : x = page
      · subst e; rw [h] at hc; cases hc.1
      · rw [upd_other _ _ e]; exact h
    · exact h
  | unmap page =>
    show upd m.pt page none x = some f
    rw [upd_other _ _ (fun e => ha (by rw [e]))]; exact h

theorem memStep_inv {p : Nat} {m : Mem} (I : MInv p m) {a : MemAct} (ha : a ≠ .unmap p) :
    MInv p (memStep m a) := by
  cases a with
  | init => exact ⟨I.aligned, fun ht f e h => by cases e; cases h⟩
  | translate va =>
    show MInv p (((virtToMach m va).map (·.2)).getD m)
    unfold virtToMach
    split
    · cases identify m va <;> exact I
    · rename_i ht hc
      split
      · exact I
      · rename_i hl
        unfold identify
        cases hp : m.pt (va / 4096) with
        | none => exact I
        | some f =>
          refine ⟨I.aligned, ?_⟩
          intro ht' f' e h
          simp only [Option.map_some, Option.getD_some, Option.some.injEq] at e
          subst e
          rw [lookup_put] at h
          split at h
          · rename_i hpv
            cases h
            have := I.aligned _ _ hp
            rw [hpv]
            show m.pt (va / 4096) = _
            rw [hp, show (f + va % 4096) / 4096 * 4096 = f by omega]
          · exact I.cached ht f' hc h
  | dmalloc core size al frame =>
    show MInv p (dmalloc m core size al frame).2
    rcases dmalloc_cases m core size al frame with ⟨v, q, m', e, _, hv, hq, hf, hp, hc⟩ | ⟨r, m', e, _, hp, hc⟩
    · rw [e]
      refine ⟨?_, ?_⟩
      · simp only [hp]; exact mapped_aligned I.aligned (mod_page hq)
      · intro ht f e1 h
        simp only [hc] at e1
        cases hm : m.cache with
        | none => rw [hm] at e1; cases e1
        | some h0 =>
          rw [hm] at e1
          simp only [Option.map_some, Option.some.injEq] at e1
          subst e1
          rw [lookup_put] at h
          have hn : 0 < span size / 4096 := by
            have := span_pages size
            have := span_pos size
            omega
          simp only [hp, mapped]
          split at h
          · rename_i hpv
            cases h
            rw [hpv, if_pos ⟨Nat.le_refl _, by omega⟩, Nat.sub_self, Nat.zero_mul, Nat.add_zero]
          · have h0' := I.cached h0 f hm h
            split
            · rename_i hx
              rw [allFree_spec hf hx.1 hx.2] at h0'; cases h0'
            · exact h0'
    · rw [e]
      exact ⟨by simp only [hp]; exact I.aligned, by simp only [hp, hc]; exact I.cached⟩
  | dmafree => exact I
  | map page frame =>
    have hpt := fun f (h : m.pt p = some f) => memStep_pt m (.map page frame) h ha
    refine ⟨?_, ?_⟩
    · unfold memStep
      simp only
      split
      · rename_i hc
        intro x f h
        rcases (show (x = page ∧ some frame = some f) ∨ (x ≠ page ∧ m.pt x = some f) from by
          by_cases e : x = page
          · subst e; exact .inl ⟨rfl, by rw [← h]; exact (upd_same ..).symm⟩
          · exact .inr ⟨e, by rw [← h]; exact (upd_other _ _ e).symm⟩) with ⟨_, h⟩ | ⟨_, h⟩
        · cases h; exact hc.2
        · exact I.aligned x f h
      · exact I.aligned
    · intro ht f e h
      refine hpt f (I.cached ht f ?_ h)
      revert e
      unfold memStep
      simp only
      split <;> exact id
  | unmap page =>
    have hne : p ≠ page := fun e => ha (by rw [e])
    refine ⟨?_, ?_⟩
    · intro x f h
      have h : upd m.pt page none x = some f := h
      by_cases e : x = page
      · subst e; rw [upd_same] at h; cases h
      · rw [upd_other _ _ e] at h; exact I.aligned x f h
    · intro ht f e h
      show upd m.pt page none p = some f
      rw [upd_other _ _ hne]
      exact I.cached ht f e h

theorem memRun_inv {p : Nat} : ∀ (as : List MemAct) (m : Mem), MInv p m → (∀ a ∈ as, a ≠ .unmap p) →
    MInv p (memRun m as)
  | [], _, I, _ => I
  | a :: as, _, I, h =>
    memRun_inv as _ (memStep_inv I (h a (List.mem_cons_self ..))) fun x hx => h x (List.mem_cons_of_mem _ hx)

theorem memRun_pt {x f : Nat} : ∀ (as : List MemAct) (m : Mem), m.pt x = some f → (∀ a ∈ as, a ≠ .unmap x) →
    (memRun m as).pt x = some f
  | [], _, h, _ => h
  | a :: as, m, h, hu =>
    memRun_pt as _ (memStep_pt m a h (hu a (List.mem_cons_self ..))) fun x hx => hu x (List.mem_cons_of_mem _ hx)

/-- A translation is right if the cache is right about the page. -/
theorem virtToMach_eq {m : Mem} {va : Nat} (I : MInv (va / 4096) m) :
    (virtToMach m va).map (·.1) = translate m.pt va := by
  unfold virtToMach
  split
  · unfold identify translate; cases m.pt (va / 4096) <;> rfl
  · rename_i ht hc
    split
    · rename_i p hl
      unfold translate
      rw [I.cached ht p hc hl]; rfl
    · unfold identify translate; cases m.pt (va / 4096) <;> rfl

/-! ## Interrupts -/

theorem irq_slot {k : Nat} : ∀ (cs : List IrqCall) (s : Irqs),
    (∀ k' h a, IrqCall.establish k' h a ∈ cs → k' = k) →
    (cs.foldl irqCall s).slot = (handlerOf k cs).or s.slot
  | [], _, _ => by simp [handlerOf]
  | .map v c :: cs, s, h => by
    rw [List.foldl_cons, irq_slot cs _ fun k' a b hm => h k' a b (List.mem_cons_of_mem _ hm)]; rfl
  | .establish k' a b :: cs, s, h => by
    rw [List.foldl_cons, irq_slot cs _ fun k' a b hm => h k' a b (List.mem_cons_of_mem _ hm)]
    have := h k' a b (List.mem_cons_self ..)
    subst this
    simp only [handlerOf, irqCall, if_true]
    cases handlerOf k' cs <;> rfl

theorem irq_threads (v : Nat) : ∀ (cs : List IrqCall) (s : Irqs),
    v ∈ (cs.foldl irqCall s).threads ↔ v ∈ s.threads ∨ (cookieOf v cs).isSome
  | [], _ => by simp [cookieOf]
  | .map w c :: cs, s => by
    rw [List.foldl_cons, irq_threads v cs]
    simp only [irqCall, cookieOf, List.mem_cons]
    by_cases e : w = v
    · subst e; cases cookieOf w cs <;> simp
    · have e' : ¬ v = w := fun h => e h.symm
      simp [e, e']
  | .establish k' a b :: cs, s => by
    rw [List.foldl_cons, irq_threads v cs]; rfl

theorem cookie_of {k : Nat} (v : Nat) : ∀ (cs : List IrqCall),
    (∀ w k', IrqCall.map w k' ∈ cs → k' = k) → ∀ c, cookieOf v cs = some c → c = k
  | [], _, _, h => by cases h
  | .map w k' :: cs, h, c, e => by
    simp only [cookieOf] at e
    cases e1 : cookieOf v cs with
    | some c' =>
      rw [e1] at e
      have := cookie_of v cs (fun w k' hm => h w k' (List.mem_cons_of_mem _ hm)) c' e1
      simp at e; omega
    | none =>
      rw [e1] at e
      simp only [Option.none_or] at e
      split at e
      · cases e; exact h w _ (List.mem_cons_self ..)
      · cases e
  | .establish _ _ _ :: cs, h, c, e =>
    cookie_of v cs (fun w k' hm => h w k' (List.mem_cons_of_mem _ hm)) c e

/-! ## Claimed devices -/

/-- The devices finished calls have taken. -/
def Claims.out (s : Claims) : List Nat := s.returned.flatMap (·.2)

structure CInv (s : Claims) : Prop where
  len : s.there.length = s.devs.length
  outNodup : s.out.Nodup
  outGone : ∀ i ∈ s.out, s.there[i]? = some false
  gotNodup : ∀ t c, s.pc t = some c → c.got.Nodup
  gotGone : ∀ t c, s.pc t = some c → ∀ i ∈ c.got, s.devs[i]? = some c.want ∧ s.there[i]? = some false ∧ i ∉ s.out
  disjoint : ∀ t c t' c', s.pc t = some c → s.pc t' = some c' → t ≠ t' → ∀ i ∈ c.got, i ∉ c'.got
  seen : ∀ t c, s.pc t = some c → ∀ i < c.i, s.devs[i]? = some c.want → s.there[i]? = some false
  one : ∀ t c, s.pc t = some c → c.all = false → c.got = []
  right : ∀ c g, (c, g) ∈ s.returned → ∀ i ∈ g, s.devs[i]? = some c.want
  length : ∀ c g, (c, g) ∈ s.returned → c.all = false → g.length ≤ 1
  full : ∀ c g, (c, g) ∈ s.returned → c.all = true ∨ g = [] → ∀ i : Nat, s.devs[i]? = some c.want → s.there[i]? = some false
  gone : ∀ i : Nat, s.there[i]? = some false → i ∈ s.out ∨ ∃ t c, s.pc t = some c ∧ i ∈ c.got

theorem CInv.init (devs : List Dev) : CInv (Claims.init devs) where
  len := by simp [Claims.init]
  outNodup := by simp [Claims.init, Claims.out]
  outGone := by simp [Claims.init, Claims.out]
  gotNodup := by intro t c h; cases h
  gotGone := by intro t c h; cases h
  disjoint := by intro t c _ _ h; cases h
  seen := by intro t c h; cases h
  one := by intro t c h; cases h
  right := by intro c g h; cases h
  length := by intro c g h; cases h
  full := by intro c g h; cases h
  gone := by
    intro i h
    simp only [Claims.init, List.getElem?_map] at h
    cases e : devs[i]? <;> rw [e] at h <;> cases h

theorem updo {α : Type} {f : Nat → Option α} {t u : Nat} {x : Option α} {y : α} (h : upd f t x u = some y) :
    (u = t ∧ x = some y) ∨ (u ≠ t ∧ f u = some y) := by
  by_cases e : u = t
  · subst e; rw [upd_same] at h; exact .inl ⟨rfl, h⟩
  · rw [upd_other _ _ e] at h; exact .inr ⟨e, h⟩

theorem set_false {l : List Bool} {i j : Nat} (h : l[j]? = some false) : (l.set i false)[j]? = some false := by
  rw [List.getElem?_set]
  split
  · rename_i e
    subst e
    have : i < l.length := by
      rcases Nat.lt_or_ge i l.length with h' | h'
      · exact h'
      · rw [List.getElem?_eq_none h'] at h; cases h
    rw [if_pos this]
  · exact h

theorem claimStep_inv {s : Claims} (I : CInv s) (a : ClaimAct) : CInv (claimStep s a) := by
  cases a with
  | call t all want =>
    unfold claimStep
    cases hp : s.pc t with
    | some c => simp only [hp]; exact I
    | none =>
      simp only [hp]
      refine ⟨I.len, I.outNodup, I.outGone, ?_, ?_, ?_, ?_, ?_, I.right, I.length, I.full, ?_⟩
      · intro u c h
        rcases updo h with ⟨_, h⟩ | ⟨_, h⟩
        · cases h; exact List.nodup_nil
        · exact I.gotNodup u c h
      · intro u c h
        rcases updo h with ⟨_, h⟩ | ⟨_, h⟩
        · cases h; intro i hi; cases hi
        · exact I.gotGone u c h
      · intro u c u' c' h h' hne i hi
        rcases updo h with ⟨_, h⟩ | ⟨_, h⟩
        · cases h; cases hi
        rcases updo h' with ⟨_, h'⟩ | ⟨_, h'⟩
        · cases h'; exact List.not_mem_nil
        exact I.disjoint u c u' c' h h' hne i hi
      · intro u c h
        rcases updo h with ⟨_, h⟩ | ⟨_, h⟩
        · cases h; intro i hi; exact absurd hi (Nat.not_lt_zero _)
        · exact I.seen u c h
      · intro u c h
        rcases updo h with ⟨_, h⟩ | ⟨_, h⟩
        · cases h; intro _; rfl
        · exact I.one u c h
      · intro i hi
        rcases I.gone i hi with h | ⟨u, c, h, h'⟩
        · exact .inl h
        · refine .inr ⟨u, c, ?_, h'⟩
          show upd s.pc t _ u = _
          rw [upd_other _ _ (fun e => by subst e; rw [hp] at h; cases h)]; exact h
  | step t =>
    unfold claimStep
    cases hp : s.pc t with
    | none => simp only [hp]; exact I
    | some c =>
      simp only [hp]
      cases hd : s.devs[c.i]? with
      | none =>
        simp only
        have hout : ∀ i, i ∈ ({ s with pc := upd s.pc t none, returned := (c, c.got) :: s.returned } : Claims).out ↔
            i ∈ c.got ∨ i ∈ s.out := by
          intro i; simp [Claims.out]
        have hall : ∀ i : Nat, s.devs[i]? = some c.want → i < c.i := by
          intro i h
          rcases Nat.lt_or_ge i c.i with h' | h'
          · exact h'
          · have : s.devs.length ≤ c.i := List.getElem?_eq_none_iff.1 hd
            rw [List.getElem?_eq_none (by omega)] at h; cases h
        refine ⟨I.len, ?_, ?_, ?_, ?_, ?_, ?_, ?_, ?_, ?_, ?_, ?_⟩
        · show (((c, c.got) :: s.returned).flatMap (·.2)).Nodup
          rw [List.flatMap_cons, List.nodup_append]
          exact ⟨I.gotNodup t c hp, I.outNodup, fun a ha b hb e => by
            subst e; exact (I.gotGone t c hp a ha).2.2 hb⟩
        · intro i hi
          rcases (hout i).1 hi with h | h
          · exact (I.gotGone t c hp i h).2.1
          · exact I.outGone i h
        · intro u c' h
          rcases updo h with ⟨_, h⟩ | ⟨_, h⟩
          · cases h
          · exact I.gotNodup u c' h
        · intro u c' h i hi
          rcases updo h with ⟨_, h⟩ | ⟨hne, h⟩
          · cases h
          · obtain ⟨a1, a2, a3⟩ := I.gotGone u c' h i hi
            refine ⟨a1, a2, fun hh => ?_⟩
            rcases (hout i).1 hh with h1 | h1
            · exact I.disjoint u c' t c h hp hne i hi h1
            · exact a3 h1
        · intro u c1 u' c2 h h' hne i hi
          rcases updo h with ⟨_, h⟩ | ⟨_, h⟩
          · cases h
          rcases updo h' with ⟨_, h'⟩ | ⟨_, h'⟩
          · cases h'
          exact I.disjoint u c1 u' c2 h h' hne i hi
        · intro u c' h
          rcases updo h with ⟨_, h⟩ | ⟨_, h⟩
          · cases h
          · exact I.seen u c' h
        · intro u c' h
          rcases updo h with ⟨_, h⟩ | ⟨_, h⟩
          · cases h
          · exact I.one u c' h
        · intro c' g h i hi
          rcases List.mem_cons.1 h with h | h
          · cases h; exact (I.gotGone t c hp i hi).1
          · exact I.right c' g h i hi
        · intro c' g h ha
          rcases List.mem_cons.1 h with h | h
          · cases h; rw [I.one t c hp ha]; exact Nat.zero_le _
          · exact I.length c' g h ha
        · intro c' g h ha i hi
          rcases List.mem_cons.1 h with h | h
          · cases h; exact I.seen t c hp i (hall i hi) hi
          · exact I.full c' g h ha i hi
        · intro i hi
          rcases I.gone i hi with h | ⟨u, c', h, h'⟩
          · exact .inl ((hout i).2 (.inr h))
          · by_cases e : u = t
            · subst e; rw [hp] at h; cases h
              exact .inl ((hout i).2 (.inl h'))
            · refine .inr ⟨u, c', ?_, h'⟩
              show upd s.pc t none u = _
              rw [upd_other _ _ e]; exact h
      | some d =>
        simp only
        by_cases hc : s.there[c.i]? = some true ∧ d = c.want
        · obtain ⟨h1, h2⟩ := hc
          subst h2
          rw [if_pos ⟨h1, rfl⟩]
          have hlt : c.i < s.there.length := by
            rcases Nat.lt_or_ge c.i s.there.length with h' | h'
            · exact h'
            · rw [List.getElem?_eq_none h'] at h1; cases h1
          have hset : (s.there.set c.i false)[c.i]? = some false := by
            rw [List.getElem?_set, if_pos rfl, if_pos hlt]
          have hnew : c.i ∉ c.got := fun h => by
            have := (I.gotGone t c hp _ h).2.1
            rw [h1] at this; cases this
          have hnout : c.i ∉ s.out := fun h => by
            have := I.outGone _ h
            rw [h1] at this; cases this
          have hnpc : ∀ u c', s.pc u = some c' → c.i ∉ c'.got := fun u c' hu h => by
            have := (I.gotGone u c' hu _ h).2.1
            rw [h1] at this; cases this
          have hgot' : (c.got ++ [c.i]).Nodup := by
            rw [List.nodup_append]
            refine ⟨I.gotNodup t c hp, by simp, ?_⟩
            intro a ha b hb e
            simp only [List.mem_singleton] at hb
            subst e; subst hb; exact hnew ha
          have hseen' : ∀ i < c.i + 1, s.devs[i]? = some c.want → (s.there.set c.i false)[i]? = some false := by
            intro i hi hdi
            by_cases e : i = c.i
            · subst e; exact hset
            · exact set_false (I.seen t c hp i (by omega) hdi)
          have hgone' : ∀ i, (s.there.set c.i false)[i]? = some false → i = c.i ∨ s.there[i]? = some false := by
            intro i h
            rw [List.getElem?_set] at h
            by_cases e : c.i = i
            · exact .inl e.symm
            · rw [if_neg e] at h; exact .inr h
          by_cases hall : c.all = true
          · simp only [hall, if_true]
            refine ⟨by simp [I.len], I.outNodup, fun i hi => set_false (I.outGone i hi), ?_, ?_, ?_, ?_, ?_,
              I.right, I.length, fun c' g h ha i hi => set_false (I.full c' g h ha i hi), ?_⟩
            · intro u c' h
              rcases updo h with ⟨_, h⟩ | ⟨_, h⟩
              · cases h; exact hgot'
              · exact I.gotNodup u c' h
            · intro u c' h i hi
              rcases updo h with ⟨_, h⟩ | ⟨_, h⟩
              · cases h
                rcases List.mem_append.1 hi with hi | hi
                · obtain ⟨a1, a2, a3⟩ := I.gotGone t c hp i hi
                  exact ⟨a1, set_false a2, a3⟩
                · simp only [List.mem_singleton] at hi
                  subst hi; exact ⟨hd, hset, hnout⟩
              · obtain ⟨a1, a2, a3⟩ := I.gotGone u c' h i hi
                exact ⟨a1, set_false a2, a3⟩
            · intro u c1 u' c2 h h' hne i hi
              rcases updo h with ⟨e1, h⟩ | ⟨e1, h⟩
              · cases h
                rcases updo h' with ⟨e2, h'⟩ | ⟨e2, h'⟩
                · exact absurd (e1.trans e2.symm) hne
                rcases List.mem_append.1 hi with hi | hi
                · exact I.disjoint t c u' c2 hp h' (fun e => e2 e.symm) i hi
                · simp only [List.mem_singleton] at hi
                  subst hi; exact hnpc u' c2 h'
              · rcases updo h' with ⟨e2, h'⟩ | ⟨e2, h'⟩
                · cases h'
                  intro hm
                  rcases List.mem_append.1 hm with hm | hm
                  · exact I.disjoint u c1 t c h hp e1 i hi hm
                  · simp only [List.mem_singleton] at hm
                    subst hm; exact hnpc u c1 h hi
                · exact I.disjoint u c1 u' c2 h h' hne i hi
            · intro u c' h i hi hdi
              rcases updo h with ⟨_, h⟩ | ⟨_, h⟩
              · cases h; exact hseen' i hi hdi
              · exact set_false (I.seen u c' h i hi hdi)
            · intro u c' h ha
              rcases updo h with ⟨_, h⟩ | ⟨_, h⟩
              · cases h; cases ha
              · exact I.one u c' h ha
            · intro i hi
              rcases hgone' i hi with e | hi
              · exact .inr ⟨t, ⟨true, c.want, c.i + 1, c.got ++ [c.i]⟩, upd_same ..,
                  by simp [e]⟩
              rcases I.gone i hi with h | ⟨u, c', h, h'⟩
              · exact .inl h
              · by_cases e : u = t
                · subst e; rw [hp] at h; cases h
                  exact .inr ⟨u, ⟨true, c.want, c.i + 1, c.got ++ [c.i]⟩, upd_same ..,
                    by simp [h']⟩
                · exact .inr ⟨u, c', by show upd s.pc t _ u = _; rw [upd_other _ _ e]; exact h, h'⟩
          · have hall : c.all = false := by simpa using hall
            have hg : c.got = [] := I.one t c hp hall
            simp only [hall, hg, List.nil_append, Bool.false_eq_true, if_false]
            generalize hr : ((⟨false, c.want, c.i + 1, [c.i]⟩ : Claim), [c.i]) = r
            have hr2 : r.2 = [c.i] := by rw [← hr]
            have hout : ∀ i, i ∈ (⟨s.devs, s.there.set c.i false, upd s.pc t none,
                r :: s.returned⟩ : Claims).out ↔ i = c.i ∨ i ∈ s.out := by
              intro i; simp [Claims.out, hr2]
            refine ⟨by simp [I.len], ?_, ?_, ?_, ?_, ?_, ?_, ?_, ?_, ?_, ?_, ?_⟩
            · show ((r :: s.returned).flatMap (·.2)).Nodup
              rw [List.flatMap_cons, hr2]
              exact List.nodup_cons.2 ⟨hnout, I.outNodup⟩
            · intro i hi
              rcases (hout i).1 hi with h | h
              · subst h; exact hset
              · exact set_false (I.outGone i h)
            · intro u c' h
              rcases updo h with ⟨_, h⟩ | ⟨_, h⟩
              · cases h
              · exact I.gotNodup u c' h
            · intro u c' h i hi
              rcases updo h with ⟨_, h⟩ | ⟨hne, h⟩
              · cases h
              · obtain ⟨a1, a2, a3⟩ := I.gotGone u c' h i hi
                refine ⟨a1, set_false a2, fun hh => ?_⟩
                rcases (hout i).1 hh with h1 | h1
                · subst h1; exact hnpc u c' h hi
                · exact a3 h1
            · intro u c1 u' c2 h h' hne i hi
              rcases updo h with ⟨_, h⟩ | ⟨_, h⟩
              · cases h
              rcases updo h' with ⟨_, h'⟩ | ⟨_, h'⟩
              · cases h'
              exact I.disjoint u c1 u' c2 h h' hne i hi
            · intro u c' h i hi hdi
              rcases updo h with ⟨_, h⟩ | ⟨_, h⟩
              · cases h
              · exact set_false (I.seen u c' h i hi hdi)
            · intro u c' h
              rcases updo h with ⟨_, h⟩ | ⟨_, h⟩
              · cases h
              · exact I.one u c' h
            · intro c' g h i hi
              rcases List.mem_cons.1 h with h | h
              · rw [← hr] at h; cases h
                simp only [List.mem_singleton] at hi
                subst hi; exact hd
              · exact I.right c' g h i hi
            · intro c' g h ha
              rcases List.mem_cons.1 h with h | h
              · rw [← hr] at h; cases h; exact Nat.le_refl _
              · exact I.length c' g h ha
            · intro c' g h ha i hi
              rcases List.mem_cons.1 h with h | h
              · rw [← hr] at h; cases h
                rcases ha with ha | ha <;> cases ha
              · exact set_false (I.full c' g h ha i hi)
            · intro i hi
              rcases hgone' i hi with e | hi
              · exact .inl ((hout i).2 (.inl e))
              rcases I.gone i hi with h | ⟨u, c', h, h'⟩
              · exact .inl ((hout i).2 (.inr h))
              · refine .inr ⟨u, c', ?_, h'⟩
                show upd s.pc t none u = _
                rw [upd_other _ _ (fun e => by subst e; rw [hp] at h; cases h; rw [hg] at h'; cases h')]
                exact h
        · rw [if_neg hc]
          refine ⟨I.len, I.outNodup, I.outGone, ?_, ?_, ?_, ?_, ?_, I.right, I.length, I.full, ?_⟩
          · intro u c' h
            rcases updo h with ⟨_, h⟩ | ⟨_, h⟩
            · cases h; exact I.gotNodup t c hp
            · exact I.gotNodup u c' h
          · intro u c' h
            rcases updo h with ⟨_, h⟩ | ⟨_, h⟩
            · cases h; exact I.gotGone t c hp
            · exact I.gotGone u c' h
          · intro u c1 u' c2 h h' hne i hi
            rcases updo h with ⟨e1, h⟩ | ⟨e1, h⟩
            · cases h
              rcases updo h' with ⟨e2, h'⟩ | ⟨e2, h'⟩
              · exact absurd (e1.trans e2.symm) hne
              exact I.disjoint t c u' c2 hp h' (fun e => e2 e.symm) i hi
            · rcases updo h' with ⟨e2, h'⟩ | ⟨e2, h'⟩
              · cases h'; exact I.disjoint u c1 t c h hp e1 i hi
              · exact I.disjoint u c1 u' c2 h h' hne i hi
          · intro u c' h i hi hdi
            rcases updo h with ⟨_, h⟩ | ⟨_, h⟩
            · cases h
              simp only at hi hdi
              by_cases e : i = c.i
              · subst e
                rw [hd] at hdi; cases hdi
                have hlt : c.i < s.there.length := by
                  rw [I.len]
                  rcases Nat.lt_or_ge c.i s.devs.length with h' | h'
                  · exact h'
                  · rw [List.getElem?_eq_none h'] at hd; cases hd
                have hs : s.there[c.i]? = some s.there[c.i] := List.getElem?_eq_getElem hlt
                cases hb : s.there[c.i] with
                | true => exact absurd ⟨by rw [hs, hb], rfl⟩ hc
                | false => show s.there[c.i]? = _; rw [hs, hb]
              · exact I.seen t c hp i (by omega) hdi
            · exact I.seen u c' h i hi hdi
          · intro u c' h ha
            rcases updo h with ⟨_, h⟩ | ⟨_, h⟩
            · cases h; exact I.one t c hp ha
            · exact I.one u c' h ha
          · intro i hi
            rcases I.gone i hi with h | ⟨u, c', h, h'⟩
            · exact .inl h
            · by_cases e : u = t
              · subst e; rw [hp] at h; cases h
                exact .inr ⟨u, { c with i := c.i + 1 }, upd_same .., h'⟩
              · exact .inr ⟨u, c', by show upd s.pc t _ u = _; rw [upd_other _ _ e]; exact h, h'⟩

theorem claimStep_devs (s : Claims) (a : ClaimAct) : (claimStep s a).devs = s.devs := by
  unfold claimStep
  cases a with
  | call t all want => simp only; split <;> rfl
  | step t =>
    simp only
    split
    · rfl
    · split
      · rfl
      · split
        · split <;> rfl
        · rfl

theorem claimRun_inv : ∀ (as : List ClaimAct) (s : Claims), CInv s →
    CInv (claimRun s as) ∧ (claimRun s as).devs = s.devs
  | [], _, I => ⟨I, rfl⟩
  | a :: as, s, I => by
    obtain ⟨h1, h2⟩ := claimRun_inv as _ (claimStep_inv I a)
    exact ⟨h1, h2.trans (claimStep_devs s a)⟩

end NRK.Pci
