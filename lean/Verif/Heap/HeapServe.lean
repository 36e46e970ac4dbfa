import Verif.Heap.HeapLemmas

/-! # When the kernel heap has memory -/

namespace NRK.Heap

open NRK.Mem NRK.Mem.Spec NRK.Machine

/-- The pages of the kind that the slab allocator needs for objects of that size. -/
def pagesFor (k : HCfg) (c : MCache) (size : Nat) : List Nat := if size ≤ k.maxBase then c.bp else c.lp

theorem zone_of {k : HCfg} {size : Nat} (h : size ≤ k.maxAlloc) : allocatorFor k.maxAlloc size = .zone := by
  unfold allocatorFor; rw [if_pos h]

theorem page_of {k : HCfg} {size : Nat} (h1 : k.maxAlloc < size) (h2 : size ≤ LARGE) :
    allocatorFor k.maxAlloc size = .memManager := by
  unfold allocatorFor; rw [if_neg (by omega), if_pos h2]

theorem amount_zone {k : HCfg} {size : Nat} (h : size ≤ k.maxAlloc) :
    refillAmount k.maxAlloc k.maxBase size = if size ≤ k.maxBase then (1, 0) else (0, 1) := by
  unfold refillAmount; rw [zone_of h]

theorem amount_page {k : HCfg} (hk : k.Ok) {size : Nat} (h1 : k.maxAlloc < size) (h2 : size ≤ LARGE) :
    refillAmount k.maxAlloc k.maxBase size = (0, 1) := by
  have := hk.base
  unfold refillAmount; rw [page_of h1 h2]
  simp only
  rw [if_neg (by omega)]

theorem allocate_avail {k : HCfg} {z : Zone} {size align pick : Nat} {s : Slot} (hs : s ∈ z.free)
    (h1 : s.size = k.cls size) (h2 : s.addr % align = 0) : ∃ r, z.allocate k size align pick = some r := by
  have hm : s ∈ z.fits k size align := by
    unfold Zone.fits
    rw [List.mem_filter, Bool.and_eq_true, decide_eq_true_eq, decide_eq_true_eq]
    exact ⟨hs, h1, h2⟩
  have hl := List.length_pos_of_mem hm
  have hlt := Nat.mod_lt pick hl
  unfold Zone.allocate
  rw [List.getElem?_eq_getElem hlt]
  exact ⟨_, rfl⟩

theorem allocate_none {k : HCfg} {z : Zone} {size align pick : Nat}
    (h : ∀ s ∈ z.free, s.size = k.cls size → s.addr % align ≠ 0) : z.allocate k size align pick = none := by
  cases e : z.allocate k size align pick with
  | none => rfl
  | some r =>
    obtain ⟨a, z'⟩ := r
    obtain ⟨s, h1, h2, h3, _⟩ := Zone.allocate_some e
    exact absurd h3 (h s h1 h2)

theorem refill_base {nc tc : MCache} (h1 : nc.Wf) (h2 : tc.Wf) (hn : nc.node = tc.node) (hc : 0 < tc.capB)
    (ht : tc.bp = []) :
    (nc.bp ≠ [] → (refillTcache false nc tc 1 0).1 = .ok () ∧ (refillTcache false nc tc 1 0).2.2.bp ≠ []) ∧
    (nc.bp = [] → (refillTcache false nc tc 1 0).1 = .err .cacheExhausted) := by
  refine ⟨fun h => ?_, fun h => ?_⟩
  · have hl := List.length_pos_iff.2 h
    obtain ⟨_, _, _, _, q, _⟩ := c21_refill false nc tc h1 h2 hn 1 0
    obtain ⟨q1, q2, _⟩ := q (by omega) (by omega)
    refine ⟨q1, fun e => ?_⟩
    rw [e, ht] at q2
    unfold MCache.spareBase at q2
    rw [ht] at q2
    simp only [List.length_nil] at q2
    omega
  · have hs : min tc.spareBase 1 = 1 := by
      unfold MCache.spareBase; rw [ht, List.length_nil]; omega
    obtain ⟨_, _, _, _, _, _, _, _, _, _, _, q⟩ := moveBase_spec false (min tc.spareBase 1) nc tc h1 h2 hn
      (Nat.min_le_left _ _)
    have q := q (by rw [h, hs, List.length_nil]; omega)
    unfold refillTcache
    split
    · rename_i e
      rw [e] at q
      cases q
    · exact q

theorem refill_large {nc tc : MCache} (h1 : nc.Wf) (h2 : tc.Wf) (hn : nc.node = tc.node) (hc : 0 < tc.capL)
    (ht : tc.lp = []) :
    (nc.lp ≠ [] → (refillTcache false nc tc 0 1).1 = .ok () ∧ (refillTcache false nc tc 0 1).2.2.lp ≠ []) ∧
    (nc.lp = [] → (refillTcache false nc tc 0 1).1 = .err .cacheExhausted) := by
  refine ⟨fun h => ?_, fun h => ?_⟩
  · have hl := List.length_pos_iff.2 h
    obtain ⟨_, _, _, _, q, _⟩ := c21_refill false nc tc h1 h2 hn 0 1
    obtain ⟨q1, _, q2⟩ := q (by omega) (by omega)
    refine ⟨q1, fun e => ?_⟩
    rw [e, ht] at q2
    unfold MCache.spareLarge at q2
    rw [ht] at q2
    simp only [List.length_nil] at q2
    omega
  · have hs : min tc.spareLarge 1 = 1 := by
      unfold MCache.spareLarge; rw [ht, List.length_nil]; omega
    have e0 : refillTcache false nc tc 0 1 = moveLarge nc tc (min tc.spareLarge 1) := by
      unfold refillTcache
      rw [Nat.min_zero]
      rfl
    rw [e0]
    obtain ⟨_, _, _, _, _, _, _, q⟩ := moveLarge_spec (min tc.spareLarge 1) nc tc h1 h2 hn (Nat.min_le_left _ _)
    exact q (by rw [h, hs, List.length_nil]; omega)

theorem maybeRefill_avail {k : HCfg} {nc tc : MCache} {size : Nat} (h1 : nc.Wf) (h2 : tc.Wf)
    (hn : nc.node = tc.node) (cB : 0 < tc.capB) (cL : 0 < tc.capL) (hz : size ≤ k.maxAlloc) :
    let r := maybeRefill false nc tc (refillAmount k.maxAlloc k.maxBase size).1
      (refillAmount k.maxAlloc k.maxBase size).2
    (pagesFor k tc size ≠ [] ∨ pagesFor k nc size ≠ [] → r.1 = .ok () ∧ pagesFor k r.2.2 size ≠ []) ∧
    (pagesFor k tc size = [] → pagesFor k nc size = [] → r.1 = .err .cacheExhausted) := by
  simp only
  rw [amount_zone hz]
  unfold pagesFor
  by_cases hb : size ≤ k.maxBase
  · simp only [if_pos hb]
    unfold maybeRefill
    by_cases ht : tc.bp = []
    · rw [if_pos (Or.inl (by rw [ht, List.length_nil]; omega))]
      obtain ⟨a, b⟩ := refill_base h1 h2 hn cB ht
      refine ⟨fun h => a (h.resolve_left (fun h => h ht)), fun _ => b⟩
    · have := List.length_pos_iff.2 ht
      rw [if_neg (by omega)]
      exact ⟨fun _ => ⟨rfl, ht⟩, fun e => absurd e ht⟩
  · simp only [if_neg hb]
    unfold maybeRefill
    by_cases ht : tc.lp = []
    · rw [if_pos (Or.inr (by rw [ht, List.length_nil]; omega))]
      obtain ⟨a, b⟩ := refill_large h1 h2 hn cL ht
      refine ⟨fun h => a (h.resolve_left (fun h => h ht)), fun _ => b⟩
    · have := List.length_pos_iff.2 ht
      rw [if_neg (by omega)]
      exact ⟨fun _ => ⟨rfl, ht⟩, fun e => absurd e ht⟩

theorem zonePage_avail {k : HCfg} {tc : MCache} {size : Nat} (hw : tc.Wf) (h : pagesFor k tc size ≠ []) :
    ∃ f tc', zonePage k tc size = (.ok f, tc') ∧ f.base % BASE = 0 ∧
      f.size = if size ≤ k.maxBase then BASE else LARGE := by
  unfold pagesFor at h
  unfold zonePage
  by_cases hb : size ≤ k.maxBase
  · simp only [if_pos hb] at *
    unfold MCache.allocBase
    cases e : tc.bp with
    | nil => exact absurd e h
    | cons a as =>
      have ha := hw.alB a (by rw [e]; exact List.mem_cons_self)
      simp only
      rw [new_base ha]
      exact ⟨_, _, rfl, ha, rfl⟩
  · simp only [if_neg hb] at *
    unfold MCache.allocLarge
    cases e : tc.lp with
    | nil => exact absurd e h
    | cons a as =>
      have ha := hw.alL a (by rw [e]; exact List.mem_cons_self)
      simp only
      rw [new_large ha]
      exact ⟨_, _, rfl, large_aligned ha, rfl⟩

theorem zonePage_ne {k : HCfg} {tc : MCache} {size : Nat} (hw : tc.Wf) : (zonePage k tc size).1 ≠ .panic := by
  have key : ∀ large, (takeOne tc large).1 ≠ .panic := by
    intro large e
    obtain ⟨_, _, hc⟩ := takeOne_spec hw (o := (takeOne tc large).1) (c' := (takeOne tc large).2) rfl
    rw [e] at hc
    rcases hc with ⟨_, e, _⟩ | ⟨e, _⟩ <;> cases e
  unfold zonePage
  split
  · exact key false
  · exact key true

/-- Getting a page for the slab allocator. -/
theorem zoneRefill_avail {k : HCfg} (hk : k.Ok) {init : List Block} {h : Heap} {objs : List Obj}
    (inv : Inv k init h objs) {size align : Nat} {e : Env} (hz : size ≤ k.maxAlloc) (cB : 0 < h.tc.capB)
    (cL : 0 < h.tc.capL) (ha : BASE % align = 0) :
    (pagesFor k h.tc size ≠ [] ∨ pagesFor k h.nc size ≠ [] → ∃ h', h.tryRefill k size .cacheExhausted e = (.ok (), h') ∧
      ∃ s ∈ h'.zone.free, s.size = k.cls size ∧ s.addr % align = 0) ∧
    (pagesFor k h.tc size = [] → pagesFor k h.nc size = [] →
      ∃ er h', h.tryRefill k size .cacheExhausted e = (.err er, h')) := by
  obtain ⟨a, b⟩ := maybeRefill_avail (k := k) (size := size) inv.nwf inv.twf inv.node cB cL hz
  unfold Heap.tryRefill
  rw [zone_of hz]
  simp only [if_true]
  generalize hr : maybeRefill false h.nc h.tc (refillAmount k.maxAlloc k.maxBase size).1
      (refillAmount k.maxAlloc k.maxBase size).2 = r at a b
  obtain ⟨o, nc, tc⟩ := r
  obtain ⟨_, w1, w2, _, _, _⟩ := maybeRefill_inv inv.nwf inv.twf inv.node hr
  refine ⟨fun hp => ?_, fun hp1 hp2 => ?_⟩
  · obtain ⟨e1, e2⟩ := a hp
    cases e1
    simp only
    obtain ⟨f, tc', q1, q2, q3⟩ := zonePage_avail w2 e2
    unfold Heap.refillZone
    simp only
    rw [q1]
    refine ⟨_, rfl, ⟨k.kb + f.base, k.cls size⟩, ?_, rfl, ?_⟩
    · refine List.mem_append_left _ ?_
      unfold slotsOf
      refine List.mem_map.2 ⟨0, ?_, by simp⟩
      rw [List.mem_range]
      have hc := (hk.le _ hz).2.1
      refine Nat.div_pos ?_ hc
      rw [q3]
      split
      · rename_i hb
        have := hk.fitB _ hb
        omega
      · have := hk.fitL _ hz
        omega
    · refine add_mod_zero (mod_trans ha (large_aligned hk.kb)) (mod_trans ha q2)
  · have e1 := b hp1 hp2
    cases e1
    exact ⟨_, _, rfl⟩

theorem tryAlloc_ne {k : HCfg} {init : List Block} {h : Heap} {objs : List Obj}
    (inv : Inv k init h objs) {size align : Nat} {e : Env} (hs : size ≤ LARGE) :
    (h.tryAlloc k size align e).1 ≠ .panic := by
  unfold Heap.tryAlloc
  split
  · split <;> (intro e; cases e)
  · have := takeOne_spec (large := true) inv.twf (o := h.tc.allocLarge.1) (c' := h.tc.allocLarge.2) rfl
    split
    · intro e; cases e
    · intro e; cases e
    · rename_i he
      rw [he] at this
      rcases this.2.2 with ⟨_, e, _⟩ | ⟨e, _⟩ <;> cases e
  · rename_i hz
    unfold allocatorFor at hz
    split at hz
    · cases hz
    · first
      | (cases hz; done)
      | (rw [if_pos hs] at hz; cases hz)

theorem tryRefill_ne {k : HCfg} {init : List Block} {h : Heap} {objs : List Obj}
    (inv : Inv k init h objs) {size : Nat} {e : Env} :
    (h.tryRefill k size .cacheExhausted e).1 ≠ .panic := by
  unfold Heap.tryRefill
  split
  · simp only [if_true]
    split
    · rename_i nc tc hm
      obtain ⟨_, w1, w2, _, _, _⟩ := maybeRefill_inv inv.nwf inv.twf inv.node hm
      unfold Heap.refillZone
      simp only
      have := zonePage_ne (k := k) (size := size) w2
      split
      · intro e; cases e
      · intro e; cases e
      · rename_i he
        rw [he] at this
        exact absurd rfl this
    · intro e; cases e
    · rename_i nc tc hm
      exact absurd rfl (maybeRefill_inv inv.nwf inv.twf inv.node hm).1
  · have := (c21_refill false h.nc h.tc inv.nwf inv.twf inv.node (refillAmount k.maxAlloc k.maxBase size).1
      (refillAmount k.maxAlloc k.maxBase size).2).1
    exact this

theorem allocLoop_ne {k : HCfg} (hk : k.Ok) {init : List Block} {size align : Nat} {e : Env} (h0 : 0 < size)
    (ha0 : 0 < align) (haL : LARGE % align = 0) (hs : size ≤ LARGE) (n : Nat) : ∀ {h : Heap} {objs : List Obj},
    Inv k init h objs → (Heap.allocLoop k size align e n h).1 ≠ .panic := by
  induction n with
  | zero => intro h objs _ e; cases e
  | succ n ih =>
    intro h objs inv
    unfold Heap.allocLoop
    split
    · intro e; cases e
    · rename_i er h' e1
      rcases (inv.tryAlloc hk h0 ha0 haL e1 (by intro e; cases e)).2 with ⟨_, e, _⟩ | ⟨er', e, e2, i⟩
      · cases e
      · cases e
        have e2 := e2 hs
        subst e2
        split
        · rename_i h'' e3
          exact ih (i.tryRefill hk e3 (by intro e; cases e)).2
        · intro e; cases e
        · rename_i h'' e3
          have := tryRefill_ne i (size := size) (e := e)
          rw [e3] at this
          exact absurd rfl this
    · rename_i h' e1
      have := tryAlloc_ne inv (k := k) (align := align) (e := e) hs
      rw [e1] at this
      exact absurd rfl this

theorem allocLoop_ok {k : HCfg} {size align n : Nat} {e : Env} {h : Heap} {p : Nat} {h' : Heap}
    (h1 : h.tryAlloc k size align e = (.ok p, h')) : Heap.allocLoop k size align e (n + 1) h = (.ok (some p), h') := by
  unfold Heap.allocLoop
  rw [h1]

theorem allocLoop_retry {k : HCfg} {size align n : Nat} {e : Env} {h h' h'' : Heap} {er : KError}
    (h1 : h.tryAlloc k size align e = (.err er, h')) (h2 : h'.tryRefill k size er e = (.ok (), h'')) :
    Heap.allocLoop k size align e (n + 1) h = Heap.allocLoop k size align e n h'' := by
  conv => lhs; unfold Heap.allocLoop
  rw [h1]
  simp only
  rw [h2]

theorem allocLoop_null {k : HCfg} {size align n : Nat} {e : Env} {h h' h'' : Heap} {er er' : KError}
    (h1 : h.tryAlloc k size align e = (.err er, h')) (h2 : h'.tryRefill k size er e = (.err er', h'')) :
    Heap.allocLoop k size align e (n + 1) h = (.ok none, h'') := by
  unfold Heap.allocLoop
  rw [h1]
  simp only
  rw [h2]

theorem tryAlloc_slot {k : HCfg} {h : Heap} {size align : Nat} {e : Env} {s : Slot} (hz : size ≤ k.maxAlloc)
    (hs : s ∈ h.zone.free) (h1 : s.size = k.cls size) (h2 : s.addr % align = 0) :
    ∃ p h', h.tryAlloc k size align e = (.ok p, h') := by
  obtain ⟨⟨a, z⟩, hr⟩ := allocate_avail (pick := e.pick) hs h1 h2
  unfold Heap.tryAlloc
  rw [zone_of hz]
  simp only [hr]
  exact ⟨_, _, rfl⟩

theorem tryAlloc_page {k : HCfg} {h : Heap} (hw : h.tc.Wf) {size align : Nat} {e : Env} (h1 : k.maxAlloc < size)
    (h2 : size ≤ LARGE) (hp : h.tc.lp ≠ []) : ∃ p h', h.tryAlloc k size align e = (.ok p, h') := by
  unfold Heap.tryAlloc
  rw [page_of h1 h2]
  cases hb : h.tc.lp with
  | nil => exact absurd hb hp
  | cons a as =>
    have e : h.tc.allocLarge = (.ok ⟨a, LARGE, h.tc.node⟩, { h.tc with lp := as }) := by
      unfold MCache.allocLarge
      rw [hb]
      simp only
      rw [new_large (hw.alL a (by rw [hb]; exact List.mem_cons_self))]
    simp only [e]
    exact ⟨_, _, rfl⟩

theorem alloc_page {k : HCfg} (hk : k.Ok) {init : List Block} {h : Heap} {objs : List Obj}
    (inv : Inv k init h objs) {size align : Nat} {e : Env} (h1 : k.maxAlloc < size) (h2 : size ≤ LARGE)
    (cL : 0 < h.tc.capL) :
    (h.tc.lp ≠ [] ∨ h.nc.lp ≠ [] → ∃ p, (h.alloc k size align e).1 = .ok (some p)) ∧
    (h.tc.lp = [] → h.nc.lp = [] → (h.alloc k size align e).1 = .ok none) := by
  unfold Heap.alloc
  by_cases ht : h.tc.lp = []
  · have e1 : h.tryAlloc k size align e = (.err .cacheExhausted, h) := by
      unfold Heap.tryAlloc
      rw [page_of h1 h2]
      have : h.tc.allocLarge = (.err .cacheExhausted, h.tc) := by
        unfold MCache.allocLarge; rw [ht]
      simp only [this]
    have e2 : h.tryRefill k size .cacheExhausted e = ((refillTcache false h.nc h.tc 0 1).1,
        { h with nc := (refillTcache false h.nc h.tc 0 1).2.1, tc := (refillTcache false h.nc h.tc 0 1).2.2 }) := by
      unfold Heap.tryRefill
      rw [page_of h1 h2, amount_page hk h1 h2]
    obtain ⟨a, b⟩ := refill_large inv.nwf inv.twf inv.node cL ht
    refine ⟨fun hp => ?_, fun _ hn => ?_⟩
    · obtain ⟨q1, q2⟩ := a (hp.resolve_left (fun h => h ht))
      rw [q1] at e2
      obtain ⟨w1, w2, _⟩ := refill_spec (o := (refillTcache false h.nc h.tc 0 1).1)
        (nc' := (refillTcache false h.nc h.tc 0 1).2.1) (tc' := (refillTcache false h.nc h.tc 0 1).2.2)
        inv.nwf inv.twf inv.node rfl
      rw [allocLoop_retry e1 e2]
      obtain ⟨p, h', e3⟩ := tryAlloc_page (k := k) (size := size) (align := align) (e := e)
        (h := { h with nc := (refillTcache false h.nc h.tc 0 1).2.1, tc := (refillTcache false h.nc h.tc 0 1).2.2 })
        w2 h1 h2 q2
      rw [allocLoop_ok e3]
      exact ⟨p, rfl⟩
    · rw [b hn] at e2
      rw [allocLoop_null e1 e2]
  · obtain ⟨p, h', e3⟩ := tryAlloc_page (k := k) (size := size) (align := align) (e := e) inv.twf h1 h2 ht
    rw [allocLoop_ok e3]
    exact ⟨fun _ => ⟨p, rfl⟩, fun e => absurd e ht⟩

theorem alloc_small {k : HCfg} (hk : k.Ok) {init : List Block} {h : Heap} {objs : List Obj}
    (inv : Inv k init h objs) {size align : Nat} {e : Env} (hz : size ≤ k.maxAlloc) (cB : 0 < h.tc.capB)
    (cL : 0 < h.tc.capL) (ha : BASE % align = 0) :
    ((∃ s ∈ h.zone.free, s.size = k.cls size ∧ s.addr % align = 0) ∨ pagesFor k h.tc size ≠ [] ∨
      pagesFor k h.nc size ≠ [] → ∃ p, (h.alloc k size align e).1 = .ok (some p)) ∧
    ((∀ s ∈ h.zone.free, s.size = k.cls size → s.addr % align ≠ 0) → pagesFor k h.tc size = [] →
      pagesFor k h.nc size = [] → (h.alloc k size align e).1 = .ok none) := by
  unfold Heap.alloc
  by_cases hf : ∃ s ∈ h.zone.free, s.size = k.cls size ∧ s.addr % align = 0
  · obtain ⟨s, s1, s2, s3⟩ := hf
    obtain ⟨p, h', e1⟩ := tryAlloc_slot (e := e) hz s1 s2 s3
    rw [allocLoop_ok e1]
    exact ⟨fun _ => ⟨p, rfl⟩, fun q => absurd s3 (q s s1 s2)⟩
  · have hf' : ∀ s ∈ h.zone.free, s.size = k.cls size → s.addr % align ≠ 0 :=
      fun s h1 h2 h3 => hf ⟨s, h1, h2, h3⟩
    have e1 : h.tryAlloc k size align e = (.err .cacheExhausted, h) := by
      unfold Heap.tryAlloc
      rw [zone_of hz]
      simp only [allocate_none hf']
    obtain ⟨a, b⟩ := zoneRefill_avail hk inv (e := e) hz cB cL ha
    refine ⟨fun hp => ?_, fun _ p1 p2 => ?_⟩
    · obtain ⟨h', q1, s, s1, s2, s3⟩ := a (hp.resolve_left hf)
      rw [allocLoop_retry e1 q1]
      obtain ⟨p, h'', e3⟩ := tryAlloc_slot (e := e) hz s1 s2 s3
      rw [allocLoop_ok e3]
      exact ⟨p, rfl⟩
    · obtain ⟨er, h', q⟩ := b p1 p2
      rw [allocLoop_null e1 q]

theorem align_le {a : Nat} (h0 : 0 < a) (h : LARGE % a = 0) : a ≤ LARGE :=
  Nat.le_of_dvd (by rw [LARGE_eq]; decide) (Nat.dvd_of_mod_eq_zero h)

theorem sub_aligned {k : HCfg} (hk : k.Ok) {p : Nat} (h : p % LARGE = 0) : (p - k.kb) % LARGE = 0 :=
  Nat.mod_eq_zero_of_dvd (Nat.dvd_sub (Nat.dvd_of_mod_eq_zero h) (Nat.dvd_of_mod_eq_zero hk.kb))

/-- What `dealloc` does with an object of its own. -/
theorem dealloc_exact {k : HCfg} (hk : k.Ok) {init : List Block} {h : Heap} {objs : List Obj}
    (inv : Inv k init h objs) {o : Obj} (ho : o ∈ objs) (e : Env) :
    h.dealloc k o.ptr o.size o.align e =
      if o.size ≤ k.maxAlloc then
        (.ok (), { h with
          zone := { h.zone with
            free := ⟨o.ptr, k.cls o.size⟩ :: h.zone.free, live := h.zone.live.erase ⟨o.ptr, k.cls o.size⟩ }
          mem := scribble k h.zone.pages e.noise h.mem })
      else if LARGE < o.size then (.ok (), h)
      else if h.tc.lp.length < h.tc.capL then
        (.ok (), { h with tc := { h.tc with lp := (o.ptr - k.kb) :: h.tc.lp } })
      else (.panic, h) := by
  have hL := hk.large
  have hB := hk.base
  unfold Heap.dealloc
  by_cases hz : o.size ≤ k.maxAlloc
  · rw [if_pos hz, if_pos hz]
    have hmem : (⟨o.ptr, k.cls o.size⟩ : Slot) ∈ h.zone.live := by
      refine inv.live.subset ?_
      unfold slots
      exact List.mem_map.2 ⟨o, List.mem_filter.2 ⟨ho, by simpa using hz⟩, rfl⟩
    unfold Zone.deallocate
    rw [if_pos hmem]
  · rw [if_neg hz, if_neg hz, if_neg (by omega)]
    by_cases hl : o.size ≤ LARGE
    · obtain ⟨_, a2, a3, _⟩ := inv.al o ho
      obtain ⟨m1, m2⟩ := inv.mid o ho (by omega) hl
      rw [if_pos hl, if_pos (align_le a2 a3), if_neg (show ¬ LARGE < o.size by omega), new_large (sub_aligned hk m2)]
      simp only
      unfold MCache.releaseLarge MCache.pushLarge
      rw [if_pos ⟨rfl, sub_aligned hk m2, rfl⟩]
      by_cases hc : h.tc.lp.length < h.tc.capL
      · rw [if_pos hc, if_pos hc]
      · rw [if_neg hc, if_neg hc]
    · rw [if_neg hl, if_pos (by omega)]

end NRK.Heap
